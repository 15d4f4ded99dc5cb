import Verif.Heap.Program

/-!
# The compatibility API on the heap

Model of src/id3v2lib.compat.c with its blocks: every `malloc` and `free`, the list nodes, and the pointers from the
entries of a compat tag to the frames of the tag. The parts that do not touch the heap are those of the value-level model.
A block is allocated with some contents that are overwritten before they are read; where the C code leaves a field
indeterminate and may read it, the field is an `Option`.
-/

namespace Id3.H

open Id3

/-- src/id3v2lib.compat.c:23-35 `new_frame_list`; `last` is not initialised. -/
def new_frame_list : HeapM Nat := malloc (.cnode none none none none)

/-- src/id3v2lib.compat.c:37-56 `frame_to_compat_frame`. -/
def frame_to_compat_frame [Platform] (frame : Ptr) : HeapM Nat := do
  let compat_frame ← malloc (.cframe [] 0 [] none none)
  match frame with
  | none => lift (.ub .nullDeref)
  | some a =>
    let f ← loadFrame (some a)
    let h ← loadFrameHeader f.header
    let frame_id ← lift (memcpySrc h.id 4)
    let fl ← lift (memcpySrc h.flags 1)
    let (frame_cs, cs) ← Frame_to_char_stream a
    let cs ← lift (CharStream_seek cs 10 .set)
    let (d, _) ← lift (CharStream_read cs h.size)
    let data ← malloc (.bytes (intoArray h.size d))
    storeCell (some compat_frame) (.cframe frame_id h.size (intoArray 2 fl) (some data) (some a))
    CharStream_free frame_cs
    return compat_frame

/-- src/id3v2lib.compat.c:58-77 `add_to_list`. The field `last` is that of the head node; the other nodes never get
one. -/
def add_to_list (main frame : Nat) : HeapM Unit := do
  let m ← loadCNode (some main)
  match m.start with
  | none => storeCell (some main) (.cnode (some frame) m.next (some main) (some (some main)))
  | some start =>
    let current ← new_frame_list
    storeCell (some current) (.cnode (some frame) none (some start) none)
    match m.last with
    | none => lift (.ub .uninit)
    | some last =>
      let l ← loadCNode last
      storeCell last (.cnode l.frame (some current) l.start l.last)
      let m ← loadCNode (some main)
      storeCell (some main) (.cnode m.frame m.next m.start (some (some current)))

/-- src/id3v2lib.compat.c:191-195 `free_frame`. -/
def free_frame (frame : Ptr) : HeapM Unit := do
  let f ← loadCFrame frame
  free f.data
  free frame

/-- src/id3v2lib.compat.c:79-95 `add_uniq_to_list`. When the id is not found `head` is NULL on line 94. -/
def add_uniq_to_list : Nat → Ptr → Nat → HeapM Unit
  | 0, _, _ => hang
  | _ + 1, none, _ => lift (.ub .nullDeref)
  | k + 1, some head, frame => do
    let n ← loadCNode (some head)
    let f ← loadCFrame n.frame
    let g ← loadCFrame (some frame)
    if ← lift (idEq f.frame_id g.frame_id) then
      free_frame n.frame
      storeCell (some head) (.cnode (some frame) n.next n.start n.last)
    else add_uniq_to_list k n.next frame

/-- src/id3v2lib.compat.c:97-110 `get_from_list`. -/
def get_from_list : Nat → Ptr → Bytes → HeapM Ptr
  | 0, _, _ => hang
  | _ + 1, none, _ => return none
  | k + 1, some list, frame_id => do
    let n ← loadCNode (some list)
    match n.frame with
    | none => return none
    | some f =>
      let c ← loadCFrame (some f)
      if ← lift (strncmpEq 4 c.frame_id frame_id) then return some f
      else get_from_list k n.next frame_id

/-- src/id3v2lib.compat.c:112-124 `new_tag`: `raw` and all header fields but `tag` are not initialised. -/
def new_tag : HeapM Nat := do
  let tag ← malloc (.ctag none none none none)
  let header ← malloc (.cheader Id3.new_tag.tag_header)
  let frames ← new_frame_list
  let t ← ID3v2_Tag_new none
  storeCell (some tag) (.ctag none (some header) (some frames) (some t))
  return tag

/-- src/id3v2lib.compat.c:169-174, the loop of `load_tag_with_buffer`. -/
def load_frames [Platform] : Nat → Ptr → Nat → HeapM Unit
  | 0, _, _ => hang
  | _ + 1, none, _ => return ()
  | k + 1, some head, compat_frames => do
    let n ← loadNode (some head)
    let compat_frame ← frame_to_compat_frame n.frame
    add_to_list compat_frames compat_frame
    let n ← loadNode (some head)
    load_frames k n.next compat_frames

/-- src/id3v2lib.compat.c:143-179 `load_tag_with_buffer`. -/
def load_tag_with_buffer [Platform] (buffer : Src) (length : Int) : HeapM Nat := do
  let tag ← ID3v2_read_tag_from_buffer buffer length
  let compat_tag ← malloc (.ctag none none none none)
  let tag_header ← malloc (.cheader Id3.new_tag.tag_header)
  let b ← buffer.read
  let r ← lift (memcpySrc b length)
  let raw ← malloc (.bytes r)
  match tag with
  | none => lift (.ub .nullDeref)
  | some t =>
    let s ← loadTag (some t)
    let x ← loadTagHeader s.header
    storeCell (some tag_header) (.cheader
      { tag := x.identifier, major_version := some x.major_version, minor_version := some x.minor_version,
        flags := some x.flags, tag_size := some (toInt32 x.tag_size),
        extended_header_size := x.extended_header_size.map toInt32 })
    let compat_frames ← new_frame_list
    load_frames (← heapFuel) s.frames compat_frames
    storeCell (some compat_tag) (.ctag (some (some raw)) (some tag_header) (some compat_frames) (some t))
    return compat_tag

/-- src/id3v2lib.compat.c:126-141 `load_tag`. -/
def load_tag [Platform] (file : File) : HeapM Nat := do
  match ← ID3v2_read_tag_header file with
  | none => lift (.ub .nullDeref)
  | some p =>
    match file with
    | none => lift (.ub .nullDeref)
    | some contents =>
      let header ← loadTagHeader (some p)
      let buffer_size := toInt32 (u32 (header.tag_size + 10))
      let buffer ← malloc (.bytes (intoArray buffer_size (contents.take buffer_size.toNat)))
      let tag ← load_tag_with_buffer (.block buffer) buffer_size
      free (some buffer)
      free (some p)
      return tag

/-- `tag->tag`, which the functions of the new API dereference. -/
def tagOf (tag : Nat) : HeapM Nat := do
  let t ← loadCTag (some tag)
  match t.tag with
  | none => lift (.ub .nullDeref)
  | some a => return a

/-- src/id3v2lib.compat.c:181-184 `remove_tag`. -/
def remove_tag [Platform] (file : File) : HeapM File := ID3v2_delete_tag file

/-- src/id3v2lib.compat.c:186-189 `set_tag`: the new contents of the file. -/
def set_tag [Platform] (file : File) (tag : Nat) : HeapM File := do
  ID3v2_write_tag file (← tagOf tag)

/-- src/id3v2lib.compat.c:203-211, the loop of `free_tag`. -/
def free_list : Nat → Ptr → HeapM Unit
  | 0, _ => hang
  | _ + 1, none => return ()
  | k + 1, some list => do
    let n ← loadCNode (some list)
    free_frame n.frame
    let n ← loadCNode (some list)
    free (some list)
    free_list k n.next

/-- src/id3v2lib.compat.c:197-214 `free_tag`. -/
def free_tag (tag : Nat) : HeapM Unit := do
  let t ← loadCTag (some tag)
  match t.raw with
  | none => lift (.ub .uninit)
  | some raw =>
    free raw
    free t.tag_header
    ID3v2_Tag_free (← tagOf tag)
    let t ← loadCTag (some tag)
    free_list (← heapFuel) t.frames
    free (some tag)

/-- `get_from_list(tag->frames, frame_id)`, the body of every getter. -/
def tag_get (frame_id : Bytes) (tag : Nat) : HeapM Ptr := do
  let t ← loadCTag (some tag)
  get_from_list (← heapFuel) t.frames frame_id

/-- src/id3v2lib.compat.c:216-219 -/
def tag_get_title := tag_get TITLE_ID
/-- src/id3v2lib.compat.c:221-224 -/
def tag_get_artist := tag_get ARTIST_ID
/-- src/id3v2lib.compat.c:226-229 -/
def tag_get_album := tag_get ALBUM_ID
/-- src/id3v2lib.compat.c:231-234 -/
def tag_get_album_artist := tag_get ALBUM_ARTIST_ID
/-- src/id3v2lib.compat.c:236-239 -/
def tag_get_genre := tag_get GENRE_ID
/-- src/id3v2lib.compat.c:241-244 -/
def tag_get_track := tag_get TRACK_ID
/-- src/id3v2lib.compat.c:246-249 -/
def tag_get_year := tag_get YEAR_ID
/-- src/id3v2lib.compat.c:251-254 -/
def tag_get_comment := tag_get COMMENT_ID
/-- src/id3v2lib.compat.c:256-259 -/
def tag_get_disc_number := tag_get DISC_NUMBER_ID
/-- src/id3v2lib.compat.c:261-264 -/
def tag_get_composer := tag_get COMPOSER_ID
/-- src/id3v2lib.compat.c:266-269 -/
def tag_get_album_cover := tag_get ALBUM_COVER_ID

/-- src/id3v2lib.compat.c:271-283 `parse_text_frame_content`: a copy of the text. -/
def parse_text_frame_content (frame : Nat) : HeapM Nat := do
  let content ← malloc (.textContent 0 0 none)
  let f ← loadCFrame (some frame)
  let text_frame ← loadFrame f.frame
  match ← loadCell text_frame.data with
  | .textData size encoding text =>
    let t ← loadBytes text
    let b ← lift (memcpySrc t size)
    let data ← malloc (.bytes b)
    storeCell (some content) (.textContent size encoding (some data))
    return content
  | _ => lift (.ub .typeConfusion)

/-- src/id3v2lib.compat.c:285-299 `parse_comment_frame_content`: pointers into the frame. -/
def parse_comment_frame_content (frame : Nat) : HeapM Nat := do
  let content ← malloc (.commentContent none none none)
  let f ← loadCFrame (some frame)
  let comment_frame ← loadFrame f.frame
  match ← loadCell comment_frame.data with
  | .commentData size encoding _ short_description comment =>
    let text ← malloc (.textContent size encoding comment)
    storeCell (some content) (.commentContent comment_frame.data short_description (some text))
    return content
  | _ => lift (.ub .typeConfusion)

/-- src/id3v2lib.compat.c:301-315 `parse_apic_frame_content`: pointers into the frame. -/
def parse_apic_frame_content (frame : Nat) : HeapM Nat := do
  let content ← malloc (.apicContent 0 none 0 none 0 none)
  let f ← loadCFrame (some frame)
  let apic_frame ← loadFrame f.frame
  match ← loadCell apic_frame.data with
  | .apicData encoding mime_type picture_type description data picture_size =>
    storeCell (some content) (.apicContent encoding mime_type picture_type description picture_size data)
    return content
  | _ => lift (.ub .typeConfusion)

/-- src/id3v2lib.compat.c:321-324 and the same lines of the other setters: the compat copy of the frame that was just
set goes into the compat list. -/
def compat_update [Platform] (tag : Nat) (frame : Ptr) : HeapM Unit := do
  let compat_frame ← frame_to_compat_frame frame
  let t ← loadCTag (some tag)
  add_uniq_to_list (← heapFuel) t.frames compat_frame

/-- The body of the setters of text fields, which differ only in the id. -/
def tag_set_text [Platform] (id : Bytes) (text : Src) (tag : Nat) : HeapM Unit := do
  let t ← tagOf tag
  ID3v2_Tag_set_text_frame t { id := .literal id, flags := .literal NO_FLAGS, text := text }
  let frame ← ID3v2_Tag_get_frame t (.literal id)
  compat_update tag frame

/-- src/id3v2lib.compat.c:317-325 `tag_set_title` (the argument `encoding` is ignored by all setters). -/
def tag_set_title [Platform] (title : Src) (_encoding : UInt8) (tag : Nat) := tag_set_text TITLE_ID title tag
/-- src/id3v2lib.compat.c:327-335 -/
def tag_set_artist [Platform] (artist : Src) (_encoding : UInt8) (tag : Nat) := tag_set_text ARTIST_ID artist tag
/-- src/id3v2lib.compat.c:337-345 -/
def tag_set_album [Platform] (album : Src) (_encoding : UInt8) (tag : Nat) := tag_set_text ALBUM_ID album tag
/-- src/id3v2lib.compat.c:347-355 -/
def tag_set_album_artist [Platform] (album_artist : Src) (_encoding : UInt8) (tag : Nat) :=
  tag_set_text ALBUM_ARTIST_ID album_artist tag
/-- src/id3v2lib.compat.c:357-365 -/
def tag_set_genre [Platform] (genre : Src) (_encoding : UInt8) (tag : Nat) := tag_set_text GENRE_ID genre tag
/-- src/id3v2lib.compat.c:367-375 -/
def tag_set_track [Platform] (track : Src) (_encoding : UInt8) (tag : Nat) := tag_set_text TRACK_ID track tag
/-- src/id3v2lib.compat.c:377-385 -/
def tag_set_year [Platform] (year : Src) (_encoding : UInt8) (tag : Nat) := tag_set_text YEAR_ID year tag
/-- src/id3v2lib.compat.c:397-405 -/
def tag_set_disc_number [Platform] (disc_number : Src) (_encoding : UInt8) (tag : Nat) :=
  tag_set_text DISC_NUMBER_ID disc_number tag
/-- src/id3v2lib.compat.c:407-415 -/
def tag_set_composer [Platform] (composer : Src) (_encoding : UInt8) (tag : Nat) :=
  tag_set_text COMPOSER_ID composer tag

/-- src/id3v2lib.compat.c:387-395 `tag_set_comment`. -/
def tag_set_comment [Platform] (comment : Src) (_encoding : UInt8) (tag : Nat) : HeapM Unit := do
  let t ← tagOf tag
  ID3v2_Tag_set_comment_frame t
    { flags := .literal NO_FLAGS, language := .literal (lit [0x65, 0x6E, 0x67]),
      short_description := .literal EMPTY_UNICODE_STR, comment := comment }
  let frame ← ID3v2_Tag_get_frame t (.literal COMMENT_ID)
  compat_update tag frame

/-- src/id3v2lib.compat.c:440-453 `tag_set_album_cover_from_bytes`. -/
def tag_set_album_cover_from_bytes [Platform] (album_cover_bytes mimetype : Src) (picture_size : Int) (tag : Nat) :
    HeapM Unit := do
  let t ← tagOf tag
  ID3v2_Tag_set_apic_frame t
    { flags := .literal NO_FLAGS, mime_type := mimetype, description := .literal EMPTY_UNICODE_STR,
      picture_size := picture_size, picture_type := 3, data := album_cover_bytes }
  let frame ← ID3v2_Tag_get_frame t (.literal ALBUM_COVER_ID)
  compat_update tag frame

/-- src/id3v2lib.compat.c:417-438 `tag_set_album_cover`: `image` is the contents of the file called `filename`. -/
def tag_set_album_cover [Platform] (filename : List UInt8) (image : File) (tag : Nat) : HeapM Unit :=
  match image with
  | none => lift (.ub .nullDeref)
  | some bytes => do
    let image_size ← lift (ck bytes.length)
    let album_cover_bytes ← malloc (.bytes bytes)
    match afterLastDot filename with
    | none => lift (.ub .nullDeref)
    | some ext =>
      let mimetype :=
        if ext = [0x70, 0x6E, 0x67] then lit [0x69, 0x6D, 0x61, 0x67, 0x65, 0x2F, 0x70, 0x6E, 0x67]
        else lit [0x69, 0x6D, 0x61, 0x67, 0x65, 0x2F, 0x6A, 0x70, 0x65, 0x67]
      tag_set_album_cover_from_bytes (.block album_cover_bytes) (.literal mimetype) image_size tag
      free (some album_cover_bytes)

end Id3.H
