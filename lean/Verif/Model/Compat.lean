import Verif.Model.Lib

/-!
# Model of src/id3v2lib.compat.c (the old API on top of the new one)

A compat frame points to the frame of the tag it was made from. Frames are never changed after they are made, so the
model stores the frame itself; whether the pointer is still valid is the separate question whether that frame is still
in the tag (`Verif/Props/Compat.lean` shows the two lists agree). The compat API has no function to delete a frame.
-/

namespace Id3

/-- include/id3v2lib.compat.h:21-29 `ID3v2_header`; `none` fields are indeterminate. -/
structure CHeader where
  tag : Bytes
  major_version : MByte
  minor_version : MByte
  flags : MByte
  tag_size : Option Int
  extended_header_size : Option Int
deriving DecidableEq, Repr

/-- include/id3v2lib.compat.h:55-62 `ID3v2_frame`. -/
structure CFrame where
  frame_id : Bytes
  size : Int
  flags : Bytes
  data : Bytes
  frame : Frame
deriving DecidableEq, Repr

/-- include/id3v2lib.compat.h:64-70 `ID3v2_frame_list`, as the list of the `frame` fields of its nodes. The field
`last` of the head is the last node, `start` of the head is NULL when the list is empty. -/
abbrev CList := List (Option CFrame)

/-- include/id3v2lib.compat.h:72-78 `ID3v2_tag`; `raw` is `none` when the pointer is indeterminate. -/
structure CTag where
  raw : Option Bytes
  tag_header : CHeader
  frames : CList
  tag : Tag
deriving DecidableEq, Repr

/-- src/id3v2lib.compat.c:23-35 `new_frame_list`. -/
def new_frame_list : CList := [none]

/-- src/id3v2lib.compat.c:37-56 `frame_to_compat_frame`. Line 44 copies `ID3v2_TAG_HEADER_FLAGS_LENGTH` = 1 byte of the
two flag bytes; the other stays indeterminate. -/
def frame_to_compat_frame [Platform] (frame : Option Frame) : Res CFrame :=
  match frame with
  | none => .ub .nullDeref
  | some frame => do
    let frame_id ← memcpySrc frame.header.id 4
    let f ← memcpySrc frame.header.flags 1
    let frame_cs ← Frame_to_char_stream frame
    let frame_cs ← CharStream_seek frame_cs 10 .set
    let (d, _) ← CharStream_read frame_cs frame.header.size
    return { frame_id := frame_id, size := frame.header.size, flags := intoArray 2 f,
             data := intoArray frame.header.size d, frame := frame }

/-- src/id3v2lib.compat.c:58-77 `add_to_list`. -/
def add_to_list (main : CList) (frame : CFrame) : CList :=
  match main with
  | [] => []  -- the head node always exists
  | none :: rest => some frame :: rest
  | some f :: rest => some f :: rest ++ [some frame]

/-- `memcmp(a, b, 4) == 0` on two frame ids (compat.c:83). -/
def idEq (a b : Bytes) : Res Bool := do
  let a ← memcpySrc a 4
  let b ← memcpySrc b 4
  return (← loadAll a) == (← loadAll b)

/-- src/id3v2lib.compat.c:79-95 `add_uniq_to_list`. When the id is not found `head` is NULL on line 94. -/
def add_uniq_to_list (head : CList) (frame : CFrame) : Res CList :=
  match head with
  | [] => .ub .nullDeref
  | none :: _ => .ub .nullDeref
  | some f :: rest => do
    if ← idEq f.frame_id frame.frame_id then return some frame :: rest
    else return some f :: (← add_uniq_to_list rest frame)

/-- src/id3v2lib.compat.c:97-110 `get_from_list`. -/
def get_from_list (list : CList) (frame_id : Bytes) : Res (Option CFrame) :=
  match list with
  | [] => .ok none
  | none :: _ => .ok none
  | some f :: rest => do
    if ← strncmpEq 4 f.frame_id frame_id then return some f
    get_from_list rest frame_id

/-- src/id3v2lib.compat.c:112-124 `new_tag`: `raw` and all header fields but `tag` are not initialised. -/
def new_tag : CTag :=
  { raw := none
    tag_header := { tag := ofB [0x49, 0x44, 0x33], major_version := none, minor_version := none, flags := none,
                    tag_size := none, extended_header_size := none }
    frames := new_frame_list
    tag := ID3v2_Tag_new_empty }

/-- src/id3v2lib.compat.c:169-174, the loop of `load_tag_with_buffer`. -/
def load_frames [Platform] (acc : CList) (head : FrameList) : Res CList :=
  match head with
  | [] => .ok acc
  | f :: rest => do
    let compat_frame ← frame_to_compat_frame f
    load_frames (add_to_list acc compat_frame) rest

/-- src/id3v2lib.compat.c:143-179 `load_tag_with_buffer`. -/
def load_tag_with_buffer [Platform] (buffer : Bytes) (length : Int) : Res CTag := do
  let tag ← ID3v2_read_tag_from_buffer buffer length
  let raw ← memcpySrc buffer length
  match tag with
  | none => .ub .nullDeref
  | some tag =>
    let header : CHeader :=
      { tag := tag.header.identifier, major_version := some tag.header.major_version,
        minor_version := some tag.header.minor_version, flags := some tag.header.flags,
        tag_size := some (toInt32 tag.header.tag_size),
        extended_header_size := tag.header.extended_header_size.map toInt32 }
    let frames ← load_frames new_frame_list tag.frames
    return { raw := some raw, tag_header := header, frames := frames, tag := tag }

/-- src/id3v2lib.compat.c:126-141 `load_tag`. -/
def load_tag [Platform] (file : File) : Res CTag := do
  match ← ID3v2_read_tag_header file with
  | none => .ub .nullDeref
  | some header =>
    match file with
    | none => .ub .nullDeref
    | some contents =>
      let buffer_size := toInt32 (u32 (header.tag_size + 10))
      let buffer := intoArray buffer_size (contents.take buffer_size.toNat)
      load_tag_with_buffer buffer buffer_size

/-- src/id3v2lib.compat.c:181-184 `remove_tag`. -/
def remove_tag [Platform] (file : File) : Res File := ID3v2_delete_tag file

/-- src/id3v2lib.compat.c:186-189 `set_tag`. -/
def set_tag [Platform] (file : File) (tag : CTag) : Res (File × CTag) := do
  let (f, t) ← ID3v2_write_tag file tag.tag
  return (f, { tag with tag := t })

/-- src/modules/frame_list.c:95-104 `ID3v2_FrameList_free` on the value level (see `ID3v2_Frame_free`). -/
def FrameList_free : FrameList → Res Unit
  | [] => .ok ()
  | none :: rest => FrameList_free rest
  | some f :: rest => do
    ID3v2_Frame_free f
    FrameList_free rest

/-- src/id3v2lib.compat.c:203-211, the loop of `free_tag`: `free_frame(NULL)` dereferences NULL (line 193). -/
def free_compat_frames : CList → Res Unit
  | [] => .ok ()
  | none :: _ => .ub .nullDeref
  | some _ :: rest => free_compat_frames rest

/-- src/id3v2lib.compat.c:197-214 `free_tag` on the value level. -/
def free_tag (tag : CTag) : Res Unit := do
  match tag.raw with
  | none => .ub .uninit
  | some _ =>
    FrameList_free tag.tag.frames
    free_compat_frames tag.frames

/-- src/id3v2lib.compat.c:216-219 -/
def tag_get_title (tag : CTag) := get_from_list tag.frames TITLE_ID
/-- src/id3v2lib.compat.c:221-224 -/
def tag_get_artist (tag : CTag) := get_from_list tag.frames ARTIST_ID
/-- src/id3v2lib.compat.c:226-229 -/
def tag_get_album (tag : CTag) := get_from_list tag.frames ALBUM_ID
/-- src/id3v2lib.compat.c:231-234 -/
def tag_get_album_artist (tag : CTag) := get_from_list tag.frames ALBUM_ARTIST_ID
/-- src/id3v2lib.compat.c:236-239 -/
def tag_get_genre (tag : CTag) := get_from_list tag.frames GENRE_ID
/-- src/id3v2lib.compat.c:241-244 -/
def tag_get_track (tag : CTag) := get_from_list tag.frames TRACK_ID
/-- src/id3v2lib.compat.c:246-249 -/
def tag_get_year (tag : CTag) := get_from_list tag.frames YEAR_ID
/-- src/id3v2lib.compat.c:251-254 -/
def tag_get_comment (tag : CTag) := get_from_list tag.frames COMMENT_ID
/-- src/id3v2lib.compat.c:256-259 -/
def tag_get_disc_number (tag : CTag) := get_from_list tag.frames DISC_NUMBER_ID
/-- src/id3v2lib.compat.c:261-264 -/
def tag_get_composer (tag : CTag) := get_from_list tag.frames COMPOSER_ID
/-- src/id3v2lib.compat.c:266-269 -/
def tag_get_album_cover (tag : CTag) := get_from_list tag.frames ALBUM_COVER_ID

/-- include/id3v2lib.compat.h:31-36 `ID3v2_frame_text_content`. -/
structure TextContent where
  size : Int
  encoding : UInt8
  data : Bytes
deriving DecidableEq, Repr

/-- include/id3v2lib.compat.h:38-43 `ID3v2_frame_comment_content`. -/
structure CommentContent where
  language : Bytes
  short_description : Bytes
  text : TextContent
deriving DecidableEq, Repr

/-- include/id3v2lib.compat.h:45-53 `ID3v2_frame_apic_content`. -/
structure ApicContent where
  encoding : UInt8
  mime_type : Bytes
  picture_type : UInt8
  description : Bytes
  picture_size : Int
  data : Bytes
deriving DecidableEq, Repr

/-- src/id3v2lib.compat.c:271-283 `parse_text_frame_content`: casts without looking at the id. -/
def parse_text_frame_content (frame : CFrame) : Res TextContent :=
  match frame.frame.data with
  | .text d => do
    let data ← memcpySrc d.text d.size
    return { size := d.size, encoding := d.encoding, data := data }
  | _ => .ub .typeConfusion

/-- src/id3v2lib.compat.c:285-299 `parse_comment_frame_content`: casts without looking at the id. The pointers in the
result point into the frame; here they are what they point to. -/
def parse_comment_frame_content (frame : CFrame) : Res CommentContent :=
  match frame.frame.data with
  | .comment d => .ok { language := d.language, short_description := d.short_description,
                        text := { size := d.size, encoding := d.encoding, data := d.comment } }
  | _ => .ub .typeConfusion

/-- src/id3v2lib.compat.c:301-315 `parse_apic_frame_content`: casts without looking at the id. The pointers in the
result point into the frame; here they are what they point to. -/
def parse_apic_frame_content (frame : CFrame) : Res ApicContent :=
  match frame.frame.data with
  | .apic d => .ok { encoding := d.encoding, mime_type := d.mime_type, picture_type := d.picture_type,
                     description := d.description, picture_size := d.picture_size, data := d.data }
  | _ => .ub .typeConfusion

/-- src/id3v2lib.compat.c:321-324 and the same lines of the other setters: the compat copy of the frame that was just
set in `t` goes into the compat list. -/
def compat_update [Platform] (tag : CTag) (t : Tag) (frame : Option Frame) : Res CTag := do
  let compat_frame ← frame_to_compat_frame frame
  let frames ← add_uniq_to_list tag.frames compat_frame
  return { tag with tag := t, frames := frames }

/-- src/id3v2lib.compat.c:317-325 `tag_set_title` (the argument `encoding` is ignored by all setters). -/
def tag_set_title [Platform] (title : Bytes) (_encoding : UInt8) (tag : CTag) : Res CTag := do
  let t ← ID3v2_Tag_set_title tag.tag title
  compat_update tag t (← ID3v2_Tag_get_title_frame t)
/-- src/id3v2lib.compat.c:327-335 -/
def tag_set_artist [Platform] (artist : Bytes) (_encoding : UInt8) (tag : CTag) : Res CTag := do
  let t ← ID3v2_Tag_set_artist tag.tag artist
  compat_update tag t (← ID3v2_Tag_get_artist_frame t)
/-- src/id3v2lib.compat.c:337-345 -/
def tag_set_album [Platform] (album : Bytes) (_encoding : UInt8) (tag : CTag) : Res CTag := do
  let t ← ID3v2_Tag_set_album tag.tag album
  compat_update tag t (← ID3v2_Tag_get_album_frame t)
/-- src/id3v2lib.compat.c:347-355 -/
def tag_set_album_artist [Platform] (album_artist : Bytes) (_encoding : UInt8) (tag : CTag) : Res CTag := do
  let t ← ID3v2_Tag_set_album_artist tag.tag album_artist
  compat_update tag t (← ID3v2_Tag_get_album_artist_frame t)
/-- src/id3v2lib.compat.c:357-365 -/
def tag_set_genre [Platform] (genre : Bytes) (_encoding : UInt8) (tag : CTag) : Res CTag := do
  let t ← ID3v2_Tag_set_genre tag.tag genre
  compat_update tag t (← ID3v2_Tag_get_genre_frame t)
/-- src/id3v2lib.compat.c:367-375 -/
def tag_set_track [Platform] (track : Bytes) (_encoding : UInt8) (tag : CTag) : Res CTag := do
  let t ← ID3v2_Tag_set_track tag.tag track
  compat_update tag t (← ID3v2_Tag_get_track_frame t)
/-- src/id3v2lib.compat.c:377-385 -/
def tag_set_year [Platform] (year : Bytes) (_encoding : UInt8) (tag : CTag) : Res CTag := do
  let t ← ID3v2_Tag_set_year tag.tag year
  compat_update tag t (← ID3v2_Tag_get_year_frame t)
/-- src/id3v2lib.compat.c:387-395 -/
def tag_set_comment [Platform] (comment : Bytes) (_encoding : UInt8) (tag : CTag) : Res CTag := do
  let t ← ID3v2_Tag_set_comment tag.tag (lit [0x65, 0x6E, 0x67]) comment
  compat_update tag t (← ID3v2_Tag_get_comment_frame t)
/-- src/id3v2lib.compat.c:397-405 -/
def tag_set_disc_number [Platform] (disc_number : Bytes) (_encoding : UInt8) (tag : CTag) : Res CTag := do
  let t ← ID3v2_Tag_set_disc_number tag.tag disc_number
  compat_update tag t (← ID3v2_Tag_get_disc_number_frame t)
/-- src/id3v2lib.compat.c:407-415 -/
def tag_set_composer [Platform] (composer : Bytes) (_encoding : UInt8) (tag : CTag) : Res CTag := do
  let t ← ID3v2_Tag_set_composer tag.tag composer
  compat_update tag t (← ID3v2_Tag_get_composer_frame t)

/-- src/id3v2lib.compat.c:440-453 `tag_set_album_cover_from_bytes`. -/
def tag_set_album_cover_from_bytes [Platform] (album_cover_bytes mimetype : Bytes) (picture_size : Int)
    (tag : CTag) : Res CTag := do
  let t ← ID3v2_Tag_set_album_cover tag.tag mimetype picture_size album_cover_bytes
  compat_update tag t (← ID3v2_Tag_get_album_cover_frame t)

/-- libc `strrchr(s, '.') + 1` (compat.c:434): what follows the last dot; `none` if there is no dot. -/
def afterLastDot : List UInt8 → Option (List UInt8)
  | [] => none
  | c :: cs =>
    match afterLastDot cs with
    | some r => some r
    | none => if c = 0x2E then some cs else none

/-- src/id3v2lib.compat.c:417-438 `tag_set_album_cover`: `image` is the contents of the file called `filename`. The
length of the file must fit an `int` (line 425). `strrchr` returns NULL when the name has no dot (line 434). -/
def tag_set_album_cover [Platform] (filename : List UInt8) (image : File) (tag : CTag) : Res CTag :=
  match image with
  | none => .ub .nullDeref
  | some bytes => do
    let image_size ← ck bytes.length
    match afterLastDot filename with
    | none => .ub .nullDeref
    | some ext =>
      let mimetype :=
        if ext = [0x70, 0x6E, 0x67] then lit [0x69, 0x6D, 0x61, 0x67, 0x65, 0x2F, 0x70, 0x6E, 0x67]
        else lit [0x69, 0x6D, 0x61, 0x67, 0x65, 0x2F, 0x6A, 0x70, 0x65, 0x67]
      tag_set_album_cover_from_bytes bytes mimetype image_size tag

end Id3
