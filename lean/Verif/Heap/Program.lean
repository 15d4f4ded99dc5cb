import Verif.Heap.Core

/-!
# The library with its memory blocks

The functions of the library that allocate, follow or free pointers, on the heap. What is stored in the blocks is
computed by the value-level functions; a struct is allocated with its final contents where the C code fills it in right
after `malloc`. Arguments of type `const char*` are read once, at the start of a call.
-/

namespace Id3.H

open Id3

/-! ## src/modules/frame_list.c -/

/-- src/modules/frame_list.c:19-31 `FrameList_new`. -/
def FrameList_new : HeapM Nat := malloc (.node none none none)

/-- src/modules/frame_list.c:47-51: the last node of a list. -/
def lastNode : Nat → Nat → HeapM Nat
  | 0, _ => hang
  | k + 1, a => do
    let n ← loadNode (some a)
    match n.next with
    | none => return a
    | some b => lastNode k b

/-- src/modules/frame_list.c:33-55 `FrameList_add_frame`. -/
def FrameList_add_frame (list : Nat) (frame : Ptr) : HeapM Unit := do
  let n ← loadNode (some list)
  match n.start with
  | none => storeCell (some list) (.node frame n.next (some list))
  | some start =>
    let current ← FrameList_new
    storeCell (some current) (.node frame none (some start))
    let last ← lastNode (← heapFuel) list
    let n ← loadNode (some last)
    storeCell (some last) (.node n.frame (some current) n.start)

/-- `strncmp(list->frame->header->id, frame_id, 4) == 0` (frame_list.c:64, 84, 122). -/
def idMatches (frame : Ptr) (frame_id : Bytes) : HeapM Bool := do
  let f ← loadFrame frame
  let h ← loadFrameHeader f.header
  lift (strncmpEq 4 h.id frame_id)

/-- src/modules/frame_list.c:60-73 `FrameList_get_frame_by_id`. -/
def FrameList_get_frame_by_id : Nat → Ptr → Bytes → HeapM Ptr
  | 0, _, _ => hang
  | _ + 1, none, _ => return none
  | k + 1, some list, frame_id => do
    let n ← loadNode (some list)
    match n.frame with
    | none => return none
    | some f =>
      if ← idMatches (some f) frame_id then return some f
      FrameList_get_frame_by_id k n.next frame_id

/-- src/modules/frame_list.c:82-90, the loop of `FrameList_get_frames_by_id`. -/
def collect : Nat → Ptr → Bytes → Nat → HeapM Unit
  | 0, _, _, _ => hang
  | _ + 1, none, _, _ => return ()
  | k + 1, some list, frame_id, sublist => do
    let n ← loadNode (some list)
    match n.frame with
    | none => return ()
    | some f =>
      if ← idMatches (some f) frame_id then
        FrameList_add_frame sublist (some f)
        collect k n.next frame_id sublist
      else collect k n.next frame_id sublist

/-- src/modules/frame_list.c:78-93 `FrameList_get_frames_by_id`. -/
def FrameList_get_frames_by_id (list : Ptr) (frame_id : Bytes) : HeapM Nat := do
  let sublist ← FrameList_new
  collect (← heapFuel) list frame_id sublist
  return sublist

/-! ## Freeing frames -/

/-- src/modules/frames/text_frame.c:68-74 `TextFrame_free`. -/
def TextFrame_free (frame : Nat) : HeapM Unit := do
  let f ← loadFrame (some frame)
  free f.header
  match ← loadCell f.data with
  | .textData _ _ text =>
    free text
    free f.data
    free (some frame)
  | _ => lift (.ub .typeConfusion)

/-- src/modules/frames/comment_frame.c:90-97 `CommentFrame_free`. -/
def CommentFrame_free (frame : Nat) : HeapM Unit := do
  let f ← loadFrame (some frame)
  free f.header
  match ← loadCell f.data with
  | .commentData _ _ _ short_description comment =>
    free comment
    free short_description
    free f.data
    free (some frame)
  | _ => lift (.ub .typeConfusion)

/-- src/modules/frames/apic_frame.c:97-105 `ApicFrame_free`. -/
def ApicFrame_free (frame : Nat) : HeapM Unit := do
  let f ← loadFrame (some frame)
  free f.header
  match ← loadCell f.data with
  | .apicData _ mime_type _ description data _ =>
    free data
    free description
    free mime_type
    free f.data
    free (some frame)
  | _ => lift (.ub .typeConfusion)

/-- src/modules/frame.c:86-108 `ID3v2_Frame_free`. An unknown frame itself is not freed, only its header and data. -/
def ID3v2_Frame_free (frame : Ptr) : HeapM Unit :=
  match frame with
  | none => return ()
  | some a => do
    let f ← loadFrame (some a)
    let h ← loadFrameHeader f.header
    if ← lift (FrameHeader_isTextFrame h) then TextFrame_free a
    else if ← lift (FrameHeader_isCommentFrame h) then CommentFrame_free a
    else if ← lift (FrameHeader_isApicFrame h) then ApicFrame_free a
    else
      free f.header
      free f.data

/-! ## src/modules/frame_list.c, freeing and changing lists -/

/-- src/modules/frame_list.c:95-104 `ID3v2_FrameList_free`. -/
def ID3v2_FrameList_free : Nat → Ptr → HeapM Unit
  | 0, _ => hang
  | _ + 1, none => return ()
  | k + 1, some list => do
    let n ← loadNode (some list)
    ID3v2_Frame_free n.frame
    let n ← loadNode (some list)
    free (some list)
    ID3v2_FrameList_free k n.next

/-- src/modules/frame_list.c:106-114 `ID3v2_FrameList_unlink`. -/
def ID3v2_FrameList_unlink : Nat → Ptr → HeapM Unit
  | 0, _ => hang
  | _ + 1, none => return ()
  | k + 1, some list => do
    let n ← loadNode (some list)
    free (some list)
    ID3v2_FrameList_unlink k n.next

/-- src/modules/frame_list.c:125-127 and 145-147: the node is overwritten with the next one, or with a new one, which is
then freed. -/
def unlinkNode (list : Nat) (next : Ptr) : HeapM Unit := do
  let new_head_old_ptr ← match next with
    | some b => pure b
    | none => FrameList_new
  let n ← loadNode (some new_head_old_ptr)
  storeCell (some list) (.node n.frame n.next n.start)
  free (some new_head_old_ptr)

/-- src/modules/frame_list.c:116-135 `FrameList_remove_frame_by_id`. -/
def FrameList_remove_frame_by_id : Nat → Ptr → Bytes → HeapM Ptr
  | 0, _, _ => hang
  | _ + 1, none, _ => return none
  | k + 1, some list, frame_id => do
    let n ← loadNode (some list)
    if ← idMatches n.frame frame_id then
      unlinkNode list n.next
      return n.frame
    FrameList_remove_frame_by_id k n.next frame_id

/-- src/modules/frame_list.c:137-155 `FrameList_remove_frame`. -/
def FrameList_remove_frame : Nat → Ptr → Ptr → HeapM Ptr
  | 0, _, _ => hang
  | _ + 1, none, _ => return none
  | k + 1, some list, to_remove => do
    let n ← loadNode (some list)
    if n.frame = to_remove then
      unlinkNode list n.next
      return to_remove
    FrameList_remove_frame k n.next to_remove

/-- src/modules/frame_list.c:161-175 `FrameList_replace_frame`. -/
def FrameList_replace_frame : Nat → Ptr → Ptr → Ptr → HeapM Unit
  | 0, _, _, _ => hang
  | _ + 1, none, _, _ => return ()
  | k + 1, some list, old_frame, new_frame => do
    let n ← loadNode (some list)
    if n.frame = old_frame then storeCell (some list) (.node new_frame n.next n.start)
    else FrameList_replace_frame k n.next old_frame new_frame

/-! ## Making frames -/

/-- src/modules/frame_header.c:20-29 `FrameHeader_new`. -/
def FrameHeader_new (id flags : Bytes) (size : Int) : HeapM Nat := do
  let h ← lift (Id3.FrameHeader_new id flags size)
  malloc (.frameHeader h)

/-- src/modules/frames/text_frame.c:21-31 `TextFrame_new` and 76-90 `TextFrameData_new`. -/
def TextFrame_new [Platform] (id flags text : Bytes) : HeapM Nat := do
  let frame ← malloc (.frame none none)
  let d ← lift (TextFrameData_new text)
  let data ← malloc (.textData 0 0 none)
  let t ← malloc (.bytes d.text)
  storeCell (some data) (.textData d.size d.encoding (some t))
  let frame_size ← lift (ck (1 + d.size))
  let header ← FrameHeader_new id flags frame_size
  storeCell (some frame) (.frame (some header) (some data))
  return frame

/-- src/modules/frames/comment_frame.c:22-40 `CommentFrame_new` and 99-124 `CommentFrameData_new`. -/
def CommentFrame_new [Platform] (flags lang short_desc comment : Bytes) : HeapM Nat := do
  let frame ← malloc (.frame none none)
  let d ← lift (CommentFrameData_new lang short_desc comment)
  let data ← malloc (.commentData 0 0 [] none none)
  let c ← malloc (.bytes d.comment)
  let s ← malloc (.bytes d.short_description)
  storeCell (some data) (.commentData d.size d.encoding d.language (some s) (some c))
  let short_desc_size ← lift (ID3v2_strlent short_desc)
  let frame_size ← lift (ck (d.size + short_desc_size + 1 + 3))
  let header ← FrameHeader_new (ofB [0x43, 0x4F, 0x4D, 0x4D]) flags frame_size
  storeCell (some frame) (.frame (some header) (some data))
  return frame

/-- src/modules/frames/apic_frame.c:23-45 `ApicFrame_new` and 107-136 `ApicFrameData_new`. -/
def ApicFrame_new [Platform] (flags description : Bytes) (picture_type : UInt8) (mime_type : Bytes)
    (picture_size : Int) (pic : Bytes) : HeapM Nat := do
  let frame ← malloc (.frame none none)
  let d ← lift (ApicFrameData_new description picture_type mime_type picture_size pic)
  let data ← malloc (.apicData 0 none 0 none none 0)
  let de ← malloc (.bytes d.description)
  let m ← malloc (.bytes d.mime_type)
  let p ← malloc (.bytes d.data)
  storeCell (some data) (.apicData d.encoding (some m) d.picture_type (some de) (some p) d.picture_size)
  let description_size ← lift (ID3v2_strlent description)
  let mime_type_size ← lift (ID3v2_strlent mime_type)
  let frame_size ← lift (ck (1 + mime_type_size + 1 + description_size + d.picture_size))
  let header ← FrameHeader_new (ofB [0x41, 0x50, 0x49, 0x43]) flags frame_size
  storeCell (some frame) (.frame (some header) (some data))
  return frame

/-- The blocks of a frame made by one of the three functions above, from its value: used for frames that come from a
parser, whose contents the value-level model gives (text_frame.c:44, comment_frame.c:60, apic_frame.c:68-69). -/
def allocFrame (f : Frame) : HeapM Nat :=
  match f.data with
  | .text d => do
    let frame ← malloc (.frame none none)
    let data ← malloc (.textData 0 0 none)
    let t ← malloc (.bytes d.text)
    storeCell (some data) (.textData d.size d.encoding (some t))
    let header ← malloc (.frameHeader f.header)
    storeCell (some frame) (.frame (some header) (some data))
    return frame
  | .comment d => do
    let frame ← malloc (.frame none none)
    let data ← malloc (.commentData 0 0 [] none none)
    let c ← malloc (.bytes d.comment)
    let s ← malloc (.bytes d.short_description)
    storeCell (some data) (.commentData d.size d.encoding d.language (some s) (some c))
    let header ← malloc (.frameHeader f.header)
    storeCell (some frame) (.frame (some header) (some data))
    return frame
  | .apic d => do
    let frame ← malloc (.frame none none)
    let data ← malloc (.apicData 0 none 0 none none 0)
    let de ← malloc (.bytes d.description)
    let m ← malloc (.bytes d.mime_type)
    let p ← malloc (.bytes d.data)
    storeCell (some data) (.apicData d.encoding (some m) d.picture_type (some de) (some p) d.picture_size)
    let header ← malloc (.frameHeader f.header)
    storeCell (some frame) (.frame (some header) (some data))
    return frame
  | .raw d => do
    let header ← malloc (.frameHeader f.header)
    let frame ← malloc (.frame (some header) none)
    let data ← malloc (.bytes d)
    storeCell (some frame) (.frame (some header) (some data))
    return frame

/-- src/modules/frame.c:24-57 `Frame_parse`: for known frames the header is allocated (frame_header.c:57), freed
(frame.c:34, 40, 46), allocated again by the parser of the frame and freed at its end (text_frame.c:45,
comment_frame.c:61, apic_frame.c:71). Without a header nothing is allocated. -/
def Frame_parse [Platform] (cs : CharStream) (version : UInt8) : HeapM (Option Nat × CharStream) := do
  let (f, cs') ← lift (Id3.Frame_parse cs version)
  match f with
  | none => return (none, cs')
  | some f =>
    match f.data with
    | .raw _ => return (some (← allocFrame f), cs')
    | _ =>
      let header ← malloc (.frameHeader f.header)
      free (some header)
      let header ← malloc (.frameHeader f.header)
      let frame ← allocFrame f
      free (some header)
      return (some frame, cs')

/-! ## src/modules/tag.c -/

/-- src/modules/tag.c:29-37 `ID3v2_Tag_new`; the argument is NULL or a header, which the tag then owns. -/
def ID3v2_Tag_new (header : Ptr) : HeapM Nat := do
  let tag ← malloc (.tag none none 0)
  let header ← match header with
    | some a => pure a
    | none => malloc (.tagHeader TagHeader_new_empty)
  let frames ← FrameList_new
  storeCell (some tag) (.tag (some header) (some frames) 0)
  return tag

/-- src/modules/tag.c:58-63, the loop of `Tag_parse`. -/
def Tag_parse_loop [Platform] : Nat → CharStream → Nat → UInt8 → Nat → HeapM CharStream
  | 0, _, _, _, _ => hang
  | fuel + 1, cs, tag_size, major_version, frames =>
    if u32 cs.cursor < tag_size then do
      let (f, cs) ← Frame_parse cs major_version
      match f with
      | none => return cs
      | some f =>
        FrameList_add_frame frames (some f)
        Tag_parse_loop fuel cs tag_size major_version frames
    else return cs

/-- src/modules/tag.c:44-68 `Tag_parse`. -/
def Tag_parse [Platform] (tag_cs : CharStream) : HeapM Ptr := do
  let (header, cs) ← lift (TagHeader_parse tag_cs)
  match header with
  | none => return none
  | some header =>
    let hp ← malloc (.tagHeader header)
    let tag ← ID3v2_Tag_new (some hp)
    let cs ← lift (match header.extended_header_size with
      | none => .ub .uninit
      | some ext => if ext > 0 then CharStream_seek cs (toInt32 ext) .set else .ok cs)
    let t ← loadTag (some tag)
    match t.frames with
    | none => lift (.ub .nullDeref)
    | some frames =>
      let cs ← Tag_parse_loop (cs.stream.length + 1) cs header.tag_size header.major_version frames
      let padding ← lift (ck (cs.size - cs.cursor))
      storeCell (some tag) (.tag t.header t.frames padding)
      return some tag

/-- src/modules/tag.c:111-115 `ID3v2_Tag_get_frame` (the tag is not NULL). -/
def ID3v2_Tag_get_frame (tag : Nat) (frame_id : Src) : HeapM Ptr := do
  let id ← frame_id.read
  let t ← loadTag (some tag)
  FrameList_get_frame_by_id (← heapFuel) t.frames id

/-- src/modules/tag.c:117-121 `ID3v2_Tag_get_frames` (the tag is not NULL). -/
def ID3v2_Tag_get_frames (tag : Nat) (frame_id : Src) : HeapM Nat := do
  let id ← frame_id.read
  let t ← loadTag (some tag)
  FrameList_get_frames_by_id t.frames id

/-- `tag->header->tag_size = n` -/
def setTagSize (header : Ptr) (n : Nat) : HeapM Unit := do
  let h ← loadTagHeader header
  storeCell header (.tagHeader { h with tag_size := n })

/-- `FrameList_add_frame(...); tag->header->tag_size += new_frame->header->size` (tag.c:209-210, 343-344, 362-363,
396-397, 421-422). -/
def Tag_append (tag : Nat) (new_frame : Nat) : HeapM Unit := do
  let t ← loadTag (some tag)
  match t.frames with
  | none => lift (.ub .nullDeref)
  | some frames =>
    FrameList_add_frame frames (some new_frame)
    let f ← loadFrame (some new_frame)
    let fh ← loadFrameHeader f.header
    let h ← loadTagHeader t.header
    setTagSize t.header (u32 (h.tag_size + fh.size))

/-- The common part of the three setters (tag.c:204-221, 339-355, 392-408). -/
def Tag_set_frame (tag : Nat) (frame_id : Bytes) (new_frame : Nat) : HeapM Unit := do
  let t ← loadTag (some tag)
  match ← FrameList_get_frame_by_id (← heapFuel) t.frames frame_id with
  | none => Tag_append tag new_frame
  | some existing_frame =>
    FrameList_replace_frame (← heapFuel) t.frames (some existing_frame) (some new_frame)
    let f ← loadFrame (some new_frame)
    let fh ← loadFrameHeader f.header
    let e ← loadFrame (some existing_frame)
    let eh ← loadFrameHeader e.header
    let diff ← lift (ck (fh.size - eh.size))
    let h ← loadTagHeader t.header
    setTagSize t.header (u32 (h.tag_size + diff))
    ID3v2_Frame_free (some existing_frame)

/-- include/modules/tag.h:65-70 `ID3v2_TextFrameInput`. -/
structure TextFrameInput where
  id : Src
  flags : Src
  text : Src

/-- src/modules/tag.c:201-222 `ID3v2_Tag_set_text_frame`. -/
def ID3v2_Tag_set_text_frame [Platform] (tag : Nat) (input : TextFrameInput) : HeapM Unit := do
  let id ← input.id.read
  let flags ← input.flags.read
  let text ← input.text.read
  let new_frame ← TextFrame_new id flags text
  Tag_set_frame tag id new_frame

/-- include/modules/tag.h:84-90 `ID3v2_CommentFrameInput`. -/
structure CommentFrameInput where
  flags : Src
  language : Src
  short_description : Src
  comment : Src

/-- src/modules/tag.c:335-356 `ID3v2_Tag_set_comment_frame`. -/
def ID3v2_Tag_set_comment_frame [Platform] (tag : Nat) (input : CommentFrameInput) : HeapM Unit := do
  let flags ← input.flags.read
  let language ← input.language.read
  let short_description ← input.short_description.read
  let comment ← input.comment.read
  let new_frame ← CommentFrame_new flags language short_description comment
  Tag_set_frame tag COMMENT_ID new_frame

/-- src/modules/tag.c:358-364 `ID3v2_Tag_add_comment_frame`. -/
def ID3v2_Tag_add_comment_frame [Platform] (tag : Nat) (input : CommentFrameInput) : HeapM Unit := do
  let flags ← input.flags.read
  let language ← input.language.read
  let short_description ← input.short_description.read
  let comment ← input.comment.read
  let new_frame ← CommentFrame_new flags language short_description comment
  Tag_append tag new_frame

/-- include/modules/tag.h:97-105 `ID3v2_ApicFrameInput`. -/
structure ApicFrameInput where
  flags : Src
  mime_type : Src
  description : Src
  picture_type : UInt8
  picture_size : Int
  data : Src

/-- src/modules/tag.c:384-391, 413-420 -/
def ApicFrame_of_input [Platform] (input : ApicFrameInput) : HeapM Nat := do
  let flags ← input.flags.read
  let mime_type ← input.mime_type.read
  let description ← input.description.read
  let data ← input.data.read
  ApicFrame_new flags description input.picture_type mime_type input.picture_size data

/-- src/modules/tag.c:382-409 `ID3v2_Tag_set_apic_frame`. -/
def ID3v2_Tag_set_apic_frame [Platform] (tag : Nat) (input : ApicFrameInput) : HeapM Unit := do
  let new_frame ← ApicFrame_of_input input
  Tag_set_frame tag ALBUM_COVER_ID new_frame

/-- src/modules/tag.c:411-423 `ID3v2_Tag_add_apic_frame`. -/
def ID3v2_Tag_add_apic_frame [Platform] (tag : Nat) (input : ApicFrameInput) : HeapM Unit := do
  let new_frame ← ApicFrame_of_input input
  Tag_append tag new_frame

/-- src/modules/tag.c:455-462 `ID3v2_Tag_delete_frame`. -/
def ID3v2_Tag_delete_frame (tag : Nat) (frame_id : Src) : HeapM Unit := do
  let id ← frame_id.read
  let t ← loadTag (some tag)
  let deleted ← FrameList_remove_frame_by_id (← heapFuel) t.frames id
  let f ← loadFrame deleted
  let fh ← loadFrameHeader f.header
  let n ← lift (ck (fh.size + 10))
  let h ← loadTagHeader t.header
  setTagSize t.header (u32 (h.tag_size - n))
  ID3v2_Frame_free deleted

/-- src/modules/tag.c:514-527 and 542-555, the loop over the list of matches: the remaining list when it ends. -/
def delete_loop (tagFrames : Ptr) (index : Int) : Nat → Int → Ptr → HeapM Ptr
  | 0, _, _ => hang
  | _ + 1, _, none => return none
  | k + 1, i, some head => do
    let n ← loadNode (some head)
    if i = index then
      let _ ← FrameList_remove_frame (← heapFuel) tagFrames n.frame
      ID3v2_Frame_free n.frame
      return some head
    else delete_loop tagFrames index k (i + 1) n.next

/-- src/modules/tag.c:509-530 `ID3v2_Tag_delete_comment_frame` and 537-558 `ID3v2_Tag_delete_apic_frame`. Only what is
left of the list of matches is unlinked (lines 529, 557). -/
def ID3v2_Tag_delete_frame_at (tag : Nat) (frame_id : Bytes) (index : Int) : HeapM Unit := do
  let t ← loadTag (some tag)
  let head ← FrameList_get_frames_by_id t.frames frame_id
  let rest ← delete_loop t.frames index (← heapFuel) 0 (some head)
  ID3v2_FrameList_unlink (← heapFuel) rest

/-- src/modules/tag.c:448-453 `ID3v2_Tag_free`. -/
def ID3v2_Tag_free (tag : Nat) : HeapM Unit := do
  let t ← loadTag (some tag)
  free t.header
  ID3v2_FrameList_free (← heapFuel) t.frames
  free (some tag)

/-! ## Streams, files -/

/-- src/modules/char_stream.c:18-25 `CharStream_new` and 27-35 `CharStream_from_buffer`: the two blocks. The characters,
the cursor and the size of a stream are those of the value-level model, and are not repeated in the block. -/
def CharStream_new : HeapM Nat := do
  let cs ← malloc (.charStream none)
  let stream ← malloc (.bytes [])
  storeCell (some cs) (.charStream (some stream))
  return cs

/-- src/modules/char_stream.c:87-91 `CharStream_free`. -/
def CharStream_free (cs : Nat) : HeapM Unit := do
  match ← loadCell (some cs) with
  | .charStream stream =>
    free stream
    free (some cs)
  | _ => lift (.ub .typeConfusion)

/-- src/modules/utils.c:95-109 `itob` and the `free` of its result (frame_header.c:65-67, tag.c:80-82). -/
def itobBlock : HeapM Unit := do
  let size_bytes ← malloc (.bytes [])
  free (some size_bytes)

/-- src/id3v2lib.c:74-80 `ID3v2_read_tag_from_buffer`. -/
def ID3v2_read_tag_from_buffer [Platform] (tag_buffer : Src) (buffer_length : Int) : HeapM Ptr := do
  let b ← tag_buffer.read
  let cs ← lift (CharStream_from_buffer b buffer_length)
  let tag_cs ← CharStream_new
  let tag ← Tag_parse cs
  CharStream_free tag_cs
  return tag

/-- src/id3v2lib.c:37-43 `ID3v2_read_tag_header_from_buffer`. -/
def ID3v2_read_tag_header_from_buffer [Platform] (buffer : Src) : HeapM Ptr := do
  let b ← buffer.read
  let v ← lift (CharStream_from_buffer b 10)
  let cs ← CharStream_new
  let (header, _) ← lift (TagHeader_parse v)
  let hp ← match header with
    | none => pure none
    | some h => some <$> malloc (.tagHeader h)
  CharStream_free cs
  return hp

/-- src/id3v2lib.c:22-35 `ID3v2_read_tag_header`; the buffer is on the stack. -/
def ID3v2_read_tag_header [Platform] (file : File) : HeapM Ptr :=
  match file with
  | none => return none
  | some contents =>
    let tag_header_buffer := contents.take 10
    if tag_header_buffer.length < 10 then return none
    else ID3v2_read_tag_header_from_buffer (.literal tag_header_buffer)

/-- src/id3v2lib.c:45-72 `ID3v2_read_tag`. -/
def ID3v2_read_tag [Platform] (file : File) : HeapM Ptr := do
  match ← ID3v2_read_tag_header file with
  | none => return none
  | some tag_header =>
    match file with
    | none => return none
    | some contents =>
      let h ← loadTagHeader (some tag_header)
      let buffer_length := toInt32 (u32 (h.tag_size + 10))
      let tag_buffer ← malloc (.bytes (intoArray buffer_length (contents.take buffer_length.toNat)))
      let tag ← ID3v2_read_tag_from_buffer (.block tag_buffer) buffer_length
      free (some tag_buffer)
      free (some tag_header)
      return tag

/-- Everything a frame pointer gives access to. -/
def fetchFrame (frame : Ptr) : HeapM Frame := do
  let f ← loadFrame frame
  let h ← loadFrameHeader f.header
  match ← loadCell f.data with
  | .textData size encoding text =>
    let text ← loadBytes text
    return { header := h, data := .text { size, encoding, text } }
  | .commentData size encoding language short_description comment =>
    let short_description ← loadBytes short_description
    let comment ← loadBytes comment
    return { header := h, data := .comment { size, encoding, language, short_description, comment } }
  | .apicData encoding mime_type picture_type description data picture_size =>
    let mime_type ← loadBytes mime_type
    let description ← loadBytes description
    let data ← loadBytes data
    return { header := h, data := .apic { encoding, mime_type, picture_type, description, data, picture_size } }
  | .bytes b => return { header := h, data := .raw b }
  | _ => lift (.ub .typeConfusion)

/-- src/modules/frame.c:59-84 `Frame_to_char_stream` for a frame that is not NULL. For a known frame the stream of the
header is freed (text_frame.c:59, comment_frame.c:75, apic_frame.c:85), for an unknown one it is not (frame.c:79-82). -/
def Frame_to_char_stream [Platform] (frame : Nat) : HeapM (Nat × CharStream) := do
  let f ← fetchFrame (some frame)
  let cs ← lift (Id3.Frame_to_char_stream f)
  match f.data with
  | .raw _ =>
    let frame_cs ← CharStream_new
    let _header_cs ← CharStream_new
    itobBlock
    return (frame_cs, cs)
  | _ =>
    let header_cs ← CharStream_new
    itobBlock
    let frame_cs ← CharStream_new
    CharStream_free header_cs
    return (frame_cs, cs)

/-- src/modules/tag.c:93-103, the loop of `Tag_to_char_stream`. -/
def Tag_write_frames [Platform] : Nat → CharStream → Ptr → HeapM CharStream
  | 0, _, _ => hang
  | _ + 1, cs, none => return cs
  | k + 1, cs, some list => do
    let n ← loadNode (some list)
    match n.frame with
    | none => lift .exit
    | some f =>
      let (p, frame_cs) ← Frame_to_char_stream f
      let cs ← lift (CharStream_write cs frame_cs.stream frame_cs.size)
      CharStream_free p
      Tag_write_frames k cs n.next

/-- src/modules/tag.c:70-106 `Tag_to_char_stream`. -/
def Tag_to_char_stream [Platform] (tag : Nat) : HeapM (Nat × CharStream) := do
  let t ← loadTag (some tag)
  let h ← loadTagHeader t.header
  let tag_cs ← CharStream_new
  let cs := Id3.CharStream_new (toInt32 (u32 (h.tag_size + 10)))
  let cs ← lift (CharStream_write cs h.identifier 3)
  let cs ← lift (CharStream_write cs [some h.major_version] 1)
  let cs ← lift (CharStream_write cs [some h.minor_version] 1)
  let cs ← lift (CharStream_write cs [some h.flags] 1)
  let size_bytes ← lift (syncint_encode (BitVec.ofNat 32 h.tag_size))
  itobBlock
  let cs ← lift (CharStream_write cs (ofB (itob size_bytes)) 4)
  let n ← loadNode t.frames
  match n.frame with
  | none => return (tag_cs, cs)
  | some _ =>
    let cs ← Tag_write_frames (← heapFuel) cs t.frames
    return (tag_cs, cs)

/-- src/id3v2lib.c:86-89: the size of the tag in the file; its header is freed. -/
def existingTagSize [Platform] (file : File) : HeapM Int := do
  match ← ID3v2_read_tag_header file with
  | none => return 0
  | some p =>
    let h ← loadTagHeader (some p)
    free (some p)
    return toInt32 (u32 (h.tag_size + 10))

/-- src/id3v2lib.c:82-131 `ID3v2_write_tag`: the new contents of the file. -/
def ID3v2_write_tag [Platform] (file : File) (tag : Nat) : HeapM File := do
  let original_size ← existingTagSize file
  let t ← loadTag (some tag)
  let d ← lift (ck (2048 - t.padding_size))
  let p ← lift (ck (t.padding_size + clamp_int d 0 2048))
  storeCell (some tag) (.tag t.header t.frames p)
  let (tag_cs, cs) ← Tag_to_char_stream tag
  let temp ← lift (memcpySrc cs.stream cs.size)
  match file with
  | none => lift (.ub .nullDeref)
  | some contents =>
    CharStream_free tag_cs
    return some (temp ++ contents.drop original_size.toNat)

/-- src/id3v2lib.c:133-165 `ID3v2_delete_tag`: the new contents of the file. -/
def ID3v2_delete_tag [Platform] (file : File) : HeapM File := do
  match ← ID3v2_read_tag_header file with
  | none => return file
  | some p =>
    match file with
    | none => lift (.ub .nullDeref)
    | some contents =>
      let h ← loadTagHeader (some p)
      free (some p)
      return some (contents.drop (u32 (h.tag_size + 10)))

end Id3.H
