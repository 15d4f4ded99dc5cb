import Verif.Model.FrameList

/-!
# Model of src/modules/tag.c
-/

namespace Id3

/-- include/modules/tag.h:21-26 `ID3v2_Tag`. -/
structure Tag where
  header : TagHeader
  frames : FrameList
  padding_size : Int
deriving DecidableEq, Repr

/-- src/modules/tag.c:29-37 `ID3v2_Tag_new`. The argument `padding_size` is ignored (line 34). -/
def ID3v2_Tag_new (header : Option TagHeader) (_padding_size : Int) : Tag :=
  { header := match header with
      | none => TagHeader_new_empty
      | some h => h
    frames := FrameList_new
    padding_size := 0 }

/-- src/modules/tag.c:39-42 `ID3v2_Tag_new_empty`. -/
def ID3v2_Tag_new_empty : Tag := ID3v2_Tag_new none 0

/-- src/modules/tag.c:58-63, the loop of `Tag_parse`. The comparison on line 58 is between `int` and `unsigned int`, so
the cursor is converted. The fuel is only there to make the loop total. -/
def Tag_parse_loop [Platform] : Nat → CharStream → Nat → UInt8 → FrameList → Res (FrameList × CharStream)
  | 0, _, _, _, _ => .diverge
  | fuel + 1, cs, tag_size, major_version, frames =>
    if u32 cs.cursor < tag_size then do
      let (current_frame, cs) ← Frame_parse cs major_version
      match current_frame with
      | none => return (frames, cs)
      | some f => Tag_parse_loop fuel cs tag_size major_version (FrameList_add_frame frames f)
    else .ok (frames, cs)

/-- src/modules/tag.c:44-68 `Tag_parse`. -/
def Tag_parse [Platform] (tag_cs : CharStream) : Res (Option Tag) := do
  let (header, cs) ← TagHeader_parse tag_cs
  match header with
  | none => return none
  | some header =>
    let tag := ID3v2_Tag_new (some header) 0
    let cs ← match header.extended_header_size with
      | none => .ub .uninit
      | some ext => if ext > 0 then CharStream_seek cs (toInt32 ext) .set else .ok cs
    let (frames, cs) ← Tag_parse_loop (cs.stream.length + 1) cs header.tag_size header.major_version tag.frames
    return some { tag with frames := frames, padding_size := ← ck (cs.size - cs.cursor) }

/-- src/modules/tag.c:93-103, the loop of `Tag_to_char_stream`: a node without a frame makes `Frame_to_char_stream`
return NULL, and the process exits (line 97). -/
def Tag_write_frames [Platform] (cs : CharStream) (frames : FrameList) : Res CharStream :=
  match frames with
  | [] => .ok cs
  | none :: _ => .exit
  | some f :: rest => do
    let frame_cs ← Frame_to_char_stream f
    let cs ← CharStream_write cs frame_cs.stream frame_cs.size
    Tag_write_frames cs rest

/-- src/modules/tag.c:70-106 `Tag_to_char_stream`. -/
def Tag_to_char_stream [Platform] (tag : Tag) : Res CharStream := do
  let cs := CharStream_new (toInt32 (u32 (tag.header.tag_size + 10)))
  let cs ← CharStream_write cs tag.header.identifier 3
  let cs ← CharStream_write cs [some tag.header.major_version] 1
  let cs ← CharStream_write cs [some tag.header.minor_version] 1
  let cs ← CharStream_write cs [some tag.header.flags] 1
  let size_bytes := itob (← syncint_encode (BitVec.ofNat 32 tag.header.tag_size))
  let cs ← CharStream_write cs (ofB size_bytes) 4
  match tag.frames with
  | [] => .ub .nullDeref  -- the head node always exists
  | none :: _ => return cs
  | frames => Tag_write_frames cs frames

/-! ## Getters -/

/-- src/modules/tag.c:111-115 `ID3v2_Tag_get_frame` (the tag is not NULL): the frame, or NULL. -/
def ID3v2_Tag_get_frame (tag : Tag) (frame_id : Bytes) : Res (Option Frame) := do
  match ← FrameList_get_frame_by_id tag.frames frame_id with
  | none => return none
  | some (_, f) => return some f

/-- src/modules/tag.c:117-121 `ID3v2_Tag_get_frames` (the tag is not NULL). -/
def ID3v2_Tag_get_frames (tag : Tag) (frame_id : Bytes) : Res FrameList :=
  FrameList_get_frames_by_id tag.frames frame_id

/-- src/modules/tag.c:111-115 `ID3v2_Tag_get_frame` on a possibly NULL tag. -/
def ID3v2_Tag_get_frame_ptr (tag : Option Tag) (frame_id : Bytes) : Res (Option Frame) :=
  match tag with
  | none => .ok none
  | some t => ID3v2_Tag_get_frame t frame_id

/-- src/modules/tag.c:117-121 `ID3v2_Tag_get_frames` on a possibly NULL tag. -/
def ID3v2_Tag_get_frames_ptr (tag : Option Tag) (frame_id : Bytes) : Res (Option FrameList) :=
  match tag with
  | none => .ok none
  | some t => do return some (← ID3v2_Tag_get_frames t frame_id)

/-- A string literal, with its terminator. -/
def lit (s : List UInt8) : Bytes := ofB (s ++ [0])

/-- include/modules/frame_ids.h:13 "TIT2" -/
def TITLE_ID : Bytes := lit [0x54, 0x49, 0x54, 0x32]
/-- include/modules/frame_ids.h:14 "TPE1" -/
def ARTIST_ID : Bytes := lit [0x54, 0x50, 0x45, 0x31]
/-- include/modules/frame_ids.h:15 "TALB" -/
def ALBUM_ID : Bytes := lit [0x54, 0x41, 0x4C, 0x42]
/-- include/modules/frame_ids.h:16 "TPE2" -/
def ALBUM_ARTIST_ID : Bytes := lit [0x54, 0x50, 0x45, 0x32]
/-- include/modules/frame_ids.h:17 "TCON" -/
def GENRE_ID : Bytes := lit [0x54, 0x43, 0x4F, 0x4E]
/-- include/modules/frame_ids.h:18 "TRCK" -/
def TRACK_ID : Bytes := lit [0x54, 0x52, 0x43, 0x4B]
/-- include/modules/frame_ids.h:19 "TYER" -/
def YEAR_ID : Bytes := lit [0x54, 0x59, 0x45, 0x52]
/-- include/modules/frame_ids.h:20 "COMM" -/
def COMMENT_ID : Bytes := lit [0x43, 0x4F, 0x4D, 0x4D]
/-- include/modules/frame_ids.h:21 "TPOS" -/
def DISC_NUMBER_ID : Bytes := lit [0x54, 0x50, 0x4F, 0x53]
/-- include/modules/frame_ids.h:22 "TCOM" -/
def COMPOSER_ID : Bytes := lit [0x54, 0x43, 0x4F, 0x4D]
/-- include/modules/frame_ids.h:23 "APIC" -/
def ALBUM_COVER_ID : Bytes := lit [0x41, 0x50, 0x49, 0x43]
/-- `.flags = "\0\0"` (tag.c:230 and others) -/
def NO_FLAGS : Bytes := lit [0, 0]
/-- include/modules/utils.h:13 `EMPTY_UNICODE_STR` "\xFF\xFE\x00\x00" -/
def EMPTY_UNICODE_STR : Bytes := lit [0xFF, 0xFE, 0, 0]

/-- src/modules/tag.c:123-126 -/
def ID3v2_Tag_get_artist_frame (tag : Tag) := ID3v2_Tag_get_frame tag ARTIST_ID
/-- src/modules/tag.c:128-131 -/
def ID3v2_Tag_get_album_frame (tag : Tag) := ID3v2_Tag_get_frame tag ALBUM_ID
/-- src/modules/tag.c:133-136 -/
def ID3v2_Tag_get_title_frame (tag : Tag) := ID3v2_Tag_get_frame tag TITLE_ID
/-- src/modules/tag.c:138-141 -/
def ID3v2_Tag_get_track_frame (tag : Tag) := ID3v2_Tag_get_frame tag TRACK_ID
/-- src/modules/tag.c:143-146 -/
def ID3v2_Tag_get_album_artist_frame (tag : Tag) := ID3v2_Tag_get_frame tag ALBUM_ARTIST_ID
/-- src/modules/tag.c:148-151 -/
def ID3v2_Tag_get_genre_frame (tag : Tag) := ID3v2_Tag_get_frame tag GENRE_ID
/-- src/modules/tag.c:153-156 -/
def ID3v2_Tag_get_year_frame (tag : Tag) := ID3v2_Tag_get_frame tag YEAR_ID
/-- src/modules/tag.c:158-161 -/
def ID3v2_Tag_get_disc_number_frame (tag : Tag) := ID3v2_Tag_get_frame tag DISC_NUMBER_ID
/-- src/modules/tag.c:163-166 -/
def ID3v2_Tag_get_composer_frame (tag : Tag) := ID3v2_Tag_get_frame tag COMPOSER_ID
/-- src/modules/tag.c:173-176 -/
def ID3v2_Tag_get_comment_frame (tag : Tag) := ID3v2_Tag_get_frame tag COMMENT_ID
/-- src/modules/tag.c:183-186 -/
def ID3v2_Tag_get_comment_frames (tag : Tag) := ID3v2_Tag_get_frames tag COMMENT_ID
/-- src/modules/tag.c:188-191 -/
def ID3v2_Tag_get_album_cover_frame (tag : Tag) := ID3v2_Tag_get_frame tag ALBUM_COVER_ID
/-- src/modules/tag.c:193-196 -/
def ID3v2_Tag_get_apic_frames (tag : Tag) := ID3v2_Tag_get_frames tag ALBUM_COVER_ID

/-! ## Setters -/

/-- The tag with another `tag_size` -/
def Tag.withSize (tag : Tag) (frames : FrameList) (size : Nat) : Tag :=
  { tag with frames := frames, header := { tag.header with tag_size := size } }

/-- `FrameList_add_frame(...); tag->header->tag_size += new_frame->header->size` (tag.c:209-210, 343-344, 362-363,
396-397, 421-422). -/
def Tag_append (tag : Tag) (new_frame : Frame) : Tag :=
  tag.withSize (FrameList_add_frame tag.frames new_frame) (u32 (tag.header.tag_size + new_frame.header.size))

/-- The common part of the three setters (tag.c:204-221, 339-355, 392-408): replace the first frame with the id, or
append. -/
def Tag_set_frame (tag : Tag) (frame_id : Bytes) (new_frame : Frame) : Res Tag := do
  match ← FrameList_get_frame_by_id tag.frames frame_id with
  | none => return Tag_append tag new_frame
  | some (i, existing_frame) =>
    let diff ← ck (new_frame.header.size - existing_frame.header.size)
    let tag' := tag.withSize (FrameList_replace_frame tag.frames i new_frame) (u32 (tag.header.tag_size + diff))
    ID3v2_Frame_free existing_frame
    return tag'

/-- include/modules/tag.h:65-70 `ID3v2_TextFrameInput`. -/
structure TextFrameInput where
  id : Bytes
  flags : Bytes
  text : Bytes

/-- src/modules/tag.c:201-222 `ID3v2_Tag_set_text_frame`. -/
def ID3v2_Tag_set_text_frame [Platform] (tag : Tag) (input : TextFrameInput) : Res Tag := do
  let new_frame ← TextFrame_new input.id input.flags input.text
  Tag_set_frame tag input.id new_frame

/-- src/modules/tag.c:224-234 -/
def ID3v2_Tag_set_artist [Platform] (tag : Tag) (artist : Bytes) : Res Tag :=
  ID3v2_Tag_set_text_frame tag { id := ARTIST_ID, flags := NO_FLAGS, text := artist }
/-- src/modules/tag.c:236-246 -/
def ID3v2_Tag_set_album [Platform] (tag : Tag) (album : Bytes) : Res Tag :=
  ID3v2_Tag_set_text_frame tag { id := ALBUM_ID, flags := NO_FLAGS, text := album }
/-- src/modules/tag.c:248-258 -/
def ID3v2_Tag_set_title [Platform] (tag : Tag) (title : Bytes) : Res Tag :=
  ID3v2_Tag_set_text_frame tag { id := TITLE_ID, flags := NO_FLAGS, text := title }
/-- src/modules/tag.c:260-270 -/
def ID3v2_Tag_set_track [Platform] (tag : Tag) (track : Bytes) : Res Tag :=
  ID3v2_Tag_set_text_frame tag { id := TRACK_ID, flags := NO_FLAGS, text := track }
/-- src/modules/tag.c:272-282 -/
def ID3v2_Tag_set_album_artist [Platform] (tag : Tag) (album_artist : Bytes) : Res Tag :=
  ID3v2_Tag_set_text_frame tag { id := ALBUM_ARTIST_ID, flags := NO_FLAGS, text := album_artist }
/-- src/modules/tag.c:284-294 -/
def ID3v2_Tag_set_genre [Platform] (tag : Tag) (genre : Bytes) : Res Tag :=
  ID3v2_Tag_set_text_frame tag { id := GENRE_ID, flags := NO_FLAGS, text := genre }
/-- src/modules/tag.c:296-306 -/
def ID3v2_Tag_set_year [Platform] (tag : Tag) (year : Bytes) : Res Tag :=
  ID3v2_Tag_set_text_frame tag { id := YEAR_ID, flags := NO_FLAGS, text := year }
/-- src/modules/tag.c:308-318 -/
def ID3v2_Tag_set_disc_number [Platform] (tag : Tag) (disc_number : Bytes) : Res Tag :=
  ID3v2_Tag_set_text_frame tag { id := DISC_NUMBER_ID, flags := NO_FLAGS, text := disc_number }
/-- src/modules/tag.c:320-330 -/
def ID3v2_Tag_set_composer [Platform] (tag : Tag) (composer : Bytes) : Res Tag :=
  ID3v2_Tag_set_text_frame tag { id := COMPOSER_ID, flags := NO_FLAGS, text := composer }

/-- include/modules/tag.h:84-90 `ID3v2_CommentFrameInput`. -/
structure CommentFrameInput where
  flags : Bytes
  language : Bytes
  short_description : Bytes
  comment : Bytes

/-- src/modules/tag.c:335-356 `ID3v2_Tag_set_comment_frame`. -/
def ID3v2_Tag_set_comment_frame [Platform] (tag : Tag) (input : CommentFrameInput) : Res Tag := do
  let new_frame ← CommentFrame_new input.flags input.language input.short_description input.comment
  Tag_set_frame tag COMMENT_ID new_frame

/-- src/modules/tag.c:358-364 `ID3v2_Tag_add_comment_frame`. -/
def ID3v2_Tag_add_comment_frame [Platform] (tag : Tag) (input : CommentFrameInput) : Res Tag := do
  let new_frame ← CommentFrame_new input.flags input.language input.short_description input.comment
  return Tag_append tag new_frame

/-- src/modules/tag.c:366-377 `ID3v2_Tag_set_comment`. -/
def ID3v2_Tag_set_comment [Platform] (tag : Tag) (lang comment : Bytes) : Res Tag :=
  ID3v2_Tag_set_comment_frame tag
    { flags := NO_FLAGS, language := lang, short_description := EMPTY_UNICODE_STR, comment := comment }

/-- include/modules/tag.h:97-105 `ID3v2_ApicFrameInput`. -/
structure ApicFrameInput where
  flags : Bytes
  mime_type : Bytes
  description : Bytes
  picture_type : UInt8
  picture_size : Int
  data : Bytes

/-- src/modules/tag.c:384-391, 413-420 -/
def ApicFrame_of_input [Platform] (input : ApicFrameInput) : Res Frame :=
  ApicFrame_new input.flags input.description input.picture_type input.mime_type input.picture_size input.data

/-- src/modules/tag.c:382-409 `ID3v2_Tag_set_apic_frame`. -/
def ID3v2_Tag_set_apic_frame [Platform] (tag : Tag) (input : ApicFrameInput) : Res Tag := do
  let new_frame ← ApicFrame_of_input input
  Tag_set_frame tag ALBUM_COVER_ID new_frame

/-- src/modules/tag.c:411-423 `ID3v2_Tag_add_apic_frame`. -/
def ID3v2_Tag_add_apic_frame [Platform] (tag : Tag) (input : ApicFrameInput) : Res Tag := do
  let new_frame ← ApicFrame_of_input input
  return Tag_append tag new_frame

/-- src/modules/tag.c:428-446 `ID3v2_Tag_set_album_cover`. -/
def ID3v2_Tag_set_album_cover [Platform] (tag : Tag) (mime_type : Bytes) (size : Int) (data : Bytes) : Res Tag :=
  ID3v2_Tag_set_apic_frame tag
    { flags := NO_FLAGS, mime_type := mime_type, description := EMPTY_UNICODE_STR, picture_size := size,
      picture_type := 3, data := data }

/-! ## Deleters -/

/-- src/modules/tag.c:455-462 `ID3v2_Tag_delete_frame`. -/
def ID3v2_Tag_delete_frame (tag : Tag) (frame_id : Bytes) : Res Tag := do
  let (deleted, frames) ← FrameList_remove_frame_by_id tag.frames frame_id
  match deleted with
  | none => .ub .nullDeref
  | some deleted =>
    let n ← ck (deleted.header.size + 10)
    let tag' := tag.withSize frames (u32 (tag.header.tag_size - n))
    ID3v2_Frame_free deleted
    return tag'

/-- src/modules/tag.c:464-467 -/
def ID3v2_Tag_delete_artist (tag : Tag) := ID3v2_Tag_delete_frame tag ARTIST_ID
/-- src/modules/tag.c:469-472 -/
def ID3v2_Tag_delete_album (tag : Tag) := ID3v2_Tag_delete_frame tag ALBUM_ID
/-- src/modules/tag.c:474-477 -/
def ID3v2_Tag_delete_title (tag : Tag) := ID3v2_Tag_delete_frame tag TITLE_ID
/-- src/modules/tag.c:479-482 -/
def ID3v2_Tag_delete_track (tag : Tag) := ID3v2_Tag_delete_frame tag TRACK_ID
/-- src/modules/tag.c:484-487 -/
def ID3v2_Tag_delete_album_artist (tag : Tag) := ID3v2_Tag_delete_frame tag ALBUM_ARTIST_ID
/-- src/modules/tag.c:489-492 -/
def ID3v2_Tag_delete_genre (tag : Tag) := ID3v2_Tag_delete_frame tag GENRE_ID
/-- src/modules/tag.c:494-497 -/
def ID3v2_Tag_delete_year (tag : Tag) := ID3v2_Tag_delete_frame tag YEAR_ID
/-- src/modules/tag.c:499-502 -/
def ID3v2_Tag_delete_disc_number (tag : Tag) := ID3v2_Tag_delete_frame tag DISC_NUMBER_ID
/-- src/modules/tag.c:504-507 -/
def ID3v2_Tag_delete_composer (tag : Tag) := ID3v2_Tag_delete_frame tag COMPOSER_ID
/-- src/modules/tag.c:532-535 -/
def ID3v2_Tag_delete_comment (tag : Tag) := ID3v2_Tag_delete_frame tag COMMENT_ID
/-- src/modules/tag.c:560-563 -/
def ID3v2_Tag_delete_album_cover (tag : Tag) := ID3v2_Tag_delete_frame tag ALBUM_COVER_ID

/-- src/modules/tag.c:509-530 `ID3v2_Tag_delete_comment_frame` and 537-558 `ID3v2_Tag_delete_apic_frame`, which differ
only in the id. The list of matches always has a head node: when nothing matches it is one node with a NULL frame, and
index 0 selects that NULL. The tag size is not changed. -/
def ID3v2_Tag_delete_frame_at (tag : Tag) (frame_id : Bytes) (index : Int) : Res Tag := do
  let head ← FrameList_matching tag.frames frame_id
  match head with
  | [] =>
    if index = 0 then return { tag with frames := FrameList_remove_null tag.frames }
    else return tag
  | matching =>
    if index < 0 then return tag
    else match matching[index.toNat]? with
      | none => return tag
      | some (i, to_delete) =>
        let tag' := { tag with frames := FrameList_remove_frame tag.frames i }
        ID3v2_Frame_free to_delete
        return tag'

/-- src/modules/tag.c:509-530 -/
def ID3v2_Tag_delete_comment_frame (tag : Tag) (index : Int) := ID3v2_Tag_delete_frame_at tag COMMENT_ID index
/-- src/modules/tag.c:537-558 -/
def ID3v2_Tag_delete_apic_frame (tag : Tag) (index : Int) := ID3v2_Tag_delete_frame_at tag ALBUM_COVER_ID index

end Id3
