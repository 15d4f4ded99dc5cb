import Verif.Model.Tests

/-!
# Model of the programs in README.md and of the helpers that print: test/test_utils.c

The programs of the README are given as functions of the file (and of the values that they store). What they print is part
of their result. The README writes `frame->text` for `frame->data->text` and `ID3v2_Tag_new()` for
`ID3v2_Tag_new_empty()`; the programs are modelled as they must be written to be compiled.
-/

namespace Id3

/-- `printf("%s", p)`: the bytes that are printed, up to the first zero. -/
def printStr : Bytes → Res (List UInt8)
  | [] => .ub .oobRead
  | b :: bs => do
    let v ← load b
    if v = 0 then return []
    return v :: (← printStr bs)

/-- `((ID3v2_TextFrame*) frame)->data->text` (README.md:156, 160, 230). -/
def text_of (frame : Option Frame) : Res Bytes :=
  match frame with
  | none => .ub .nullDeref
  | some f =>
    match f.data with
    | .text d => .ok d.text
    | _ => .ub .typeConfusion

/-- README.md:146-154: the beginning of all the programs. -/
def read_or_new [Platform] (file : File) : Res Tag := do
  return (← ID3v2_read_tag file).getD ID3v2_Tag_new_empty

/-- README.md:146-161 "Load Tags": what is printed for the artist and the album. -/
def readme_load [Platform] (file : File) : Res (List UInt8 × List UInt8) := do
  let tag ← read_or_new file
  let artist ← printStr (← text_of (← ID3v2_Tag_get_artist_frame tag))
  let album ← printStr (← text_of (← ID3v2_Tag_get_album_frame tag))
  return (artist, album)

/-- README.md:167-182 "Edit Tags", for any title and artist: the file afterwards. -/
def readme_edit [Platform] (title artist : Bytes) (file : File) : Res File := do
  let tag ← read_or_new file
  let tag ← ID3v2_Tag_set_title tag (← ID3v2_to_unicode title)
  let tag ← ID3v2_Tag_set_artist tag (← ID3v2_to_unicode artist)
  let (file, _) ← ID3v2_write_tag file tag
  return file

/-- README.md:188-203, the first part of "Delete Tags": the file afterwards. -/
def readme_delete_frames [Platform] (file : File) : Res File := do
  let tag ← read_or_new file
  let tag ← ID3v2_Tag_delete_title tag
  let tag ← ID3v2_Tag_delete_artist tag
  let (file, _) ← ID3v2_write_tag file tag
  return file

/-- README.md:188-206 "Delete Tags": the file afterwards. -/
def readme_delete [Platform] (file : File) : Res File := do
  ID3v2_delete_tag (← readme_delete_frames file)

/-- README.md:218-231 "Read New Frames": what is printed for the copyright message. -/
def readme_read_new [Platform] (file : File) : Res (List UInt8) := do
  let tag ← read_or_new file
  printStr (← text_of (← ID3v2_Tag_get_frame tag (lit [0x54, 0x43, 0x4F, 0x50])))

/-- README.md:239-256 "Edit New Frames", for any message: the tag afterwards (the program does not write it). -/
def readme_edit_new [Platform] (message : Bytes) (file : File) : Res Tag := do
  let tag ← read_or_new file
  ID3v2_Tag_set_text_frame tag { id := lit [0x54, 0x43, 0x4F, 0x50], flags := NO_FLAGS, text := message }

/-- README.md:268-276 "Compatibility Layer": what is printed for the album. `load_tag` never returns NULL: the call of
`new_tag` in line 271 is dead code. `parse_text_frame_content` dereferences its argument (src/id3v2lib.compat.c:275). -/
def readme_compat [Platform] (file : File) : Res (List UInt8) := do
  let tag ← load_tag file
  match ← tag_get_album tag with
  | none => .ub .nullDeref
  | some album_frame =>
    let album_content ← parse_text_frame_content album_frame
    printStr album_content.data

/-! ## test/test_utils.c -/

/-- What the helpers print: bytes, or one wide character (`%lc`; its conversion by the locale is left out). -/
inductive Printed where
  | bytes (b : List UInt8)
  | wide (u : UInt16)
deriving DecidableEq, Repr

/-- test/test_utils.c:24-30 `char_to_utf16`: the bytes of the new array, of which only the first half is filled. -/
def char_to_utf16 [Platform] (string : Bytes) (size : Int) : Res Bytes := do
  let size ← if size < 0 then ID3v2_strlent string else .ok size
  return intoArray (2 * size) (← memcpySrc string size)

/-- test/test_utils.c:32-55 `to_unicode`. As in `ID3v2_to_unicode`, `ck` stands for the stores into a block that is too
small because its size does not fit an `int` (line 39). -/
def to_unicode [Platform] (string : Bytes) : Res Bytes := do
  if ← has_bom string then return string
  let chars ← printStr string
  let _ ← ck (chars.length * 2 + 4)
  return ofB ([0xFF, 0xFE] ++ chars.flatMap (fun c => [c, 0]) ++ [0, 0])

/-- test/test_utils.c:63-73: the loop of `println_utf16`, at the unit at which `string` now begins, with `left` more rounds
to go (`none`: no limit). The units are read on a little-endian machine. -/
def print_units (string : Bytes) (left : Option Nat) : Res (List Printed) :=
  match left, string with
  | some 0, _ => .ok []
  | _, [] => .ub .oobRead
  | _, [_] => .ub .oobRead
  | left, a :: b :: rest => do
    let a ← load a
    let b ← load b
    if a = 0 ∧ b = 0 then return []
    return .wide (a.toUInt16 ||| (b.toUInt16 <<< 8)) :: (← print_units rest (left.map (· - 1)))
  termination_by string.length

/-- test/test_utils.c:57-76 `println_utf16`. The first unit is skipped. -/
def println_utf16 (string : Bytes) (size : Int) : Res (List Printed) := do
  let units ← print_units (string.drop 2) (if size < 0 then none else some (size - 1).toNat)
  return units ++ [.bytes [0x0A]]

/-- "None\n" -/
def printNone : List Printed := [.bytes [0x4E, 0x6F, 0x6E, 0x65, 0x0A]]

/-- test/test_utils.c:89-104 `print_text_frame_text` for a pointer that is not NULL. -/
def print_text_frame_text [Platform] (text : Bytes) (size : Int) : Res (List Printed) := do
  if ← has_bom text then
    let text_utf ← char_to_utf16 text size
    println_utf16 text_utf size
  else
    return [.bytes (← printStr text), .bytes [0x0A]]

/-- test/test_utils.c:78-87 `print_text_frame`. -/
def print_text_frame [Platform] (frame : Option Frame) : Res (List Printed) :=
  match frame with
  | none => .ok printNone
  | some f =>
    match f.data with
    | .text d => print_text_frame_text d.text d.size
    | _ => .ub .typeConfusion

/-- test/test_utils.c:106-115 `print_comment_frame`. -/
def print_comment_frame [Platform] (frame : Option Frame) : Res (List Printed) :=
  match frame with
  | none => .ok printNone
  | some f =>
    match f.data with
    | .comment d => print_text_frame_text d.comment d.size
    | _ => .ub .typeConfusion

/-- test/test_utils.c:125-130: the loop of `print_comment_frames`. -/
def print_comments [Platform] : FrameList → Res (List Printed)
  | [] => .ok []
  | f :: rest => do
    let a ← print_comment_frame f
    return a ++ (← print_comments rest)

/-- test/test_utils.c:117-131 `print_comment_frames`; NULL is the list without nodes. -/
def print_comment_frames [Platform] (frames : FrameList) : Res (List Printed) :=
  match frames with
  | [] => .ok printNone
  | frames => print_comments frames

/-- `strcpy(dst, src)` or `strcat`: `used` bytes of a buffer of `size` bytes hold characters; afterwards they are followed
by `src` and a zero. -/
def append_str (size used : Nat) (src : List UInt8) : Res Nat :=
  if size < used + src.length + 1 then .ub .oobWrite else .ok (used + src.length)

/-- test/test_utils.c:133-153 `save_apic_frame`: the name of the file that is written and its contents (`none` if there is
no frame). -/
def save_apic_frame (frame : Option Frame) (dir_path : Bytes) : Res (Option (List UInt8 × Bytes)) :=
  match frame with
  | none => .ok none
  | some f =>
    match f.data with
    | .apic d => do
      let mime ← printStr d.mime_type
      -- ".png" or ".jpeg"
      let extension := if mime = [0x69, 0x6D, 0x61, 0x67, 0x65, 0x2F, 0x70, 0x6E, 0x67] then [0x2E, 0x70, 0x6E, 0x67]
        else [0x2E, 0x6A, 0x70, 0x65, 0x67]
      let dir ← printStr dir_path
      -- "/album_cover"
      let name := [0x2F, 0x61, 0x6C, 0x62, 0x75, 0x6D, 0x5F, 0x63, 0x6F, 0x76, 0x65, 0x72]
      let file_name_size := dir.length + name.length + extension.length
      let used ← append_str file_name_size 0 dir
      let used ← append_str file_name_size used name
      let _ ← append_str file_name_size used extension
      let data ← memcpySrc d.data d.picture_size
      return some (dir ++ name ++ extension, data)
    | _ => .ub .typeConfusion

end Id3
