import Verif.Model.Tag

/-!
# Model of src/id3v2lib.c

A file is its contents, or `none` if it does not exist (or cannot be opened). File contents may hold indeterminate
bytes, because the library can write uninitialised memory. `tmpfile()` succeeds and no write fails (see
`Verif/Model/Crash.lean` for crashes and failing writes).
-/

namespace Id3

/-- Contents of a file on disk. -/
abbrev File := Option Bytes

/-- src/id3v2lib.c:37-43 `ID3v2_read_tag_header_from_buffer`. -/
def ID3v2_read_tag_header_from_buffer [Platform] (buffer : Bytes) : Res (Option TagHeader) := do
  let cs ← CharStream_from_buffer buffer 10
  let (header, _) ← TagHeader_parse cs
  return header

/-- src/id3v2lib.c:22-35 `ID3v2_read_tag_header`. -/
def ID3v2_read_tag_header [Platform] (file : File) : Res (Option TagHeader) :=
  match file with
  | none => .ok none
  | some contents =>
    let tag_header_buffer := contents.take 10
    if tag_header_buffer.length < 10 then .ok none
    else ID3v2_read_tag_header_from_buffer tag_header_buffer

/-- src/id3v2lib.c:74-80 `ID3v2_read_tag_from_buffer`. -/
def ID3v2_read_tag_from_buffer [Platform] (tag_buffer : Bytes) (buffer_length : Int) : Res (Option Tag) := do
  let tag_cs ← CharStream_from_buffer tag_buffer buffer_length
  Tag_parse tag_cs

/-- src/id3v2lib.c:45-72 `ID3v2_read_tag`. The buffer comes from `malloc`; bytes that `fread` (line 63) does not reach
are indeterminate. The call asks for one element of `buffer_length` bytes: of an element that is read only in part the C
standard makes every byte indeterminate, whereas implementations store the bytes that are there, which the model follows. -/
def ID3v2_read_tag [Platform] (file : File) : Res (Option Tag) := do
  match ← ID3v2_read_tag_header file with
  | none => return none
  | some tag_header =>
    match file with
    | none => return none
    | some contents =>
      let buffer_length := toInt32 (u32 (tag_header.tag_size + 10))
      let tag_buffer := intoArray buffer_length (contents.take buffer_length.toNat)
      ID3v2_read_tag_from_buffer tag_buffer buffer_length

/-- src/id3v2lib.c:86-88: the number of bytes of the existing tag in the file. -/
def existingTagSize [Platform] (file : File) : Res Int := do
  match ← ID3v2_read_tag_header file with
  | none => return 0
  | some h => return toInt32 (u32 (h.tag_size + 10))

/-- src/id3v2lib.c:82-131 `ID3v2_write_tag`: the new contents of the file and the tag (whose `padding_size` changes,
line 96). Opening a file that does not exist for update (line 107) gives NULL. -/
def ID3v2_write_tag [Platform] (file : File) (tag : Tag) : Res (File × Tag) := do
  let original_size ← existingTagSize file
  let extra_padding_length := clamp_int (← ck (2048 - tag.padding_size)) 0 2048
  let tag := { tag with padding_size := ← ck (tag.padding_size + extra_padding_length) }
  let tag_cs ← Tag_to_char_stream tag
  let temp ← memcpySrc tag_cs.stream tag_cs.size
  match file with
  | none => .ub .nullDeref
  | some contents => return (some (temp ++ contents.drop original_size.toNat), tag)

/-- src/id3v2lib.c:84: a NULL tag is ignored. -/
def ID3v2_write_tag_ptr [Platform] (file : File) (tag : Option Tag) : Res (File × Option Tag) :=
  match tag with
  | none => .ok (file, none)
  | some t => do
    let (f, t) ← ID3v2_write_tag file t
    return (f, some t)

/-- src/id3v2lib.c:133-165 `ID3v2_delete_tag`: the new contents of the file. -/
def ID3v2_delete_tag [Platform] (file : File) : Res File := do
  match ← ID3v2_read_tag_header file with
  | none => return file
  | some tag_header =>
    match file with
    | none => .ub .nullDeref
    | some contents => return some (contents.drop (u32 (tag_header.tag_size + 10)))

end Id3
