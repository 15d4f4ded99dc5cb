import Verif.Model.Lib

/-!
# Model of src/id3v2lib.c when I/O operations fail

`Verif/Model/Lib.lean` assumes that files that exist can be opened and that nothing fails. Here every call of `fopen`,
`tmpfile`, `fseek`, `fread`, `getc`, `fwrite`, `putc` (and the flushes they and `fclose` cause) may fail. The code ignores
all results except those of the first `fopen` and `fread`. What fails is part of the input (`WriteFaults`, …); the result
is the file on the disk when the function ends or crashes, and how it ends.
-/

namespace Id3

/-- What fails when a file is opened and read: opening it, positioning, or reading after so many bytes. -/
structure ReadFaults where
  opens : Bool
  seeks : Bool
  stops : Option Nat
deriving DecidableEq, Repr

/-- Nothing fails. -/
def ReadFaults.none : ReadFaults := ⟨true, true, .none⟩

/-- `fopen` for reading or updating. -/
def ReadFaults.open (e : ReadFaults) (file : File) : File := if e.opens then file else .none

/-- What `fread` or a loop of `getc` delivers of the bytes that are there. -/
def ReadFaults.deliver (e : ReadFaults) (l : Bytes) : Bytes :=
  match e.stops with
  | .none => l
  | some k => l.take k

/-- What reaches a file of the bytes that are written to it: the bytes whose numbers (from `i`) are not lost. -/
def land (lost : Nat → Bool) (i : Nat) : Bytes → Bytes
  | [] => []
  | b :: l => if lost i then land lost (i + 1) l else b :: land lost (i + 1) l

/-- src/id3v2lib.c:22-35 `ID3v2_read_tag_header`. -/
def ID3v2_read_tag_header_io [Platform] (e : ReadFaults) (file : File) : Res (Option TagHeader) :=
  match e.open file with
  | none => .ok none
  | some contents =>
    let tag_header_buffer := e.deliver (contents.take 10)
    if tag_header_buffer.length < 10 then .ok none
    else ID3v2_read_tag_header_from_buffer tag_header_buffer

/-- src/id3v2lib.c:45-72 `ID3v2_read_tag`, with the faults of the two times the file is opened. `allocates`: `malloc`
succeeds (line 53; the only one that the library checks). If the file cannot be opened the second time, `fread` and `fclose`
(lines 63, 64; 58 if `malloc` failed) get NULL. -/
def ID3v2_read_tag_io [Platform] (header body : ReadFaults) (allocates : Bool) (file : File) : Res (Option Tag) := do
  match ← ID3v2_read_tag_header_io header file with
  | none => return none
  | some tag_header =>
    match body.open file with
    | none => .ub .nullDeref
    | some contents =>
      if allocates then
        let buffer_length := toInt32 (u32 (tag_header.tag_size + 10))
        let tag_buffer := intoArray buffer_length (body.deliver (contents.take buffer_length.toNat))
        ID3v2_read_tag_from_buffer tag_buffer buffer_length
      else return none

/-- What fails in `ID3v2_write_tag`: reading the header (line 86), `tmpfile` (line 102), writes to the temporary file,
reading the old file (lines 109-115), `fopen` for writing (line 119), the `fseek` that rewinds the temporary file
(line 120), reading it, writes to the new file. -/
structure WriteFaults where
  header : ReadFaults
  tmp : Bool
  tmpLost : Nat → Bool
  source : ReadFaults
  dest : Bool
  temp : ReadFaults
  destLost : Nat → Bool

/-- Nothing fails. -/
def WriteFaults.none : WriteFaults :=
  ⟨.none, true, fun _ => false, .none, true, .none, fun _ => false⟩

/-- src/id3v2lib.c:118-128 / 152-164: the file is opened for writing, which empties it, and the temporary file is copied to
it. If it cannot be opened, `putc` or `fclose` gets NULL. -/
def copyBack (e : WriteFaults) (file : File) (temp : Bytes) : File × Res Unit :=
  if e.dest then
    (some (land e.destLost 0 (e.temp.deliver (if e.temp.seeks then temp else []))), .ok ())
  else (file, .ub .nullDeref)

/-- src/id3v2lib.c:86-88 -/
def existingTagSize_io [Platform] (e : ReadFaults) (file : File) : Res Int := do
  match ← ID3v2_read_tag_header_io e file with
  | none => return 0
  | some h => return toInt32 (u32 (h.tag_size + 10))

/-- src/id3v2lib.c:86-105 up to the call of `tmpfile`: the size of the old tag, the new tag, its bytes. -/
def write_prepare [Platform] (e : ReadFaults) (file : File) (tag : Tag) : Res (Int × Tag × Bytes) := do
  let original_size ← existingTagSize_io e file
  let extra_padding_length := clamp_int (← ck (2048 - tag.padding_size)) 0 2048
  let tag := { tag with padding_size := ← ck (tag.padding_size + extra_padding_length) }
  let tag_cs ← Tag_to_char_stream tag
  let temp ← memcpySrc tag_cs.stream tag_cs.size
  return (original_size, tag, temp)

/-- src/id3v2lib.c:82-131 `ID3v2_write_tag`: the file at the end, and how the function ends. -/
def ID3v2_write_tag_io [Platform] (e : WriteFaults) (file : File) (tag : Tag) : File × Res Tag :=
  match write_prepare e.header file tag with
  | .ub k => (file, .ub k)
  | .exit => (file, .exit)
  | .diverge => (file, .diverge)
  | .ok (original_size, tag, bytes) =>
    -- line 105: `fwrite` to NULL
    if ¬ e.tmp then (file, .ub .nullDeref)
    else
      match e.source.open file with
      -- line 109: `fseek` on NULL
      | none => (file, .ub .nullDeref)
      | some contents =>
        let rest := e.source.deliver (contents.drop (if e.source.seeks then original_size.toNat else 0))
        let (file', r) := copyBack e file (land e.tmpLost 0 (bytes ++ rest))
        (file', r >>= fun _ => .ok tag)

/-- src/id3v2lib.c:133-165 `ID3v2_delete_tag`: the file at the end, and how the function ends. Without a temporary file the
first `putc` crashes (line 148); if there is nothing to copy, the `fseek` after the file was emptied (line 154). -/
def ID3v2_delete_tag_io [Platform] (e : WriteFaults) (file : File) : File × Res Unit :=
  match ID3v2_read_tag_header_io e.header file with
  | .ub k => (file, .ub k)
  | .exit => (file, .exit)
  | .diverge => (file, .diverge)
  | .ok none => (file, .ok ())
  | .ok (some tag_header) =>
    match e.source.open file with
    -- line 142: `fseek` on NULL
    | none => (file, .ub .nullDeref)
    | some contents =>
      let rest := e.source.deliver (contents.drop (if e.source.seeks then u32 (tag_header.tag_size + 10) else 0))
      if e.tmp then copyBack e file (land e.tmpLost 0 rest)
      else if rest = [] ∧ e.dest then (some [], .ub .nullDeref)
      else (file, .ub .nullDeref)

end Id3
