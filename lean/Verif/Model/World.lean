import Verif.Model.Compat

/-!
# Model of src/id3v2lib.c and of the file functions of src/id3v2lib.compat.c on the level of stdio

`Verif/Model/Lib.lean` and `Verif/Model/Fault.lean` describe the effect of a function on one file. Here the functions are
programs, line by line, that call `fopen`, `fread`, `getc`, … on a file system with many files and a table of open streams.
Every operation may fail; `Faults` says which ones do. Simplifications: a stream has one position; the bytes written by
`putc` reach the file at once or (if the operation fails) never; the failure of a later flush is the failure of the `putc`s
whose bytes it loses; `fclose` closes the stream in any case.
-/

namespace Id3

/-- Names of files. -/
abbrev Name := List UInt8

/-- An open stream: of a file with a name, or of a temporary file, which has no name and disappears with its stream. -/
inductive Stream where
  | named (name : Name) (pos : Nat)
  | temp (contents : Bytes) (pos : Nat)

/-- The file system, the open streams, the number of streams that were opened so far and of the operations so far. -/
structure Sys where
  files : Name → File
  streams : Nat → Option Stream
  next : Nat
  time : Nat

/-- Which operations fail. -/
abbrev Faults := Nat → Bool

/-- A C function that does I/O. -/
def CIO (α : Type) := Faults → Sys → Sys × Res α

namespace CIO

/-- Continue unless the program has ended. -/
def bind {α β : Type} (m : CIO α) (f : α → CIO β) : CIO β := fun e w =>
  match m e w with
  | (w', .ok a) => f a e w'
  | (w', .ub k) => (w', .ub k)
  | (w', .exit) => (w', .exit)
  | (w', .diverge) => (w', .diverge)

instance : Monad CIO where
  pure a := fun _ w => (w, .ok a)
  bind := CIO.bind

end CIO

/-- A computation without I/O. -/
def pureRes {α : Type} (r : Res α) : CIO α := fun _ w => (w, r)

/-- A table with one entry changed. -/
def upd {α β : Type} [DecidableEq α] (f : α → β) (a : α) (b : β) : α → β := fun i => if i = a then b else f i

/-- An operation begins: does it succeed? -/
def attempt : CIO Bool := fun e w => ({ w with time := w.time + 1 }, .ok (!e w.time))

/-- A new stream. -/
def newStream (s : Stream) : CIO (Option Nat) := fun _ w =>
  ({ w with streams := upd w.streams w.next (some s), next := w.next + 1 }, .ok (some w.next))

/-- The file with this name. -/
def fileNamed (name : Name) : CIO File := fun _ w => (w, .ok (w.files name))

/-- Change the file with this name. -/
def setFile (name : Name) (contents : Bytes) : CIO Unit := fun _ w =>
  ({ w with files := upd w.files name (some contents) }, .ok ())

/-- `fopen(name, "rb")` and `fopen(name, "r+b")` (src/id3v2lib.c:24, 51, 107, 139, src/id3v2lib.compat.c:129, 419):
NULL if there is no such file. -/
def fopen_existing (name : Name) : CIO (Option Nat) := do
  if ← attempt then
    match ← fileNamed name with
    | none => return none
    | some _ => newStream (.named name 0)
  else return none

/-- `fopen(name, "w+b")` (src/id3v2lib.c:119, 153): the file is created or emptied. -/
def fopen_truncate (name : Name) : CIO (Option Nat) := do
  if ← attempt then
    setFile name []
    newStream (.named name 0)
  else return none

/-- `tmpfile()` (src/id3v2lib.c:100, 140). -/
def tmpfile : CIO (Option Nat) := do
  if ← attempt then newStream (.temp [] 0) else return none

/-- The stream a `FILE*` points to. -/
def stream (fp : Option Nat) : CIO (Nat × Stream) := fun _ w =>
  match fp with
  | none => (w, .ub .nullDeref)
  | some h =>
    match w.streams h with
    | none => (w, .ub .useAfterFree)
    | some s => (w, .ok (h, s))

/-- Change a stream. -/
def setStream (h : Nat) (s : Option Stream) : CIO Unit := fun _ w =>
  ({ w with streams := upd w.streams h s }, .ok ())

/-- `fclose(fp)` (src/id3v2lib.c:30, 58, 64, 118, 127, 128, 152, 163, 164, src/id3v2lib.compat.c:133, 431). -/
def fclose (fp : Option Nat) : CIO Unit := do
  let (h, _) ← stream fp
  setStream h none

/-- `fseek(fp, pos, SEEK_SET)` (src/id3v2lib.c:108, 120, 142, 154, src/id3v2lib.compat.c:426): the position does not
change if it fails; it fails for negative positions. -/
def fseek (fp : Option Nat) (pos : Int) : CIO Unit := do
  let (h, s) ← stream fp
  if ← attempt then
    if pos < 0 then return ()
    else
      match s with
      | .named n _ => setStream h (some (.named n pos.toNat))
      | .temp c _ => setStream h (some (.temp c pos.toNat))
  else return ()

/-- `fseek(fp, 0, SEEK_END)` (src/id3v2lib.compat.c:424). -/
def fseek_end (fp : Option Nat) : CIO Unit := do
  let (h, s) ← stream fp
  if ← attempt then
    match s with
    | .named n _ => setStream h (some (.named n ((← fileNamed n).getD []).length))
    | .temp c _ => setStream h (some (.temp c c.length))
  else return ()

/-- `ftell(fp)` (src/id3v2lib.compat.c:425): -1 if it fails. -/
def ftell (fp : Option Nat) : CIO Int := do
  let (_, s) ← stream fp
  if ← attempt then
    match s with
    | .named _ p => return p
    | .temp _ p => return p
  else return -1

/-- `getc(fp)` (src/id3v2lib.c:112, 122, 146, 156): `none` is EOF. -/
def getc (fp : Option Nat) : CIO (Option MByte) := do
  let (h, s) ← stream fp
  if ← attempt then
    match s with
    | .named n p =>
      match ((← fileNamed n).getD [])[p]? with
      | none => return none
      | some b => setStream h (some (.named n (p + 1))); return some b
    | .temp c p =>
      match c[p]? with
      | none => return none
      | some b => setStream h (some (.temp c (p + 1))); return some b
  else return none

/-- The contents of a file after a byte was written at a position (a gap is filled with zeros). -/
def poke (c : Bytes) (p : Nat) (b : MByte) : Bytes :=
  c.take p ++ List.replicate (p - c.length) (some 0) ++ b :: c.drop (p + 1)

/-- `putc(b, fp)` (src/id3v2lib.c:114, 124, 148, 158). -/
def putc (b : MByte) (fp : Option Nat) : CIO Unit := do
  let (h, s) ← stream fp
  if ← attempt then
    match s with
    | .named n p =>
      setFile n (poke ((← fileNamed n).getD []) p b)
      setStream h (some (.named n (p + 1)))
    | .temp c p => setStream h (some (.temp (poke c p b) (p + 1)))
  else return ()

/-- `fread(buffer, 1, n, fp)` (src/id3v2lib.c:29, 63, src/id3v2lib.compat.c:132, 429): the bytes that are read, as by
`getc` until EOF (C11 7.21.8.1). -/
def fread (n : Nat) (fp : Option Nat) : CIO Bytes := do
  match n with
  | 0 => return []
  | n + 1 =>
    match ← getc fp with
    | none => return []
    | some b => return b :: (← fread n fp)

/-- `fwrite(data, 1, n, fp)` (src/id3v2lib.c:103), as by `putc` (C11 7.21.8.2). It is undefined on NULL even if there
is nothing to write. -/
def fwrite (data : Bytes) (fp : Option Nat) : CIO Unit := do
  match data with
  | [] => let _ ← stream fp
  | b :: data => putc b fp; fwrite data fp

/-- `while ((c = getc(from)) != EOF) putc(c, to);` (src/id3v2lib.c:112-115, 122-125, 146-149, 156-159) for at most so
many rounds. -/
def copyRounds (n : Nat) (source dest : Option Nat) : CIO Unit := do
  match n with
  | 0 => pureRes .diverge
  | n + 1 =>
    match ← getc source with
    | none => return ()
    | some c => putc c dest; copyRounds n source dest

/-- Number of bytes that a stream can still deliver. -/
def bytesLeft (fp : Option Nat) : CIO Nat := fun _ w =>
  (w, .ok (match fp.bind w.streams with
    | none => 0
    | some (.named n p) => ((w.files n).getD []).length - p
    | some (.temp c p) => c.length - p))

/-- The loop; it is shown that it ends within that many rounds. -/
def copyLoop (source dest : Option Nat) : CIO Unit := do
  copyRounds ((← bytesLeft source) + 1) source dest

/-- src/id3v2lib.c:22-35 `ID3v2_read_tag_header`. -/
def ID3v2_read_tag_header_os [Platform] (file_name : Name) : CIO (Option TagHeader) := do
  match ← fopen_existing file_name with
  | none => return none
  | some fp =>
    let tag_header_buffer ← fread 10 (some fp)
    fclose (some fp)
    if tag_header_buffer.length < 10 then return none
    else pureRes (ID3v2_read_tag_header_from_buffer tag_header_buffer)

/-- src/id3v2lib.c:45-72 `ID3v2_read_tag`. `malloc` (line 53) may fail; the bytes that `fread` does not reach are
indeterminate. -/
def ID3v2_read_tag_os [Platform] (file_name : Name) : CIO (Option Tag) := do
  match ← ID3v2_read_tag_header_os file_name with
  | none => return none
  | some tag_header =>
    let file ← fopen_existing file_name
    let buffer_length := toInt32 (u32 (tag_header.tag_size + 10))
    if ← attempt then
      let data ← fread buffer_length.toNat file
      fclose file
      pureRes (ID3v2_read_tag_from_buffer (intoArray buffer_length data) buffer_length)
    else
      fclose file
      return none

/-- src/id3v2lib.c:87-88: the number of bytes of the existing tag in the file. -/
def originalSize (existing_tag_header : Option TagHeader) : Int :=
  match existing_tag_header with
  | none => 0
  | some h => toInt32 (u32 (h.tag_size + 10))

/-- src/id3v2lib.c:82-131 `ID3v2_write_tag`; the result is the tag with its new padding size. -/
def ID3v2_write_tag_os [Platform] (file_name : Name) (tag : Tag) : CIO Tag := do
  let existing_tag_header ← ID3v2_read_tag_header_os file_name
  let original_size := originalSize existing_tag_header
  let extra_padding_length := clamp_int (← pureRes (ck (2048 - tag.padding_size))) 0 2048
  let padding_size ← pureRes (ck (tag.padding_size + extra_padding_length))
  let tag := { tag with padding_size := padding_size }
  let tag_cs ← pureRes (Tag_to_char_stream tag)
  let temp_fp ← tmpfile
  let bytes ← pureRes (memcpySrc tag_cs.stream tag_cs.size)
  fwrite bytes temp_fp
  let dest_fp ← fopen_existing file_name
  fseek dest_fp original_size
  copyLoop dest_fp temp_fp
  fclose dest_fp
  let dest_fp ← fopen_truncate file_name
  fseek temp_fp 0
  copyLoop temp_fp dest_fp
  fclose temp_fp
  fclose dest_fp
  return tag

/-- src/id3v2lib.c:133-165 `ID3v2_delete_tag`. -/
def ID3v2_delete_tag_os [Platform] (file_name : Name) : CIO Unit := do
  match ← ID3v2_read_tag_header_os file_name with
  | none => return ()
  | some tag_header =>
    let file_fp ← fopen_existing file_name
    let temp_fp ← tmpfile
    fseek file_fp (u32 (tag_header.tag_size + 10))
    copyLoop file_fp temp_fp
    fclose file_fp
    let file_fp ← fopen_truncate file_name
    fseek temp_fp 0
    copyLoop temp_fp file_fp
    fclose temp_fp
    fclose file_fp

/-- src/id3v2lib.compat.c:126-141 `load_tag`. `malloc` does not fail here (it is not checked). -/
def load_tag_os [Platform] (file_name : Name) : CIO CTag := do
  let header ← ID3v2_read_tag_header_os file_name
  let fp ← fopen_existing file_name
  match header with
  | none => pureRes (.ub .nullDeref)
  | some header =>
    let buffer_size := toInt32 (u32 (header.tag_size + 10))
    let data ← fread buffer_size.toNat fp
    fclose fp
    pureRes (load_tag_with_buffer (intoArray buffer_size data) buffer_size)

/-- src/id3v2lib.compat.c:181-184 `remove_tag`. -/
def remove_tag_os [Platform] (file_name : Name) : CIO Unit := ID3v2_delete_tag_os file_name

/-- src/id3v2lib.compat.c:186-189 `set_tag`. -/
def set_tag_os [Platform] (file_name : Name) (tag : CTag) : CIO CTag := do
  let t ← ID3v2_write_tag_os file_name tag.tag
  return { tag with tag := t }

/-- src/id3v2lib.compat.c:417-438 `tag_set_album_cover`. The length must fit an `int` (line 425). If `ftell` fails, the
size
is -1, `malloc` (line 428) returns NULL and `fread` gets a null pointer. -/
def tag_set_album_cover_os [Platform] (filename : Name) (tag : CTag) : CIO CTag := do
  let album_cover ← fopen_existing filename
  fseek_end album_cover
  let position ← ftell album_cover
  let image_size ← pureRes (ck position)
  fseek album_cover 0
  if image_size < 0 then pureRes (.ub .nullDeref)
  else
    let data ← fread image_size.toNat album_cover
    fclose album_cover
    match afterLastDot filename with
    | none => pureRes (.ub .nullDeref)
    | some ext =>
      let mimetype :=
        if ext = [0x70, 0x6E, 0x67] then lit [0x69, 0x6D, 0x61, 0x67, 0x65, 0x2F, 0x70, 0x6E, 0x67]
        else lit [0x69, 0x6D, 0x61, 0x67, 0x65, 0x2F, 0x6A, 0x70, 0x65, 0x67]
      pureRes (tag_set_album_cover_from_bytes (intoArray image_size data) mimetype image_size tag)

end Id3
