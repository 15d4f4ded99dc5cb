import Verif.Model.World
import Verif.Thread.Program

/-!
# Model of the functions with a file name, with the file system, the heap, and memory that can run out

`Verif/Model/World.lean` has these functions with their I/O operations, and `Verif/Thread/Program.lean` has what they do on
the heap. Here both are put together, in the order of the C code, and every `malloc` and `calloc` may fail.

The code looks at the result of `malloc` in one place only (src/id3v2lib.c:53-61). Everywhere else it stores something in the
block next, through the NULL pointer, so that a failure is undefined behaviour (`UB.nullDeref`) at that point. Simplification:
this is so for blocks of length zero, too (where the code calls `memcpy` with NULL and length zero, which is undefined
according to the C standard), and the store counts as part of the allocation, as in `Verif/Heap`.
-/

namespace Id3

/-- The file system and the streams, the heap, the number of blocks that were asked for so far, and whether one of them
could not be had. -/
structure Machine where
  sys : Sys
  heap : Heap
  requests : Nat
  short : Bool

/-- Which requests for memory fail. -/
abbrev Lack := Nat → Bool

/-- A C function that does I/O and uses the heap. -/
def MIO (α : Type) := Faults → Lack → Machine → Machine × Res α

namespace MIO

/-- Continue unless the program has ended. -/
def bind {α β : Type} (m : MIO α) (f : α → MIO β) : MIO β := fun e a s =>
  match m e a s with
  | (s', .ok x) => f x e a s'
  | (s', .ub k) => (s', .ub k)
  | (s', .exit) => (s', .exit)
  | (s', .diverge) => (s', .diverge)

instance : Monad MIO where
  pure x := fun _ _ s => (s, .ok x)
  bind := MIO.bind

end MIO

/-- An I/O operation. -/
def io {α : Type} (m : CIO α) : MIO α := fun e _ s =>
  match m e s.sys with
  | (w, r) => ({ s with sys := w }, r)

/-- Something that is done with the heap, other than `malloc`. -/
def onHeap {α : Type} (x : HeapM α) : MIO α := fun _ _ s =>
  match x s.heap with
  | .ok (y, h) => ({ s with heap := h }, .ok y)
  | .ub k => (s, .ub k)
  | .exit => (s, .exit)
  | .diverge => (s, .diverge)

/-- Memory is asked for: is there enough? -/
def request : MIO Bool := fun _ a s =>
  ({ s with requests := s.requests + 1, short := s.short || a s.requests }, .ok (!a s.requests))

/-- Something does not work out for lack of memory. -/
def runShort : MIO Unit := fun _ _ s => ({ s with short := true }, .ok ())

/-- The NULL pointer is followed. -/
def crash {α : Type} : MIO α := fun _ _ s => (s, .ub .nullDeref)

/-- The accesses of a program to the heap; each `malloc` may fail, and its result is not looked at. -/
def inMemory {α : Type} : Prog α → MIO α
  | .ret x => pure x
  | .ub k => onHeap (lift (.ub k))
  | .exit => onHeap (lift .exit)
  | .hang => onHeap hang
  | .malloc c k => do
    if ← request then
      let b ← onHeap (malloc c)
      inMemory (k b)
    else crash
  | .free b k => do onHeap (free (some b)); inMemory k
  | .load b k => do
    let c ← onHeap (loadCell (some b))
    inMemory (k c)
  | .store b c k => do onHeap (storeCell (some b) c); inMemory k
  | .fuel k => do
    let n ← onHeap heapFuel
    inMemory (k n)

/-- src/id3v2lib.c:53, the `malloc` whose result is looked at; `Verif/Model/World.lean` counts it as an operation, too. -/
def mallocChecked : MIO Ptr := do
  if ← io attempt then
    if ← request then
      let b ← onHeap (malloc (.bytes []))
      return some b
    else return none
  else
    runShort
    return none

/-- src/id3v2lib.c:22-35 `ID3v2_read_tag_header`. -/
def ID3v2_read_tag_header_mem [Platform] (file_name : Name) : MIO Ptr := do
  match ← io (fopen_existing file_name) with
  | none => return none
  | some fp =>
    let tag_header_buffer ← io (fread 10 (some fp))
    io (fclose (some fp))
    if tag_header_buffer.length < 10 then return none
    else inMemory (T.ID3v2_read_tag_header_from_buffer (.literal tag_header_buffer))

/-- src/id3v2lib.c:45-72 `ID3v2_read_tag`. -/
def ID3v2_read_tag_mem [Platform] (file_name : Name) : MIO Ptr := do
  match ← ID3v2_read_tag_header_mem file_name with
  | none => return none
  | some tag_header =>
    let file ← io (fopen_existing file_name)
    let h ← inMemory (T.loadTagHeader (some tag_header))
    let buffer_length := toInt32 (u32 (h.tag_size + 10))
    match ← mallocChecked with
    | none =>
      io (fclose file)
      inMemory (T.free (some tag_header))
      return none
    | some tag_buffer =>
      let data ← io (fread buffer_length.toNat file)
      inMemory (T.storeCell (some tag_buffer) (.bytes (intoArray buffer_length data)))
      io (fclose file)
      let tag ← inMemory (T.ID3v2_read_tag_from_buffer (.block tag_buffer) buffer_length)
      inMemory (T.free (some tag_buffer))
      inMemory (T.free (some tag_header))
      return tag

/-- src/id3v2lib.c:86-89: the size of the tag in the file; its header is freed. -/
def existingTagSize_mem [Platform] (file_name : Name) : MIO Int := do
  match ← ID3v2_read_tag_header_mem file_name with
  | none => return 0
  | some p =>
    let h ← inMemory (T.loadTagHeader (some p))
    inMemory (T.free (some p))
    return toInt32 (u32 (h.tag_size + 10))

/-- src/id3v2lib.c:82-131 `ID3v2_write_tag` for a tag that is not NULL. -/
def ID3v2_write_tag_mem [Platform] (file_name : Name) (tag : Nat) : MIO Unit := do
  let original_size ← existingTagSize_mem file_name
  let t ← inMemory (T.loadTag (some tag))
  let extra_padding_length := clamp_int (← io (pureRes (ck (2048 - t.padding_size)))) 0 2048
  let padding_size ← io (pureRes (ck (t.padding_size + extra_padding_length)))
  inMemory (T.storeCell (some tag) (.tag t.header t.frames padding_size))
  let (tag_cs, cs) ← inMemory (T.Tag_to_char_stream tag)
  let temp_fp ← io tmpfile
  let bytes ← io (pureRes (memcpySrc cs.stream cs.size))
  io (fwrite bytes temp_fp)
  let dest_fp ← io (fopen_existing file_name)
  io (fseek dest_fp original_size)
  io (copyLoop dest_fp temp_fp)
  io (fclose dest_fp)
  let dest_fp ← io (fopen_truncate file_name)
  io (fseek temp_fp 0)
  io (copyLoop temp_fp dest_fp)
  io (fclose temp_fp)
  io (fclose dest_fp)
  inMemory (T.CharStream_free tag_cs)

/-- src/id3v2lib.c:133-165 `ID3v2_delete_tag`. -/
def ID3v2_delete_tag_mem [Platform] (file_name : Name) : MIO Unit := do
  match ← ID3v2_read_tag_header_mem file_name with
  | none => return ()
  | some tag_header =>
    let file_fp ← io (fopen_existing file_name)
    let temp_fp ← io tmpfile
    let h ← inMemory (T.loadTagHeader (some tag_header))
    io (fseek file_fp (u32 (h.tag_size + 10)))
    io (copyLoop file_fp temp_fp)
    io (fclose file_fp)
    let file_fp ← io (fopen_truncate file_name)
    io (fseek temp_fp 0)
    io (copyLoop temp_fp file_fp)
    inMemory (T.free (some tag_header))
    io (fclose temp_fp)
    io (fclose file_fp)

/-- src/id3v2lib.compat.c:126-141 `load_tag`; `malloc` (line 131) is not checked. -/
def load_tag_mem [Platform] (file_name : Name) : MIO Nat := do
  let header ← ID3v2_read_tag_header_mem file_name
  let fp ← io (fopen_existing file_name)
  match header with
  | none => crash
  | some header =>
    let h ← inMemory (T.loadTagHeader (some header))
    let buffer_size := toInt32 (u32 (h.tag_size + 10))
    let buffer ← inMemory (T.malloc (.bytes []))
    let data ← io (fread buffer_size.toNat fp)
    inMemory (T.storeCell (some buffer) (.bytes (intoArray buffer_size data)))
    io (fclose fp)
    let tag ← inMemory (T.load_tag_with_buffer (.block buffer) buffer_size)
    inMemory (T.free (some buffer))
    inMemory (T.free (some header))
    return tag

/-- src/id3v2lib.compat.c:181-184 `remove_tag`. -/
def remove_tag_mem [Platform] (file_name : Name) : MIO Unit := ID3v2_delete_tag_mem file_name

/-- src/id3v2lib.compat.c:186-189 `set_tag`. -/
def set_tag_mem [Platform] (file_name : Name) (tag : Nat) : MIO Unit := do
  ID3v2_write_tag_mem file_name (← inMemory (T.tagOf tag))

/-- src/id3v2lib.compat.c:417-438 `tag_set_album_cover`; `malloc` (line 428) is not checked, and fails for the size -1. -/
def tag_set_album_cover_mem [Platform] (filename : Name) (tag : Nat) : MIO Unit := do
  let album_cover ← io (fopen_existing filename)
  io (fseek_end album_cover)
  let position ← io (ftell album_cover)
  let image_size ← io (pureRes (ck position))
  io (fseek album_cover 0)
  if image_size < 0 then crash
  else
    let album_cover_bytes ← inMemory (T.malloc (.bytes []))
    let data ← io (fread image_size.toNat album_cover)
    inMemory (T.storeCell (some album_cover_bytes) (.bytes (intoArray image_size data)))
    io (fclose album_cover)
    match afterLastDot filename with
    | none => crash
    | some ext =>
      let mimetype :=
        if ext = [0x70, 0x6E, 0x67] then lit [0x69, 0x6D, 0x61, 0x67, 0x65, 0x2F, 0x70, 0x6E, 0x67]
        else lit [0x69, 0x6D, 0x61, 0x67, 0x65, 0x2F, 0x6A, 0x70, 0x65, 0x67]
      inMemory (T.tag_set_album_cover_from_bytes (.block album_cover_bytes) (.literal mimetype) image_size tag)
      inMemory (T.free (some album_cover_bytes))

end Id3
