import Verif.Model.Utils

/-!
# Model of src/modules/char_stream.c
-/

namespace Id3

/-- src/modules/char_stream.private.h:13-18. -/
structure CharStream where
  stream : Bytes
  cursor : Int
  size : Int
deriving DecidableEq, Repr

/-- `whence` argument of `CharStream_seek` (only SEEK_SET and SEEK_CUR are used by the library). -/
inductive Whence where
  | set
  | cur
  | end_

/-- src/modules/char_stream.c:18-25 `CharStream_new`: `calloc` gives zero bytes. For a negative size `calloc` is asked
for more than the address space and returns NULL; the model gives an empty object, so that every access fails. -/
def CharStream_new (size : Int) : CharStream :=
  { stream := List.replicate size.toNat (some 0), cursor := 0, size := size }

/-- src/modules/char_stream.c:27-35 `CharStream_from_buffer`. -/
def CharStream_from_buffer (buffer : Bytes) (size : Int) : Res CharStream := do
  let data ← memcpySrc buffer size
  return { stream := data, cursor := 0, size := size }

/-- src/modules/char_stream.c:37-40 `CharStream_get_cur`; forming a pointer outside the object is undefined. -/
def CharStream_get_cur (cs : CharStream) : Res Bytes :=
  if 0 ≤ cs.cursor ∧ cs.cursor ≤ cs.stream.length then .ok (cs.stream.drop cs.cursor.toNat)
  else .ub .oobRead

/-- src/modules/char_stream.c:42-46 `CharStream_write`: an unchecked `memcpy` to the cursor. -/
def CharStream_write (cs : CharStream) (data : Bytes) (size : Int) : Res CharStream := do
  let dst ← CharStream_get_cur cs
  let src ← memcpySrc data size
  if (dst.length : Int) < size then .ub .oobWrite
  else
    let c := cs.cursor.toNat
    let cursor ← ck (cs.cursor + size)
    return { cs with stream := cs.stream.take c ++ src ++ cs.stream.drop (c + src.length), cursor := cursor }

/-- src/modules/char_stream.c:48-54 `CharStream_read`: the bytes copied to the start of `dest` and the new stream.
`dest` has room for `size` bytes at every call in the library. -/
def CharStream_read (cs : CharStream) (size : Int) : Res (Bytes × CharStream) := do
  let final_size := clamp_int size 0 (cs.size - cs.cursor)
  let p ← CharStream_get_cur cs
  let data ← memcpySrc p final_size
  return (data, { cs with cursor := cs.cursor + final_size })

/-- src/modules/char_stream.c:56-62 `CharStream_getc`; `EOF` is -1. -/
def CharStream_getc [Platform] (cs : CharStream) : Res (Int × CharStream) :=
  if cs.cursor ≥ cs.size then .ok (-1, cs)
  else do
    match ← CharStream_get_cur cs with
    | [] => .ub .oobRead
    | b :: _ =>
      let v ← load b
      return (charToInt v, { cs with cursor := cs.cursor + 1 })

/-- src/modules/char_stream.c:64-69 `CharStream_slice`: the pointer before the move; no bounds check. -/
def CharStream_slice (cs : CharStream) (n : Int) : Res (Bytes × CharStream) := do
  let result ← CharStream_get_cur cs
  let cursor ← ck (cs.cursor + n)
  return (result, { cs with cursor := cursor })

/-- src/modules/char_stream.c:71-85 `CharStream_seek`. -/
def CharStream_seek (cs : CharStream) (offset : Int) (whence : Whence) : Res CharStream :=
  match whence with
  | .set => .ok { cs with cursor := offset }
  | .cur => do
    let t ← ck (cs.cursor + offset)
    return { cs with cursor := clamp_int t 0 cs.size }
  | .end_ => do
    let t ← ck (cs.size + offset)
    return { cs with cursor := clamp_int t 0 cs.size }

end Id3
