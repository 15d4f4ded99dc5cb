import Verif.Model.TagHeader

/-!
# Model of src/modules/frame_header.c
-/

namespace Id3

/-- include/modules/frame_header.h:18-23 `ID3v2_FrameHeader`. -/
structure FrameHeader where
  /-- `char id[4]` -/
  id : Bytes
  /-- `int size` -/
  size : Int
  /-- `char flags[2]` -/
  flags : Bytes
deriving DecidableEq, Repr

/-- src/modules/frame_header.c:20-29 `FrameHeader_new`. -/
def FrameHeader_new (id flags : Bytes) (size : Int) : Res FrameHeader := do
  let i ← memcpySrc id 4
  let f ← memcpySrc flags 2
  return { id := i, size := size, flags := f }

/-- src/modules/frame_header.c:31-58 `FrameHeader_parse`. `none` is NULL: the id is four zero bytes (padding). -/
def FrameHeader_parse [Platform] (header_cs : CharStream) (id3_major_version : UInt8) :
    Res (Option FrameHeader × CharStream) := do
  let (d, cs) ← CharStream_read header_cs 4
  let id := intoArray 4 d
  if ← memcmpEq id [0, 0, 0, 0] then
    let cs ← CharStream_seek cs (-4) .cur
    return (none, cs)
  let (p, cs) ← CharStream_slice cs 4
  let size ← btoi p 4
  let size := if id3_major_version = 4 then syncint_decode size else size
  let (d, cs) ← CharStream_read cs 2
  let flags := intoArray 2 d
  let h ← FrameHeader_new id flags size.toInt
  return (some h, cs)

/-- src/modules/frame_header.c:60-71 `FrameHeader_to_char_stream`. -/
def FrameHeader_to_char_stream (header : FrameHeader) : Res CharStream := do
  let cs := CharStream_new 10
  let cs ← CharStream_write cs header.id 4
  let cs ← CharStream_write cs (ofB (itob (BitVec.ofInt 32 header.size))) 4
  CharStream_write cs header.flags 2

/-- `header->id[0] == c` -/
def idStartsWith (header : FrameHeader) (c : UInt8) : Res Bool :=
  match header.id with
  | [] => .ub .oobRead
  | b :: _ => do
    let v ← load b
    return v == c

/-- src/modules/frame_header.c:73-76 `FrameHeader_isTextFrame`. -/
def FrameHeader_isTextFrame (h : FrameHeader) : Res Bool := idStartsWith h 0x54

/-- src/modules/frame_header.c:78-81 `FrameHeader_isCommentFrame`. -/
def FrameHeader_isCommentFrame (h : FrameHeader) : Res Bool := idStartsWith h 0x43

/-- src/modules/frame_header.c:83-86 `FrameHeader_isApicFrame`. -/
def FrameHeader_isApicFrame (h : FrameHeader) : Res Bool := idStartsWith h 0x41

end Id3
