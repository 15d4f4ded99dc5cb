import Verif.Model.Lib

/-!
# Writing on targets of either byte order

`itob` (src/modules/utils.c:95-109) is the only function of the library that looks at the bytes of an integer in memory. It
reverses them, "because Intel uses little endian". Here it is modelled for both byte orders, and with it every function on
the way from there to the file. The functions that read use shifts (`btoi`, `syncint_decode`) and have no byte order.
-/

namespace Id3

/-- The order of the bytes of an integer in the memory of the target. -/
inductive ByteOrder where
  | little
  | big
deriving DecidableEq, Repr

/-- The four bytes of an `int` in memory, as `(char*) &integer` shows them (utils.c:101). -/
def intBytes (o : ByteOrder) (integer : BitVec 32) : List UInt8 :=
  let byte (i : Nat) : UInt8 := UInt8.ofBitVec ((integer >>> (8 * i)).setWidth 8)
  match o with
  | .little => [byte 0, byte 1, byte 2, byte 3]
  | .big => [byte 3, byte 2, byte 1, byte 0]

/-- src/modules/utils.c:95-109 `itob`: `result[3 - i] = aux[i]` for i = 3 .. 0. -/
def itobOn (o : ByteOrder) (integer : BitVec 32) : List UInt8 := (intBytes o integer).reverse

/-- src/modules/frame_header.c:60-71 `FrameHeader_to_char_stream`. -/
def FrameHeader_to_char_streamOn (o : ByteOrder) (header : FrameHeader) : Res CharStream := do
  let cs := CharStream_new 10
  let cs ← CharStream_write cs header.id 4
  let cs ← CharStream_write cs (ofB (itobOn o (BitVec.ofInt 32 header.size))) 4
  CharStream_write cs header.flags 2

/-- src/modules/frames/text_frame.c:50-66 `TextFrame_to_char_stream`. -/
def TextFrame_to_char_streamOn (o : ByteOrder) (header : FrameHeader) (data : TextFrameData) : Res CharStream := do
  let frame_header_cs ← FrameHeader_to_char_streamOn o header
  let cs := CharStream_new (← ck (header.size + 10))
  let cs ← CharStream_write cs frame_header_cs.stream frame_header_cs.size
  let cs ← CharStream_write cs [some data.encoding] 1
  CharStream_write cs data.text data.size

/-- src/modules/frames/comment_frame.c:66-88 `CommentFrame_to_char_stream`. -/
def CommentFrame_to_char_streamOn [Platform] (o : ByteOrder) (header : FrameHeader) (data : CommentFrameData) :
    Res CharStream := do
  let frame_header_cs ← FrameHeader_to_char_streamOn o header
  let cs := CharStream_new (← ck (header.size + 10))
  let cs ← CharStream_write cs frame_header_cs.stream frame_header_cs.size
  let cs ← CharStream_write cs [some data.encoding] 1
  let cs ← CharStream_write cs data.language 3
  let cs ← CharStream_write cs data.short_description (← ID3v2_strlent data.short_description)
  CharStream_write cs data.comment data.size

/-- src/modules/frames/apic_frame.c:76-95 `ApicFrame_to_char_stream`. -/
def ApicFrame_to_char_streamOn [Platform] (o : ByteOrder) (header : FrameHeader) (data : ApicFrameData) :
    Res CharStream := do
  let frame_header_cs ← FrameHeader_to_char_streamOn o header
  let cs := CharStream_new (← ck (header.size + 10))
  let cs ← CharStream_write cs frame_header_cs.stream frame_header_cs.size
  let cs ← CharStream_write cs [some data.encoding] 1
  let cs ← CharStream_write cs data.mime_type (← ID3v2_strlent data.mime_type)
  let cs ← CharStream_write cs [some data.picture_type] 1
  let cs ← CharStream_write cs data.description (← ID3v2_strlent data.description)
  CharStream_write cs data.data data.picture_size

/-- src/modules/frame.c:59-84 `Frame_to_char_stream`. -/
def Frame_to_char_streamOn [Platform] (o : ByteOrder) (frame : Frame) : Res CharStream := do
  if ← FrameHeader_isTextFrame frame.header then
    match frame.data with
    | .text d => TextFrame_to_char_streamOn o frame.header d
    | _ => .ub .typeConfusion
  else if ← FrameHeader_isCommentFrame frame.header then
    match frame.data with
    | .comment d => CommentFrame_to_char_streamOn o frame.header d
    | _ => .ub .typeConfusion
  else if ← FrameHeader_isApicFrame frame.header then
    match frame.data with
    | .apic d => ApicFrame_to_char_streamOn o frame.header d
    | _ => .ub .typeConfusion
  else
    match frame.data with
    | .raw d =>
      let cs := CharStream_new (← ck (frame.header.size + 10))
      let header_cs ← FrameHeader_to_char_streamOn o frame.header
      let cs ← CharStream_write cs header_cs.stream 10
      CharStream_write cs d frame.header.size
    | _ => .ub .typeConfusion

/-- src/modules/tag.c:93-103, the loop of `Tag_to_char_stream`. -/
def Tag_write_framesOn [Platform] (o : ByteOrder) (cs : CharStream) (frames : FrameList) : Res CharStream :=
  match frames with
  | [] => .ok cs
  | none :: _ => .exit
  | some f :: rest => do
    let frame_cs ← Frame_to_char_streamOn o f
    let cs ← CharStream_write cs frame_cs.stream frame_cs.size
    Tag_write_framesOn o cs rest

/-- src/modules/tag.c:70-106 `Tag_to_char_stream`. -/
def Tag_to_char_streamOn [Platform] (o : ByteOrder) (tag : Tag) : Res CharStream := do
  let cs := CharStream_new (toInt32 (u32 (tag.header.tag_size + 10)))
  let cs ← CharStream_write cs tag.header.identifier 3
  let cs ← CharStream_write cs [some tag.header.major_version] 1
  let cs ← CharStream_write cs [some tag.header.minor_version] 1
  let cs ← CharStream_write cs [some tag.header.flags] 1
  let size_bytes := itobOn o (← syncint_encode (BitVec.ofNat 32 tag.header.tag_size))
  let cs ← CharStream_write cs (ofB size_bytes) 4
  match tag.frames with
  | [] => .ub .nullDeref
  | none :: _ => return cs
  | frames => Tag_write_framesOn o cs frames

/-- src/id3v2lib.c:82-131 `ID3v2_write_tag`. -/
def ID3v2_write_tagOn [Platform] (o : ByteOrder) (file : File) (tag : Tag) : Res (File × Tag) := do
  let original_size ← existingTagSize file
  let extra_padding_length := clamp_int (← ck (2048 - tag.padding_size)) 0 2048
  let tag := { tag with padding_size := ← ck (tag.padding_size + extra_padding_length) }
  let tag_cs ← Tag_to_char_streamOn o tag
  let temp ← memcpySrc tag_cs.stream tag_cs.size
  match file with
  | none => .ub .nullDeref
  | some contents => return (some (temp ++ contents.drop original_size.toNat), tag)

end Id3
