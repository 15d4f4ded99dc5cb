import Verif.Model.FrameHeader

/-!
# Model of src/modules/frames/text_frame.c, comment_frame.c, apic_frame.c and src/modules/frame.c

A frame is a header and a payload. The payload is a tagged union: the tag records which struct the `data` pointer of
the C frame really points to, so that a cast to another struct is visible as `UB.typeConfusion`.
-/

namespace Id3

/-- include/modules/frames/text_frame.h:15-20 `ID3v2_TextFrameData`. -/
structure TextFrameData where
  size : Int
  encoding : UInt8
  text : Bytes
deriving DecidableEq, Repr

/-- include/modules/frames/comment_frame.h:17-24 `ID3v2_CommentFrameData`. -/
structure CommentFrameData where
  size : Int
  encoding : UInt8
  language : Bytes
  short_description : Bytes
  comment : Bytes
deriving DecidableEq, Repr

/-- include/modules/frames/apic_frame.h:20-28 `ID3v2_ApicFrameData`. -/
structure ApicFrameData where
  encoding : UInt8
  mime_type : Bytes
  picture_type : UInt8
  description : Bytes
  data : Bytes
  picture_size : Int
deriving DecidableEq, Repr

/-- What the `data` pointer of a frame points to. -/
inductive Payload where
  | text (d : TextFrameData)
  | comment (d : CommentFrameData)
  | apic (d : ApicFrameData)
  /-- frame.c:50-54: a plain buffer -/
  | raw (data : Bytes)
deriving DecidableEq, Repr

/-- include/modules/frame.h:20-24 `ID3v2_Frame` and the three structs of the same shape. -/
structure Frame where
  header : FrameHeader
  data : Payload
deriving DecidableEq, Repr

/-- src/modules/frames/text_frame.c:76-90 `TextFrameData_new`. -/
def TextFrameData_new [Platform] (text : Bytes) : Res TextFrameData := do
  let encoding : UInt8 := if ← string_has_bom text then 1 else 0
  let str_termination_size : Int := if encoding = 0 then 1 else 2
  let size ← ck ((← ID3v2_strlen text) + str_termination_size)
  let t ← memcpySrc text size
  return { size := size, encoding := encoding, text := t }

/-- src/modules/frames/text_frame.c:21-31 `TextFrame_new`. -/
def TextFrame_new [Platform] (id flags text : Bytes) : Res Frame := do
  let data ← TextFrameData_new text
  let frame_size ← ck (1 + data.size)
  let header ← FrameHeader_new id flags frame_size
  return { header := header, data := .text data }

/-- src/modules/frames/text_frame.c:33-48 `TextFrame_parse`. -/
def TextFrame_parse [Platform] (frame_cs : CharStream) (id3_major_version : UInt8) :
    Res (Frame × CharStream) := do
  let (header, cs) ← FrameHeader_parse frame_cs id3_major_version
  let cs ← CharStream_seek cs 1 .cur
  match header with
  | none => .ub .nullDeref
  | some header =>
    let text_size ← ck (header.size - 1)
    vla text_size
    let (d, cs) ← CharStream_read cs text_size
    let text := intoArray text_size d
    let frame ← TextFrame_new header.id header.flags text
    return (frame, cs)

/-- src/modules/frames/text_frame.c:50-66 `TextFrame_to_char_stream` (the frame is not NULL). -/
def TextFrame_to_char_stream (header : FrameHeader) (data : TextFrameData) : Res CharStream := do
  let frame_header_cs ← FrameHeader_to_char_stream header
  let cs := CharStream_new (← ck (header.size + 10))
  let cs ← CharStream_write cs frame_header_cs.stream frame_header_cs.size
  let cs ← CharStream_write cs [some data.encoding] 1
  CharStream_write cs data.text data.size

/-- src/modules/frames/comment_frame.c:99-124 `CommentFrameData_new`. -/
def CommentFrameData_new [Platform] (lang short_desc comment : Bytes) : Res CommentFrameData := do
  let encoding : UInt8 := if ← string_has_bom comment then 1 else 0
  let comment_size ← ID3v2_strlent comment
  let short_desc_size ← ID3v2_strlent short_desc
  let l ← memcpySrc lang 3
  let c ← memcpySrc comment comment_size
  let s ← memcpySrc short_desc short_desc_size
  return { size := comment_size, encoding := encoding, language := l, short_description := s, comment := c }

/-- src/modules/frames/comment_frame.c:22-40 `CommentFrame_new`. The id is always "COMM". -/
def CommentFrame_new [Platform] (flags lang short_desc comment : Bytes) : Res Frame := do
  let data ← CommentFrameData_new lang short_desc comment
  let short_desc_size ← ID3v2_strlent short_desc
  let frame_size ← ck (data.size + short_desc_size + 1 + 3)
  let header ← FrameHeader_new (ofB [0x43, 0x4F, 0x4D, 0x4D]) flags frame_size
  return { header := header, data := .comment data }

/-- src/modules/frames/comment_frame.c:42-64 `CommentFrame_parse`. The size in the frame header is not used. -/
def CommentFrame_parse [Platform] (frame_cs : CharStream) (id3_major_version : UInt8) :
    Res (Frame × CharStream) := do
  let (header, cs) ← FrameHeader_parse frame_cs id3_major_version
  let cs ← CharStream_seek cs 1 .cur
  let (d, cs) ← CharStream_read cs 3
  let lang := intoArray 3 d
  let short_desc_size ← ID3v2_strlent (← CharStream_get_cur cs)
  vla short_desc_size
  let (d, cs) ← CharStream_read cs short_desc_size
  let short_desc := intoArray short_desc_size d
  let comment_size ← ID3v2_strlent (← CharStream_get_cur cs)
  vla comment_size
  let (d, cs) ← CharStream_read cs comment_size
  let comment := intoArray comment_size d
  match header with
  | none => .ub .nullDeref
  | some header =>
    let frame ← CommentFrame_new header.flags lang short_desc comment
    return (frame, cs)

/-- src/modules/frames/comment_frame.c:66-88 `CommentFrame_to_char_stream` (the frame is not NULL). -/
def CommentFrame_to_char_stream [Platform] (header : FrameHeader) (data : CommentFrameData) : Res CharStream := do
  let frame_header_cs ← FrameHeader_to_char_stream header
  let cs := CharStream_new (← ck (header.size + 10))
  let cs ← CharStream_write cs frame_header_cs.stream frame_header_cs.size
  let cs ← CharStream_write cs [some data.encoding] 1
  let cs ← CharStream_write cs data.language 3
  let cs ← CharStream_write cs data.short_description (← ID3v2_strlent data.short_description)
  CharStream_write cs data.comment data.size

/-- src/modules/frames/apic_frame.c:107-136 `ApicFrameData_new`. -/
def ApicFrameData_new [Platform] (description : Bytes) (picture_type : UInt8) (mime_type : Bytes)
    (picture_size : Int) (picture_data : Bytes) : Res ApicFrameData := do
  let encoding : UInt8 := if ← string_has_bom description then 1 else 0
  let desc_size ← ID3v2_strlent description
  let d ← memcpySrc description desc_size
  let mime_type_size ← ID3v2_strlent mime_type
  let m ← memcpySrc mime_type mime_type_size
  let p ← memcpySrc picture_data picture_size
  return { encoding := encoding, mime_type := m, picture_type := picture_type, description := d, data := p,
           picture_size := picture_size }

/-- src/modules/frames/apic_frame.c:23-45 `ApicFrame_new`. The id is always "APIC". -/
def ApicFrame_new [Platform] (flags description : Bytes) (picture_type : UInt8) (mime_type : Bytes)
    (picture_size : Int) (data : Bytes) : Res Frame := do
  let data ← ApicFrameData_new description picture_type mime_type picture_size data
  let description_size ← ID3v2_strlent description
  let mime_type_size ← ID3v2_strlent mime_type
  let frame_size ← ck (1 + mime_type_size + 1 + description_size + data.picture_size)
  let header ← FrameHeader_new (ofB [0x41, 0x50, 0x49, 0x43]) flags frame_size
  return { header := header, data := .apic data }

/-- src/modules/frames/apic_frame.c:47-74 `ApicFrame_parse`. -/
def ApicFrame_parse [Platform] (frame_cs : CharStream) (id3_major_version : UInt8) :
    Res (Frame × CharStream) := do
  let (header, cs) ← FrameHeader_parse frame_cs id3_major_version
  let cs ← CharStream_seek cs 1 .cur
  let mime_type_size ← ID3v2_strlent (← CharStream_get_cur cs)
  vla mime_type_size
  let (d, cs) ← CharStream_read cs mime_type_size
  let mime_type := intoArray mime_type_size d
  let (picture_type, cs) ← CharStream_getc cs
  let description_size ← ID3v2_strlent (← CharStream_get_cur cs)
  vla description_size
  let (d, cs) ← CharStream_read cs description_size
  let description := intoArray description_size d
  match header with
  | none => .ub .nullDeref
  | some header =>
    let pic_size ← ck (header.size - 1 - mime_type_size - 1 - description_size)
    vla pic_size
    let (d, cs) ← CharStream_read cs pic_size
    let pic_data := intoArray pic_size d
    let frame ← ApicFrame_new header.flags description (toChar picture_type) mime_type pic_size pic_data
    return (frame, cs)

/-- src/modules/frames/apic_frame.c:76-95 `ApicFrame_to_char_stream` (the frame is not NULL). -/
def ApicFrame_to_char_stream [Platform] (header : FrameHeader) (data : ApicFrameData) : Res CharStream := do
  let frame_header_cs ← FrameHeader_to_char_stream header
  let cs := CharStream_new (← ck (header.size + 10))
  let cs ← CharStream_write cs frame_header_cs.stream frame_header_cs.size
  let cs ← CharStream_write cs [some data.encoding] 1
  let cs ← CharStream_write cs data.mime_type (← ID3v2_strlent data.mime_type)
  let cs ← CharStream_write cs [some data.picture_type] 1
  let cs ← CharStream_write cs data.description (← ID3v2_strlent data.description)
  CharStream_write cs data.data data.picture_size

/-- src/modules/frame.c:24-57 `Frame_parse`. `none` is NULL. For an unknown frame with a negative size `malloc` is
asked for more than the address space and returns NULL; `CharStream_read` then copies nothing (clamp), and the model
gives an empty buffer. -/
def Frame_parse [Platform] (frame_cs : CharStream) (id3_major_version : UInt8) :
    Res (Option Frame × CharStream) := do
  let (header, cs) ← FrameHeader_parse frame_cs id3_major_version
  match header with
  | none => return (none, cs)
  | some header =>
    if ← FrameHeader_isTextFrame header then
      let cs ← CharStream_seek cs (-10) .cur
      let (f, cs) ← TextFrame_parse cs id3_major_version
      return (some f, cs)
    else if ← FrameHeader_isCommentFrame header then
      let cs ← CharStream_seek cs (-10) .cur
      let (f, cs) ← CommentFrame_parse cs id3_major_version
      return (some f, cs)
    else if ← FrameHeader_isApicFrame header then
      let cs ← CharStream_seek cs (-10) .cur
      let (f, cs) ← ApicFrame_parse cs id3_major_version
      return (some f, cs)
    else
      let (d, cs) ← CharStream_read cs header.size
      return (some { header := header, data := .raw (intoArray header.size d) }, cs)

/-- src/modules/frame.c:59-84 `Frame_to_char_stream` for a frame that is not NULL. Dispatches on the id; if the frame
was made for another kind of id, the cast is type confusion. -/
def Frame_to_char_stream [Platform] (frame : Frame) : Res CharStream := do
  if ← FrameHeader_isTextFrame frame.header then
    match frame.data with
    | .text d => TextFrame_to_char_stream frame.header d
    | _ => .ub .typeConfusion
  else if ← FrameHeader_isCommentFrame frame.header then
    match frame.data with
    | .comment d => CommentFrame_to_char_stream frame.header d
    | _ => .ub .typeConfusion
  else if ← FrameHeader_isApicFrame frame.header then
    match frame.data with
    | .apic d => ApicFrame_to_char_stream frame.header d
    | _ => .ub .typeConfusion
  else
    match frame.data with
    | .raw d =>
      let cs := CharStream_new (← ck (frame.header.size + 10))
      let header_cs ← FrameHeader_to_char_stream frame.header
      let cs ← CharStream_write cs header_cs.stream 10
      CharStream_write cs d frame.header.size
    | _ => .ub .typeConfusion

/-- src/modules/frame.c:86-108 `ID3v2_Frame_free` on the value level: only the casts matter here (the heap model has the
blocks). A frame of unknown id is freed without a cast (lines 104-106). -/
def ID3v2_Frame_free (frame : Frame) : Res Unit := do
  if ← FrameHeader_isTextFrame frame.header then
    match frame.data with
    | .text _ => return ()
    | _ => .ub .typeConfusion
  else if ← FrameHeader_isCommentFrame frame.header then
    match frame.data with
    | .comment _ => return ()
    | _ => .ub .typeConfusion
  else if ← FrameHeader_isApicFrame frame.header then
    match frame.data with
    | .apic _ => return ()
    | _ => .ub .typeConfusion
  else return ()

end Id3
