import Verif.Spec.Layout

/-!
# Two features of the format: unsynchronisation and footers

Written after the ID3v2.3 and 2.4 documents, without reference to the library.
-/

namespace Id3.Spec

/-- Unsynchronisation (ID3v2.3 section 5): a zero byte is inserted after every 0xFF that is followed by a byte with its
three upper bits set, or by a zero byte. -/
def unsync : List UInt8 → List UInt8
  | [] => []
  | [b] => [b]
  | a :: b :: t => if a = 0xFF ∧ (0xE0 ≤ b ∨ b = 0) then a :: 0 :: unsync (b :: t) else a :: unsync (b :: t)

/-- The flag that announces unsynchronisation. -/
def unsyncFlag : UInt8 := 0x80

/-- A version 2.3 tag with unsynchronisation: the size in the header is the one after it was applied. -/
def unsyncTagBytes (minor flags : UInt8) (fs : List SFrame) (padding : Nat) : List UInt8 :=
  let body := unsync (fs.flatMap SFrame.bytes ++ List.replicate padding 0)
  tagHeaderBytes 3 minor (flags ||| unsyncFlag) body.length ++ body

/-- The flag that announces a footer (ID3v2.4 section 3.1). -/
def footerFlag : UInt8 := 0x10

/-- A footer (ID3v2.4 section 3.4): a copy of the header with the identifier "3DI". -/
def footerBytes (minor flags : UInt8) (size : Nat) : List UInt8 :=
  [0x33, 0x44, 0x49, 4, minor, flags] ++ synchsafe size

/-- A version 2.4 tag with a footer, which the size in the header does not count. -/
def footedTagBytes (minor flags : UInt8) (ws : List Wire) : List UInt8 :=
  wireTagBytes 4 minor (flags ||| footerFlag) ws 0 ++
    footerBytes minor (flags ||| footerFlag) (ws.flatMap (Wire.bytes 4)).length

/-- The bytes of a tag whose extended header is nothing but a size of zero. -/
def emptyExtTag (version minor flags : UInt8) (ws : List Wire) (padding : Nat) : List UInt8 :=
  tagHeaderBytes version minor flags (4 + (ws.flatMap (Wire.bytes version)).length + padding) ++ [0, 0, 0, 0] ++
    ws.flatMap (Wire.bytes version) ++ List.replicate padding 0

end Id3.Spec
