import Verif.Spec.Tests
import Verif.Model.Readme

/-!
# Specification of what the programs of the README and the printing helpers do
-/

namespace Id3.Spec

open Id3

/-- TIT2, TPE1, TALB and TCOP. -/
def titleId : List UInt8 := [0x54, 0x49, 0x54, 0x32]
@[inherit_doc titleId]
def artistId : List UInt8 := [0x54, 0x50, 0x45, 0x31]
@[inherit_doc titleId]
def albumId : List UInt8 := [0x54, 0x41, 0x4C, 0x42]
@[inherit_doc titleId]
def copyrightId : List UInt8 := [0x54, 0x43, 0x4F, 0x50]

/-- What `printf("%s")` prints of a string: the bytes before the first zero byte. -/
def Str.shown (s : Str) : List UInt8 := s.bytes.takeWhile (fun b => b != 0)

/-- ISO-8859-1 characters in UTF-16. -/
def unicode (chars : List UInt8) : Str := .utf16 true (chars.map (fun c => (c, 0)))

/-- The two frames that the program "Edit Tags" stores. -/
def titleFrame (title : List UInt8) : SFrame := .text titleId [0, 0] (unicode title)
@[inherit_doc titleFrame]
def artistFrame (artist : List UInt8) : SFrame := .text artistId [0, 0] (unicode artist)

/-- The frames after "Edit Tags". -/
def retitled (title artist : List UInt8) (fs : List SFrame) : List SFrame :=
  put SFrame.id artistId (artistFrame artist) (put SFrame.id titleId (titleFrame title) fs)

/-- How many of the title and the artist are missing. -/
def missingTwo (fs : List SFrame) : Nat :=
  (if (first SFrame.id titleId fs).isNone then 1 else 0) + (if (first SFrame.id artistId fs).isNone then 1 else 0)

/-- The frames without the first title and the first artist. -/
def untitled (fs : List SFrame) : List SFrame := eraseFirst SFrame.id artistId (eraseFirst SFrame.id titleId fs)

/-- The first title or the first artist is the last of the frames. -/
def EndsWithOne (fs : List SFrame) : Prop :=
  ∃ front last, fs = front ++ [last] ∧ (last.id = titleId ∨ last.id = artistId) ∧ ∀ f ∈ front, f.id ≠ last.id

/-- The minor version and the flags in the header of a file. -/
def HeaderOf (contents : List UInt8) (minor flags : UInt8) : Prop :=
  contents[4]? = some minor ∧ contents[5]? = some flags

/-- The characters of a string: ISO-8859-1 characters, or the UTF-16 code units in the byte order of the string. -/
def Str.characters : Str → List UInt16
  | .latin chars => chars.map UInt8.toUInt16
  | .utf16 le units => units.map (fun u => if le then UInt16.ofNat (u.1.toNat + 256 * u.2.toNat)
      else UInt16.ofNat (u.2.toNat + 256 * u.1.toNat))

/-- A UTF-16 string in big-endian byte order. -/
def Str.bigEndian : Str → Bool
  | .latin _ => false
  | .utf16 le _ => !le

/-- A character with its two bytes exchanged. -/
def swapped (u : UInt16) : UInt16 := UInt16.ofNat (u.toNat / 256 + 256 * (u.toNat % 256))

/-- The characters that were printed, without the line break at the end: ISO-8859-1 bytes and wide characters. -/
def charactersOf (out : List Printed) : List UInt16 :=
  out.flatMap fun
    | .bytes b => b.map UInt8.toUInt16
    | .wide u => [u]

/-- The line break that ends what the helpers print. -/
def lineBreak : Printed := .bytes [0x0A]

end Id3.Spec
