/-!
# Specification of the ID3v2 byte layout

Written from the ID3v2.3/2.4 documents, without reference to the model of the code. Everything here is plain data and
byte lists.
-/

namespace Id3.Spec

/-- A string as it is stored in a tag. -/
inductive Str where
  /-- ISO-8859-1: one byte per character -/
  | latin (chars : List UInt8)
  /-- UTF-16 with a byte order mark (`le`: little endian): the bytes of each code unit in memory order -/
  | utf16 (le : Bool) (units : List (UInt8 × UInt8))
deriving DecidableEq, Repr

namespace Str

/-- Byte order mark: FF FE (little endian) or FE FF (big endian). -/
def bom (le : Bool) : List UInt8 := if le then [0xFF, 0xFE] else [0xFE, 0xFF]

/-- The bytes of a string before its terminator, byte order mark included. -/
def content : Str → List UInt8
  | latin chars => chars
  | utf16 le units => bom le ++ units.flatMap (fun u => [u.1, u.2])

/-- One zero byte, or two for UTF-16. -/
def terminator : Str → List UInt8
  | latin _ => [0]
  | utf16 _ _ => [0, 0]

/-- The string with its terminator. -/
def bytes (s : Str) : List UInt8 := s.content ++ s.terminator

/-- The text encoding byte of ID3v2.3: 0 for ISO-8859-1, 1 for UTF-16 with BOM. -/
def encoding : Str → UInt8
  | latin _ => 0
  | utf16 _ _ => 1

/-- No terminator inside the string; an ISO-8859-1 string does not look like a byte order mark. -/
def WF : Str → Prop
  | latin chars => 0 ∉ chars ∧ chars.take 2 ≠ bom true ∧ chars.take 2 ≠ bom false
  | utf16 _ units => (0, 0) ∉ units

instance (s : Str) : Decidable s.WF := by
  cases s <;> unfold WF <;> infer_instance

end Str

/-- The four big-endian bytes of a number. -/
def be32 (n : Nat) : List UInt8 :=
  [UInt8.ofNat (n / 2 ^ 24), UInt8.ofNat (n / 2 ^ 16), UInt8.ofNat (n / 2 ^ 8), UInt8.ofNat n]

/-- The four base-128 digits of a number, most significant first ("synchsafe" integer). -/
def synchsafe (n : Nat) : List UInt8 :=
  [UInt8.ofNat (n / 128 ^ 3 % 128), UInt8.ofNat (n / 128 ^ 2 % 128), UInt8.ofNat (n / 128 % 128),
   UInt8.ofNat (n % 128)]

/-- Frame sizes are plain in version 2.3 and synchsafe in version 2.4. -/
def sizeBytes (version : UInt8) (n : Nat) : List UInt8 := if version = 4 then synchsafe n else be32 n

/-- "COMM" -/
def commId : List UInt8 := [0x43, 0x4F, 0x4D, 0x4D]
/-- "APIC" -/
def apicId : List UInt8 := [0x41, 0x50, 0x49, 0x43]

/-- A frame as the user sees it. -/
inductive SFrame where
  /-- a text frame: an id starting with T, and a string -/
  | text (id flags : List UInt8) (s : Str)
  /-- a COMM frame -/
  | comment (flags lang : List UInt8) (desc text : Str)
  /-- an APIC frame -/
  | apic (flags : List UInt8) (mime : Str) (picType : UInt8) (desc : Str) (pic : List UInt8)
  /-- any other frame: uninterpreted data -/
  | other (id flags data : List UInt8)
deriving DecidableEq, Repr

namespace SFrame

def id : SFrame → List UInt8
  | text id _ _ => id
  | comment _ _ _ _ => commId
  | apic _ _ _ _ _ => apicId
  | other id _ _ => id

def flags : SFrame → List UInt8
  | text _ flags _ => flags
  | comment flags _ _ _ => flags
  | apic flags _ _ _ _ => flags
  | other _ flags _ => flags

/-- What follows the ten-byte header of the frame. -/
def body : SFrame → List UInt8
  | text _ _ s => s.encoding :: s.bytes
  | comment _ lang desc txt => txt.encoding :: lang ++ desc.bytes ++ txt.bytes
  | apic _ mime picType desc pic => desc.encoding :: mime.bytes ++ picType :: desc.bytes ++ pic
  | other _ _ data => data

/-- The frame in a tag of version 2.3: id, big-endian size, flags, body. -/
def bytes (f : SFrame) : List UInt8 := f.id ++ be32 f.body.length ++ f.flags ++ f.body

/-- Ids have four bytes, flags two, languages three; the first letter of the id tells the kind. -/
def WF : SFrame → Prop
  | text id flags s => id.length = 4 ∧ id.head? = some 0x54 ∧ flags.length = 2 ∧ s.WF
  | comment flags lang desc txt => flags.length = 2 ∧ lang.length = 3 ∧ desc.WF ∧ txt.WF
  | apic flags mime _ desc _ => flags.length = 2 ∧ mime.WF ∧ desc.WF
  | other id flags _ =>
    id.length = 4 ∧ id.head? ≠ some 0x54 ∧ id.head? ≠ some 0x43 ∧ id.head? ≠ some 0x41 ∧ id ≠ [0, 0, 0, 0] ∧
      flags.length = 2

instance (f : SFrame) : Decidable f.WF := by
  cases f <;> unfold WF <;> infer_instance

end SFrame

/-- Total number of bytes of a list of frames, headers included. -/
def framesSize (fs : List SFrame) : Nat := (fs.map (fun f => f.bytes.length)).sum

/-- The ten bytes of a tag header with the given size. -/
def tagHeaderBytes (major minor flags : UInt8) (size : Nat) : List UInt8 :=
  [0x49, 0x44, 0x33, major, minor, flags] ++ synchsafe size

/-- A whole version 2.3 tag: header, frames, padding. -/
def tagBytes (minor flags : UInt8) (fs : List SFrame) (padding : Nat) : List UInt8 :=
  tagHeaderBytes 3 minor flags (framesSize fs + padding) ++ fs.flatMap SFrame.bytes ++ List.replicate padding 0

/-! ## Frames as they may appear in the wild -/

/-- A frame in a file, possibly written by another program: the parts the library does not keep are explicit. -/
inductive Wire where
  /-- any encoding byte; anything after the first terminator (second value, TXXX value, …) -/
  | text (id flags : List UInt8) (enc : UInt8) (s : Str) (junk : List UInt8)
  /-- any id starting with C (COMM, COMR, …), any encoding byte; the size field is `size` -/
  | comment (id flags : List UInt8) (size : Nat) (enc : UInt8) (lang : List UInt8) (desc text : Str)
  /-- any id starting with A (APIC, AENC, …), any encoding byte -/
  | apic (id flags : List UInt8) (enc : UInt8) (mime : Str) (picType : UInt8) (desc : Str) (pic : List UInt8)
  | other (id flags data : List UInt8)
deriving DecidableEq, Repr

namespace Wire

def id : Wire → List UInt8
  | text id _ _ _ _ => id
  | comment id _ _ _ _ _ _ => id
  | apic id _ _ _ _ _ _ => id
  | other id _ _ => id

def flags : Wire → List UInt8
  | text _ flags _ _ _ => flags
  | comment _ flags _ _ _ _ _ => flags
  | apic _ flags _ _ _ _ _ => flags
  | other _ flags _ => flags

def body : Wire → List UInt8
  | text _ _ enc s junk => enc :: s.bytes ++ junk
  | comment _ _ _ enc lang desc txt => enc :: lang ++ desc.bytes ++ txt.bytes
  | apic _ _ enc mime picType desc pic => enc :: mime.bytes ++ picType :: desc.bytes ++ pic
  | other _ _ data => data

/-- The number in the size field. -/
def sizeField : Wire → Nat
  | comment _ _ size _ _ _ _ => size
  | w => w.body.length

/-- The bytes of the frame with the given size bytes. -/
def bytesWith (sizeBytes : List UInt8) (w : Wire) : List UInt8 :=
  w.id ++ sizeBytes ++ w.flags ++ w.body

/-- The bytes of the frame in a tag of the given version. -/
def bytes (version : UInt8) (w : Wire) : List UInt8 := w.bytesWith (sizeBytes version w.sizeField)

def WF : Wire → Prop
  | text id flags _ s _ => id.length = 4 ∧ id.head? = some 0x54 ∧ flags.length = 2 ∧ s.WF
  | comment id flags _ _ lang desc txt =>
    id.length = 4 ∧ id.head? = some 0x43 ∧ flags.length = 2 ∧ lang.length = 3 ∧ desc.WF ∧ txt.WF
  | apic id flags _ mime _ desc _ =>
    id.length = 4 ∧ id.head? = some 0x41 ∧ flags.length = 2 ∧ mime.WF ∧ desc.WF
  | other id flags _ =>
    id.length = 4 ∧ id.head? ≠ some 0x54 ∧ id.head? ≠ some 0x43 ∧ id.head? ≠ some 0x41 ∧ id ≠ [0, 0, 0, 0] ∧
      flags.length = 2

instance (w : Wire) : Decidable w.WF := by
  cases w <;> unfold WF <;> infer_instance

/-- What the library makes of it: the text after the first terminator is dropped, `C*` becomes COMM, `A*` becomes APIC,
and the encoding byte is replaced by the one of the string. -/
def kept : Wire → SFrame
  | text id flags _ s _ => .text id flags s
  | comment _ flags _ _ lang desc txt => .comment flags lang desc txt
  | apic _ flags _ mime picType desc pic => .apic flags mime picType desc pic
  | other id flags data => .other id flags data

/-- A frame of this library as a frame in the wild. -/
def ofSFrame : SFrame → Wire
  | .text id flags s => .text id flags s.encoding s []
  | .comment flags lang desc txt =>
    .comment commId flags (SFrame.comment flags lang desc txt).body.length txt.encoding lang desc txt
  | .apic flags mime picType desc pic => .apic apicId flags desc.encoding mime picType desc pic
  | .other id flags data => .other id flags data

end Wire

/-- A whole tag of the given version made of such frames. -/
def wireTagBytes (version minor flags : UInt8) (ws : List Wire) (padding : Nat) : List UInt8 :=
  let frames := ws.flatMap (Wire.bytes version)
  tagHeaderBytes version minor flags (frames.length + padding) ++ frames ++ List.replicate padding 0

/-- There is padding, or the last frame has a body: the frames do not end with a bare ten-byte header at the very end of
the tag (which the library does not see). -/
def lastSeen (ws : List Wire) (padding : Nat) : Prop :=
  0 < padding ∨ ∀ w, ws.getLast? = some w → w.body ≠ []

instance (ws : List Wire) (padding : Nat) : Decidable (lastSeen ws padding) := by
  unfold lastSeen
  cases h : ws.getLast? with
  | none => exact isTrue (by simp)
  | some w =>
    have : Decidable (0 < padding ∨ w.body ≠ []) := inferInstance
    exact decidable_of_iff (0 < padding ∨ w.body ≠ []) (by simp)

end Id3.Spec
