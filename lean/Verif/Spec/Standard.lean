import Verif.Spec.Layout

/-!
# A reader of ID3v2 tags that keeps to the documents

Written after the ID3v2.3 and 2.4 documents, without reference to the library: this is how another program sees a file. It
gives up (`none`) on anything that the documents do not allow. It knows tags without unsynchronisation, extended header and
footer, and the two text encodings of version 2.3; it also gives up on the others.

There are two of them, since the documents leave it open whether the last string of a frame has a terminator: with `closed` the
reader insists on it, and on a comment ending there, otherwise it takes the end of the frame as the end of the string.
-/

namespace Id3.Spec

/-- A number of four bytes: every byte has eight bits. -/
def stdPlain : List UInt8 → Option Nat
  | [a, b, c, d] => some (((a.toNat * 256 + b.toNat) * 256 + c.toNat) * 256 + d.toNat)
  | _ => none

/-- A synchsafe number of four bytes: every byte has seven bits, the highest bit is zero. -/
def stdSynchsafe : List UInt8 → Option Nat
  | [a, b, c, d] =>
    if a < 128 ∧ b < 128 ∧ c < 128 ∧ d < 128 then
      some (((a.toNat * 128 + b.toNat) * 128 + c.toNat) * 128 + d.toNat)
    else none
  | _ => none

/-- Frame sizes: plain in version 2.3 (section 3.3 of the document), synchsafe in version 2.4 (section 4). -/
def stdSize (version : UInt8) (bs : List UInt8) : Option Nat :=
  if version = 4 then stdSynchsafe bs else stdPlain bs

/-- Frame ids are made of the letters A-Z and the digits 0-9. -/
def stdLetter (b : UInt8) : Bool := (0x41 ≤ b && b ≤ 0x5A) || (0x30 ≤ b && b ≤ 0x39)

/-- A string of ISO-8859-1: up to a zero byte (or the end of the data). The rest is what follows the zero byte. -/
def stdLatin (closed : Bool) : List UInt8 → Option (List UInt8 × List UInt8)
  | [] => if closed then none else some ([], [])
  | b :: t => if b = 0 then some ([], t) else (stdLatin closed t).map fun r => (b :: r.1, r.2)

/-- Code units of two bytes, up to two zero bytes (or the end of the data). -/
def stdUnits (closed : Bool) : List UInt8 → Option (List (UInt8 × UInt8) × List UInt8)
  | [] => if closed then none else some ([], [])
  | [_] => none
  | a :: b :: t => if a = 0 ∧ b = 0 then some ([], t) else (stdUnits closed t).map fun r => ((a, b) :: r.1, r.2)

/-- A string in the given encoding: 0 is ISO-8859-1; 1 is UTF-16, with a byte order mark in front. -/
def stdString (closed : Bool) (encoding : UInt8) (bs : List UInt8) : Option (Str × List UInt8) :=
  if encoding = 0 then (stdLatin closed bs).map fun r => (.latin r.1, r.2)
  else if encoding = 1 then
    match bs with
    | 0xFF :: 0xFE :: t => (stdUnits closed t).map fun r => (.utf16 true r.1, r.2)
    | 0xFE :: 0xFF :: t => (stdUnits closed t).map fun r => (.utf16 false r.1, r.2)
    | _ => none
  else none

/-- "TXXX": user-defined text frames, which have another structure than the other text frames. -/
def txxxId : List UInt8 := [0x54, 0x58, 0x58, 0x58]

/-- The contents of a frame. Text frames: encoding, string. Comments: encoding, language, description and text in this
encoding. Pictures: encoding of the description, MIME type (always ISO-8859-1), type, description, picture. -/
def stdFrame (closed : Bool) (id flags body : List UInt8) : Option SFrame :=
  if id = commId then
    match body with
    | e :: l1 :: l2 :: l3 :: t =>
      match stdString closed e t with
      | some (desc, t) =>
        match stdString closed e t with
        | some (txt, t) => if closed ∧ t ≠ [] then none else some (.comment flags [l1, l2, l3] desc txt)
        | none => none
      | none => none
    | _ => none
  else if id = apicId then
    match body with
    | e :: t =>
      match stdString closed 0 t with
      | some (mime, picType :: t) => (stdString closed e t).map fun r => .apic flags mime picType r.1 r.2
      | _ => none
    | _ => none
  else if id.head? = some 0x54 ∧ id ≠ txxxId then
    match body with
    | e :: t => (stdString closed e t).map fun r => .text id flags r.1
    | _ => none
  else some (.other id flags body)

/-- The frames of a tag: one after the other, each with at least one byte behind its header. A zero byte where a frame would
start begins the padding, which is all zero. -/
def stdFrames (closed : Bool) (version : UInt8) (bs : List UInt8) : Option (List SFrame) :=
  if _h : bs = [] then some []
  else if bs.head? = some 0 then (if bs.all (· = 0) then some [] else none)
  else
    match stdSize version ((bs.drop 4).take 4) with
    | none => none
    | some n =>
      if (bs.take 4).all stdLetter ∧ 0 < n ∧ 10 + n ≤ bs.length then
        match stdFrame closed (bs.take 4) ((bs.drop 8).take 2) ((bs.drop 10).take n), stdFrames closed version (bs.drop (10 + n)) with
        | some f, some fs => some (f :: fs)
        | _, _ => none
      else none
termination_by bs.length
decreasing_by
  have := List.length_pos_iff.mpr _h
  simp only [List.length_drop]
  omega

/-- A file with a tag in front: the frames of the tag, and what follows the tag. -/
def stdTag (closed : Bool) : List UInt8 → Option (List SFrame × List UInt8)
  | 0x49 :: 0x44 :: 0x33 :: version :: revision :: flags :: a :: b :: c :: d :: t =>
    if (version = 3 ∨ version = 4) ∧ revision ≠ 0xFF ∧ flags = 0 then
      match stdSynchsafe [a, b, c, d] with
      | none => none
      | some n => if n ≤ t.length then (stdFrames closed version (t.take n)).map fun fs => (fs, t.drop n) else none
    else none
  | _ => none

/-- The frames that such a reader understands: an id of letters and digits, a body, in version 2.4 one of less than 128 bytes,
one encoding for both strings of a comment, ISO-8859-1 for a MIME type, and no user-defined text. -/
def SFrame.Standard (version : UInt8) (f : SFrame) : Prop :=
  (∀ c ∈ f.id, stdLetter c = true) ∧ f.body ≠ [] ∧ (version = 4 → f.body.length < 128) ∧
  match f with
  | .text id _ _ => id ≠ txxxId
  | .comment _ _ desc txt => desc.encoding = txt.encoding
  | .apic _ mime _ _ _ => mime.encoding = 0
  | .other _ _ _ => True

instance (version : UInt8) (f : SFrame) : Decidable (f.Standard version) := by
  unfold SFrame.Standard; cases f <;> infer_instance

/-- A text frame of which the string is cut off before its terminator is complete. -/
def bareText (version : UInt8) (id flags : List UInt8) (enc : UInt8) (s : Str) (k : Nat) : List UInt8 :=
  id ++ sizeBytes version (1 + k) ++ flags ++ enc :: s.bytes.take k

end Id3.Spec
