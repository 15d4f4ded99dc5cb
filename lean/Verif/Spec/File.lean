import Verif.Spec.Layout

/-!
# Specification of tagged files

A file is a tag followed by audio. The tag is recognised by its ten-byte header only.
-/

namespace Id3.Spec

/-- The number of bytes of the tag at the start of a file, 0 if there is none: "ID3", version 3 or 4, revision, flags and
the size of what follows in four base-128 digits. (Digits above 127 are not allowed in a tag; they are combined by "or",
as the library does it.) -/
def tagLength : List UInt8 → Nat
  | b0 :: b1 :: b2 :: version :: _ :: _ :: s0 :: s1 :: s2 :: s3 :: _ =>
    if b0 = 0x49 ∧ b1 = 0x44 ∧ b2 = 0x33 ∧ (version = 3 ∨ version = 4) then
      10 + (s0.toNat * 128 ^ 3 ||| s1.toNat * 128 ^ 2 ||| s2.toNat * 128 ||| s3.toNat)
    else 0
  | _ => 0

/-- What follows the tag. -/
def audio (contents : List UInt8) : List UInt8 := contents.drop (tagLength contents)

end Id3.Spec
