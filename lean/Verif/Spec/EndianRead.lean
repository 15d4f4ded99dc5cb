import Verif.Spec.Endian
import Verif.Spec.Repr
import Verif.Spec.Grammar

/-!
# Reading a tag that was written on a big-endian machine
-/

namespace Id3.Spec

open Id3

/-- A comment. -/
def SFrame.IsComment : SFrame → Prop
  | .comment _ _ _ _ => True
  | _ => False

/-- The size of a frame as it is read from a tag that was written on a big-endian machine. -/
def sizeRead (version : UInt8) (f : SFrame) : Int := frameSize version (be32 f.body.length).reverse

/-- A text or a picture whose size, as it is read, is negative or more than arrays on the stack can hold: a text is one array,
a picture three. -/
def SFrame.TooLong [Platform] (version : UInt8) : SFrame → Prop
  | .text id flags s =>
    sizeRead version (.text id flags s) < 0 ∨ ((1 + Platform.stack : Nat) : Int) < sizeRead version (.text id flags s)
  | .apic flags mime pt desc pic =>
    sizeRead version (.apic flags mime pt desc pic) < 0 ∨
      ((2 + 3 * Platform.stack : Nat) : Int) < sizeRead version (.apic flags mime pt desc pic)
  | _ => False

end Id3.Spec
