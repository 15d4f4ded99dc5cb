import Verif.Model.Tag

/-!
# Frames whose data are of the type announced by their id
-/

namespace Id3.Spec

open Id3

/-- The struct behind the data pointer is the one that the first letter of the id announces: `T` text, `C` comment, `A`
picture, anything else raw bytes. -/
def Typed (f : Frame) : Prop :=
  match f.data with
  | .text _ => f.header.id.head? = some (some 0x54)
  | .comment _ => f.header.id.head? = some (some 0x43)
  | .apic _ => f.header.id.head? = some (some 0x41)
  | .raw _ => f.header.id.head? ≠ some (some 0x54) ∧ f.header.id.head? ≠ some (some 0x43) ∧
      f.header.id.head? ≠ some (some 0x41)

/-- All frames of a tag are. -/
def Tag.AllTyped (tag : Tag) : Prop := ∀ f, some f ∈ tag.frames → Typed f

end Id3.Spec
