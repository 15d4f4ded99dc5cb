import Verif.Model.Lib
import Verif.Spec.File

/-!
# Files with several tags, one behind the other
-/

namespace Id3.Spec

open Id3

/-- A tag of version 2.3 or 2.4, all of it and nothing else: the size in its header is that of what follows. -/
def Complete (b : List UInt8) : Prop := b ≠ [] ∧ tagLength b = b.length

instance (b : List UInt8) : Decidable (Complete b) := by unfold Complete; infer_instance

/-- Delete the tag of a file so many times. -/
def deletes [Platform] : Nat → Option Bytes → Res (Option Bytes)
  | 0, file => .ok file
  | n + 1, file => do deletes n (← ID3v2_delete_tag file)

end Id3.Spec
