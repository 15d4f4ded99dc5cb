import Verif.Spec.Format
import Verif.Model.Lib

/-!
# How much a tag holds
-/

namespace Id3.Spec

open Id3

/-- The bytes of the strings and of the data that a frame points to. -/
def contents : Payload → List Bytes
  | .text d => [d.text]
  | .comment d => [d.language, d.short_description, d.comment]
  | .apic d => [d.mime_type, d.description, d.data]
  | .raw d => [d]

/-- The number of bytes of memory for the contents of a frame. -/
def held (f : Frame) : Nat := ((contents f.data).map List.length).sum

/-- Those of them that have a value: the others were never written. -/
def written (f : Frame) : Nat := ((contents f.data).map (·.countP Option.isSome)).sum

/-- The frames of a tag. -/
def framesOf (t : Tag) : List Frame := t.frames.filterMap id

/-- The number of bytes of memory for the contents of the frames of a tag. -/
def heldBy (t : Tag) : Nat := ((framesOf t).map held).sum

/-- **C89** (`Amount n t`): what is left of the claim for a tag that was read from `n` bytes. -/
structure Amount (n : Nat) (t : Tag) : Prop where
  /-- There is at most one frame for ten bytes (the last frame may lack its flags). -/
  count : 10 * (framesOf t).length ≤ n + 2
  /-- The bytes that have a value are at most the bytes that were read. -/
  valued : ((framesOf t).map written).sum ≤ n
  /-- All frames but the last take no more memory than the bytes that were read. -/
  butLast : ((framesOf t).dropLast.map held).sum ≤ n
  /-- The last frame may take up to `2 ^ 31 - 1` bytes more. -/
  total : heldBy t ≤ n + 2147483647
  /-- If its bytes all have a value, the claim holds. -/
  whole : (∀ f, (framesOf t).getLast? = some f → written f = held f) → heldBy t ≤ n

end Id3.Spec
