import Verif.Spec.Repr

/-!
# Specification of the frame operations: an ordinary list

`first`, `all`, `put`, `eraseFirst` and `eraseNth` are the intended behaviour of getting, setting and deleting frames,
for a list of anything that has an id.
-/

namespace Id3.Spec

variable {α : Type} (key : α → List UInt8)

/-- The first entry with the id. -/
def first (id : List UInt8) (l : List α) : Option α := l.find? (fun x => key x = id)

/-- All the entries with the id, in order. -/
def all (id : List UInt8) (l : List α) : List α := l.filter (fun x => key x = id)

/-- Replace the first entry with the id, or append. -/
def put (id : List UInt8) (new : α) : List α → List α
  | [] => [new]
  | x :: xs => if key x = id then new :: xs else x :: put id new xs

/-- Remove the first entry with the id. -/
def eraseFirst (id : List UInt8) : List α → List α
  | [] => []
  | x :: xs => if key x = id then xs else x :: eraseFirst id xs

/-- Remove the `n`-th entry with the id, counting from 0. -/
def eraseNth (id : List UInt8) : Nat → List α → List α
  | _, [] => []
  | 0, x :: xs => if key x = id then xs else x :: eraseNth id 0 xs
  | n + 1, x :: xs => x :: eraseNth id (if key x = id then n else n + 1) xs

end Id3.Spec

namespace Id3

open Spec

/-- The id of a frame as plain bytes. -/
def Frame.key (f : Frame) : List UInt8 := f.header.id.filterMap id

/-- A frame struct whose id has four determinate bytes, whose payload is of the kind the first letter of the id tells,
and whose size with the header fits an `int`. -/
def Frame.Sound (f : Frame) : Prop :=
  (∃ k : List UInt8, k.length = 4 ∧ f.header.id = ofB k) ∧ ID3v2_Frame_free f = .ok () ∧
    0 ≤ f.header.size ∧ f.header.size ≤ 2147483637

/-- The nodes of a list that holds exactly the frames `fs`: an empty list is one node without a frame. -/
def nodes : List Frame → FrameList
  | [] => [none]
  | fs => fs.map some

/-- The tag holds exactly the frames `fs`, and they are sound. -/
def Tag.Holds (tag : Tag) (fs : List Frame) : Prop := tag.frames = nodes fs ∧ ∀ f ∈ fs, f.Sound

/-- A frame id that can be passed to the API: four bytes, none of them zero. -/
def ValidId (k : List UInt8) : Prop := k.length = 4 ∧ 0 ∉ k

instance (k : List UInt8) : Decidable (ValidId k) := by unfold ValidId; infer_instance

/-- What counts of an id as a C string: at most four characters, up to the terminator. -/
def idString (k : List UInt8) : List UInt8 := (k.take 4).takeWhile (· ≠ 0)

end Id3

namespace Id3.Spec

/-- Removing the `n`-th entry with the id would remove the last of several entries. -/
def removesTail {α : Type} (key : α → List UInt8) (id : List UInt8) (n : Nat) (l : List α) : Prop :=
  2 ≤ l.length ∧ (all key id l.dropLast).length = n ∧ (all key id l).length = n + 1

instance {α : Type} (key : α → List UInt8) (id : List UInt8) (n : Nat) (l : List α) : Decidable (removesTail key id n l) := by
  unfold removesTail; infer_instance

end Id3.Spec
