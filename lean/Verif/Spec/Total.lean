import Verif.Spec.History

/-!
# What histories of API calls really do

`Spec/History.lean` describes a tag as an ordinary list of frames, which is what a user has in mind. This file describes
what a tag is after *any* history of valid calls, including those that delete the last of several frames: the frames that
the getters find, and behind an empty node the frames that they do not find.
-/

namespace Id3.Spec

open Id3

/-- A tag: the frames that are seen, and, if there is an empty node behind them, the frames behind the empty node. A tag
without frames has an empty node and nothing behind it. `size` is the tag size. -/
structure Full where
  seen : List SFrame
  hidden : Option (List SFrame)
  size : Int
deriving DecidableEq, Repr

/-- The tag of a list of frames. -/
def State.full (st : State) : Full := ⟨st.frames, if st.frames = [] then some [] else none, st.size⟩

/-- Is a frame with the id seen? -/
def Full.has (st : Full) (id : List UInt8) : Bool := (first SFrame.id id st.seen).isSome

/-- Appending a frame. If nothing is seen the frame takes the empty node, and what was behind it is seen again. If there
is an empty node behind other frames, the frame goes behind it and is not seen. The tag size grows by the body only. -/
def Full.add (st : Full) (f : SFrame) : Full :=
  match st.hidden with
  | none => ⟨st.seen ++ [f], none, st.size + f.body.length⟩
  | some h =>
    if st.seen = [] then ⟨f :: h, none, st.size + f.body.length⟩
    else ⟨st.seen, some (h ++ [f]), st.size + f.body.length⟩

/-- Storing a frame: replace the first one that is seen, or append. -/
def Full.set (st : Full) (f : SFrame) : Full :=
  match first SFrame.id f.id st.seen with
  | none => st.add f
  | some old => { st with seen := put SFrame.id f.id f st.seen, size := st.size + f.body.length - old.body.length }

/-- Removing the `n`-th of the seen frames with the id: if it is the last node, the node stays as an empty one. -/
def Full.erase (st : Full) (id : List UInt8) (n : Nat) (size : Int) : Full :=
  { seen := eraseNth SFrame.id id n st.seen
    hidden := if st.hidden.isNone ∧ (all SFrame.id id st.seen.dropLast).length = n then some [] else st.hidden
    size := size }

/-- Deleting by id: NULL is dereferenced (`none`) if no frame with the id is seen. -/
def Full.delete (st : Full) (id : List UInt8) : Option Full :=
  match first SFrame.id id st.seen with
  | none => none
  | some old => some (st.erase id 0 (st.size - 10 - old.body.length))

/-- Deleting by index. If no frame with the id is seen, index 0 removes the empty node instead (unless it is the last
node), so that the frames behind it are seen again. -/
def Full.deleteAt (st : Full) (id : List UInt8) (index : Int) : Full :=
  if index < 0 then st
  else if index.toNat < (all SFrame.id id st.seen).length then st.erase id index.toNat st.size
  else if index = 0 then
    match st.hidden with
    | some (f :: h) => ⟨st.seen ++ f :: h, none, st.size⟩
    | _ => st
  else st

/-- The effect of a call; `none` if it dereferences NULL. -/
def Op.effect (op : Op) (st : Full) : Option Full :=
  match op with
  | .setText id flags s => some (st.set (.text id flags s))
  | .setComment flags lang desc txt => some (st.set (.comment flags lang desc txt))
  | .addComment flags lang desc txt => some (st.add (.comment flags lang desc txt))
  | .setApic flags mime picType desc pic => some (st.set (.apic flags mime picType desc pic))
  | .addApic flags mime picType desc pic => some (st.add (.apic flags mime picType desc pic))
  | .delete id => st.delete id
  | .deleteComment index => some (st.deleteAt commId index)
  | .deleteApic index => some (st.deleteAt apicId index)

/-- The effect of a history. -/
def effectAll : List Op → Full → Option Full
  | [], st => some st
  | op :: ops, st => (op.effect st).bind (effectAll ops)

/-! ## The tag size -/

/-- All frames of a tag, also those that are not seen. -/
def Full.frames (st : Full) : List SFrame := st.seen ++ st.hidden.getD []

/-- The number of bytes of frames: a header of ten bytes and a body each. -/
def totalSize (fs : List SFrame) : Nat := (fs.map fun f => 10 + f.body.length).sum

/-- By how much a call changes the excess of the tag size over the frames: a frame that is created costs ten bytes, because
only its body is counted; a frame that is deleted by index leaves its size behind. -/
def Op.gain (op : Op) (st : Full) : Int :=
  match op with
  | .setText id _ _ => if st.has id then 0 else -10
  | .setComment _ _ _ _ => if st.has commId then 0 else -10
  | .setApic _ _ _ _ _ => if st.has apicId then 0 else -10
  | .addComment _ _ _ _ => -10
  | .addApic _ _ _ _ _ => -10
  | .delete _ => 0
  | .deleteComment i => if i < 0 then 0 else totalSize ((all SFrame.id commId st.seen)[i.toNat]?.toList)
  | .deleteApic i => if i < 0 then 0 else totalSize ((all SFrame.id apicId st.seen)[i.toNat]?.toList)

/-- The same for a history. -/
def gainAll : List Op → Full → Int
  | [], _ => 0
  | op :: ops, st => op.gain st + match op.effect st with
    | none => 0
    | some st' => gainAll ops st'

end Id3.Spec
