import Verif.Spec.Multimap

/-!
# Specification of histories of API calls

A history is a list of calls. `State` is what the user has in mind: the list of frames, and how many bytes the tag size
exceeds the frames.
-/

namespace Id3.Spec

open Id3

/-- A call that changes a tag. -/
inductive Op where
  | setText (id flags : List UInt8) (s : Str)
  | setComment (flags lang : List UInt8) (desc txt : Str)
  | addComment (flags lang : List UInt8) (desc txt : Str)
  | setApic (flags : List UInt8) (mime : Str) (picType : UInt8) (desc : Str) (pic : List UInt8)
  | addApic (flags : List UInt8) (mime : Str) (picType : UInt8) (desc : Str) (pic : List UInt8)
  /-- `ID3v2_Tag_delete_frame` -/
  | delete (id : List UInt8)
  /-- `ID3v2_Tag_delete_comment_frame` -/
  | deleteComment (index : Int)
  /-- `ID3v2_Tag_delete_apic_frame` -/
  | deleteApic (index : Int)
deriving DecidableEq, Repr

/-- Calling the API. Every argument is in memory followed by the bytes `rest`. -/
def Op.run [Platform] (rest : Bytes) (op : Op) (tag : Tag) : Res Tag :=
  match op with
  | .setText id flags s =>
    ID3v2_Tag_set_text_frame tag { id := ofB id ++ rest, flags := ofB flags ++ rest, text := s.inMemory rest }
  | .setComment flags lang desc txt =>
    ID3v2_Tag_set_comment_frame tag { flags := ofB flags ++ rest, language := ofB lang ++ rest,
                                      short_description := desc.inMemory rest, comment := txt.inMemory rest }
  | .addComment flags lang desc txt =>
    ID3v2_Tag_add_comment_frame tag { flags := ofB flags ++ rest, language := ofB lang ++ rest,
                                      short_description := desc.inMemory rest, comment := txt.inMemory rest }
  | .setApic flags mime picType desc pic =>
    ID3v2_Tag_set_apic_frame tag { flags := ofB flags ++ rest, mime_type := mime.inMemory rest,
                                   description := desc.inMemory rest, picture_type := picType,
                                   picture_size := pic.length, data := ofB pic ++ rest }
  | .addApic flags mime picType desc pic =>
    ID3v2_Tag_add_apic_frame tag { flags := ofB flags ++ rest, mime_type := mime.inMemory rest,
                                   description := desc.inMemory rest, picture_type := picType,
                                   picture_size := pic.length, data := ofB pic ++ rest }
  | .delete id => ID3v2_Tag_delete_frame tag (ofB id ++ rest)
  | .deleteComment index => ID3v2_Tag_delete_comment_frame tag index
  | .deleteApic index => ID3v2_Tag_delete_apic_frame tag index

/-- Calling the API several times. -/
def runAll [Platform] (rest : Bytes) : List Op → Tag → Res Tag
  | [], tag => .ok tag
  | op :: ops, tag => do
    let tag ← op.run rest tag
    runAll rest ops tag

/-- The frames of a tag, and the number of bytes by which the tag size exceeds them (negative: the size is too small). -/
structure State where
  frames : List SFrame
  room : Int
deriving DecidableEq, Repr

/-- The tag size. -/
def State.size (st : State) : Int := framesSize st.frames + st.room

/-- Is there a frame with the id? -/
def State.has (st : State) (id : List UInt8) : Bool := (first SFrame.id id st.frames).isSome

/-- Storing a frame: replace the first one with the same id, or append. The library does not count the ten bytes of the
header of an appended frame. -/
def State.set (st : State) (f : SFrame) : State :=
  { frames := put SFrame.id f.id f st.frames
    room := if st.has f.id then st.room else st.room - 10 }

/-- Appending a frame. -/
def State.add (st : State) (f : SFrame) : State := { frames := st.frames ++ [f], room := st.room - 10 }

/-- Deleting by index: the tag size stays, so the room grows by what was deleted. -/
def State.deleteAt (st : State) (id : List UInt8) (index : Int) : State :=
  if index < 0 then st
  else
    let frames := eraseNth SFrame.id id index.toNat st.frames
    { frames := frames, room := st.room + framesSize st.frames - framesSize frames }

/-- The effect of a call. -/
def Op.apply (op : Op) (st : State) : State :=
  match op with
  | .setText id flags s => st.set (.text id flags s)
  | .setComment flags lang desc txt => st.set (.comment flags lang desc txt)
  | .addComment flags lang desc txt => st.add (.comment flags lang desc txt)
  | .setApic flags mime picType desc pic => st.set (.apic flags mime picType desc pic)
  | .addApic flags mime picType desc pic => st.add (.apic flags mime picType desc pic)
  | .delete id => { st with frames := eraseFirst SFrame.id id st.frames }
  | .deleteComment index => st.deleteAt commId index
  | .deleteApic index => st.deleteAt apicId index

/-- The effect of a history. -/
def applyAll (ops : List Op) (st : State) : State := ops.foldl (fun st op => op.apply st) st

/-- The arguments of a call make sense: ids of four nonzero bytes, well-formed strings, frames that fit an `int`. -/
def Op.Valid [Platform] (op : Op) : Prop :=
  match op with
  | .setText id flags s => ValidId id ∧ (SFrame.text id flags s).Usable
  | .setComment flags lang desc txt => (SFrame.comment flags lang desc txt).Usable
  | .addComment flags lang desc txt => (SFrame.comment flags lang desc txt).Usable
  | .setApic flags mime picType desc pic => (SFrame.apic flags mime picType desc pic).Usable
  | .addApic flags mime picType desc pic => (SFrame.apic flags mime picType desc pic).Usable
  | .delete id => ValidId id
  | .deleteComment _ => True
  | .deleteApic _ => True

instance [Platform] (op : Op) : Decidable op.Valid := by
  unfold Op.Valid; cases op <;> infer_instance

/-- The index is out of range, or it is not the one of the last of several frames. -/
def State.IndexSafe (st : State) (id : List UInt8) (index : Int) : Prop :=
  index < 0 ∨ ¬ removesTail SFrame.id id index.toNat st.frames

instance (st : State) (id : List UInt8) (index : Int) : Decidable (st.IndexSafe id index) := by
  unfold State.IndexSafe; infer_instance

/-- The call does not delete a frame that is not there, nor the last of several frames. -/
def Op.DeleteSafe (op : Op) (st : State) : Prop :=
  match op with
  | .delete id => st.has id = true ∧ ¬ removesTail SFrame.id id 0 st.frames
  | .deleteComment index => st.IndexSafe commId index
  | .deleteApic index => st.IndexSafe apicId index
  | _ => True

instance (op : Op) (st : State) : Decidable (op.DeleteSafe st) := by
  unfold Op.DeleteSafe; cases op <;> infer_instance

/-- Every call of the history is valid and its deletions are safe. -/
def SafeHistory [Platform] : List Op → State → Prop
  | [], _ => True
  | op :: ops, st => op.Valid ∧ op.DeleteSafe st ∧ SafeHistory ops (op.apply st)

instance SafeHistory.decidable [Platform] : (ops : List Op) → (st : State) → Decidable (SafeHistory ops st)
  | [], _ => isTrue trivial
  | op :: ops, st =>
    have := SafeHistory.decidable ops (op.apply st)
    inferInstanceAs (Decidable (op.Valid ∧ op.DeleteSafe st ∧ SafeHistory ops (op.apply st)))

end Id3.Spec
