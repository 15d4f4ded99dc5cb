import Verif.Spec.Start
import Verif.Spec.Amount

/-!
# When a tag that was written is read again
-/

namespace Id3.Spec

open Id3

/-- All bytes of the frame have a value. -/
def Determined (f : Frame) : Prop := none ∉ frameBytes f

instance (f : Frame) : Decidable (Determined f) := by unfold Determined; infer_instance

/-- The text of a text frame or of a comment is an object of a single byte: an empty ISO string. -/
def BareText (f : Frame) : Prop :=
  match f.data with
  | .text d => d.text = ofB [0]
  | .comment d => d.comment = ofB [0]
  | _ => False

instance (f : Frame) : Decidable (BareText f) := by unfold BareText; cases f.data <;> infer_instance

/-- The parser has an array for every string, and one for the picture, which must not be empty. In version 2.4 the size is
written in another way than it is read, which makes no difference below 256; it is not looked at for comments. -/
def ReadsAgain [Platform] (version : UInt8) (f : Frame) : Prop :=
  match f.data with
  | .text d => d.text.length ≤ Platform.stack ∧ (version = 4 → f.header.size < 256)
  | .comment d => d.short_description.length ≤ Platform.stack ∧ d.comment.length ≤ Platform.stack
  | .apic d => d.mime_type.length ≤ Platform.stack ∧ d.description.length ≤ Platform.stack ∧
      d.data ≠ [] ∧ d.data.length ≤ Platform.stack ∧ (version = 4 → f.header.size < 256)
  | .raw _ => version = 4 → f.header.size < 256

instance [Platform] (v : UInt8) (f : Frame) : Decidable (ReadsAgain v f) := by
  unfold ReadsAgain; cases f.data <;> infer_instance

/-- There is no room after the frames, and the last of them is empty. -/
def EmptyAtEnd (t : Tag) : Prop :=
  frameBytesTotal (writtenFrames t.frames) = t.header.tag_size ∧
    ∃ f, (writtenFrames t.frames).getLast? = some f ∧ f.header.size = 0

end Id3.Spec
