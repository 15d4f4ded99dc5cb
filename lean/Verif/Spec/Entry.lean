import Verif.Spec.Body
import Verif.Spec.Grammar
import Verif.Model.Compat

/-!
# What the compatibility API makes of a tag (for C40, C42, C82)
-/

namespace Id3.Spec

open Id3

/-- The entry of a frame: its id, size, first flag byte and body (the bytes of the frame after its header). The second flag
byte is never set. -/
def entryOf (f : Frame) : CFrame :=
  { frame_id := f.header.id, size := f.header.size, flags := f.header.flags.take 1 ++ [none], data := bodyOf f.data,
    frame := f }

/-- The `ID3v2_tag` that shows a tag: the bytes it was loaded from, the six fields of the header, and one entry for every
frame, in order. -/
def compatTag (raw : Bytes) (t : Tag) : CTag :=
  { raw := some raw
    tag_header := { tag := t.header.identifier, major_version := some t.header.major_version,
                    minor_version := some t.header.minor_version, flags := some t.header.flags,
                    tag_size := some t.header.tag_size,
                    extended_header_size := t.header.extended_header_size.map (fun n : Nat => (n : Int)) }
    frames := t.frames.map (Option.map entryOf)
    tag := t }

/-- The compatibility API can show the tag: it has a frame, and the library could write each of them. -/
def Showable [Platform] (t : Tag) : Prop := ∀ x ∈ t.frames, ∃ f, x = some f ∧ WritableFrame f

/-- What an entry has to do with its frame. -/
def EntryOf (c : CFrame) : Prop :=
  c.frame_id = c.frame.header.id.take 4 ∧ c.size = c.frame.header.size ∧ c.flags[0]? = c.frame.header.flags[0]?

end Id3.Spec
