import Verif.Spec.Repr

/-!
# What reading the bytes of well-formed frames does, frames too large for the parser included
-/

namespace Id3.Spec

open Id3

/-- What goes wrong when the parser meets the frame: it has automatic arrays for the strings and the picture, which must
not be empty or larger than the stack. -/
def Wire.defect [Platform] : Wire → Option UB
  | .text _ _ _ s junk => if Platform.stack < s.bytes.length + junk.length then some .stackOverflow else none
  | .comment _ _ _ _ _ desc txt =>
    if Platform.stack < desc.bytes.length ∨ Platform.stack < txt.bytes.length then some .stackOverflow else none
  | .apic _ _ _ mime _ desc pic =>
    if Platform.stack < mime.bytes.length ∨ Platform.stack < desc.bytes.length then some .stackOverflow
    else if pic = [] then some .vlaSize
    else if Platform.stack < pic.length then some .stackOverflow
    else none
  | .other _ _ _ => none

/-- A frame in a file: well-formed, with strings that the library can handle and a size that fits its field. -/
def Wire.Sane [Platform] (version : UInt8) (w : Wire) : Prop :=
  w.WF ∧ w.kept.Usable ∧ w.sizeField ≤ maxFrameSize version

instance [Platform] (version : UInt8) (w : Wire) : Decidable (w.Sane version) := by unfold Wire.Sane; infer_instance

/-- The frames of a tag that the parser looks at: all but an empty frame at the very end of a tag without padding. -/
def seenFrames (ws : List Wire) (padding : Nat) : List Wire :=
  match ws.getLast? with
  | some w => if padding = 0 ∧ w.body = [] then ws.dropLast else ws
  | none => ws

/-- What is left of the tag after the frames that the parser looks at. -/
def seenPadding (ws : List Wire) (padding : Nat) : Nat :=
  match ws.getLast? with
  | some w => if padding = 0 ∧ w.body = [] then 10 else padding
  | none => padding

/-- The result of reading a tag of the given size with these frames and so much padding. -/
def outcome [Platform] (version minor flags : UInt8) (size : Nat) (ws : List Wire) (padding : Nat) : Res (Option Tag) :=
  match (seenFrames ws padding).findSome? Wire.defect with
  | some k => .ub k
  | none => .ok (some (toTag version minor flags size ((seenFrames ws padding).map Wire.kept) (seenPadding ws padding)))

/-- What goes wrong when the parser meets a frame that the library has written. -/
def SFrame.defect [Platform] : SFrame → Option UB
  | .text _ _ s => if Platform.stack < s.bytes.length then some .stackOverflow else none
  | .comment _ _ desc txt =>
    if Platform.stack < desc.bytes.length ∨ Platform.stack < txt.bytes.length then some .stackOverflow else none
  | .apic _ mime _ desc pic =>
    if Platform.stack < mime.bytes.length ∨ Platform.stack < desc.bytes.length then some .stackOverflow
    else if pic = [] then some .vlaSize
    else if Platform.stack < pic.length then some .stackOverflow
    else none
  | .other _ _ _ => none

/-- The last frame is empty and at the very end of the tag. -/
def LastLost (fs : List SFrame) (padding : Nat) : Prop := padding = 0 ∧ ∃ f, fs.getLast? = some f ∧ f.body = []

instance (fs : List SFrame) (padding : Nat) : Decidable (LastLost fs padding) := by
  unfold LastLost
  cases h : fs.getLast? with
  | none => exact isFalse (by simp)
  | some f => exact decidable_of_iff (padding = 0 ∧ f.body = []) (by simp)

/-- The result of reading a tag that the library has written: these frames and so much padding. The first frame with a
defect is fatal; an empty frame at the very end is lost. -/
def readBack [Platform] (version minor flags : UInt8) (fs : List SFrame) (padding : Nat) : Res (Option Tag) :=
  let seen := if LastLost fs padding then fs.dropLast else fs
  match seen.findSome? SFrame.defect with
  | some k => .ub k
  | none => .ok (some (toTag version minor flags (framesSize fs + padding) seen (if LastLost fs padding then 10 else padding : Nat)))

/-- The frames that are read when a tag that the library has written is read (unless one of them has a defect). -/
abbrev seenBack (fs : List SFrame) (padding : Nat) : List SFrame := if LastLost fs padding then fs.dropLast else fs

end Id3.Spec
