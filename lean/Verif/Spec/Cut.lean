import Verif.Spec.Read
import Verif.Spec.Grammar

/-!
# Reading a file that has been cut off

The file ends before the tag does: a download that was not completed, a full disk, a crash of the program that wrote it.
-/

namespace Id3.Spec

open Id3

/-- What is made of a frame of which only the first `m` bytes (not all of them) are there. A comment always needs all its
bytes, the others all up to the end of their last string: without these the behaviour is undefined. The bytes that are missing
from a picture, from other data and from the flags of other frames are indeterminate in the frame that is returned. -/
def Wire.readCut [Platform] (w : Wire) (m : Nat) : Option Frame :=
  match w with
  | .text id flags _ s junk =>
    if 11 + s.bytes.length ≤ m ∧ s.bytes.length + junk.length ≤ Platform.stack then some (SFrame.text id flags s).toFrame else none
  | .comment _ _ _ _ _ _ _ => none
  | .apic _ flags _ mime picType desc pic =>
    let first := 12 + mime.bytes.length + desc.bytes.length
    if first ≤ m ∧ mime.bytes.length ≤ Platform.stack ∧ desc.bytes.length ≤ Platform.stack ∧ pic.length ≤ Platform.stack then
      some { (SFrame.apic flags mime picType desc pic).toFrame with
        data := .apic { encoding := desc.encoding, mime_type := ofB mime.bytes, picture_type := picType,
                        description := ofB desc.bytes, data := padTo pic.length (ofB (pic.take (m - first))),
                        picture_size := pic.length } }
    else none
  | .other id flags data =>
    if 8 ≤ m then
      some { header := { id := ofB id, size := data.length, flags := padTo 2 (ofB (flags.take (m - 8))) }
             data := .raw (padTo data.length (ofB (data.take (m - 10)))) }
    else none

/-- What a call does: `none` for undefined behaviour, otherwise what it returns. -/
def Does {α : Type} (x : Res α) : Option α → Prop
  | none => ∃ k, x = .ub k
  | some a => x = .ok a

/-- The number of bytes that frames take, each with its header of ten bytes. -/
def wireSize (ws : List Wire) : Nat := (ws.map (fun w => 10 + w.body.length)).sum

/-- What reading does with the first `n` bytes of a file that begins with a tag of the frames `ws` and `padding` bytes of
padding.

Fewer than ten bytes are not a tag. Everything is as in the complete file from the end of the last frame that the parser looks
at, if there is no padding or so little that the parser does not look at it; otherwise from the fourth byte of padding.
Before that the behaviour is undefined, except if the file ends inside the last frame and there is little padding: then this
frame may be returned with indeterminate bytes. -/
def readCut [Platform] (version minor flags : UInt8) (ws : List Wire) (padding n : Nat) :
    Option (Option Tag) :=
  let seen := seenFrames ws padding
  let size := wireSize ws + padding
  if n < 10 then some none
  else if 10 + wireSize seen + (if 10 < padding then 4 else 0) ≤ n then
    if seen.findSome? Wire.defect = none then
      some (some (toTag version minor flags size (seen.map Wire.kept) (seenPadding ws padding)))
    else none
  else if 10 < padding then none
  else
    match seen.getLast? with
    | none => none
    | some w =>
      let before := seen.dropLast
      let start := 10 + wireSize before
      if n < start then none
      else if before.findSome? Wire.defect ≠ none then none
      else match w.readCut (n - start) with
        | none => none
        | some f =>
          some (some { toTag version minor flags size [] (seenPadding ws padding) with
            frames := nodes (before.map (fun w => w.kept.toFrame) ++ [f]) })

/-- The number of bytes of a written file that have to be there: everything up to the end of the last frame, and four bytes of
padding if there are more than ten. -/
def needed (fs : List SFrame) (padding : Nat) : Nat :=
  10 + framesSize (seenBack fs padding) + (if 10 < padding then 4 else 0)

end Id3.Spec
