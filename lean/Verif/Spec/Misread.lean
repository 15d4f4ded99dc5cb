import Verif.Spec.Grammar
import Verif.Spec.Read

/-!
# What is read from a tag that the library has written, large version 2.4 frames included

The library writes the size of a frame as four bytes of eight bits each, in both versions, and reads the size of a version
2.4 frame as four bytes of seven bits each. So it takes a frame of 256 bytes or more for a shorter one, and goes on inside
its body.
-/

namespace Id3.Spec

open Id3

/-- The size that is read from the size field that is written for a frame of `n` bytes in a version 2.4 tag. -/
def misreadSize (n : Nat) : Nat := looseSize (be32 n)

/-- The frame is read with another size than it has, if the version is 2.4. (The size of a comment does not matter.) -/
def SFrame.Big (f : SFrame) : Prop := (∀ fl lang desc txt, f ≠ .comment fl lang desc txt) ∧ 256 ≤ f.body.length

/-- `Misread f g left`: instead of the large frame `f` the frame `g` is read, and the next one is looked for in `left`, the
rest of the body of `f`. There is no such `g` for a text frame, nor for a picture whose strings take up the size that is
read. -/
inductive Misread [Platform] : SFrame → SFrame → List UInt8 → Prop
  | apic (fl : List UInt8) (mime : Str) (pt : UInt8) (desc : Str) (pic : List UInt8) (k : Nat)
      (hbig : (SFrame.apic fl mime pt desc pic).Big)
      (hk : misreadSize (SFrame.apic fl mime pt desc pic).body.length = 1 + mime.bytes.length + 1 + desc.bytes.length + k)
      (hst : mime.bytes.length ≤ Platform.stack ∧ desc.bytes.length ≤ Platform.stack)
      (hk' : 0 < k ∧ k ≤ Platform.stack) :
      Misread (.apic fl mime pt desc pic) (.apic fl mime pt desc (pic.take k)) (pic.drop k)
  | other (id fl data : List UInt8) (hbig : (SFrame.other id fl data).Big) :
      Misread (.other id fl data) (.other id fl (data.take (misreadSize data.length))) (data.drop (misreadSize data.length))

/-- `ReadsAs version minor flags fs padding t`: `t` is what is read from a tag that the library has written with the frames
`fs` and so much padding. -/
inductive ReadsAs [Platform] (version minor flags : UInt8) (fs : List SFrame) (padding : Nat) : Tag → Prop
  /-- No frame is read with a wrong size. -/
  | same (h : version = 4 → ∀ f ∈ fs, ¬ f.Big) (t : Tag) (ht : readBack version minor flags fs padding = .ok (some t)) :
      ReadsAs version minor flags fs padding t
  /-- The frames up to the first large one are read, this one is misread, and what is found in the rest of the tag is found
  there by chance: it is described by the grammar of arbitrary bytes. -/
  | misread (before : List SFrame) (f : SFrame) (after : List SFrame) (g : SFrame) (left : List UInt8) (gs : List Frame)
      (stop : Nat) (hv : version = 4) (hfs : fs = before ++ f :: after) (hb : ∀ x ∈ before, ¬ x.Big ∧ x.defect = none)
      (hf : Misread f g left)
      (hi : Items 4 (framesSize fs + padding) (10 + framesSize before + g.bytes.length)
        (ofB (left ++ after.flatMap SFrame.bytes ++ List.replicate padding 0)) gs stop) :
      ReadsAs version minor flags fs padding
        { toTag version minor flags (framesSize fs + padding) [] ((10 + framesSize fs + padding : Nat) - (stop : Int)) with
          frames := (before.map SFrame.toFrame ++ g.toFrame :: gs).map some }

end Id3.Spec
