import Verif.Model.Lib
import Verif.Spec.Layout

/-!
# How the values of the specification are represented in the structs of the library
-/

namespace Id3.Spec

open Id3

/-- An example platform whose `memcmp` may access all the bytes, with a small stack and a signed `char`. -/
abbrev strict : Platform := { memcmpLenient := false, stack := 8192, charSigned := true }

/-- An example platform whose `memcmp` stops at the first difference, with the usual stack and an unsigned `char`. -/
abbrev lenient : Platform := { memcmpLenient := true, stack := 8388608, charSigned := false }

/-- Memory holding the string `s` at its start; `rest` follows in the same object. -/
def Str.inMemory (s : Str) (rest : Bytes) : Bytes := ofB s.bytes ++ rest

/-- A string the library can handle on the platform: well-formed, shorter than `INT_MAX`, and not the empty ISO string
unless `memcmp` tolerates an object of one byte (the library compares two bytes of every string with a BOM). -/
def Str.Usable [Platform] (s : Str) : Prop :=
  s.WF ∧ s.bytes.length ≤ 2147483647 ∧ (Platform.memcmpLenient = true ∨ s ≠ .latin [])

instance [Platform] (s : Str) : Decidable s.Usable := by unfold Str.Usable; infer_instance

/-- The struct of a frame. -/
def SFrame.toFrame (f : SFrame) : Frame :=
  { header := { id := ofB f.id, size := f.body.length, flags := ofB f.flags }
    data := match f with
      | .text _ _ s => .text { size := s.bytes.length, encoding := s.encoding, text := ofB s.bytes }
      | .comment _ lang desc txt =>
        .comment { size := txt.bytes.length, encoding := txt.encoding, language := ofB lang,
                   short_description := ofB desc.bytes, comment := ofB txt.bytes }
      | .apic _ mime picType desc pic =>
        .apic { encoding := desc.encoding, mime_type := ofB mime.bytes, picture_type := picType,
                description := ofB desc.bytes, data := ofB pic, picture_size := pic.length }
      | .other _ _ data => .raw (ofB data) }

/-- The strings of a frame are usable and the frame with its header fits an `int`. -/
def SFrame.Usable [Platform] (f : SFrame) : Prop :=
  f.WF ∧ f.bytes.length ≤ 2147483647 ∧
  match f with
  | .text _ _ s => s.Usable
  | .comment _ _ desc txt => desc.Usable ∧ txt.Usable
  | .apic _ mime _ desc _ => mime.Usable ∧ desc.Usable
  | .other _ _ _ => True

instance [Platform] (f : SFrame) : Decidable f.Usable := by
  unfold SFrame.Usable; cases f <;> infer_instance

/-- The parser's automatic arrays: none of them is empty or larger than the stack. -/
def Wire.FitsStack [Platform] (w : Wire) : Prop :=
  match w with
  | .text _ _ _ s junk => s.bytes.length + junk.length ≤ Platform.stack
  | .comment _ _ _ _ _ desc txt => desc.bytes.length ≤ Platform.stack ∧ txt.bytes.length ≤ Platform.stack
  | .apic _ _ _ mime _ desc pic =>
    mime.bytes.length ≤ Platform.stack ∧ desc.bytes.length ≤ Platform.stack ∧ pic.length ≤ Platform.stack ∧ pic ≠ []
  | .other _ _ _ => True

instance [Platform] (w : Wire) : Decidable w.FitsStack := by
  unfold Wire.FitsStack; cases w <;> infer_instance

/-- The largest size that can be stored in the size field of a frame of the given version (as an `int`). -/
def maxFrameSize (version : UInt8) : Nat := if version = 4 then 2 ^ 28 - 1 else 2 ^ 31 - 1

/-- A frame in a file whose contents the library can handle. -/
def Wire.Keepable [Platform] (w : Wire) : Prop := w.WF ∧ w.kept.Usable ∧ w.FitsStack

instance [Platform] (w : Wire) : Decidable w.Keepable := by
  unfold Wire.Keepable; infer_instance

/-- A frame in a file that the library can read. -/
def Wire.Readable [Platform] (version : UInt8) (w : Wire) : Prop :=
  w.Keepable ∧ w.sizeField ≤ maxFrameSize version

instance [Platform] (version : UInt8) (w : Wire) : Decidable (w.Readable version) := by
  unfold Wire.Readable; infer_instance

/-- A frame that the library can read back after having written it. -/
def SFrame.Readable [Platform] (f : SFrame) : Prop := f.Usable ∧ (Wire.ofSFrame f).FitsStack

instance [Platform] (f : SFrame) : Decidable f.Readable := by unfold SFrame.Readable; infer_instance

/-- The node list of a tag holding exactly the frames `fs`: an empty list is one node without a frame. -/
def toFrameList : List SFrame → FrameList
  | [] => [none]
  | fs => fs.map (fun f => some f.toFrame)

/-- The in-memory tag with the given header fields and frames. -/
def toTag (major minor flags : UInt8) (tagSize : Nat) (fs : List SFrame) (paddingSize : Int) : Tag :=
  { header := { identifier := ofB [0x49, 0x44, 0x33], major_version := major, minor_version := minor, flags := flags,
                tag_size := tagSize, extended_header_size := some 0 }
    frames := toFrameList fs
    padding_size := paddingSize }

end Id3.Spec
