import Verif.Spec.Kind
import Verif.Spec.Layout
import Verif.Model.Lib

/-!
# What a frame struct is when it is written

For any frame struct, also one with indeterminate bytes in it (the library reads past short files).
-/

namespace Id3.Spec

open Id3

instance (f : Frame) : Decidable (Typed f) := by
  unfold Typed; cases f.data <;> infer_instance

/-- What follows the ten bytes of the frame header, in the order of the ID3v2.3 document. -/
def bodyOf : Payload → Bytes
  | .text d => some d.encoding :: d.text
  | .comment d => some d.encoding :: d.language ++ d.short_description ++ d.comment
  | .apic d => some d.encoding :: d.mime_type ++ some d.picture_type :: d.description ++ d.data
  | .raw d => d

/-- The frame in a tag: id, big-endian size, flags, body. -/
def frameBytes (f : Frame) : Bytes := f.header.id ++ ofB (be32 f.header.size.toNat) ++ f.header.flags ++ bodyOf f.data

/-- The size in the frame header is the number of bytes of the body. -/
def Truthful (f : Frame) : Prop := f.header.size = (bodyOf f.data).length

instance (f : Frame) : Decidable (Truthful f) := by unfold Truthful; infer_instance

/-- One of the strings that the library measures again when it writes the frame is an object of a single byte: an empty
ISO description or MIME type. -/
def BareNul (f : Frame) : Prop :=
  match f.data with
  | .comment d => d.short_description = ofB [0]
  | .apic d => d.mime_type = ofB [0] ∨ d.description = ofB [0]
  | _ => False

instance (f : Frame) : Decidable (BareNul f) := by
  unfold BareNul; cases f.data <;> infer_instance

/-- The library can write the frame: its size is not negative, it fits an `int` with the header, and `memcmp` copes with
its empty ISO strings. -/
def WritableFrame [Platform] (f : Frame) : Prop :=
  0 ≤ f.header.size ∧ f.header.size + 10 ≤ 2147483647 ∧ (Platform.memcmpLenient = true ∨ ¬ BareNul f)

instance [Platform] (f : Frame) : Decidable (WritableFrame f) := by unfold WritableFrame; infer_instance

/-- The number of bytes that frames take in a tag. -/
def frameBytesTotal (fs : List Frame) : Nat := (fs.map (fun f => (frameBytes f).length)).sum

/-- The ten bytes of the header that the library writes for a tag of the given size. -/
def headerBytes (h : TagHeader) : List UInt8 :=
  tagHeaderBytes h.major_version h.minor_version h.flags h.tag_size

end Id3.Spec
