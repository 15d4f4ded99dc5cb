import Verif.Spec.Compat
import Verif.Spec.Read
import Verif.Spec.Kind
import Verif.Spec.Body
import Verif.Model.Lib

/-!
# Where histories start, and the tags that can be reached

The vocabulary of the theorems about histories of calls: the tags a program can hold before its first call, the tags it can
reach from there, and the tags that can be written.
-/

namespace Id3.Spec

open Id3

/-- Where a history starts: a tag, its frames and its size. -/
inductive Start [Platform] : Tag → State → Prop where
  /-- a new tag -/
  | new : Start ID3v2_Tag_new_empty ⟨[], 0⟩
  /-- a tag read from the bytes of a well-formed tag -/
  | read (version minor flags : UInt8) (ws : List Wire) (padding : Nat) (tag : Tag)
      (hv : version = 3 ∨ version = 4) (hflag : flags &&& 0x40 = 0) (hR : ∀ w ∈ ws, w.Readable version)
      (hs : (ws.flatMap (Wire.bytes version)).length + padding < 2 ^ 28) (hlast : lastSeen ws padding)
      (h : ID3v2_read_tag_from_buffer (ofB (wireTagBytes version minor flags ws padding))
        (10 + (ws.flatMap (Wire.bytes version)).length + padding : Nat) = .ok (some tag)) :
      Start tag ⟨ws.map Wire.kept,
        ((ws.flatMap (Wire.bytes version)).length + padding : Nat) - framesSize (ws.map Wire.kept)⟩

/-- A compat tag and the frames it was loaded from: by `load_tag_with_buffer` from a buffer that holds a well-formed tag
with at least one frame, or by `load_tag` from a file that starts with such a tag. -/
inductive CStart [Platform] : CTag → State → Prop where
  | buffer (version minor flags : UInt8) (ws : List Wire) (padding : Nat) (ct : CTag)
      (hv : version = 3 ∨ version = 4) (hflag : flags &&& 0x40 = 0) (hne : ws ≠ []) (hR : ∀ w ∈ ws, w.Readable version)
      (hs : (ws.flatMap (Wire.bytes version)).length + padding < 2 ^ 28) (hlast : lastSeen ws padding)
      (h : load_tag_with_buffer (ofB (wireTagBytes version minor flags ws padding))
        (10 + (ws.flatMap (Wire.bytes version)).length + padding : Nat) = .ok ct) :
      CStart ct ⟨ws.map Wire.kept,
        ((ws.flatMap (Wire.bytes version)).length + padding : Nat) - framesSize (ws.map Wire.kept)⟩
  | file (version minor flags : UInt8) (ws : List Wire) (padding : Nat) (audio : Bytes) (ct : CTag)
      (hv : version = 3 ∨ version = 4) (hflag : flags &&& 0x40 = 0) (hne : ws ≠ []) (hR : ∀ w ∈ ws, w.Readable version)
      (hs : (ws.flatMap (Wire.bytes version)).length + padding < 2 ^ 28) (hlast : lastSeen ws padding)
      (h : load_tag (some (ofB (wireTagBytes version minor flags ws padding) ++ audio)) = .ok ct) :
      CStart ct ⟨ws.map Wire.kept,
        ((ws.flatMap (Wire.bytes version)).length + padding : Nat) - framesSize (ws.map Wire.kept)⟩

/-- The tags that can be obtained by calls of the API with arbitrary arguments and input. The id given to
`ID3v2_Tag_set_text_frame` must begin with `T`. -/
inductive Obtainable [Platform] : Tag → Prop
  | new (h : Option TagHeader) (p : Int) : Obtainable (ID3v2_Tag_new h p)
  | read {buffer : Bytes} {n : Int} {t : Tag} : ID3v2_read_tag_from_buffer buffer n = .ok (some t) → Obtainable t
  | readFile {file : File} {t : Tag} : ID3v2_read_tag file = .ok (some t) → Obtainable t
  | setText {t t' : Tag} {i : TextFrameInput} : Obtainable t → i.id.head? = some (some 0x54) →
      ID3v2_Tag_set_text_frame t i = .ok t' → Obtainable t'
  | setComment {t t' : Tag} {i : CommentFrameInput} : Obtainable t → ID3v2_Tag_set_comment_frame t i = .ok t' → Obtainable t'
  | addComment {t t' : Tag} {i : CommentFrameInput} : Obtainable t → ID3v2_Tag_add_comment_frame t i = .ok t' → Obtainable t'
  | setApic {t t' : Tag} {i : ApicFrameInput} : Obtainable t → ID3v2_Tag_set_apic_frame t i = .ok t' → Obtainable t'
  | addApic {t t' : Tag} {i : ApicFrameInput} : Obtainable t → ID3v2_Tag_add_apic_frame t i = .ok t' → Obtainable t'
  | delete {t t' : Tag} {id : Bytes} : Obtainable t → ID3v2_Tag_delete_frame t id = .ok t' → Obtainable t'
  | deleteAt {t t' : Tag} {id : Bytes} {n : Int} : Obtainable t → ID3v2_Tag_delete_frame_at t id n = .ok t' → Obtainable t'
  | write {t t' : Tag} {file file' : File} : Obtainable t → ID3v2_write_tag file t = .ok (file', t') → Obtainable t'

/-- The tags reached from the given ones by calls of the API, with arbitrary arguments, that return. -/
inductive Reached [Platform] (From : Tag → Prop) : Tag → Prop
  | start {t : Tag} : From t → Reached From t
  | setText {t t' : Tag} {i : TextFrameInput} : Reached From t → ID3v2_Tag_set_text_frame t i = .ok t' → Reached From t'
  | setComment {t t' : Tag} {i : CommentFrameInput} : Reached From t → ID3v2_Tag_set_comment_frame t i = .ok t' →
      Reached From t'
  | addComment {t t' : Tag} {i : CommentFrameInput} : Reached From t → ID3v2_Tag_add_comment_frame t i = .ok t' →
      Reached From t'
  | setApic {t t' : Tag} {i : ApicFrameInput} : Reached From t → ID3v2_Tag_set_apic_frame t i = .ok t' → Reached From t'
  | addApic {t t' : Tag} {i : ApicFrameInput} : Reached From t → ID3v2_Tag_add_apic_frame t i = .ok t' → Reached From t'
  | delete {t t' : Tag} {id : Bytes} : Reached From t → ID3v2_Tag_delete_frame t id = .ok t' → Reached From t'
  | deleteAt {t t' : Tag} {id : Bytes} {n : Int} : Reached From t → ID3v2_Tag_delete_frame_at t id n = .ok t' →
      Reached From t'
  | write {t t' : Tag} {file file' : File} : Reached From t → ID3v2_write_tag file t = .ok (file', t') → Reached From t'

/-- A new tag, or one read from any buffer or file. -/
inductive AnyStart [Platform] : Tag → Prop
  | new (h : Option TagHeader) (p : Int) : AnyStart (ID3v2_Tag_new h p)
  | read {buffer : Bytes} {n : Int} {t : Tag} : ID3v2_read_tag_from_buffer buffer n = .ok (some t) → AnyStart t
  | readFile {file : File} {t : Tag} : ID3v2_read_tag file = .ok (some t) → AnyStart t

/-- A new tag, or one read from the bytes of a well-formed tag. -/
inductive GoodStart [Platform] : Tag → Prop
  | new (h : Option TagHeader) (p : Int) : GoodStart (ID3v2_Tag_new h p)
  | read (version minor flags : UInt8) (ws : List Wire) (padding : Nat) (rest : List UInt8) (t : Tag)
      (hv : version = 3 ∨ version = 4) (hflag : flags &&& 0x40 = 0) (hR : ∀ w ∈ ws, w.Readable version)
      (hs : (ws.flatMap (Wire.bytes version)).length + padding < 2 ^ 28) (hlast : lastSeen ws padding)
      (h : ID3v2_read_tag (some (ofB (wireTagBytes version minor flags ws padding ++ rest))) = .ok (some t)) : GoodStart t


/-- A new empty tag, or one read from any buffer or file. -/
inductive UsualStart [Platform] : Tag → Prop
  | new : UsualStart ID3v2_Tag_new_empty
  | read {buffer : Bytes} {n : Int} {t : Tag} : ID3v2_read_tag_from_buffer buffer n = .ok (some t) → UsualStart t
  | readFile {file : File} {t : Tag} : ID3v2_read_tag file = .ok (some t) → UsualStart t

/-- A tag with the identifier "ID3", a supported version and a size the format can express (below 256 MiB). -/
def Writable (tag : Tag) : Prop :=
  tag.header.identifier = ofB [0x49, 0x44, 0x33] ∧ (tag.header.major_version = 3 ∨ tag.header.major_version = 4) ∧
    tag.header.tag_size < 2 ^ 28

instance (tag : Tag) : Decidable (Writable tag) := by unfold Writable; infer_instance

/-- The tag fits: its size with the header fits an `int`, it has no hole in its list of frames, every frame has
the data that its id announces and can be written, and the frames fit into the size of the tag. A list whose first node has no frame counts as empty. -/
def Fits [Platform] (t : Tag) : Prop :=
  t.header.tag_size + 10 ≤ 2147483647 ∧
  (t.frames.head? = some none ∨
    ∃ fs : List Frame, fs ≠ [] ∧ t.frames = fs.map some ∧ (∀ f ∈ fs, Typed f ∧ WritableFrame f) ∧
      frameBytesTotal fs ≤ t.header.tag_size)

/-- The frames that are written: none if the first node has none. -/
def writtenFrames : FrameList → List Frame
  | none :: _ => []
  | l => l.filterMap id

end Id3.Spec
