import Verif.Spec.Total
import Verif.Spec.Read
import Verif.Spec.Compat
import Verif.Model.Fault

/-!
# What calls do, in terms of what can be observed

The vocabulary of the theorems about setters, deletions, the bytes written and the answers of getters.
-/

namespace Id3.Spec

open Id3

/-- In a version 2.4 tag the library can only understand the sizes of its own frames below 256 (C12). -/
def SmallIn (version : UInt8) (f : SFrame) : Prop :=
  version = 4 → (∃ a b c d, f = .comment a b c d) ∨ f.body.length < 256

/-- The bytes of a tag that the library writes. -/
def outBytes (version minor flags : UInt8) (fs : List SFrame) (padding : Nat) : List UInt8 :=
  tagHeaderBytes version minor flags (framesSize fs + padding) ++ fs.flatMap SFrame.bytes ++ List.replicate padding 0

/-- The calls that keep the room: replacing a frame that exists, and deleting by id. -/
def KeepsRoom (st : State) : Op → Bool
  | .setText id _ _ => st.has id
  | .setComment _ _ _ _ => st.has commId
  | .setApic _ _ _ _ _ => st.has apicId
  | .delete _ => true
  | _ => false

/-- Every call of the history keeps the room. -/
def KeepsRoomAll : List Op → State → Bool
  | [], _ => true
  | op :: ops, st => KeepsRoom st op && KeepsRoomAll ops (op.apply st)

/-- A call that does not delete by index. -/
def NoIndex : Op → Bool
  | .deleteComment _ => false
  | .deleteApic _ => false
  | _ => true

/-- What serialising a tag does. -/
inductive Written where
  /-- these bytes, then zeros up to the tag size -/
  | bytes (b : List UInt8)
  /-- the buffer overflows -/
  | overflow
  /-- the process ends -/
  | exits
deriving DecidableEq, Repr

/-- What serialising does with the frames: without seen frames nothing but the header is written; a frame that does not fit
overflows the buffer; the empty node behind other frames ends the process. -/
def Full.serialise (st : Full) : Written :=
  if st.size < framesSize st.seen then .overflow
  else if st.seen ≠ [] ∧ st.hidden ≠ none then .exits
  else .bytes (st.seen.flatMap SFrame.bytes)

/-- A call that stores a frame, and the frame. -/
inductive Stores : Op → SFrame → Prop
  | text (id flags s) : Stores (.setText id flags s) (.text id flags s)
  | comment (flags lang desc txt) : Stores (.setComment flags lang desc txt) (.comment flags lang desc txt)
  | apic (flags mime pt desc pic) : Stores (.setApic flags mime pt desc pic) (.apic flags mime pt desc pic)

/-- A call that deletes by index, and the id of the frames. -/
inductive DeletesAt (index : Int) : Op → List UInt8 → Prop
  | comment : DeletesAt index (.deleteComment index) commId
  | apic : DeletesAt index (.deleteApic index) apicId

/-- A setter stores the frame `new`: its observable effect on the frames, as a small specification.
`old` and `fs` are the frames before and after. -/
structure SetEffect (k : List UInt8) (new : Frame) (old fs : List Frame) : Prop where
  /-- the getter returns the new frame -/
  stored : first Frame.key k fs = some new
  /-- frames with other ids are the same, in the same order -/
  others : ∀ j, j ≠ k → all Frame.key j fs = all Frame.key j old
  /-- later frames with the same id are the same -/
  later : (all Frame.key k fs).tail = (all Frame.key k old).tail
  /-- every frame keeps its place; a new frame goes to the end -/
  places : fs = put Frame.key k new old
  /-- no second frame with the id is created -/
  single : (all Frame.key k fs).length = max 1 (all Frame.key k old).length

/-- The input struct of `ID3v2_Tag_set_text_frame` for an id, flags and a string, each followed by anything in memory. -/
def textInput (k fl : List UInt8) (s : Str) (r1 r2 r3 : Bytes) : TextFrameInput :=
  { id := ofB k ++ r1, flags := ofB fl ++ r2, text := s.inMemory r3 }

/-- The input struct of `ID3v2_Tag_set_comment_frame`. -/
def commentInput (fl lang : List UInt8) (desc txt : Str) (r1 r2 r3 r4 : Bytes) : CommentFrameInput :=
  { flags := ofB fl ++ r1, language := ofB lang ++ r2, short_description := desc.inMemory r3, comment := txt.inMemory r4 }

/-- The input struct of `ID3v2_Tag_set_apic_frame`. -/
def apicInput (fl : List UInt8) (mime : Str) (pt : UInt8) (desc : Str) (pic : List UInt8) (r1 r2 r3 r4 : Bytes) :
    ApicFrameInput :=
  { flags := ofB fl ++ r1, mime_type := mime.inMemory r2, description := desc.inMemory r3, picture_type := pt,
    picture_size := pic.length, data := ofB pic ++ r4 }

/-- The frames of a tag whose list has a node without a frame after the frames `a` (at least one). -/
def Tag.Holed (tag : Tag) (a : List Frame) (t : FrameList) : Prop :=
  tag.frames = a.map some ++ none :: t ∧ a ≠ [] ∧ ∀ f ∈ a, f.Sound

/-- The entry at every position of the compat list shows the frame at that position. -/
def ShowsAll (l : CList) (fs : List SFrame) : Prop :=
  l.length = fs.length ∧ ∀ (i : Nat) (f : SFrame), fs[i]? = some f → ∃ c, l[i]? = some (some c) ∧ Shows c f

/-- The answer of a getter: nothing, or an entry that shows the frame. -/
def Answers (r : Res (Option CFrame)) : Option SFrame → Prop
  | none => r = .ok none
  | some f => ∃ c, r = .ok (some c) ∧ Shows c f

/-- The parse functions return what was passed to the setter. -/
def Parsed (c : CFrame) : COp → Prop
  | .text _ s _ => parse_text_frame_content c = .ok { size := s.bytes.length, encoding := s.encoding, data := ofB s.bytes }
  | .comment s _ => parse_comment_frame_content c = .ok
      { language := ofB [0x65, 0x6E, 0x67], short_description := ofB [0xFF, 0xFE, 0, 0]
        text := { size := s.bytes.length, encoding := s.encoding, data := ofB s.bytes } }
  | .cover mime pic => parse_apic_frame_content c = .ok
      { encoding := 1, mime_type := ofB mime.bytes, picture_type := 3, description := ofB [0xFF, 0xFE, 0, 0]
        picture_size := pic.length, data := ofB pic }
  | .coverFile name pic => parse_apic_frame_content c = .ok
      { encoding := 1, mime_type := ofB ((if isPng name then png else jpeg) ++ [0]), picture_type := 3
        description := ofB [0xFF, 0xFE, 0, 0], picture_size := pic.length, data := ofB pic }

/-- Writing the tags one after the other. -/
def writeAll [Platform] : List Tag → File → Res File
  | [], file => .ok file
  | tag :: tags, file => do
    let (file, _) ← ID3v2_write_tag file tag
    writeAll tags file

/-- A file whose existing tag can be told from its audio `a`. -/
def Tagged [Platform] (file : File) (a : List UInt8) : Prop :=
  ∃ c n, file = some c ∧ existingTagSize (some c) = .ok (n : Nat) ∧ c.drop n = ofB a

/-- The header can be read. -/
def HeaderReadable (e : ReadFaults) : Prop := e.opens = true ∧ ∀ k, e.stops = some k → 10 ≤ k

instance (e : ReadFaults) : Decidable (HeaderReadable e) := by
  unfold HeaderReadable
  cases h : e.stops with
  | none => exact decidable_of_iff (e.opens = true) (by simp)
  | some k => exact decidable_of_iff (e.opens = true ∧ 10 ≤ k) (by simp)

end Id3.Spec
