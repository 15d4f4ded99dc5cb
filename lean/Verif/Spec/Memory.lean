import Verif.Model.Memory
import Verif.Spec.Files
import Verif.Spec.Session
import Verif.Heap.CompatRep

/-!
# Calls with a file name, on a machine whose memory can run out

The calls of `Verif/Spec/Files.lean` with pointers to tags on the heap instead of tags as values, and what it means that the
heap holds the arguments and the results of a call.
-/

namespace Id3.Spec

open Id3

/-- A call with a file name; tags are given by their addresses. -/
inductive MCall where
  /-- `ID3v2_read_tag_header` -/
  | readHeader (name : Name)
  /-- `ID3v2_read_tag` -/
  | read (name : Name)
  /-- `ID3v2_write_tag` -/
  | write (name : Name) (tag : Nat)
  /-- `ID3v2_delete_tag` -/
  | delete (name : Name)
  /-- `load_tag` -/
  | load (name : Name)
  /-- `set_tag` -/
  | set (name : Name) (tag : Nat)
  /-- `remove_tag` -/
  | remove (name : Name)
  /-- `tag_set_album_cover`; the name is that of the picture -/
  | cover (name : Name) (tag : Nat)

/-- The call on a machine: the pointer that it returns, NULL if it returns nothing. -/
def MCall.run [Platform] : MCall → MIO Ptr
  | .readHeader n => ID3v2_read_tag_header_mem n
  | .read n => ID3v2_read_tag_mem n
  | .write n t => do ID3v2_write_tag_mem n t; return none
  | .delete n => do ID3v2_delete_tag_mem n; return none
  | .load n => do return some (← load_tag_mem n)
  | .set n t => do set_tag_mem n t; return none
  | .remove n => do remove_tag_mem n; return none
  | .cover n t => do tag_set_album_cover_mem n t; return none

/-- There is always enough memory. -/
def enough : Lack := fun _ => false

/-- The heap holds the tag `v` at the address `a`, and the blocks `X` beside it. -/
def HoldsTag (X : List Block) (v : Tag) (a : Nat) (h : Heap) : Prop :=
  ∃ T : HTag, T.addr = a ∧ T.value = v ∧ Rep h (T.blocks ++ X)

/-- The same for a tag of the compatibility API. -/
def HoldsCTag (X : List Block) (v : CTag) (a : Nat) (h : Heap) : Prop :=
  ∃ C : HCTag, C.addr = a ∧ C.value = v ∧ C.Linked ∧ Rep h (C.blocks ++ X)

/-- Before a call: the heap holds what the call is given, and the blocks `X` beside it. The call on values is the second
one. -/
def Given (X : List Block) (h : Heap) : MCall → FileCall → Prop
  | .readHeader n, .readHeader m => n = m ∧ Rep h X
  | .read n, .read m => n = m ∧ Rep h X
  | .write n a, .write m v => n = m ∧ HoldsTag X v a h
  | .delete n, .delete m => n = m ∧ Rep h X
  | .load n, .load m => n = m ∧ Rep h X
  | .set n a, .set m v => n = m ∧ HoldsCTag X v a h
  | .remove n, .remove m => n = m ∧ Rep h X
  | .cover n a, .cover m v => n = m ∧ HoldsCTag X v a h
  | _, _ => False

/-- The blocks of character streams: the streams and their bytes. -/
def OfStreams (K : List Block) : Prop := ∀ b ∈ K, (∃ s, b.2 = .charStream s) ∨ ∃ d, b.2 = .bytes d

/-- The number of blocks that are lost when frames are loaded: two for each unknown frame. -/
def loadLost (frames : FrameList) : Nat := 2 * (frames.filter isRaw).length

/-- The number of blocks that are lost when a tag is written: the same, unless its list begins with an empty node. -/
def writeLost (frames : FrameList) : Nat := if frames.head? = some none then 0 else loadLost frames

/-- After a call that returned the pointer `p`, and the answer on values: the heap holds exactly the result, what the call
was given, the blocks `X`, and lost streams of unknown frames if the call was to write or to load them. -/
def Gives (X : List Block) (h : Heap) : MCall → Ptr → Answer → Prop
  | .readHeader _, none, .header none => Rep h X
  | .readHeader _, some a, .header (some v) => Rep h ((a, .tagHeader v) :: X)
  | .read _, none, .tag none => Rep h X
  | .read _, some a, .tag (some v) => HoldsTag X v a h
  | .write _ a, none, .written v => ∃ K, K.length = writeLost v.frames ∧ OfStreams K ∧ HoldsTag (K ++ X) v a h
  | .delete _, none, .done => Rep h X
  | .load _, some a, .loaded v => ∃ K, K.length = loadLost v.tag.frames ∧ OfStreams K ∧ HoldsCTag (K ++ X) v a h
  | .set _ a, none, .loaded v => ∃ K, K.length = writeLost v.tag.frames ∧ OfStreams K ∧ HoldsCTag (K ++ X) v a h
  | .remove _, none, .done => Rep h X
  | .cover _ a, none, .loaded v => HoldsCTag X v a h
  | _, _, _ => False

end Id3.Spec
