import Verif.Model.Concurrent

/-!
# What a reader beside a writer can observe
-/

namespace Id3.Spec

open Id3

/-- The outcome of `ID3v2_read_tag` when it reads the bytes `header` and, later, the bytes `body`. -/
def readerOutcome [Platform] (header body : Bytes) : Res (Option Tag) :=
  match afterHeader header with
  | .done r => r
  | .body n _ => ID3v2_read_tag_from_buffer (intoArray n body) n
  | .header _ => .diverge

/-- Any number of steps of the reader alone. -/
inductive RSteps [Platform] (dest : Bytes) : RPhase → RPhase → Prop where
  | refl (r : RPhase) : RSteps dest r r
  | tail (r s t : RPhase) : RSteps dest r s → RStep dest s t → RSteps dest r t

/-- Every byte of `got` comes from the same position of `old`, before position `k`, or of `new`, from `k` on. -/
def Splice (old new : Bytes) (k : Nat) (got : Bytes) : Prop :=
  ∀ i c, got[i]? = some c → (if i < k then old else new)[i]? = some c

/-- The writer has not yet truncated the file. -/
def Untouched (s : IOState) : Prop := ∃ temp rest, s.phase = .reading temp rest

end Id3.Spec
