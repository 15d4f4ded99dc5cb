import Verif.Model.Kill
import Verif.Spec.Processes
import Verif.Spec.Start

/-!
# Processes that may be killed: what they should do
-/

namespace Id3.Spec

open Id3

/-- What a call that is killed may do to the file: nothing, or, if it rewrites the file, leave the beginning of the new file. -/
def KilledIn [Platform] (call : FileCall) (file file' : Bytes) : Prop :=
  file' = file ∨ (Rewrites call file ∧ ∃ new ret, CallDoes call file new (.ok ret) ∧ file' <+: new)

/-- The calls one after the other, some of them killed: the file before the first, and the file after the last. -/
inductive Happened [Platform] (file : Bytes) : List Event → Bytes → Prop where
  | nil : Happened file [] file
  | over (events : List Event) (e : CallEntry) (file' file'' : Bytes) : Happened file events file' →
      CallDoes e.call file' file'' e.result → Happened file (events ++ [.over e]) file''
  | killed (events : List Event) (i : Nat) (c : FileCall) (file' file'' : Bytes) : Happened file events file' →
      KilledIn c file' file'' → Happened file (events ++ [.killed i c]) file''

/-- As `Exclusive`: while a process writes or deletes, no other process is in a call. -/
def KExclusive (s : KState) : Prop := ∀ i j, i ≠ j → Changing (s.procs i) → (s.procs j).phase = .idle

/-- Any number of steps and kills under the lock. -/
inductive KGuarded [Platform] : KState → KState → Prop where
  | refl (s : KState) : KExclusive s → KGuarded s s
  | tail (s t u : KState) : KGuarded s t → KStep t u → KExclusive u → KGuarded s u

/-- The process of an event. -/
def procOf : Event → Nat
  | .over e => e.proc
  | .killed i _ => i

/-- The call of an event. -/
def callOf : Event → FileCall
  | .over e => e.call
  | .killed _ c => c

/-- The calls that process `i` has begun and that are over or were killed, in their order. -/
def madeBy (i : Nat) (events : List Event) : List FileCall := (events.filter fun e => procOf e == i).map callOf

/-- The calls that are over. -/
def finished : List Event → List CallEntry
  | [] => []
  | .over e :: es => e :: finished es
  | .killed _ _ :: es => finished es

/-- The event neither stops a call that changes files nor writes a tag that cannot be written. -/
def Orderly (e : Event) : Prop :=
  match e with
  | .over e => ∀ tag, e.call = .write tag → Writable tag
  | .killed _ c => c = .read

end Id3.Spec
