import Verif.Model.Processes

/-!
# Processes that use one file: what they should do

A call by itself is the function of `Verif/Model/Lib.lean`.
-/

namespace Id3.Spec

open Id3

/-- A call by itself: the file before, the file after, and the result. A call that crashes leaves the file alone. -/
def CallDoes [Platform] (call : FileCall) (file file' : Bytes) (result : Res (Option Tag)) : Prop :=
  match call with
  | .read => file' = file ∧ result = ID3v2_read_tag (some file)
  | .write tag =>
    match ID3v2_write_tag (some file) tag with
    | .ok (f, tag') => f = some file' ∧ result = .ok (some tag')
    | .ub k => file' = file ∧ result = .ub k
    | .exit => file' = file ∧ result = .exit
    | .diverge => file' = file ∧ result = .diverge
  | .delete =>
    match ID3v2_delete_tag (some file) with
    | .ok f => f = some file' ∧ result = .ok none
    | .ub k => file' = file ∧ result = .ub k
    | .exit => file' = file ∧ result = .exit
    | .diverge => file' = file ∧ result = .diverge

/-- The call, made by itself, opens the file for writing: `ID3v2_write_tag` always does, `ID3v2_delete_tag` does if it finds a
tag. -/
def Rewrites [Platform] (call : FileCall) (file : Bytes) : Prop :=
  match call with
  | .read => False
  | .write _ => True
  | .delete => ∃ h, ID3v2_read_tag_header (some file) = .ok (some h)

/-- The calls one after the other, with their results: the file before the first, and the file after the last. -/
inductive OneByOne [Platform] (file : Bytes) : List CallEntry → Bytes → Prop where
  | nil : OneByOne file [] file
  | snoc (log : List CallEntry) (e : CallEntry) (file' file'' : Bytes) : OneByOne file log file' →
      CallDoes e.call file' file'' e.result → OneByOne file (log ++ [e]) file''

/-- The process is in a call that may change the file. -/
def Changing (p : Proc) : Prop := p.phase ≠ .idle ∧ p.todo.head? ≠ some .read

/-- What a readers-writer lock around every call ensures: while a process writes or deletes, no other process is in a call.
Any number of processes may read at the same time. -/
def Exclusive (s : PState) : Prop := ∀ i j, i ≠ j → Changing (s.procs i) → (s.procs j).phase = .idle

/-- Any number of steps under the lock. -/
inductive Guarded [Platform] : PState → PState → Prop where
  | refl (s : PState) : Exclusive s → Guarded s s
  | tail (s t u : PState) : Guarded s t → PStep t u → Exclusive u → Guarded s u

/-- The calls of process `i` that are over, in their order. -/
def callsOf (i : Nat) (log : List CallEntry) : List FileCall := (log.filter fun e => e.proc == i).map CallEntry.call

/-- What a call that changes the file returns when nothing goes wrong: the caller's tag is as `ID3v2_write_tag` always leaves
it (it does not depend on the file). -/
def Returns [Platform] (call : FileCall) (ret : Option Tag) : Prop :=
  match call with
  | .read => False
  | .write tag => ∃ file tag', ID3v2_write_tag (some []) tag = .ok (file, tag') ∧ ret = some tag'
  | .delete => ret = none

/-- The bytes that a call of `ID3v2_write_tag` with this tag puts before the audio. -/
def BytesOf [Platform] (tag : Tag) (bytes : Bytes) : Prop :=
  ∃ file' tag', ID3v2_write_tag (some []) tag = .ok (some file', tag') ∧ file' = bytes

end Id3.Spec
