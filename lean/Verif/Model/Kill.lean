import Verif.Model.Processes

/-!
# Processes that use one file and may be killed

Besides the steps of `Verif/Model/Processes.lean` a process can be killed at any moment. What it had not yet written is lost
with it, what it has written stays in the file, its temporary file (`tmpfile`, id3v2lib.c:106 and 143) disappears, and the
operating system releases its lock. It makes no further calls.
-/

namespace Id3

/-- What has happened so far. -/
inductive Event where
  /-- a call is over -/
  | over (e : CallEntry)
  /-- process `proc` was killed while it was in this call -/
  | killed (proc : Nat) (call : FileCall)

/-- The file, the processes, and what has happened, in order. -/
structure KState where
  dest : Bytes
  procs : Nat → Proc
  events : List Event

/-- One step of one process, or its end. -/
inductive KStep [Platform] : KState → KState → Prop where
  /-- a step as in `PStep`; `log` is the call that it ends, if it ends one -/
  | step (dest dest' : Bytes) (procs procs' : Nat → Proc) (log : List CallEntry) (events : List Event) :
      PStep ⟨dest, procs, []⟩ ⟨dest', procs', log⟩ → KStep ⟨dest, procs, events⟩ ⟨dest', procs', events ++ log.map .over⟩
  /-- a process is killed within a call, anywhere in id3v2lib.c:37-165 -/
  | kill (dest : Bytes) (procs : Nat → Proc) (events : List Event) (i : Nat) (c : FileCall) (cs : List FileCall) :
      (procs i).phase ≠ .idle → (procs i).todo = c :: cs →
      KStep ⟨dest, procs, events⟩ ⟨dest, setProc procs i ⟨.idle, []⟩, events ++ [.killed i c]⟩
  /-- a process is killed between two calls -/
  | quit (dest : Bytes) (procs : Nat → Proc) (events : List Event) (i : Nat) : (procs i).phase = .idle →
      KStep ⟨dest, procs, events⟩ ⟨dest, setProc procs i ⟨.idle, []⟩, events⟩

/-- The processes before their first calls. -/
def KState.init (contents : Bytes) (calls : Nat → List FileCall) : KState := ⟨contents, fun i => ⟨.idle, calls i⟩, []⟩

end Id3
