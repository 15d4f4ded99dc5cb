import Verif.Spec.Memory
import Verif.Spec.Threads

/-!
# Programs on a machine where anything may fail

A program makes any calls of the main API, on any files. Every I/O operation and every request for memory may fail, and
between two calls other programs may do anything to the files. `Move.value` says what a call does to the tags as values
(by `Verif/Model/World.lean` and the functions on values), `Move.lost` how many blocks it loses.
-/

namespace Id3.Spec

open Id3

/-- A running program: the machine, and the pointers that the program holds. -/
structure Running where
  machine : Machine
  tags : List Nat
  lists : List Nat
  headers : List Nat
  buffers : List Nat

/-- The heap and the pointers, as in `Verif/Spec/Session.lean`; the file there is not used. -/
def Running.world (p : Running) : World :=
  { heap := p.machine.heap, disk := none, tags := p.tags, lists := p.lists, headers := p.headers, buffers := p.buffers }

/-- The pointers. -/
def Running.known (p : Running) : Local :=
  { disk := none, tags := p.tags, lists := p.lists, headers := p.headers, buffers := p.buffers }

/-- What the program does next. -/
inductive Move where
  /-- a call without a file name, or something that the program does with its buffers -/
  | memory (c : Call)
  /-- a call with a file name -/
  | file (c : MCall)

/-- The call has no file name. -/
def Call.InMemory : Call → Prop
  | .readTag | .writeTag _ | .readHeader | .deleteTag | .changeDisk _ => False
  | _ => True

/-- The program uses the pointers that it may use, and the main API. -/
def Move.Allowed (p : Running) : Move → Prop
  | .memory c => c.InMemory ∧ c.Allowed p.world
  | .file (.readHeader _) | .file (.read _) | .file (.delete _) => True
  | .file (.write _ t) => t ∈ p.tags
  | .file _ => False

/-- A call with a file name returned a pointer: the program holds it. -/
def Running.returned (p : Running) (m : Machine) (q : Ptr) : MCall → Running
  | .readHeader _ => { p with machine := m, headers := hold q p.headers }
  | .read _ => { p with machine := m, tags := hold q p.tags }
  | _ => { p with machine := m }

/-- A call with failures. `short` says afterwards whether memory ran out in this call. -/
def Move.run [Platform] (e : Faults) (a : Lack) (p : Running) : Move → Running × Res Unit
  | .memory c =>
    match inMemory (c.prog p.known) e a { p.machine with short := false } with
    | (m, .ok l) => (⟨m, l.tags, l.lists, l.headers, l.buffers⟩, .ok ())
    | (m, .ub k) => ({ p with machine := m }, .ub k)
    | (m, .exit) => ({ p with machine := m }, .exit)
    | (m, .diverge) => ({ p with machine := m }, .diverge)
  | .file c =>
    match c.run e a { p.machine with short := false } with
    | (m, .ok q) => (p.returned m q c, .ok ())
    | (m, .ub k) => ({ p with machine := m }, .ub k)
    | (m, .exit) => ({ p with machine := m }, .exit)
    | (m, .diverge) => ({ p with machine := m }, .diverge)

/-- What the call does if there is enough memory, with the tags as values: the files and streams afterwards, and the tags,
which depend on the pointer to the new tag, if there is one. -/
def Move.value [Platform] (e : Faults) (p : Running) (s : Abs) : Move → Sys × Res (Nat → Abs)
  | .memory c => (p.machine.sys, c.abs p.machine.heap s)
  | .file (.readHeader n) => (do let _ ← ID3v2_read_tag_header_os n; return fun _ => s : CIO (Nat → Abs)) e p.machine.sys
  | .file (.read n) => (do return s.add (← ID3v2_read_tag_os n) : CIO (Nat → Abs)) e p.machine.sys
  | .file (.write n t) =>
    match s.tags.lookup t with
    | none => (p.machine.sys, .ub .badFree)
    | some v =>
      (do let v' ← ID3v2_write_tag_os n v; return fun _ => { s with tags := setAt t v' s.tags } : CIO (Nat → Abs)) e
        p.machine.sys
  | .file (.delete n) => (do ID3v2_delete_tag_os n; return fun _ => s : CIO (Nat → Abs)) e p.machine.sys
  | .file _ => (p.machine.sys, .ok fun _ => s)

/-- The number of blocks that the call loses. -/
def Move.lost (p : Running) (s : Abs) : Move → Nat
  | .memory c => c.leak p.machine.heap s
  | .file (.write _ t) => tagLeft s t fun v => writeLost v.frames
  | _ => 0

/-- The program that starts with some files: it holds nothing, and nothing is allocated. -/
def Running.start (files : Name → File) (picks : Nat → Nat) : Running where
  machine := ⟨⟨files, fun _ => none, 0, 0⟩, ⟨fun _ => none, 0, picks⟩, 0, false⟩
  tags := []
  lists := []
  headers := []
  buffers := []

/-- The program can reach the state, and loses `n` blocks on the way. A call that returns NULL for lack of memory loses
nothing. -/
inductive Goes [Platform] : Running → Nat → Prop where
  | start (files : Name → File) (picks : Nat → Nat) : Goes (.start files picks) 0
  /-- a call, in which anything may fail -/
  | call {p p' : Running} {n : Nat} {s : Abs} {c : Move} {e : Faults} {a : Lack} : Goes p n → p.world.Holds s → c.Allowed p →
      c.run e a p = (p', .ok ()) → Goes p' (n + if p'.machine.short then 0 else c.lost p s)
  /-- somebody else changes files -/
  | others {p : Running} {n : Nat} (files : Name → File) : Goes p n →
      Goes { p with machine := { p.machine with sys := { p.machine.sys with files := files } } } n

end Id3.Spec
