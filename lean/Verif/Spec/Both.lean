import Verif.Spec.Programs

/-!
# Programs that use both APIs on a machine where anything may fail

As `Verif/Spec/Programs.lean`, for a program that makes calls of the main API and of the compatibility API, in any order.
-/

namespace Id3.Spec

open Id3

/-- A running program: what it has of the main API, with the machine, its tags of the compatibility API, and the other things
that it has to free itself. -/
structure Both where
  current : Running
  ctags : List Nat
  things : List (Nat × Kind)

/-- The heap and the pointers of the compatibility API, as in `Verif/Spec/CompatSession.lean`; the file there is not used. -/
def Both.compat (p : Both) : CWorld :=
  { heap := p.current.machine.heap, disk := none, tags := p.ctags, things := p.things }

/-- What the program does next. -/
inductive BothMove where
  /-- a call of the main API, or something that the program does with its buffers -/
  | current (c : Move)
  /-- a call of the compatibility API without a file name -/
  | memory (c : CCall)
  /-- a call of the compatibility API with a file name -/
  | file (c : MCall)

/-- The call has no file name. -/
def CCall.InMemory : CCall → Prop
  | .loadTag | .setCover _ _ _ | .setTag _ | .removeTag | .changeDisk _ => False
  | _ => True

/-- The program uses the pointers that it may use. -/
def BothMove.Allowed (p : Both) : BothMove → Prop
  | .current c => c.Allowed p.current
  | .memory c => c.InMemory ∧ c.Allowed p.compat
  | .file (.load _) | .file (.remove _) => True
  | .file (.set _ t) | .file (.cover _ t) => t ∈ p.ctags
  | .file _ => False

/-- The machine changed, and the pointers of the compatibility API. -/
def Both.after (p : Both) (m : Machine) (tags : List Nat) (things : List (Nat × Kind)) : Both :=
  { current := { p.current with machine := m }, ctags := tags, things := things }

/-- A call with a file name returned a pointer: `load_tag` gives a tag. -/
def Both.loaded (p : Both) (q : Ptr) : MCall → List Nat
  | .load _ => hold q p.ctags
  | _ => p.ctags

/-- A call with failures. `short` says afterwards whether memory ran out in this call. -/
def BothMove.run [Platform] (e : Faults) (a : Lack) (p : Both) : BothMove → Both × Res Unit
  | .current c => ({ p with current := (c.run e a p.current).1 }, (c.run e a p.current).2)
  | .memory c =>
    match inMemory (c.prog ⟨none, p.ctags, p.things⟩) e a { p.current.machine with short := false } with
    | (m, .ok l) => (p.after m l.tags l.things, .ok ())
    | (m, .ub k) => (p.after m p.ctags p.things, .ub k)
    | (m, .exit) => (p.after m p.ctags p.things, .exit)
    | (m, .diverge) => (p.after m p.ctags p.things, .diverge)
  | .file c =>
    match c.run e a { p.current.machine with short := false } with
    | (m, .ok q) => (p.after m (p.loaded q c) p.things, .ok ())
    | (m, .ub k) => (p.after m p.ctags p.things, .ub k)
    | (m, .exit) => (p.after m p.ctags p.things, .exit)
    | (m, .diverge) => (p.after m p.ctags p.things, .diverge)

/-- A call of the compatibility API with a file name that changes a tag, as a value. -/
def CAbs.fileUpdate (t : CAbs) (a : Nat) (f : CTag → CIO CTag) (e : Faults) (w : Sys) : Sys × Res (Nat → CAbs) :=
  match t.tags.lookup a with
  | none => (w, .ub .badFree)
  | some v => (do let v' ← f v; return fun _ => { t with tags := setAt a v' t.tags } : CIO (Nat → CAbs)) e w

/-- What a call of the compatibility API does if there is enough memory, with the tags as values: the files and streams
afterwards, and the tags, which depend on the pointer to the new tag or thing, if there is one. -/
def BothMove.cvalue [Platform] (e : Faults) (p : Both) (t : CAbs) : BothMove → Sys × Res (Nat → CAbs)
  | .memory c => (p.current.machine.sys, c.abs p.current.machine.heap t)
  | .file (.load n) =>
    (do let v ← load_tag_os n; return fun q => { t with tags := (q, v) :: t.tags } : CIO (Nat → CAbs)) e p.current.machine.sys
  | .file (.set n a) => t.fileUpdate a (set_tag_os n) e p.current.machine.sys
  | .file (.cover n a) => t.fileUpdate a (tag_set_album_cover_os n) e p.current.machine.sys
  | .file (.remove n) => (do remove_tag_os n; return fun _ => t : CIO (Nat → CAbs)) e p.current.machine.sys
  | _ => (p.current.machine.sys, .ok fun _ => t)

/-- What a call does if there is enough memory: to the files and streams, to the tags of the main API, and to those of the
compatibility API. A call of one API does nothing to the tags of the other. -/
def BothMove.value [Platform] (e : Faults) (p : Both) (s : Abs) (t : CAbs) (c : BothMove) : Sys × Res (Nat → Abs × CAbs) :=
  match c with
  | .current c => ((c.value e p.current s).1, do let f ← (c.value e p.current s).2; return fun q => (f q, t))
  | c => ((c.cvalue e p t).1, do let f ← (c.cvalue e p t).2; return fun q => (s, f q))

/-- The number of blocks that the call loses. -/
def BothMove.lost [Platform] (e : Faults) (p : Both) (s : Abs) (t : CAbs) : BothMove → Nat
  | .current c => c.lost p.current s
  | .memory c => c.leak p.current.machine.heap t
  | .file (.load n) =>
    match (load_tag_os n e p.current.machine.sys).2 with
    | .ok v => rawLeft v
    | _ => 0
  | .file (.set _ a) => ctagLeft t a fun v => writeLost v.tag.frames
  | .file _ => 0

/-- The program that starts with some files: it holds nothing, and nothing is allocated. -/
def Both.start (files : Name → File) (picks : Nat → Nat) : Both := ⟨.start files picks, [], []⟩

/-- Somebody else changed files. -/
def Both.withFiles (p : Both) (files : Name → File) : Both :=
  { p with current := { p.current with machine := { p.current.machine with
      sys := { p.current.machine.sys with files := files } } } }

/-- The program can reach the state, and loses `n` blocks on the way. A call that returns NULL for lack of memory loses
nothing. -/
inductive BothGoes [Platform] : Both → Nat → Prop where
  | start (files : Name → File) (picks : Nat → Nat) : BothGoes (.start files picks) 0
  /-- a call, in which anything may fail -/
  | call {p p' : Both} {n : Nat} {s : Abs} {t : CAbs} {c : BothMove} {e : Faults} {a : Lack} : BothGoes p n →
      p.current.world.Holds s → p.compat.Holds t → c.Allowed p → c.run e a p = (p', .ok ()) →
      BothGoes p' (n + if p'.current.machine.short then 0 else c.lost e p s t)
  /-- somebody else changes files -/
  | others {p : Both} {n : Nat} (files : Name → File) : BothGoes p n → BothGoes (p.withFiles files) n

end Id3.Spec
