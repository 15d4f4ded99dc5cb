import Verif.Spec.Threads

/-!
# Threads that read the same tags

A program makes tags, starts threads and waits for them. The threads read the tags of the program, all at the same time: they
call the getters, and follow the pointers in the tags themselves. Each of them can also have tags, lists, buffers and a file
of its own, and use the whole API with those. Again, the accesses of the threads happen in any order.
-/

namespace Id3.Spec

open Id3

/-- A call that reads a tag of the program. -/
inductive Read where
  | getFrame (tag : Nat) (id : Src)
  | getFrames (tag : Nat) (id : Src)
  /-- the getters of the compatibility API -/
  | getText (field : Field) (tag : Nat)
  | getComment (tag : Nat)
  | getCover (tag : Nat)
  | parseText (entry : Nat)
  | parseComment (entry : Nat)
  | parsePicture (entry : Nat)

/-- The getter of a field. -/
def Slot.read : Slot → Nat → Read
  | .text f => .getText f
  | .comment => .getComment
  | .cover => .getCover

/-- The call, as a sequence of accesses; the result is what the thread knows afterwards, and the pointer that it got. -/
def Read.prog : Client → Read → Prog (Client × Ptr)
  | .current l, .getFrame t s => do return (.current l, ← T.ID3v2_Tag_get_frame t s)
  | .current l, .getFrames t s => do
    let a ← T.ID3v2_Tag_get_frames t s
    return (.current { l with lists := a :: l.lists }, some a)
  | .compat l, .getText f t => do return (.compat l, ← f.pget t)
  | .compat l, .getComment t => do return (.compat l, ← T.tag_get_comment t)
  | .compat l, .getCover t => do return (.compat l, ← T.tag_get_album_cover t)
  | .compat l, .parseText p => do
    let a ← T.parse_text_frame_content p
    return (.compat { l with things := (a, .text) :: l.things }, some a)
  | .compat l, .parseComment p => do
    let a ← T.parse_comment_frame_content p
    return (.compat { l with things := (a, .comment) :: l.things }, some a)
  | .compat l, .parsePicture p => do
    let a ← T.parse_apic_frame_content p
    return (.compat { l with things := (a, .picture) :: l.things }, some a)
  | l, _ => .ret (l, none)

/-- The pointers are right: the tag is one of the program (`main` is what the program knows), the entry is one of its
tags, and a string is in the memory that the thread may look at. -/
def Read.Allowed (main : Client) (heap view : Heap) : Client → Read → Prop
  | .current _, .getFrame t s | .current _, .getFrames t s =>
    (match main with
    | .current m => t ∈ m.tags
    | .compat _ => False) ∧ Src.Live view s
  | .compat _, .getText _ t | .compat _, .getComment t | .compat _, .getCover t =>
    match main with
    | .current _ => False
    | .compat m => t ∈ m.tags
  | .compat _, .parseText p | .compat _, .parseComment p | .compat _, .parsePicture p =>
    match main with
    | .current _ => False
    | .compat _ => EntryLive heap p
  | _, _ => False

/-- A thread: what it still has to do, and a number above all addresses that it knows. The thread is between two calls if
`prog` is `ret (l, p)`; it knows `l`, and `p` is the pointer that the last call returned. -/
structure RThread where
  prog : Prog (Client × Ptr)
  bound : Nat

/-- The threads and the memory. The owner of a block is the thread that allocated it; what the program allocated before it
started the threads has no owner. -/
structure Forked where
  cells : Nat → Option Cell
  next : Nat
  owner : Nat → Option Nat
  threads : Nat → RThread

/-- What the thread allocated. -/
def Forked.own (s : Forked) (i : Nat) : Heap :=
  { cells := fun a => if s.owner a = some i then s.cells a else none, next := (s.threads i).bound, picks := fun _ => 0 }

/-- What the thread allocated, and what the program allocated before it started the threads. -/
def Forked.view (s : Forked) (i : Nat) (picks : Nat → Nat := fun _ => 0) : Heap :=
  { cells := fun a => if s.owner a = some i ∨ s.owner a = none then s.cells a else none
    next := (s.threads i).bound, picks := picks }

/-- The thread goes on. -/
def Forked.go (s : Forked) (i : Nat) (p : Prog (Client × Ptr)) : Forked :=
  { s with threads := fun j => if j = i then { s.threads i with prog := p } else s.threads j }

/-- The contents of a block changed. -/
def Forked.set (s : Forked) (a : Nat) (c : Option Cell) : Forked :=
  { s with cells := fun x => if x = a then c else s.cells x }

/-- What a thread does in a step: it begins a call with its own things, it begins a call that reads a tag of the program, it
looks at a block of the program, or it makes the next access of its call. -/
inductive REvent where
  | begin (c : AnyCall)
  | read (r : Read)
  | look (a : Nat)
  | access

/-- A step of a thread; `main` and `heap` are what the program knew and had when it started the threads. A step is possible on
every block that is allocated. -/
inductive RStep [Platform] (main : Client) (heap : Heap) (i : Nat) : Forked → REvent → Forked → Prop where
  | begin {s : Forked} {l : Client} {p : Ptr} {c : AnyCall} : (s.threads i).prog = .ret (l, p) → c.Allowed (s.own i) l →
      RStep main heap i s (.begin c) (s.go i (c.prog l >>= fun l => .ret (l, none)))
  | read {s : Forked} {l : Client} {p : Ptr} {r : Read} : (s.threads i).prog = .ret (l, p) →
      r.Allowed main heap (s.view i) l → RStep main heap i s (.read r) (s.go i (r.prog l))
  | look {s : Forked} {l : Client × Ptr} {a : Nat} {c : Cell} : (s.threads i).prog = .ret l → s.owner a = none →
      s.cells a = some c → RStep main heap i s (.look a) s
  | malloc {s : Forked} {c : Cell} {k : Nat → Prog (Client × Ptr)} (a : Nat) : (s.threads i).prog = .malloc c k →
      s.cells a = none → RStep main heap i s .access
        { cells := fun x => if x = a then some c else s.cells x
          next := max s.next (a + 1)
          owner := fun x => if x = a then some i else s.owner x
          threads := fun j => if j = i then ⟨k a, max (s.threads i).bound (a + 1)⟩ else s.threads j }
  | free {s : Forked} {a : Nat} {c : Cell} {k : Prog (Client × Ptr)} : (s.threads i).prog = .free a k →
      s.cells a = some c → RStep main heap i s .access ((s.set a none).go i k)
  | load {s : Forked} {a : Nat} {c : Cell} {k : Cell → Prog (Client × Ptr)} : (s.threads i).prog = .load a k →
      s.cells a = some c → RStep main heap i s .access (s.go i (k c))
  | store {s : Forked} {a : Nat} {c c' : Cell} {k : Prog (Client × Ptr)} : (s.threads i).prog = .store a c' k →
      s.cells a = some c → RStep main heap i s .access ((s.set a (some c')).go i k)
  | fuel {s : Forked} {k : Nat → Prog (Client × Ptr)} : (s.threads i).prog = .fuel k →
      RStep main heap i s .access (s.go i (k ((s.threads i).bound + 1)))

/-- Some steps of some threads: who does what. -/
inductive RExec [Platform] (main : Client) (heap : Heap) (s : Forked) : List (Nat × REvent) → Forked → Prop where
  | refl : RExec main heap s [] s
  | step {s' s'' : Forked} {es : List (Nat × REvent)} {i : Nat} {e : REvent} : RExec main heap s es s' →
      RStep main heap i s' e s'' → RExec main heap s (es ++ [(i, e)]) s''

/-- The program starts the threads. -/
def Forked.start (heap : Heap) (clients : Nat → Client) : Forked :=
  { cells := heap.cells, next := heap.next, owner := fun _ => none, threads := fun i => ⟨.ret (clients i, none), heap.next⟩ }

/-- What the program can know, and have in memory, when it starts the threads: everything that a program without threads can
reach. -/
def Client.Reachable [Platform] (heap : Heap) : Client → Prop
  | .current l => Spec.Reachable (l.world heap)
  | .compat l => CReachable (l.world heap)

/-- The states that the threads can reach, under every schedule. -/
def Forked.Reachable [Platform] (main : Client) (heap : Heap) (s : Forked) : Prop :=
  main.Reachable heap ∧ ∃ clients es, (∀ i, (clients i).Fresh) ∧ RExec main heap (Forked.start heap clients) es s

/-- The thread is between two calls. -/
def Forked.Idle (s : Forked) (i : Nat) (l : Client) (p : Ptr) : Prop := (s.threads i).prog = .ret (l, p)

/-- The block that the next access of a thread changes or frees. -/
def Forked.writes (s : Forked) (i : Nat) : Option Nat :=
  match (s.threads i).prog with
  | .free a _ => some a
  | .store a _ _ => some a
  | _ => none

/-- The block that the next access of a thread reads. -/
def Forked.reads (s : Forked) (i : Nat) : Option Nat :=
  match (s.threads i).prog with
  | .load a _ => some a
  | _ => none

/-- What one thread does. -/
def reventsOf (i : Nat) (es : List (Nat × REvent)) : List REvent := (es.filter (·.1 = i)).map (·.2)

/-- A thread does something, from its first step to its last one; the others do anything in the meantime. -/
def Forked.Does [Platform] (main : Client) (heap : Heap) (s : Forked) (i : Nat) (e : REvent) (s' : Forked) : Prop :=
  ∃ es n, RExec main heap s es s' ∧ reventsOf i es = e :: List.replicate n .access

/-- The frames of a linked list, in order. -/
inductive Chain (cells : Nat → Option Cell) : Ptr → List Ptr → Prop where
  | nil : Chain cells none []
  | cons {a : Nat} {f n s : Ptr} {fs : List Ptr} : cells a = some (.node f n s) → Chain cells n fs →
      Chain cells (some a) (f :: fs)

end Id3.Spec
