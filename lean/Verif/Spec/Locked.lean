import Verif.Spec.Readers

/-!
# Threads that share tags behind a lock

A program makes tags, starts threads, and the threads use the tags of the program together: they read them, change them, write
them to the file of the program, free them and make new ones. There is one readers-writer lock for all that. A thread that
holds the lock alone can make every call with the common things. A thread that shares the lock can make the calls that read
common tags, and follow the pointers in them. Besides, every thread has things of its own, and needs no lock for those. As in
Spec/Threads.lean a call is a sequence of memory accesses, and the accesses of the threads happen in any order.

The lock is a rule that an execution follows or not (`LExec`), so that it can be seen what happens without it.
-/

namespace Id3.Spec

open Id3

/-- What a thread does with the common things. -/
inductive Hold where
  /-- the thread does not hold the lock -/
  | nothing
  /-- it shares the lock with other threads -/
  | shared
  /-- it holds the lock alone; `own` are its own things, which it does not use in the meantime -/
  | alone (own : Client)

/-- A thread: what it still has to do, and whether it holds the lock. The thread is between two calls if `prog` is
`ret (l, p)`; it uses the things `l`, and `p` is the pointer that the last call returned. -/
structure LThread where
  prog : Prog (Client × Ptr)
  hold : Hold

/-- The threads and the memory. The owner of a block is the thread that has it among its own things; the common blocks have no
owner. What the threads do does not depend on that. `bound` is a number above all addresses of the blocks of an owner. `common`
are the common things, when no thread holds the lock alone, and `log` are all calls that were made with them under the lock. -/
structure Locked where
  cells : Nat → Option Cell
  next : Nat
  owner : Nat → Option Nat
  bound : Option Nat → Nat
  threads : Nat → LThread
  common : Client
  log : List AnyCall

/-- The blocks of an owner. -/
def Locked.part (s : Locked) (o : Option Nat) (picks : Nat → Nat := fun _ => 0) : Heap :=
  { cells := fun a => if s.owner a = o then s.cells a else none, next := s.bound o, picks := picks }

/-- The blocks of a thread, and the common ones. -/
def Locked.view (s : Locked) (i : Nat) (picks : Nat → Nat := fun _ => 0) : Heap :=
  { cells := fun a => if s.owner a = some i ∨ s.owner a = none then s.cells a else none
    next := s.bound (some i), picks := picks }

/-- The thread goes on. -/
def Locked.go (s : Locked) (i : Nat) (p : Prog (Client × Ptr)) : Locked :=
  { s with threads := fun j => if j = i then { s.threads i with prog := p } else s.threads j }

/-- The thread takes the lock, or gives it back. -/
def Locked.turn (s : Locked) (i : Nat) (l : Client) (h : Hold) : Locked :=
  { s with threads := fun j => if j = i then ⟨.ret (l, none), h⟩ else s.threads j }

/-- The contents of a block changed. -/
def Locked.set (s : Locked) (a : Nat) (c : Option Cell) : Locked :=
  { s with cells := fun x => if x = a then c else s.cells x }

/-- The owner of what a thread allocates: what it allocates while it holds the lock alone is common. -/
def Hold.owner (i : Nat) : Hold → Option Nat
  | .alone _ => none
  | _ => some i

/-- What a thread does in a step: it takes the lock with others or alone, it gives the lock back, it begins a call with its
own things, a call with the common things or a call that reads a common tag, it looks at a common block, or it makes the next
access of its call. -/
inductive LEvent where
  | share
  | seize
  | release
  | begin (c : AnyCall)
  | change (c : AnyCall)
  | read (r : Read)
  | look (a : Nat)
  | access

/-- A step of a thread. A step is possible on every block that is allocated. -/
inductive LStep [Platform] (i : Nat) : Locked → LEvent → Locked → Prop where
  | share {s : Locked} {l : Client} {p : Ptr} : s.threads i = ⟨.ret (l, p), .nothing⟩ →
      LStep i s .share { s.turn i l .shared with
        bound := fun o => if o = some i then max (s.bound o) (s.bound none) else s.bound o }
  | seize {s : Locked} {l : Client} {p : Ptr} : s.threads i = ⟨.ret (l, p), .nothing⟩ →
      LStep i s .seize (s.turn i s.common (.alone l))
  | unshare {s : Locked} {l : Client} {p : Ptr} : s.threads i = ⟨.ret (l, p), .shared⟩ →
      LStep i s .release (s.turn i l .nothing)
  | unseize {s : Locked} {m l : Client} {p : Ptr} : s.threads i = ⟨.ret (m, p), .alone l⟩ →
      LStep i s .release { s.turn i l .nothing with common := m }
  | begin {s : Locked} {l : Client} {p : Ptr} {c : AnyCall} : (s.threads i).prog = .ret (l, p) →
      (s.threads i).hold.owner i = some i → c.Allowed (s.part (some i)) l →
      LStep i s (.begin c) (s.go i (c.prog l >>= fun l => .ret (l, none)))
  | change {s : Locked} {m l : Client} {p : Ptr} {c : AnyCall} : s.threads i = ⟨.ret (m, p), .alone l⟩ →
      c.Allowed (s.part none) m →
      LStep i s (.change c) { s.go i (c.prog m >>= fun m => .ret (m, none)) with log := s.log ++ [c] }
  | read {s : Locked} {l : Client} {p : Ptr} {r : Read} : s.threads i = ⟨.ret (l, p), .shared⟩ →
      r.Allowed s.common (s.part none) (s.view i) l → LStep i s (.read r) (s.go i (r.prog l))
  | look {s : Locked} {l : Client × Ptr} {a : Nat} {c : Cell} : s.threads i = ⟨.ret l, .shared⟩ → s.owner a = none →
      s.cells a = some c → LStep i s (.look a) s
  | malloc {s : Locked} {c : Cell} {k : Nat → Prog (Client × Ptr)} {o : Option Nat} (a : Nat) :
      (s.threads i).prog = .malloc c k → s.cells a = none → (s.threads i).hold.owner i = o → LStep i s .access
        { s.go i (k a) with
          cells := fun x => if x = a then some c else s.cells x
          next := max s.next (a + 1)
          owner := fun x => if x = a then o else s.owner x
          bound := fun q => if q = o then max (s.bound o) (a + 1) else s.bound q }
  | free {s : Locked} {a : Nat} {c : Cell} {k : Prog (Client × Ptr)} : (s.threads i).prog = .free a k →
      s.cells a = some c → LStep i s .access ((s.set a none).go i k)
  | load {s : Locked} {a : Nat} {c : Cell} {k : Cell → Prog (Client × Ptr)} : (s.threads i).prog = .load a k →
      s.cells a = some c → LStep i s .access (s.go i (k c))
  | store {s : Locked} {a : Nat} {c c' : Cell} {k : Prog (Client × Ptr)} : (s.threads i).prog = .store a c' k →
      s.cells a = some c → LStep i s .access ((s.set a (some c')).go i k)
  | fuel {s : Locked} {k : Nat → Prog (Client × Ptr)} : (s.threads i).prog = .fuel k →
      LStep i s .access (s.go i (k (s.bound ((s.threads i).hold.owner i) + 1)))

/-- Some steps of some threads: who does what. The rule holds after every step. -/
inductive LExec [Platform] (rule : Locked → Prop) (s : Locked) : List (Nat × LEvent) → Locked → Prop where
  | refl : LExec rule s [] s
  | step {s' s'' : Locked} {es : List (Nat × LEvent)} {i : Nat} {e : LEvent} : LExec rule s es s' →
      LStep i s' e s'' → rule s'' → LExec rule s (es ++ [(i, e)]) s''

/-- The rule of a readers-writer lock: while a thread holds it alone, no other thread holds it. -/
def Locked.Lock (s : Locked) : Prop :=
  ∀ i j l, (s.threads i).hold = .alone l → j ≠ i → (s.threads j).hold = .nothing

/-- The program starts the threads; `main` and `heap` are what it knows and has. -/
def Locked.start (main : Client) (heap : Heap) (clients : Nat → Client) : Locked :=
  { cells := heap.cells, next := heap.next, owner := fun _ => none, bound := fun _ => heap.next
    threads := fun i => ⟨.ret (clients i, none), .nothing⟩, common := main, log := [] }

/-- The states that the threads can reach, under every schedule that follows the rule. -/
def Locked.Reachable [Platform] (rule : Locked → Prop) (main : Client) (heap : Heap) (s : Locked) : Prop :=
  main.Reachable heap ∧ ∃ clients es, (∀ i, (clients i).Fresh) ∧ LExec rule (Locked.start main heap clients) es s

/-- No thread holds the lock alone. -/
def Locked.Calm (s : Locked) : Prop := ∀ i l, (s.threads i).hold ≠ .alone l

/-- The thread is between two calls. -/
def Locked.Idle (s : Locked) (i : Nat) (l : Client) (p : Ptr) : Prop := (s.threads i).prog = .ret (l, p)

/-- The block that the next access of a thread changes or frees. -/
def Locked.writes (s : Locked) (i : Nat) : Option Nat :=
  match (s.threads i).prog with
  | .free a _ => some a
  | .store a _ _ => some a
  | _ => none

/-- The block that the next access of a thread reads. -/
def Locked.reads (s : Locked) (i : Nat) : Option Nat :=
  match (s.threads i).prog with
  | .load a _ => some a
  | _ => none

/-- What one thread does. -/
def leventsOf (i : Nat) (es : List (Nat × LEvent)) : List LEvent := (es.filter (·.1 = i)).map (·.2)

/-- A thread does something, from its first step to its last one; the others do anything in the meantime that the rule
allows. -/
def Locked.Does [Platform] (rule : Locked → Prop) (s : Locked) (i : Nat) (e : LEvent) (s' : Locked) : Prop :=
  ∃ es n, LExec rule s es s' ∧ leventsOf i es = e :: List.replicate n .access

/-- What a program without threads does if it makes a call. -/
def AnyCall.Makes [Platform] (m : Client) (h : Heap) (c : AnyCall) (m' : Client) (h' : Heap) : Prop :=
  match m, c, m' with
  | .current l, .current c, .current l' => c.run (l.world h) = .ok (l'.world h')
  | .compat l, .compat c, .compat l' => c.run (l.world h) = .ok (l'.world h')
  | _, _, _ => False

/-- How a call ends in a program without threads. -/
def AnyCall.outcome [Platform] (m : Client) (h : Heap) (c : AnyCall) : Res Unit :=
  match m, c with
  | .current l, .current c => c.run (l.world h) >>= fun _ => .ok ()
  | .compat l, .compat c => c.run (l.world h) >>= fun _ => .ok ()
  | _, _ => .ok ()

/-- A program without threads makes calls, one after the other: what it knows and has afterwards. `malloc` may return any
address that is not allocated, in every call. -/
inductive InTurn [Platform] (main : Client) (heap : Heap) : List AnyCall → Client → Heap → Prop where
  | nil {h : Heap} : h.cells = heap.cells → h.next = heap.next → InTurn main heap [] main h
  | call {cs : List AnyCall} {c : AnyCall} {m m' : Client} {h h' : Heap} (g g' : Nat → Nat) : InTurn main heap cs m h →
      c.Allowed h m → c.Makes m { h with picks := g } m' { h' with picks := g' } →
      InTurn main heap (cs ++ [c]) m' h'

end Id3.Spec
