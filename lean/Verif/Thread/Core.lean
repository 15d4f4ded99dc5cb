import Verif.Heap.Core

/-!
# Programs as sequences of memory accesses

The functions of Verif/Heap are maps from heaps to heaps: a call happens at once. If several threads use the library, the
accesses of one call happen between those of others. `Prog` is a function as a sequence of accesses: what it does first, and
how it goes on. `Prog.interp` is the map from heaps to heaps again.
-/

namespace Id3

/-- A program, by its first access. A struct is read, assigned to or allocated with its contents in one step. -/
inductive Prog (α : Type) where
  /-- the program returns -/
  | ret (a : α)
  /-- undefined behaviour that is not an access to the heap -/
  | ub (k : UB)
  /-- `exit` is called -/
  | exit
  /-- a loop that does not end -/
  | hang
  | malloc (c : Cell) (k : Nat → Prog α)
  | free (a : Nat) (k : Prog α)
  | load (a : Nat) (k : Cell → Prog α)
  | store (a : Nat) (c : Cell) (k : Prog α)
  /-- a bound for the number of blocks, the fuel of the loops over lists; this is not an access -/
  | fuel (k : Nat → Prog α)

namespace Prog

/-- One program, and then another one. -/
def bind {α β : Type} : Prog α → (α → Prog β) → Prog β
  | ret a, f => f a
  | ub k, _ => ub k
  | exit, _ => exit
  | hang, _ => hang
  | malloc c k, f => malloc c fun a => (k a).bind f
  | free a k, f => free a (k.bind f)
  | load a k, f => load a fun c => (k c).bind f
  | store a c k, f => store a c (k.bind f)
  | fuel k, f => fuel fun n => (k n).bind f

instance : Monad Prog where
  pure := ret
  bind := bind

/-- What the program does when no other one runs. -/
def interp {α : Type} : Prog α → HeapM α
  | ret a => pure a
  | ub k => lift (.ub k)
  | exit => lift .exit
  | hang => Id3.hang
  | malloc c k => Id3.malloc c >>= fun a => (k a).interp
  | free a k => Id3.free (some a) >>= fun _ => k.interp
  | load a k => loadCell (some a) >>= fun c => (k c).interp
  | store a c k => storeCell (some a) c >>= fun _ => k.interp
  | fuel k => heapFuel >>= fun n => (k n).interp

end Prog

theorem HeapM.ext {α : Type} {x y : HeapM α} (h : ∀ a, x a = y a) : x = y := funext h

theorem HeapM.pure_bind {α β : Type} (a : α) (f : α → HeapM β) : (pure a >>= f : HeapM β) = f a := rfl

theorem HeapM.bind_assoc {α β γ : Type} (x : HeapM α) (f : α → HeapM β) (g : β → HeapM γ) :
    (x >>= f) >>= g = x >>= fun a => f a >>= g := by
  funext h
  show HeapM.bind (HeapM.bind x f) g h = HeapM.bind x (fun a => HeapM.bind (f a) g) h
  unfold HeapM.bind
  cases x h <;> rfl

theorem HeapM.bind_pure {α : Type} (x : HeapM α) : (x >>= fun a => pure a) = x := by
  funext h
  show HeapM.bind x (fun a => pure a) h = x h
  unfold HeapM.bind
  cases x h <;> rfl

theorem HeapM.bind_lift {α β : Type} {r : Res α} (hr : ∀ a, r ≠ .ok a) (f : α → HeapM β) (s : Res β)
    (e : (r >>= fun _ => s) = s) : (lift r >>= f) = lift s := by
  funext h
  show HeapM.bind (lift r) f h = lift s h
  unfold HeapM.bind lift
  cases r with
  | ok a => exact (hr a rfl).elim
  | ub k => rw [← e]; rfl
  | exit => rw [← e]; rfl
  | diverge => rw [← e]; rfl

namespace Prog

theorem interp_bind {α β : Type} (x : Prog α) (f : α → Prog β) :
    (x >>= f).interp = x.interp >>= fun a => (f a).interp := by
  show (x.bind f).interp = _
  induction x with
  | ret a => rfl
  | ub k => rfl
  | exit => rfl
  | hang => rfl
  | malloc c k ih =>
    show (Id3.malloc c >>= (fun n => ((k n).bind f).interp)) = (Id3.malloc c >>= fun n => (k n).interp) >>= fun a => (f a).interp
    rw [HeapM.bind_assoc]
    simp only [ih]
  | free a k ih =>
    show (Id3.free (some a) >>= (fun _ => (k.bind f).interp)) = (Id3.free (some a) >>= fun _ => k.interp) >>= fun a => (f a).interp
    rw [HeapM.bind_assoc]
    simp only [ih]
  | load a k ih =>
    show (loadCell (some a) >>= (fun n => ((k n).bind f).interp)) = (loadCell (some a) >>= fun n => (k n).interp) >>= fun a => (f a).interp
    rw [HeapM.bind_assoc]
    simp only [ih]
  | store a c k ih =>
    show (storeCell (some a) c >>= (fun _ => (k.bind f).interp)) = (storeCell (some a) c >>= fun _ => k.interp) >>= fun a => (f a).interp
    rw [HeapM.bind_assoc]
    simp only [ih]
  | fuel k ih =>
    show (heapFuel >>= (fun n => ((k n).bind f).interp)) = (heapFuel >>= fun n => (k n).interp) >>= fun a => (f a).interp
    rw [HeapM.bind_assoc]
    simp only [ih]

end Prog

/-- The program does what the function does, when no other one runs. -/
class Same {α : Type} (p : Prog α) (x : outParam (HeapM α)) : Prop where
  eq : p.interp = x

theorem same_bind {α β : Type} {x : Prog α} {f : α → Prog β} {y : HeapM α} {g : α → HeapM β} (h1 : x.interp = y)
    (h2 : ∀ a, (f a).interp = g a) : (x >>= f).interp = y >>= g := by
  rw [Prog.interp_bind, h1]
  congr
  funext a
  exact h2 a

theorem same_map {α β : Type} {x : Prog α} {f : α → β} {y : HeapM α} (h1 : x.interp = y) :
    (f <$> x).interp = f <$> y := same_bind (f := fun a => pure (f a)) (g := fun a => pure (f a)) h1 fun _ => rfl

/-- Proves that a program does what a function does, access by access. -/
macro "same" : tactic => `(tactic| repeat' first
  | rfl
  | exact Same.eq
  | assumption
  | refine same_bind ?_ (fun _ => ?_)
  | exact same_map Same.eq
  | (split <;> (try simp only [*]))
  | (exfalso; simp_all; done))

/-- The same for a loop, with the claim about the next iterations. -/
macro "same_rec" ih:ident : tactic => `(tactic| repeat' first
  | rfl
  | exact Same.eq
  | assumption
  | apply $ih
  | (cases ‹_ + 1 = Nat.succ _›; apply $ih)
  | refine same_bind ?_ (fun _ => ?_)
  | exact same_map Same.eq
  | (split <;> (try simp only [*]))
  | (exfalso; simp_all; done))

namespace T

/-- A computation that does not touch the heap. -/
def lift {α : Type} : Res α → Prog α
  | .ok a => .ret a
  | .ub k => .ub k
  | .exit => .exit
  | .diverge => .hang

/-- The fuel of the loops over linked lists. -/
def heapFuel : Prog Nat := .fuel .ret

/-- A loop that does not end. -/
def hang {α : Type} : Prog α := .hang

/-- `malloc`, with the contents that are stored in the block at once. -/
def malloc (c : Cell) : Prog Nat := .malloc c .ret

/-- `free`: of NULL it does nothing. -/
def free : Ptr → Prog Unit
  | none => .ret ()
  | some a => .free a (.ret ())

/-- Follow a pointer. -/
def loadCell : Ptr → Prog Cell
  | none => .ub .nullDeref
  | some a => .load a .ret

/-- Assign to an object through a pointer. -/
def storeCell : Ptr → Cell → Prog Unit
  | none, _ => .ub .nullDeref
  | some a, c => .store a c (.ret ())

instance {α : Type} (a : α) : Same (pure a : Prog α) (pure a) := ⟨rfl⟩

instance {α : Type} (x : Res α) : Same (lift x) (Id3.lift x) := ⟨by cases x <;> rfl⟩

instance : Same heapFuel Id3.heapFuel := ⟨HeapM.bind_pure _⟩

instance {α : Type} : Same (hang : Prog α) Id3.hang := ⟨rfl⟩

instance (c : Cell) : Same (malloc c) (Id3.malloc c) := ⟨HeapM.bind_pure _⟩

instance (p : Ptr) : Same (free p) (Id3.free p) := ⟨by
  cases p with
  | none => rfl
  | some a => exact HeapM.bind_pure (Id3.free (some a))⟩

instance (p : Ptr) : Same (loadCell p) (Id3.loadCell p) := ⟨by
  cases p with
  | none => rfl
  | some a => exact HeapM.bind_pure (Id3.loadCell (some a))⟩

instance (p : Ptr) (c : Cell) : Same (storeCell p c) (Id3.storeCell p c) := ⟨by
  cases p with
  | none => rfl
  | some a => exact HeapM.bind_pure (Id3.storeCell (some a) c)⟩

end T

end Id3
