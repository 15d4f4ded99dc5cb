import Verif.Spec.Memory
import Verif.Proof.World
import Verif.Heap.Write
import Verif.Heap.CompatSet
import Verif.Heap.Session

/-!
# Proofs about the file functions on a machine whose memory can run out
-/

namespace Id3

open Spec

/-! ## Running out of memory -/

theorem mio_bind {α β : Type} (m : MIO α) (f : α → MIO β) (e : Faults) (a : Lack) (s : Machine) :
    (m >>= f) e a s = match m e a s with
      | (s', .ok x) => f x e a s'
      | (s', .ub k) => (s', .ub k)
      | (s', .exit) => (s', .exit)
      | (s', .diverge) => (s', .diverge) := Eq.trans rfl rfl

theorem mio_pure {α : Type} (x : α) (e : Faults) (a : Lack) (s : Machine) : (pure x : MIO α) e a s = (s, .ok x) :=
  Eq.trans rfl rfl

/-- The function asks for no memory. -/
def NoAlloc {α : Type} (m : MIO α) : Prop := ∀ e a s, m e a s = m e enough s ∧ (m e a s).1.short = s.short

/-- The function changes no file. -/
def Keeps {α : Type} (m : MIO α) : Prop := ∀ e a s, (m e a s).1.sys.files = s.sys.files

/-- If memory runs out, then no file has been changed yet, and the function ends as `Q` says. -/
def Early {α : Type} (Q : Res α → Prop) (m : MIO α) : Prop := ∀ e a s,
  (m e a s = m e enough s ∧ (m e a s).1.short = s.short) ∨
  ((m e a s).1.short = true ∧ (m e a s).1.sys.files = s.sys.files ∧ Q (m e a s).2)

/-- The NULL pointer is followed. -/
def Crash {α : Type} (r : Res α) : Prop := r = .ub .nullDeref

theorem crash_self {α : Type} : Crash (.ub .nullDeref : Res α) := rfl

theorem NoAlloc.early {α : Type} {Q : Res α → Prop} {m : MIO α} (h : NoAlloc m) : Early Q m := fun e a s => .inl (h e a s)

theorem NoAlloc.pure {α : Type} (x : α) : NoAlloc (pure x : MIO α) := fun _ _ _ => ⟨rfl, rfl⟩
theorem NoAlloc.io {α : Type} (m : CIO α) : NoAlloc (io m) := fun _ _ _ => ⟨rfl, rfl⟩
theorem NoAlloc.onHeap {α : Type} (x : HeapM α) : NoAlloc (onHeap x) := fun _ _ s => by
  unfold Id3.onHeap
  exact ⟨rfl, by cases x s.heap <;> rfl⟩
theorem NoAlloc.crash {α : Type} : NoAlloc (crash : MIO α) := fun _ _ _ => ⟨rfl, rfl⟩

theorem NoAlloc.bind {α β : Type} {m : MIO α} {f : α → MIO β} (h1 : NoAlloc m) (h2 : ∀ x, NoAlloc (f x)) :
    NoAlloc (m >>= f) := by
  intro e a s
  rw [mio_bind, mio_bind]
  have := h1 e a s
  rw [← this.1]
  rcases hm : m e a s with ⟨s', _ | _ | _ | _⟩
  · rw [hm] at this
    exact ⟨(h2 _ e a s').1, (h2 _ e a s').2.trans this.2⟩
  all_goals rw [hm] at this; exact ⟨rfl, this.2⟩

theorem Keeps.pure {α : Type} (x : α) : Keeps (pure x : MIO α) := fun _ _ _ => rfl
theorem Keeps.onHeap {α : Type} (x : HeapM α) : Keeps (onHeap x) := fun _ _ s => by
  unfold Id3.onHeap
  cases x s.heap <;> rfl
theorem Keeps.crash {α : Type} : Keeps (crash : MIO α) := fun _ _ _ => rfl
theorem Keeps.request : Keeps request := fun _ _ _ => rfl
theorem Keeps.runShort : Keeps runShort := fun _ _ _ => rfl

theorem Keeps.bind {α β : Type} {m : MIO α} {f : α → MIO β} (h1 : Keeps m) (h2 : ∀ x, Keeps (f x)) : Keeps (m >>= f) := by
  intro e a s
  rw [mio_bind]
  have := h1 e a s
  rcases hm : m e a s with ⟨s', _ | _ | _ | _⟩
  · rw [hm] at this
    exact (h2 _ e a s').trans this
  all_goals rw [hm] at this; exact this

/-- An I/O operation that changes no file. -/
def KeepsIO {α : Type} (m : CIO α) : Prop := ∀ e w, (m e w).1.files = w.files

theorem KeepsIO.bind {α β : Type} {m : CIO α} {f : α → CIO β} (h1 : KeepsIO m) (h2 : ∀ x, KeepsIO (f x)) :
    KeepsIO (m >>= f) := by
  intro e w
  rw [cio_bind]
  have := h1 e w
  rcases hm : m e w with ⟨w', _ | _ | _ | _⟩
  · rw [hm] at this
    exact (h2 _ e w').trans this
  all_goals rw [hm] at this; exact this

theorem KeepsIO.pure {α : Type} (x : α) : KeepsIO (Pure.pure x : CIO α) := fun _ _ => rfl
theorem KeepsIO.pureRes {α : Type} (r : Res α) : KeepsIO (Id3.pureRes r) := fun _ _ => rfl
theorem KeepsIO.attempt : KeepsIO Id3.attempt := fun _ _ => rfl
theorem KeepsIO.newStream (s : Stream) : KeepsIO (Id3.newStream s) := fun _ _ => rfl
theorem KeepsIO.fileNamed (n : Name) : KeepsIO (Id3.fileNamed n) := fun _ _ => rfl
theorem KeepsIO.setStream (h : Nat) (s : Option Stream) : KeepsIO (Id3.setStream h s) := fun _ _ => rfl
theorem KeepsIO.stream (fp : Option Nat) : KeepsIO (Id3.stream fp) := fun _ w => by
  unfold Id3.stream
  cases fp with
  | none => rfl
  | some h => dsimp only; cases w.streams h <;> rfl

/-- Operation by operation. -/
macro "keeps" : tactic => `(tactic| repeat' first
  | exact KeepsIO.pure _
  | exact KeepsIO.pureRes _
  | exact KeepsIO.attempt
  | exact KeepsIO.newStream _
  | exact KeepsIO.fileNamed _
  | exact KeepsIO.setStream _ _
  | exact KeepsIO.stream _
  | assumption
  | refine KeepsIO.bind ?_ fun _ => ?_
  | split)

theorem keeps_fopen_existing (n : Name) : KeepsIO (fopen_existing n) := by unfold fopen_existing; keeps
theorem keeps_tmpfile : KeepsIO tmpfile := by unfold tmpfile; keeps
theorem keeps_fclose (fp : Option Nat) : KeepsIO (fclose fp) := by unfold fclose; keeps
theorem keeps_fseek (fp : Option Nat) (p : Int) : KeepsIO (fseek fp p) := by unfold fseek; keeps
theorem keeps_fseek_end (fp : Option Nat) : KeepsIO (fseek_end fp) := by unfold fseek_end; keeps
theorem keeps_ftell (fp : Option Nat) : KeepsIO (ftell fp) := by unfold ftell; keeps
theorem keeps_getc (fp : Option Nat) : KeepsIO (getc fp) := by unfold getc; keeps
theorem keeps_fread (n : Nat) (fp : Option Nat) : KeepsIO (fread n fp) := by
  induction n with
  | zero => unfold fread; keeps
  | succ n ih => unfold fread; have := keeps_getc fp; keeps

theorem Keeps.io {α : Type} {m : CIO α} (h : KeepsIO m) : Keeps (io m) := fun e _ s => h e s.sys

theorem Early.bind {α β : Type} {Q : Res β → Prop} (hQ : Q (.ub .nullDeref)) {m : MIO α} {f : α → MIO β} (hk : Keeps m)
    (h1 : Early Crash m) (h2 : ∀ x, Early Q (f x)) : Early Q (m >>= f) := by
  intro e a s
  rw [mio_bind, mio_bind]
  rcases h1 e a s with ⟨h3, h4⟩ | ⟨h3, h4, h5⟩
  · rw [← h3]
    have hk := hk e a s
    rcases hm : m e a s with ⟨s', x | _ | _ | _⟩
    · rw [hm] at h4 hk
      rcases h2 x e a s' with ⟨g1, g2⟩ | ⟨g1, g2, g3⟩
      · exact .inl ⟨g1, g2.trans h4⟩
      · exact .inr ⟨g1, g2.trans hk, g3⟩
    all_goals rw [hm] at h4; exact .inl ⟨rfl, h4⟩
  · refine .inr ?_
    rcases hm : m e a s with ⟨s', r⟩
    rw [hm] at h3 h4 h5
    obtain rfl : r = .ub .nullDeref := h5
    exact ⟨h3, h4, hQ⟩

theorem Early.map {α β : Type} {m : MIO α} (g : α → β) (h : Early Crash m) :
    Early Crash (m >>= fun x => Pure.pure (g x)) := by
  intro e a s
  rw [mio_bind, mio_bind]
  rcases h e a s with ⟨h3, h4⟩ | ⟨h3, h4, h5⟩
  · rw [← h3]
    rcases hm : m e a s with ⟨s', x | _ | _ | _⟩
    all_goals rw [hm] at h4; exact .inl ⟨rfl, h4⟩
  · refine .inr ?_
    rcases hm : m e a s with ⟨s', r⟩
    rw [hm] at h3 h4 h5
    obtain rfl : r = .ub .nullDeref := h5
    exact ⟨h3, h4, rfl⟩

theorem Early.mono {α : Type} {Q Q' : Res α → Prop} {m : MIO α} (h : Early Q m) (hq : ∀ r, Q r → Q' r) : Early Q' m :=
  fun e a s => (h e a s).imp id fun ⟨h1, h2, h3⟩ => ⟨h1, h2, hq _ h3⟩

theorem keeps_inMemory {α : Type} (p : Prog α) : Keeps (inMemory p) := by
  induction p with
  | ret x => exact .pure x
  | ub k => exact .onHeap _
  | exit => exact .onHeap _
  | hang => exact .onHeap _
  | malloc c k ih =>
    refine .bind .request fun b => ?_
    cases b
    · exact .crash
    · exact .bind (.onHeap _) ih
  | free b k ih => exact .bind (.onHeap _) fun _ => ih
  | load b k ih => exact .bind (.onHeap _) ih
  | store b c k ih => exact .bind (.onHeap _) fun _ => ih
  | fuel k ih => exact .bind (.onHeap _) ih

theorem request_run (e : Faults) (a : Lack) (s : Machine) :
    request e a s = ({ s with requests := s.requests + 1, short := s.short || a s.requests }, .ok (!a s.requests)) := rfl

/-- Asking for memory, and a function that crashes if there is none. -/
theorem Early.request {α : Type} {Q : Res α → Prop} (hQ : Q (.ub .nullDeref)) {f : MIO α} (h : Early Q f) :
    Early Q (do if ← request then f else crash) := by
  intro e a s
  rw [mio_bind, mio_bind, request_run, request_run]
  cases ha : a s.requests
  · simp only [Bool.or_false, Bool.not_false, if_pos, enough]
    rcases h e a { s with requests := s.requests + 1, short := s.short } with ⟨g1, g2⟩ | g
    · exact .inl ⟨g1, g2⟩
    · exact .inr g
  · simp only [Bool.or_true, Bool.not_true]
    exact .inr ⟨rfl, rfl, hQ⟩

theorem early_inMemory {α : Type} (p : Prog α) : Early Crash (inMemory p) := by
  induction p with
  | ret x => exact (NoAlloc.pure x).early
  | ub k => exact (NoAlloc.onHeap _).early
  | exit => exact (NoAlloc.onHeap _).early
  | hang => exact (NoAlloc.onHeap _).early
  | malloc c k ih =>
    exact .request crash_self (.bind crash_self (.onHeap _) (NoAlloc.onHeap _).early ih)
  | free b k ih => exact .bind crash_self (.onHeap _) (NoAlloc.onHeap _).early fun _ => ih
  | load b k ih => exact .bind crash_self (.onHeap _) (NoAlloc.onHeap _).early ih
  | store b c k ih => exact .bind crash_self (.onHeap _) (NoAlloc.onHeap _).early fun _ => ih
  | fuel k ih => exact .bind crash_self (.onHeap _) (NoAlloc.onHeap _).early ih

/-- A function without `malloc`. -/
theorem noAlloc_free (b : Ptr) : NoAlloc (inMemory (T.free b)) := by
  cases b with
  | none => exact .pure _
  | some b => exact .bind (.onHeap _) fun _ => .pure _

theorem noAlloc_cs_free (b : Nat) : NoAlloc (inMemory (T.CharStream_free b)) := by
  refine .bind (.onHeap _) fun c => ?_
  cases c with
  | charStream st =>
    cases st with
    | none => exact show NoAlloc (inMemory (T.free (some b))) from noAlloc_free _
    | some st =>
      exact .bind (.onHeap _) fun _ => show NoAlloc (inMemory (T.free (some b))) from noAlloc_free _
  | _ => exact .onHeap _

theorem noAlloc_loadTagHeader (b : Ptr) : NoAlloc (inMemory (T.loadTagHeader b)) := by
  cases b with
  | none => exact .onHeap _
  | some b =>
    refine .bind (.onHeap _) fun c => ?_
    cases c with
    | tagHeader h => exact .pure _
    | _ => exact .onHeap _

/-- Operation by operation. -/
macro "early" : tactic => `(tactic| repeat' first
  | exact crash_self
  | exact (NoAlloc.pure _).early
  | exact (NoAlloc.io _).early
  | exact NoAlloc.crash.early
  | exact early_inMemory _
  | assumption
  | exact Keeps.io (keeps_fopen_existing _)
  | exact Keeps.io keeps_tmpfile
  | exact Keeps.io (keeps_fclose _)
  | exact Keeps.io (keeps_fseek _ _)
  | exact Keeps.io (keeps_fseek_end _)
  | exact Keeps.io (keeps_ftell _)
  | exact Keeps.io (keeps_fread _ _)
  | exact Keeps.io (KeepsIO.pureRes _)
  | exact Keeps.pure _
  | exact Keeps.crash
  | exact keeps_inMemory _
  | refine Early.bind crash_self ?_ ?_ fun _ => ?_
  | refine Keeps.bind ?_ fun _ => ?_
  | split)

/-- The same for a function that asks for no memory. -/
macro "noalloc" : tactic => `(tactic| repeat' first
  | exact NoAlloc.pure _
  | exact NoAlloc.io _
  | exact NoAlloc.crash
  | exact noAlloc_free _
  | exact noAlloc_cs_free _
  | exact noAlloc_loadTagHeader _
  | refine NoAlloc.bind ?_ fun _ => ?_
  | split)

theorem keeps_header_mem [Platform] (n : Name) : Keeps (ID3v2_read_tag_header_mem n) := by
  unfold ID3v2_read_tag_header_mem
  early

theorem early_header_mem [Platform] (n : Name) : Early Crash (ID3v2_read_tag_header_mem n) := by
  unfold ID3v2_read_tag_header_mem
  early

theorem keeps_size_mem [Platform] (n : Name) : Keeps (existingTagSize_mem n) := by
  have := keeps_header_mem n
  unfold existingTagSize_mem
  early

theorem early_size_mem [Platform] (n : Name) : Early Crash (existingTagSize_mem n) := by
  have := keeps_header_mem n
  have := early_header_mem n
  unfold existingTagSize_mem
  early

theorem early_write_mem [Platform] (n : Name) (t : Nat) : Early Crash (ID3v2_write_tag_mem n t) := by
  have := keeps_size_mem n
  have := early_size_mem n
  unfold ID3v2_write_tag_mem
  refine .bind crash_self (by early) (by early) fun _ => .bind crash_self (by early) (by early) fun _ =>
    .bind crash_self (by early) (by early) fun _ => .bind crash_self (by early) (by early) fun _ =>
    .bind crash_self (by early) (by early) fun _ => .bind crash_self (by early) (by early) fun _ => ?_
  refine NoAlloc.early ?_
  noalloc

theorem early_delete_mem [Platform] (n : Name) : Early Crash (ID3v2_delete_tag_mem n) := by
  have := keeps_header_mem n
  have := early_header_mem n
  unfold ID3v2_delete_tag_mem
  refine .bind crash_self (by early) (by early) fun p => NoAlloc.early ?_
  noalloc

theorem early_load_mem [Platform] (n : Name) : Early Crash (load_tag_mem n) := by
  have := keeps_header_mem n
  have := early_header_mem n
  unfold load_tag_mem
  early

theorem early_set_mem [Platform] (n : Name) (t : Nat) : Early Crash (set_tag_mem n t) := by
  have := early_write_mem n
  unfold set_tag_mem
  exact .bind crash_self (by early) (by early) this

theorem early_cover_mem [Platform] (n : Name) (t : Nat) : Early Crash (tag_set_album_cover_mem n t) := by
  unfold tag_set_album_cover_mem
  early

/-! ## Enough memory -/

/-- With enough memory a program does to the heap what `Verif/Heap` says, and nothing else. -/
theorem inMemory_enough {α : Type} (p : Prog α) (e : Faults) : ∀ (w : Sys) (h : Heap) (n : Nat) (b : Bool),
    ∃ h' n', inMemory p e enough ⟨w, h, n, b⟩ = (⟨w, h', n', b⟩, p.interp h >>= fun q => .ok q.1) ∧
      ∀ q, p.interp h = .ok q → h' = q.2 := by
  have heap : ∀ {β : Type} (x : HeapM β) (k : β → Prog α)
      (ih : ∀ y (w : Sys) (h : Heap) (n : Nat) (b : Bool), ∃ h' n', inMemory (k y) e enough ⟨w, h, n, b⟩ =
        (⟨w, h', n', b⟩, (k y).interp h >>= fun q => .ok q.1) ∧ ∀ q, (k y).interp h = .ok q → h' = q.2)
      (w : Sys) (h : Heap) (n : Nat) (b : Bool),
      ∃ h' n', (onHeap x >>= fun y => inMemory (k y)) e enough ⟨w, h, n, b⟩ =
        (⟨w, h', n', b⟩, (x >>= fun y => (k y).interp) h >>= fun q => .ok q.1) ∧
          ∀ q, (x >>= fun y => (k y).interp) h = .ok q → h' = q.2 := by
    intro β x k ih w h n b
    rw [mio_bind, HeapM.bind_apply]
    unfold onHeap
    dsimp only
    cases hx : x h with
    | ok q => obtain ⟨y, h1⟩ := q; exact ih y w h1 n b
    | ub k => exact ⟨h, n, rfl, fun q e => (nomatch e)⟩
    | exit => exact ⟨h, n, rfl, fun q e => (nomatch e)⟩
    | diverge => exact ⟨h, n, rfl, fun q e => (nomatch e)⟩
  induction p with
  | ret x => exact fun w h n b => ⟨h, n, rfl, fun q e => by cases e; rfl⟩
  | ub k => exact fun w h n b => ⟨h, n, rfl, fun q e => (nomatch e)⟩
  | exit => exact fun w h n b => ⟨h, n, rfl, fun q e => (nomatch e)⟩
  | hang => exact fun w h n b => ⟨h, n, rfl, fun q e => (nomatch e)⟩
  | malloc c k ih =>
    intro w h n b
    obtain ⟨h', n', e1, e2⟩ := heap (malloc c) k ih w h (n + 1) b
    refine ⟨h', n', Eq.trans ?_ e1, e2⟩
    show (request >>= _) e enough _ = _
    rw [mio_bind, request_run]
    simp only [enough, Bool.or_false, Bool.not_false, if_pos]
  | free a k ih => exact heap (free (some a)) (fun _ => k) fun _ => ih
  | load a k ih => exact heap (loadCell (some a)) k ih
  | store a c k ih => exact heap (storeCell (some a) c) (fun _ => k) fun _ => ih
  | fuel k ih => exact heap heapFuel k ih

/-- With enough memory, and a heap as in `P`, the function does to files and streams what the function on values does, and
ends in the same way; the results and the heap are related by `Q`. -/
def Sim {α β : Type} (P : Heap → Prop) (m : MIO α) (v : CIO β) (Q : β → α → Heap → Prop) : Prop :=
  ∀ e w h n b, P h →
    match v e w with
    | (w', .ok y) => ∃ x h' n' b', m e enough ⟨w, h, n, b⟩ = (⟨w', h', n', b'⟩, .ok x) ∧ Q y x h'
    | (w', .ub k) => ∃ h' n' b', m e enough ⟨w, h, n, b⟩ = (⟨w', h', n', b'⟩, .ub k)
    | (w', .exit) => ∃ h' n' b', m e enough ⟨w, h, n, b⟩ = (⟨w', h', n', b'⟩, .exit)
    | (w', .diverge) => ∃ h' n' b', m e enough ⟨w, h, n, b⟩ = (⟨w', h', n', b'⟩, .diverge)

namespace Sim

variable {α β γ δ : Type}

theorem bind {P : Heap → Prop} {m : MIO α} {v : CIO β} {Q : β → α → Heap → Prop} {f : α → MIO γ} {g : β → CIO δ}
    {R : δ → γ → Heap → Prop} (h1 : Sim P m v Q) (h2 : ∀ y x, Sim (Q y x) (f x) (g y) R) : Sim P (m >>= f) (v >>= g) R := by
  intro e w h n b hp
  have := h1 e w h n b hp
  rw [cio_bind]
  rcases hv : v e w with ⟨w', y | k | _ | _⟩
  · rw [hv] at this
    obtain ⟨x, h', n', b', e1, q⟩ := this
    have g2 := h2 y x e w' h' n' b' q
    rw [mio_bind, e1]
    exact g2
  all_goals
    rw [hv] at this
    obtain ⟨h', n', b', e1⟩ := this
    exact ⟨h', n', b', by rw [mio_bind, e1]⟩

theorem io {P : Heap → Prop} (v : CIO β) : Sim P (Id3.io v) v (fun y x h => x = y ∧ P h) := by
  intro e w h n b hp
  rcases hv : v e w with ⟨w', y | k | _ | _⟩
  · exact ⟨y, h, n, b, by unfold Id3.io; simp only [hv], rfl, hp⟩
  all_goals exact ⟨h, n, b, by unfold Id3.io; simp only [hv]⟩

theorem pure {P : Heap → Prop} {x : α} {y : β} {Q : β → α → Heap → Prop} (hq : ∀ h, P h → Q y x h) :
    Sim P (Pure.pure x) (Pure.pure y) Q := fun _ _ h n b hp => ⟨x, h, n, b, rfl, hq h hp⟩

theorem conseq {P P' : Heap → Prop} {m : MIO α} {v : CIO β} {Q Q' : β → α → Heap → Prop} (h : Sim P' m v Q)
    (hp : ∀ h, P h → P' h) (hq : ∀ y x h, Q y x h → Q' y x h) : Sim P m v Q' := by
  intro e w hh n b p
  have := h e w hh n b (hp _ p)
  rcases hv : v e w with ⟨w', y | k | _ | _⟩
  · rw [hv] at this
    obtain ⟨x, h', n', b', e1, q⟩ := this
    exact ⟨x, h', n', b', e1, hq _ _ _ q⟩
  all_goals
    rw [hv] at this
    exact this

/-- The heap does not satisfy what is required. -/
theorem absurd {P : Heap → Prop} {m : MIO α} {v : CIO β} {Q : β → α → Heap → Prop} (h : ∀ h, ¬ P h) : Sim P m v Q :=
  fun _ _ hh _ _ p => (h hh p).elim

/-- A fact that does not concern the heap. -/
theorem assume {A : Prop} {P : Heap → Prop} {m : MIO α} {v : CIO β} {Q : β → α → Heap → Prop} (h : A → Sim P m v Q) :
    Sim (fun h => A ∧ P h) m v Q := fun e w hh n b p => h p.1 e w hh n b p.2

/-- Something that exists. -/
theorem some {ι : Type} {P : ι → Heap → Prop} {m : MIO α} {v : CIO β} {Q : β → α → Heap → Prop}
    (h : ∀ i, Sim (P i) m v Q) : Sim (fun h => ∃ i, P i h) m v Q := fun e w hh n b ⟨i, p⟩ => h i e w hh n b p

/-- A program on the heap, which computes what the function on values does. -/
theorem prog {P : Heap → Prop} {p : Prog α} {x : HeapM α} [hs : Same p x] {r : Res β} {Q : β → α → Heap → Prop}
    (hr : ∀ h, P h → Refines (x h) r Q) : Sim P (inMemory p) (pureRes r) Q := by
  intro e w h n b hp
  obtain ⟨h', n', e1, e2⟩ := inMemory_enough p e w h n b
  rw [hs.eq] at e1 e2
  have := hr h hp
  unfold Refines at this
  rw [pureRes_run]
  cases r with
  | ok y =>
    obtain ⟨a, h2, e3, q⟩ := this
    rw [e3] at e1
    obtain rfl := e2 _ e3
    exact ⟨a, _, n', b, e1, q⟩
  | ub k => rw [this] at e1; exact ⟨h', n', b, e1⟩
  | exit => rw [this] at e1; exact ⟨h', n', b, e1⟩
  | diverge => rw [this] at e1; exact ⟨h', n', b, e1⟩

/-- A program on the heap without a counterpart. -/
theorem step {P : Heap → Prop} {p : Prog α} {x : HeapM α} [hs : Same p x] {f : α → MIO γ} {v : CIO δ}
    {Q : α → Heap → Prop} {R : δ → γ → Heap → Prop} (hr : ∀ h, P h → Refines (x h) (.ok ()) (fun _ => Q))
    (hf : ∀ y, Sim (Q y) (f y) v R) : Sim P (inMemory p >>= f) v R := by
  have := bind (v := Pure.pure ()) (g := fun _ => v) (prog (p := p) (x := x) (r := .ok ()) (Q := fun _ => Q) hr) (fun _ y => hf y)
  exact this

/-- The same at the end of a function. -/
theorem last {P : Heap → Prop} {p : Prog α} {x : HeapM α} [hs : Same p x] {y : β} {Q : β → α → Heap → Prop}
    (hr : ∀ h, P h → Refines (x h) (.ok y) Q) : Sim P (inMemory p) (Pure.pure y) Q := prog (r := .ok y) hr

theorem crash {P : Heap → Prop} {Q : β → α → Heap → Prop} : Sim P (Id3.crash : MIO α) (pureRes (.ub .nullDeref)) Q :=
  fun _ _ h n b _ => ⟨h, n, b, rfl⟩

/-- A part of a function that only computes something from the heap. -/
theorem silent {P P' : Heap → Prop} {m : MIO α} {z : α} {f : α → MIO γ} {v : CIO δ} {R : δ → γ → Heap → Prop}
    (hm : Sim P m (Pure.pure z : CIO α) (fun y x h => x = y ∧ P' h)) (hf : Sim P' (f z) v R) : Sim P (m >>= f) v R := by
  intro e w h n b p
  obtain ⟨x, h', n', b', e1, rfl, p'⟩ := hm e w h n b p
  rw [mio_bind, e1]
  exact hf e w h' n' b' p'

/-- An I/O operation, and what follows. -/
theorem op {P : Heap → Prop} {v : CIO β} {f : β → MIO γ} {g : β → CIO δ} {R : δ → γ → Heap → Prop}
    (h : ∀ y, Sim P (f y) (g y) R) : Sim P (Id3.io v >>= f) (v >>= g) R :=
  bind (io v) fun y x => assume fun e => by rw [e]; exact h y

end Sim

open H

theorem header_sim [Platform] (X : List Block) (n : Name) :
    Sim (Rep · X) (ID3v2_read_tag_header_mem n) (ID3v2_read_tag_header_os n) (HeaderRep X) := by
  unfold ID3v2_read_tag_header_mem ID3v2_read_tag_header_os
  refine .op fun fp => ?_
  cases fp with
  | none => exact .pure fun h r => ⟨rfl, r⟩
  | some fp =>
    refine .op fun buf => .op fun _ => ?_
    split
    · exact .pure fun h r => ⟨rfl, r⟩
    · exact .prog fun h r => read_header_buffer_spec r (.literal buf) buf rfl

theorem checked_sim (X : List Block) : Sim (Rep · X) mallocChecked attempt (fun ok p h =>
    (ok = true ∧ ∃ a, p = some a ∧ Rep h ((a, .bytes []) :: X)) ∨ (ok = false ∧ p = none ∧ Rep h X)) := by
  intro e w h n b r
  obtain ⟨F, S, k, t⟩ := w
  rw [attempt_run]
  unfold mallocChecked
  obtain ⟨a, h', e1, r'⟩ := r.malloc (.bytes [])
  cases he : e t
  · refine ⟨some a, h', n + 1, b, ?_, .inl ⟨rfl, a, rfl, r'⟩⟩
    simp only [mio_bind, io, attempt_run, he, request_run, enough, onHeap, e1, mio_pure, Bool.not_false, Bool.or_false, if_true]
  · refine ⟨none, h, n, true, ?_, .inr ⟨rfl, rfl, r⟩⟩
    simp only [mio_bind, io, attempt_run, he, Bool.not_true]
    rfl

/-- Free a block. -/
theorem free_ref {h : Heap} {a : Nat} {c : Cell} {X : List Block} (r : Rep h ((a, c) :: X)) :
    Refines (free (some a) h) (.ok ()) (fun _ _ h' => Rep h' X) :=
  .last (.free r (List.Perm.refl _) fun _ r => .pure r)

/-- Overwrite a block. -/
theorem store_ref {h : Heap} {a : Nat} {c c' : Cell} {X : List Block} (r : Rep h ((a, c) :: X)) :
    Refines (storeCell (some a) c' h) (.ok ()) (fun _ _ h' => Rep h' ((a, c') :: X)) :=
  .last (.store r (List.Perm.refl _) fun _ r => .pure r)

/-- Allocate a block. -/
theorem malloc_ref {h : Heap} {c : Cell} {X : List Block} (r : Rep h X) :
    Refines (malloc c h) (.ok ()) (fun _ a h' => Rep h' ((a, c) :: X)) :=
  .last (.malloc r fun _ _ r => .pure r)

/-- Read a header. -/
theorem header_ref {h : Heap} {a : Nat} {x : TagHeader} {X : List Block} (r : Rep h ((a, .tagHeader x) :: X)) :
    Refines (loadTagHeader (some a) h) (.ok ()) (fun _ y h' => y = x ∧ Rep h' ((a, .tagHeader x) :: X)) :=
  .last (.loadTagHeader r List.mem_cons_self (.pure ⟨rfl, r⟩))

theorem bind_pureRes {α : Type} (r : Res α) : (pureRes r >>= fun x => pure x) = pureRes r := by
  funext e w
  rw [cio_bind, pureRes_run]
  cases r <;> rfl

theorem read_sim [Platform] (X : List Block) (n : Name) :
    Sim (Rep · X) (ID3v2_read_tag_mem n) (ID3v2_read_tag_os n) (TagRep? X) := by
  unfold ID3v2_read_tag_mem ID3v2_read_tag_os
  refine .bind (header_sim X n) fun y p => ?_
  cases y with
  | none =>
    refine .assume fun hp => ?_
    subst hp
    exact .pure fun h r => ⟨rfl, r⟩
  | some x =>
    refine .some fun a => .assume fun hp => ?_
    subst hp
    refine .op fun file => ?_
    refine .step (Q := fun y h' => y = x ∧ Rep h' ((a, .tagHeader x) :: X)) (fun h r => header_ref r) fun y => ?_
    refine .assume fun hy => ?_
    subst hy
    refine .bind (checked_sim _) fun ok q => ?_
    cases ok with
    | true =>
      refine .conseq (P' := fun h => ∃ b, q = some b ∧ Rep h ((b, .bytes []) :: (a, .tagHeader y) :: X)) ?_
        (fun h hp => hp.elim (fun hp => hp.2) fun hp => (nomatch hp.1)) (fun _ _ _ => id)
      refine .some fun b => .assume fun hp => ?_
      subst hp
      rw [if_pos rfl]
      dsimp only
      refine .op fun data => ?_
      refine .step (Q := fun _ h' => Rep h' ((b, _) :: (a, .tagHeader y) :: X)) (fun h r => store_ref r) fun _ => ?_
      refine .op fun _ => ?_
      rw [← bind_pureRes]
      refine .bind (.prog (Q := TagRep? ((b, .bytes (intoArray _ data)) :: (a, .tagHeader y) :: X))
        fun h r => read_buffer_spec r _ _ _ List.mem_cons_self) fun v p => ?_
      refine .conseq (P' := fun h => ∃ Z, Rep h ((b, .bytes (intoArray _ data)) :: (a, .tagHeader y) :: (Z ++ X)) ∧
        ∀ h', Rep h' (Z ++ X) → TagRep? X v p h') ?_ (fun h t => TagRep?.out (Y := [_, _]) t) (fun _ _ _ => id)
      refine .some fun Z => .conseq (P' := fun h => (∀ h', Rep h' (Z ++ X) → TagRep? X v p h') ∧
        Rep h ((b, .bytes (intoArray _ data)) :: (a, .tagHeader y) :: (Z ++ X))) ?_ (fun _ h => ⟨h.2, h.1⟩) (fun _ _ _ => id)
      refine .assume fun hZ => ?_
      refine .step (Q := fun _ h' => Rep h' ((a, .tagHeader y) :: (Z ++ X))) (fun h r => free_ref r) fun _ => ?_
      refine .step (Q := fun _ h' => Rep h' (Z ++ X)) (fun h r => free_ref r) fun _ => ?_
      exact .pure hZ
    | false =>
      refine .conseq (P' := fun h => q = none ∧ Rep h ((a, .tagHeader y) :: X)) ?_
        (fun h hp => hp.elim (fun hp => (nomatch hp.1)) fun hp => hp.2) (fun _ _ _ => id)
      refine .assume fun hq => ?_
      subst hq
      rw [if_neg (by decide)]
      dsimp only
      refine .op fun _ => ?_
      refine .step (Q := fun _ h' => Rep h' X) (fun h r => free_ref r) fun _ => ?_
      exact .pure fun h r => ⟨rfl, r⟩

theorem mio_assoc {α β γ : Type} (m : MIO α) (f : α → MIO β) (g : β → MIO γ) :
    (m >>= f) >>= g = m >>= fun x => f x >>= g := by
  funext e a s
  rw [mio_bind, mio_bind, mio_bind]
  rcases m e a s with ⟨s', _ | _ | _ | _⟩ <;> rfl

theorem mio_pure_bind {α β : Type} (x : α) (f : α → MIO β) : (pure x >>= f) = f x := rfl

theorem delete_sim [Platform] (X : List Block) (n : Name) :
    Sim (Rep · X) (ID3v2_delete_tag_mem n) (ID3v2_delete_tag_os n) (fun _ _ h => Rep h X) := by
  unfold ID3v2_delete_tag_mem ID3v2_delete_tag_os
  refine .bind (header_sim X n) fun y p => ?_
  cases y with
  | none =>
    refine .assume fun hp => ?_
    subst hp
    exact .pure fun h r => r
  | some x =>
    refine .some fun a => .assume fun hp => ?_
    subst hp
    refine .op fun file => .op fun temp => ?_
    refine .step (Q := fun y h' => y = x ∧ Rep h' ((a, .tagHeader x) :: X)) (fun h r => header_ref r) fun y => ?_
    refine .assume fun hy => ?_
    subst hy
    refine .op fun _ => .op fun _ => .op fun _ => .op fun file => .op fun _ => .op fun _ => ?_
    refine .step (Q := fun _ h' => Rep h' X) (fun h r => free_ref r) fun _ => .op fun _ => ?_
    exact .conseq (.io _) (fun _ => id) fun _ _ _ h => h.2

theorem of_streams {n : Nat} {K : List Block} (h : Streams n K) : OfStreams K := by
  induction h with
  | nil => exact fun _ h => nomatch h
  | cons a s _ ih =>
    intro b hb
    rcases List.mem_cons.mp hb with rfl | hb
    · exact .inl ⟨_, rfl⟩
    rcases List.mem_cons.mp hb with rfl | hb
    · exact .inr ⟨_, rfl⟩
    · exact ih b hb

theorem write_sim [Platform] (X : List Block) (n : Name) (T : HTag) :
    Sim (Rep · (T.blocks ++ X)) (ID3v2_write_tag_mem n T.addr) (ID3v2_write_tag_os n T.value)
      (fun t _ h => t.frames = T.value.frames ∧ ∃ K, K.length = writeLost T.value.frames ∧ OfStreams K ∧
        TagAt (K ++ X) t T.addr T.list h) := by
  unfold ID3v2_write_tag_mem ID3v2_write_tag_os existingTagSize_mem
  rw [mio_assoc]
  refine .bind (header_sim _ n) fun y p => ?_
  refine .silent (z := originalSize y) (P' := (Rep · (T.blocks ++ X))) ?_ ?_
  · cases y with
    | none =>
      refine .assume fun hp => ?_
      subst hp
      exact .pure fun h r => ⟨rfl, r⟩
    | some x =>
      refine .some fun a => .assume fun hp => ?_
      subst hp
      refine .step (Q := fun y h' => y = x ∧ Rep h' ((a, .tagHeader x) :: (T.blocks ++ X))) (fun h r => header_ref r)
        fun y => ?_
      refine .assume fun hy => ?_
      subst hy
      refine .step (Q := fun _ h' => Rep h' (T.blocks ++ X)) (fun h r => free_ref r) fun _ => ?_
      exact .pure fun h r => ⟨rfl, r⟩
  · refine .step (Q := fun t h => t = ⟨some T.hdr, some T.head, T.padding_size⟩ ∧ Rep h (T.blocks ++ X))
      (fun h r => .last (.loadTag r (List.mem_append_left _ (mem_tag T)) (.pure ⟨rfl, r⟩))) fun t => ?_
    refine .assume fun ht => ?_
    subst ht
    refine .op fun d => .op fun pad => ?_
    obtain ⟨a, hdr, x, pad0, head, f, rest⟩ := T
    refine .step (Q := fun _ h => Rep h (HTag.blocks ⟨a, hdr, x, pad, head, f, rest⟩ ++ X)) (fun h r => .last (.store
      (c := .tag (some hdr) (some head) pad0) (L' := ((hdr, Cell.tagHeader x) ::
      (listNodes head (spine ((head, f) :: rest)) ++ frameBlocks ((head, f) :: rest))) ++ X) r
      (by unfold HTag.blocks HTag.list; blocks) fun h2 r2 => .pure r2)) fun _ => ?_
    refine .bind (.prog fun h r => tag_out_spec (T := ⟨a, hdr, x, pad, head, f, rest⟩) (X := X) r) fun c q => ?_
    obtain ⟨q, c'⟩ := q
    refine .assume fun hc => ?_
    dsimp only at hc
    subst hc
    refine .some fun s => .some fun K => .some fun k => ?_
    refine .assume fun hK => .assume fun _ => .assume fun hn => .assume fun hz => ?_
    dsimp only
    refine .op fun temp => .op fun bytes => .op fun _ => .op fun dest => .op fun _ => .op fun _ => .op fun _ =>
      .op fun dest2 => .op fun _ => .op fun _ => .op fun _ => .op fun _ => ?_
    refine .last fun h r => ?_
    obtain ⟨u, h', e, r4⟩ := cs_free_spec r
    have hl : K.length = writeLost (HTag.value ⟨a, hdr, x, pad, head, f, rest⟩).frames := by
      rw [hK.length]
      show _ = if (f.map HFrame.value :: vals rest).head? = some none then 0 else _
      cases f with
      | none => rw [hz rfl]; rfl
      | some F => rw [hn (Option.some_ne_none _), streams_count]; rfl
    exact ⟨u, h', e, rfl, K, hl, of_streams hK, ⟨a, hdr, x, pad, head, f, rest⟩, rfl, rfl, rfl, r4.perm (by blocks)⟩

theorem load_sim [Platform] (X : List Block) (n : Name) :
    Sim (Rep · X) (load_tag_mem n) (load_tag_os n)
      (fun v a h => ∃ K, Streams (listStreams v.tag.frames) K ∧ CTagRep (K ++ X) v a h) := by
  unfold load_tag_mem load_tag_os
  refine .bind (header_sim X n) fun y p => .op fun fp => ?_
  cases y with
  | none =>
    refine .assume fun hp => ?_
    subst hp
    exact .crash
  | some x =>
    refine .some fun a => .assume fun hp => ?_
    subst hp
    dsimp only
    refine .step (Q := fun y h' => y = x ∧ Rep h' ((a, .tagHeader x) :: X)) (fun h r => header_ref r) fun y => ?_
    refine .assume fun hy => ?_
    subst hy
    refine .step (Q := fun b h' => Rep h' ((b, .bytes []) :: (a, .tagHeader y) :: X)) (fun h r => malloc_ref r) fun b => ?_
    refine .op fun data => ?_
    refine .step (Q := fun _ h' => Rep h' ((b, .bytes (intoArray (toInt32 (u32 (y.tag_size + 10))) data)) ::
      (a, .tagHeader y) :: X)) (fun h r => store_ref r) fun _ => .op fun _ => ?_
    rw [← bind_pureRes]
    refine .bind (.prog fun h r => load_buffer_spec r (.block b) _ _ List.mem_cons_self) fun v p => ?_
    refine .some fun K => .assume fun hK => .some fun C => .assume fun h1 => .assume fun h2 => .assume fun hl => ?_
    refine .step (Q := fun _ h' => Rep h' ((a, .tagHeader y) :: (C.blocks ++ (K ++ X)))) (fun h r => free_ref
      (c := .bytes (intoArray (toInt32 (u32 (y.tag_size + 10))) data)) (r.perm (by blocks))) fun _ => ?_
    refine .step (Q := fun _ h' => Rep h' (C.blocks ++ (K ++ X))) (fun h r => free_ref r) fun _ => ?_
    exact .pure fun h r => ⟨K, hK, C, h1, h2, hl, r⟩

theorem set_sim [Platform] (X : List Block) (n : Name) (C : HCTag) (hl : C.Linked) :
    Sim (Rep · (C.blocks ++ X)) (set_tag_mem n C.addr) (set_tag_os n C.value)
      (fun v _ h => v.tag.frames = C.tag.value.frames ∧ ∃ K, K.length = writeLost C.tag.value.frames ∧ OfStreams K ∧
        CTagRep (K ++ X) v C.addr h) := by
  unfold set_tag_mem set_tag_os
  refine .step (Q := fun a h => a = C.tag.addr ∧ Rep h (C.blocks ++ X))
    (fun h r => .last (tagOf_spec r (fun b hb => List.mem_append_left _ hb) (.pure ⟨rfl, r⟩))) fun a => ?_
  refine .assume fun ha => ?_
  subst ha
  have e : (ID3v2_write_tag_mem n C.tag.addr) = (ID3v2_write_tag_mem n C.tag.addr >>= fun u => pure u) := by
    funext e a s
    rw [mio_bind]
    rcases ID3v2_write_tag_mem n C.tag.addr e a s with ⟨s', _ | _ | _ | _⟩ <;> rfl
  rw [e]
  refine .bind (.conseq (write_sim _ n C.tag) (fun h r => r.perm (H.tag_out C X)) fun _ _ _ => id) fun t u => ?_
  refine .assume fun ht => .some fun K => .assume fun hK => .assume fun hS => .some fun T =>
    .assume fun h1 => .assume fun h2 => .assume fun h3 => ?_
  refine .pure fun h r => ⟨ht, K, hK, hS, { C with tag := T }, rfl, ?_, ⟨?_, hl.ids⟩, r.perm ?_⟩
  · show { C.value with tag := T.value } = _
    rw [h2]
  · show C.list.map _ = T.list.map _
    rw [h3]
    exact hl.frames
  · refine List.Perm.trans ?_ (H.tag_out { C with tag := T } _).symm
    rw [own_tag C T h1]
    show List.Perm _ (T.blocks ++ _)
    blocks

theorem cover_sim [Platform] (X : List Block) (n : Name) (C : HCTag) (hl : C.Linked) :
    Sim (Rep · (C.blocks ++ X)) (tag_set_album_cover_mem n C.addr) (tag_set_album_cover_os n C.value)
      (fun v _ h => CTagRep X v C.addr h) := by
  unfold tag_set_album_cover_mem tag_set_album_cover_os
  refine .op fun fp => .op fun _ => .op fun pos => .op fun size => .op fun _ => ?_
  split
  · exact .crash
  · refine .step (Q := fun b h' => Rep h' ((b, .bytes []) :: (C.blocks ++ X))) (fun h r => malloc_ref r) fun b => ?_
    refine .op fun data => ?_
    refine .step (Q := fun _ h' => Rep h' ((b, .bytes (intoArray size data)) :: (C.blocks ++ X))) (fun h r => store_ref r)
      fun _ => .op fun _ => ?_
    cases afterLastDot n with
    | none => exact .crash
    | some ext =>
      dsimp only
      rw [← bind_pureRes]
      refine .bind (.prog (Q := fun v _ h' => CSetPost C [0x41, 0x50, 0x49, 0x43] ((b, .bytes (intoArray size data)) :: X) v h')
        fun h r => set_cover_cspec hl (X := (b, .bytes (intoArray size data)) :: X) (r.perm (by blocks)) (.block b) _
          (by show _ ∈ _; simp) (.literal _) _ rfl size) fun v _ => ?_
      refine .last fun h r => ?_
      obtain ⟨C', c, i, m, d, e1, e2, e3, r3, -⟩ := r
      obtain ⟨u, h', e4, r4⟩ := free_ref (a := b) (c := .bytes (intoArray size data)) (X := C'.blocks ++ X) (r3.perm (by blocks))
      exact ⟨u, h', e4, C', e1, e2, e3, r4⟩

end Id3
