import Verif.Proof.Memory
import Verif.Heap.Session
import Verif.Props.Files

/-!
# Running out of memory (C85), and failing operations and the heap (C86)
-/

namespace Id3.Props

open Id3 Spec H

/-! ## C85 -/

theorem call_early [Platform] (c : MCall) (hc : ∀ n, c ≠ .read n) : Early Crash c.run := by
  cases c with
  | readHeader n => exact early_header_mem n
  | read n => exact absurd rfl (hc n)
  | write n t => exact (early_write_mem n t).map _
  | delete n => exact (early_delete_mem n).map _
  | load n => exact (early_load_mem n).map _
  | set n t => exact (early_set_mem n t).map _
  | remove n => exact (early_delete_mem n).map _
  | cover n t => exact (early_cover_mem n t).map _

/-- The heap after `malloc`. -/
def afterMalloc (h : Heap) : Heap where
  cells := fun x => if x = h.place then some (.bytes []) else h.cells x
  next := max h.next (h.place + 1)
  picks := fun i => h.picks (i + 1)

theorem checked_run (e : Faults) (a : Lack) (F : Name → File) (S : Nat → Option Stream) (k t : Nat) (h : Heap) (n : Nat)
    (b : Bool) :
    mallocChecked e a ⟨⟨F, S, k, t⟩, h, n, b⟩ =
      if e t = true then (⟨⟨F, S, k, t + 1⟩, h, n, true⟩, .ok none)
      else if a n = true then (⟨⟨F, S, k, t + 1⟩, h, n + 1, true⟩, .ok none)
      else (⟨⟨F, S, k, t + 1⟩, afterMalloc h, n + 1, b⟩, .ok (some h.place)) := by
  unfold mallocChecked
  cases he : e t
  · cases ha : a n
    · simp [mio_bind, io, attempt_run, he, request_run, ha, onHeap, malloc, mio_pure, afterMalloc]
    · simp [mio_bind, io, attempt_run, he, request_run, ha, mio_pure]
  · simp [mio_bind, io, attempt_run, he, mio_pure, runShort]

/-- The end of `ID3v2_read_tag` if there is no buffer. -/
theorem no_buffer_run (e : Faults) (a : Lack) (F : Name → File) (S : Nat → Option Stream) (file : Option Nat) (k t : Nat)
    (h : Heap) (n : Nat) (p : Nat) (x : TagHeader) (X : List Block) (r : Rep h ((p, .tagHeader x) :: X))
    (hf : ∀ f, file = some f → ∃ st, S f = some st) :
    ∃ s' o, (do io (fclose file); inMemory (T.free (some p)); pure none : MIO Ptr) e a ⟨⟨F, S, k, t⟩, h, n, true⟩ = (s', o) ∧
      s'.short = true ∧ s'.sys.files = F ∧
        (o = .ub .nullDeref ∨ (o = .ok none ∧ (∃ f, file = some f ∧ s'.sys.streams = upd S f none) ∧ Rep s'.heap X)) := by
  cases file with
  | none =>
    refine ⟨⟨⟨F, S, k, t⟩, h, n, true⟩, _, ?_, rfl, rfl, .inl rfl⟩
    rw [mio_bind]
    simp only [io, fclose_null]
  | some f =>
    obtain ⟨st, hst⟩ := hf f rfl
    obtain ⟨h', e1, r'⟩ := r.free
    refine ⟨⟨⟨F, upd S f none, k, t⟩, h', n, true⟩, .ok none, ?_, rfl, rfl, .inr ⟨rfl, ⟨f, rfl, rfl⟩, r'⟩⟩
    rw [mio_bind]
    simp only [io, fclose_run e hst]
    have hfree : inMemory (T.free (some p)) e a ⟨⟨F, upd S f none, k, t⟩, h, n, true⟩ =
        (⟨⟨F, upd S f none, k, t⟩, h', n, true⟩, .ok ()) := by
      show (onHeap (free (some p)) >>= fun _ => pure ()) e a _ = _
      rw [mio_bind]
      simp only [onHeap, e1, mio_pure]
    rw [mio_bind, hfree]
    rfl

theorem loadTagHeader_run (e : Faults) (a : Lack) (w : Sys) (h : Heap) (n : Nat) (b : Bool) (p : Nat) (x : TagHeader)
    (X : List Block) (r : Rep h ((p, .tagHeader x) :: X)) :
    inMemory (T.loadTagHeader (some p)) e a ⟨w, h, n, b⟩ = (⟨w, h, n, b⟩, .ok x) := by
  show (onHeap (loadCell (some p)) >>= _) e a _ = _
  rw [mio_bind]
  simp only [onHeap, r.load List.mem_cons_self]
  rfl

/-- `ID3v2_read_tag` when memory may run out. -/
theorem read_mem_short [Platform] (n : Name) (e : Faults) (a : Lack) (F : Name → File) (S : Nat → Option Stream) (k t : Nat)
    (h : Heap) (q : Nat) (X : List Block) (r : Rep h X) (hw : Fresh S k) :
    ∃ s' o, ID3v2_read_tag_mem n e a ⟨⟨F, S, k, t⟩, h, q, false⟩ = (s', o) ∧
      ((ID3v2_read_tag_mem n e enough ⟨⟨F, S, k, t⟩, h, q, false⟩ = (s', o) ∧ s'.short = false) ∨
       (s'.short = true ∧ s'.sys.files = F ∧
         (o = .ub .nullDeref ∨ (o = .ok none ∧ s'.sys.streams = S ∧ Rep s'.heap X)))) := by
  unfold ID3v2_read_tag_mem
  rw [mio_bind, mio_bind]
  have hk := keeps_header_mem n e a ⟨⟨F, S, k, t⟩, h, q, false⟩
  rcases early_header_mem n e a ⟨⟨F, S, k, t⟩, h, q, false⟩ with ⟨h1, h2⟩ | ⟨h1, h2, h3⟩
  · rw [← h1]
    have hs := header_sim X n e ⟨F, S, k, t⟩ h q false r
    obtain ⟨eh, k', t', ho, hle, -⟩ := header_os_run n e F S k t hw
    rw [ho] at hs
    cases hr : ID3v2_read_tag_header_io eh (F n) with
    | ub u =>
      rw [hr] at hs
      obtain ⟨h', n', b', g⟩ := hs
      rw [← h1] at g
      rw [g] at h2 ⊢
      exact ⟨_, _, rfl, .inl ⟨rfl, h2⟩⟩
    | exit =>
      rw [hr] at hs
      obtain ⟨h', n', b', g⟩ := hs
      rw [← h1] at g
      rw [g] at h2 ⊢
      exact ⟨_, _, rfl, .inl ⟨rfl, h2⟩⟩
    | diverge =>
      rw [hr] at hs
      obtain ⟨h', n', b', g⟩ := hs
      rw [← h1] at g
      rw [g] at h2 ⊢
      exact ⟨_, _, rfl, .inl ⟨rfl, h2⟩⟩
    | ok v =>
      rw [hr] at hs
      obtain ⟨p, h', n', b', g, hp⟩ := hs
      rw [← h1] at g
      rw [g] at h2 ⊢
      obtain rfl : b' = false := h2
      cases v with
      | none =>
        obtain ⟨rfl, r1⟩ := hp
        exact ⟨_, _, rfl, .inl ⟨rfl, rfl⟩⟩
      | some x =>
        obtain ⟨p, rfl, r1⟩ := hp
        have hw1 := hw.mono hle
        dsimp only
        rw [mio_bind, mio_bind]
        obtain ⟨file, S2, k2, hfo, hS2, hf⟩ : ∃ file S2 k2, fopen_existing n e ⟨F, S, k', t'⟩ =
            (⟨F, S2, k2, t' + 1⟩, .ok file) ∧ (∀ f, file = some f → upd S2 f none = S) ∧
            (∀ f, file = some f → ∃ st, S2 f = some st) := by
          rw [fopen_existing_run]
          by_cases hf : e t' = true ∨ F n = none
          · exact ⟨none, S, k', by rw [if_pos hf], fun f h => (nomatch h), fun f h => (nomatch h)⟩
          · refine ⟨some k', _, _, by rw [if_neg hf], fun f h => ?_, fun f h => ?_⟩
            · cases h
              exact upd_back (hw1 k' (Nat.le_refl k')) fun i hi => upd_ne _ _ hi
            · cases h
              exact ⟨_, upd_self _ _ _⟩
        simp only [io, hfo]
        rw [mio_bind, mio_bind, loadTagHeader_run (r := r1), loadTagHeader_run (r := r1)]
        dsimp only
        rw [mio_bind, mio_bind, checked_run, checked_run]
        have none_end : ∀ (c : Machine × Res Ptr) (m : Nat),
            ∃ s' o, (do io (fclose file); inMemory (T.free (some p)); pure none : MIO Ptr) e a
              ⟨⟨F, S2, k2, t' + 1 + 1⟩, h', m, true⟩ = (s', o) ∧
            ((c = (s', o) ∧ s'.short = false) ∨ (s'.short = true ∧ s'.sys.files = F ∧
             (o = .ub .nullDeref ∨ (o = .ok none ∧ s'.sys.streams = S ∧ Rep s'.heap X)))) := by
          intro c m
          obtain ⟨s', o, g1, g2, g3, g4⟩ := no_buffer_run e a F S2 file k2 (t' + 1 + 1) h' m p x X r1 hf
          refine ⟨s', o, g1, .inr ⟨g2, g3, g4.imp id ?_⟩⟩
          rintro ⟨h1, ⟨f, hf, h2⟩, h3⟩
          exact ⟨h1, h2.trans (hS2 f hf), h3⟩
        cases he : e (t' + 1)
        · cases ha : a n'
          · simp only [enough, Bool.false_eq_true, if_false]
            have hE : Early Crash (do
                let data ← io (fread (toInt32 (u32 (x.tag_size + 10))).toNat file)
                inMemory (T.storeCell (some h'.place) (.bytes (intoArray (toInt32 (u32 (x.tag_size + 10))) data)))
                io (fclose file)
                let tag ← inMemory (T.ID3v2_read_tag_from_buffer (.block h'.place) (toInt32 (u32 (x.tag_size + 10))))
                inMemory (T.free (some h'.place))
                inMemory (T.free (some p))
                pure tag : MIO Ptr) := by early
            refine ⟨_, _, rfl, ?_⟩
            rcases hE e a ⟨⟨F, S2, k2, t' + 1 + 1⟩, afterMalloc h', n' + 1, false⟩ with ⟨g1, g2⟩ | ⟨g1, g2, g3⟩
            · exact .inl ⟨g1.symm, g2⟩
            · exact .inr ⟨g1, g2, .inl g3⟩
          · simp only [if_true, Bool.false_eq_true, if_false]
            exact none_end _ _
        · simp only [if_true]
          exact none_end _ _
  · refine ⟨_, _, rfl, .inr ?_⟩
    rcases hm : ID3v2_read_tag_header_mem n e a ⟨⟨F, S, k, t⟩, h, q, false⟩ with ⟨s', o⟩
    rw [hm] at h1 h2 h3
    obtain rfl : o = .ub .nullDeref := h3
    exact ⟨h1, h2, .inl rfl⟩

/-- **C85**: a call that cannot get the memory that it asks for changes no file, whichever request it is and whatever else
fails. It does not go on without the memory: it ends there, because the NULL pointer is followed. Only `ID3v2_read_tag` can
return, and then it returns NULL, has freed everything that it had, and has closed its streams. `hg`: the heap holds what the
call is given, and the blocks `X`. `hw`: no stream is open that was not opened yet. -/
theorem out_of_memory_keeps_files [Platform] (c : MCall) (v : FileCall) (X : List Block) (e : Faults) (a : Lack)
    (s s' : Machine) (r : Res Ptr) (hg : Given X s.heap c v) (hw : ∀ h, s.sys.next ≤ h → s.sys.streams h = none)
    (hs : s.short = false) (h : c.run e a s = (s', r)) (hs' : s'.short = true) :
    s'.sys.files = s.sys.files ∧
      (r = .ub .nullDeref ∨
        (∃ n, c = .read n) ∧ r = .ok none ∧ s'.sys.streams = s.sys.streams ∧ Rep s'.heap X) := by
  by_cases hc : ∃ n, c = .read n
  · obtain ⟨n, rfl⟩ := hc
    obtain ⟨⟨F, S, k, t⟩, hp, q, b⟩ := s
    obtain rfl : b = false := hs
    have hr : Rep hp X := by
      cases v <;> first | exact hg.2 | exact hg.elim
    obtain ⟨s1, o, g1, g2⟩ := read_mem_short n e a F S k t hp q X hr hw
    have h : ID3v2_read_tag_mem n e a _ = (s', r) := h
    rw [h] at g1
    cases g1
    rcases g2 with ⟨-, g⟩ | ⟨-, g2, g3⟩
    · rw [hs'] at g
      cases g
    · exact ⟨g2, g3.imp id fun g => ⟨⟨n, rfl⟩, g⟩⟩
  · rcases call_early c (fun n hn => hc ⟨n, hn⟩) e a s with ⟨-, g⟩ | ⟨-, g2, g3⟩
    · rw [h, hs', hs] at g
      cases g
    · rw [h] at g2 g3
      exact ⟨g2, .inl g3⟩

/-- **C85** for the functions without a file name (`Verif/Thread/Program.lean` has them as programs `p`): if a request for
memory fails, the NULL pointer is followed; otherwise the function does what it does if there is always enough. -/
theorem program_out_of_memory {α : Type} (p : Prog α) (e : Faults) (a : Lack) (s s' : Machine) (r : Res α)
    (hs : s.short = false) (h : inMemory p e a s = (s', r)) :
    s'.sys.files = s.sys.files ∧
      if s'.short then r = .ub .nullDeref else inMemory p e enough s = (s', r) := by
  have hk := keeps_inMemory p e a s
  rcases early_inMemory p e a s with ⟨h1, h2⟩ | ⟨h1, h2, h3⟩
  · rw [h] at h1 h2 hk
    rw [hs] at h2
    exact ⟨hk, by rw [show s'.short = false from h2]; exact h1.symm⟩
  · rw [h] at h1 h2 h3
    exact ⟨h2, by rw [show s'.short = true from h1]; exact h3⟩

/-- A call that gets all the memory that it asks for does what it does if there is always enough. -/
theorem enough_memory [Platform] (c : MCall) (v : FileCall) (X : List Block) (e : Faults) (a : Lack)
    (s s' : Machine) (r : Res Ptr) (hg : Given X s.heap c v) (hw : ∀ h, s.sys.next ≤ h → s.sys.streams h = none)
    (hs : s.short = false) (h : c.run e a s = (s', r)) (hs' : s'.short = false) : c.run e enough s = (s', r) := by
  by_cases hc : ∃ n, c = .read n
  · obtain ⟨n, rfl⟩ := hc
    obtain ⟨⟨F, S, k, t⟩, hp, q, b⟩ := s
    obtain rfl : b = false := hs
    have hr : Rep hp X := by
      cases v <;> first | exact hg.2 | exact hg.elim
    obtain ⟨s1, o, g1, g2⟩ := read_mem_short n e a F S k t hp q X hr hw
    have h : ID3v2_read_tag_mem n e a _ = (s', r) := h
    rw [h] at g1
    cases g1
    rcases g2 with ⟨g, -⟩ | ⟨g, -⟩
    · exact g
    · rw [hs'] at g
      cases g
  · rcases call_early c (fun n hn => hc ⟨n, hn⟩) e a s with ⟨g, -⟩ | ⟨g, -⟩
    · rw [← h, g]
    · rw [h, hs'] at g
      cases g

/-! ## C86 -/

/-- The outcome of a call on the machine, next to the outcome on values. -/
def Outcome (X : List Block) (c : MCall) (o : Sys × Res Answer) (m : Machine × Res Ptr) : Prop :=
  m.1.sys = o.1 ∧
  match o.2 with
  | .ok y => ∃ p, m.2 = .ok p ∧ Gives X m.1.heap c p y
  | .ub k => m.2 = .ub k
  | .exit => m.2 = .exit
  | .diverge => m.2 = .diverge

theorem outcome_of_sim {α β : Type} {P : Heap → Prop} {m : MIO α} {w : CIO β} {Q : β → α → Heap → Prop} (h : Sim P m w Q)
    (X : List Block) (c : MCall) (f : α → Ptr) (g : β → Answer) (hq : ∀ y x h, Q y x h → Gives X h c (f x) (g y))
    (e : Faults) (s : Machine) (hp : P s.heap) :
    Outcome X c ((do return g (← w) : CIO Answer) e s.sys) ((do return f (← m) : MIO Ptr) e enough s) := by
  have := h e s.sys s.heap s.requests s.short hp
  rw [mio_bind, cio_bind]
  rcases hv : w e s.sys with ⟨w', y | k | _ | _⟩
  · rw [hv] at this
    obtain ⟨x, h', n', b', e1, q⟩ := this
    have e1 : m e enough s = _ := e1
    rw [e1]
    exact ⟨rfl, _, rfl, hq _ _ _ q⟩
  all_goals
    rw [hv] at this
    obtain ⟨h', n', b', e1⟩ := this
    have e1 : m e enough s = _ := e1
    rw [e1]
    exact ⟨rfl, rfl⟩

theorem mio_bind_pure {α : Type} (m : MIO α) : (do return id (← m) : MIO α) = m := by
  funext e a s
  rw [mio_bind]
  rcases m e a s with ⟨s', _ | _ | _ | _⟩ <;> rfl

/-- **C86**: if there is enough memory, then a call does on the heap what it does on values, whichever operations on files
fail: the same with the files and the streams, and it ends in the same way. If it returns, the heap holds its result, what
it was given, and the blocks `X` that have nothing to do with it, and nothing else but lost blocks of unknown frames. -/
theorem call_on_heap [Platform] (c : MCall) (v : FileCall) (X : List Block) (e : Faults) (s s' : Machine) (r : Res Ptr)
    (hg : Given X s.heap c v) (h : c.run e enough s = (s', r)) :
    ∃ o, v.run e s.sys = (s'.sys, o) ∧
      match o with
      | .ok y => ∃ p, r = .ok p ∧ Gives X s'.heap c p y
      | .ub k => r = .ub k
      | .exit => r = .exit
      | .diverge => r = .diverge := by
  have main : Outcome X c (v.run e s.sys) (c.run e enough s) := by
    cases c with
    | readHeader n =>
      cases v <;> try exact hg.elim
      obtain ⟨rfl, hr⟩ := hg
      rw [show MCall.run (.readHeader n) = _ from (mio_bind_pure _).symm]
      exact outcome_of_sim (header_sim X n) X (.readHeader n) id .header (fun y x h q => by
        cases y with
        | none => obtain ⟨rfl, q⟩ := q; exact q
        | some y => obtain ⟨a, rfl, q⟩ := q; exact q) e s hr
    | read n =>
      cases v <;> try exact hg.elim
      obtain ⟨rfl, hr⟩ := hg
      rw [show MCall.run (.read n) = _ from (mio_bind_pure _).symm]
      exact outcome_of_sim (read_sim X n) X (.read n) id .tag (fun y x h q => by
        cases y with
        | none => obtain ⟨rfl, q⟩ := q; exact q
        | some y => obtain ⟨a, rfl, q⟩ := q; exact q) e s hr
    | write n t =>
      cases v <;> try exact hg.elim
      obtain ⟨rfl, T, rfl, rfl, hr⟩ := hg
      exact outcome_of_sim (write_sim X n T) X (.write n T.addr) (fun _ => none) .written (fun y x h q => by
        obtain ⟨h1, K, h2, h3, T', h4, h5, h6, h7⟩ := q
        exact ⟨K, h1 ▸ h2, h3, T', h4, h5, h7⟩) e s hr
    | delete n =>
      cases v <;> try exact hg.elim
      obtain ⟨rfl, hr⟩ := hg
      exact outcome_of_sim (delete_sim X n) X (.delete n) (fun _ => none) (fun _ => .done) (fun y x h q => q) e s hr
    | load n =>
      cases v <;> try exact hg.elim
      obtain ⟨rfl, hr⟩ := hg
      exact outcome_of_sim (load_sim X n) X (.load n) some .loaded (fun y x h q => by
        obtain ⟨K, h1, h2⟩ := q
        exact ⟨K, by rw [h1.length, streams_count]; rfl, of_streams h1, h2⟩) e s hr
    | set n t =>
      cases v <;> try exact hg.elim
      obtain ⟨rfl, C, rfl, rfl, hl, hr⟩ := hg
      exact outcome_of_sim (set_sim X n C hl) X (.set n C.addr) (fun _ => none) .loaded (fun y x h q => by
        obtain ⟨h1, K, h2, h4⟩ := q
        exact ⟨K, h1 ▸ h2, h4⟩) e s hr
    | remove n =>
      cases v <;> try exact hg.elim
      obtain ⟨rfl, hr⟩ := hg
      exact outcome_of_sim (delete_sim X n) X (.remove n) (fun _ => none) (fun _ => .done) (fun y x h q => q) e s hr
    | cover n t =>
      cases v <;> try exact hg.elim
      obtain ⟨rfl, C, rfl, rfl, hl, hr⟩ := hg
      exact outcome_of_sim (cover_sim X n C hl) X (.cover n C.addr) (fun _ => none) .loaded (fun y x h q => q) e s hr
  rw [h] at main
  rcases hv : v.run e s.sys with ⟨w', o⟩
  rw [hv] at main
  obtain ⟨h1, h2⟩ := main
  have h1 : s'.sys = w' := h1
  exact ⟨o, by rw [← h1], h2⟩

/-- **C86**, whichever operations on files and whichever requests for memory fail: a call never uses or frees a block that
was freed. If it returns, then its streams are closed, and either it got all its memory and left on the heap what it leaves
on values, or it is `ID3v2_read_tag`, returned NULL and left nothing. -/
theorem call_is_clean [Platform] (c : MCall) (v : FileCall) (X : List Block) (e : Faults) (a : Lack) (s s' : Machine)
    (r : Res Ptr) (hg : Given X s.heap c v) (hw : ∀ h, s.sys.next ≤ h → s.sys.streams h = none) (hs : s.short = false)
    (h : c.run e a s = (s', r)) :
    r ≠ .ub .useAfterFree ∧ r ≠ .ub .badFree ∧
    ∀ p, r = .ok p → s'.sys.streams = s.sys.streams ∧
      ((∃ y, v.run e s.sys = (s'.sys, .ok y) ∧ Gives X s'.heap c p y) ∨
       (s'.short = true ∧ (∃ n, c = .read n) ∧ p = none ∧ Rep s'.heap X)) := by
  cases hs' : s'.short with
  | true =>
    obtain ⟨-, h1 | ⟨h1, h2, h3, h4⟩⟩ := out_of_memory_keeps_files c v X e a s s' r hg hw hs h hs'
    · rw [h1]
      exact ⟨fun h => (nomatch h), fun h => (nomatch h), fun p h => (nomatch h)⟩
    · rw [h2]
      refine ⟨fun h => (nomatch h), fun h => (nomatch h), fun p h => ?_⟩
      cases h
      exact ⟨h3, .inr ⟨rfl, h1, rfl, h4⟩⟩
  | false =>
    obtain ⟨o, h1, h2⟩ := call_on_heap c v X e s s' r hg (enough_memory c v X e a s s' r hg hw hs h hs')
    obtain ⟨-, h3, h4, h5⟩ := call_keeps_to_its_file v e s.sys s'.sys o hw h1
    cases o with
    | ok y =>
      obtain ⟨p, rfl, h6⟩ := h2
      refine ⟨fun h => (nomatch h), fun h => (nomatch h), fun q h => ?_⟩
      cases h
      exact ⟨h3 y rfl, .inl ⟨y, h1, h6⟩⟩
    | ub k =>
      obtain rfl : r = .ub k := h2
      exact ⟨fun h => h4 (by cases h; rfl), fun h => h5 (by cases h; rfl), fun p h => (nomatch h)⟩
    | exit =>
      obtain rfl : r = .exit := h2
      exact ⟨fun h => (nomatch h), fun h => (nomatch h), fun p h => (nomatch h)⟩
    | diverge =>
      obtain rfl : r = .diverge := h2
      exact ⟨fun h => (nomatch h), fun h => (nomatch h), fun p h => (nomatch h)⟩

/-! ### Examples -/

/-- The file system `twoFiles`, and nothing on the heap. -/
def someMachine : Machine := ⟨twoFiles, ⟨fun _ => none, 1, (· + 1)⟩, 0, false⟩

theorem someMachine_rep : Rep someMachine.heap [] :=
  ⟨fun _ _ => ⟨fun h => (nomatch h), fun h => (nomatch h)⟩, List.nodup_nil, fun _ h => (nomatch h)⟩

theorem someMachine_fresh : ∀ h, someMachine.sys.next ≤ h → someMachine.sys.streams h = none := by
  intro h hh
  have : ¬ h = 0 := by have : 1 ≤ h := hh; omega
  simp [someMachine, twoFiles, this]

/-- What a run can be checked for: the result, whether memory ran out, and the number of bytes in the file `a`. -/
def seen (m : Machine × Res Ptr) : Option (Option Ptr) × Bool × Option Nat :=
  (match m.2 with
    | .ok p => some (some p)
    | .ub .nullDeref => some none
    | _ => none,
   m.1.short, (m.1.sys.files [0x61]).map List.length)

/-- `ID3v2_read_tag` when there is memory for the header (which takes three blocks), but not for the bytes of the tag: it
returns NULL. The hypotheses of `out_of_memory_keeps_files` are met. -/
example : seen (@MCall.run strict (.read [0x61]) (fun _ => false) (fun k => k == 3) someMachine) =
      (some (some none), true, some 21) ∧
    Given [] someMachine.heap (.read [0x61]) (.read [0x61]) ∧ someMachine.short = false :=
  ⟨by decide +kernel, ⟨rfl, someMachine_rep⟩, rfl⟩

/-- The machine after the tag of `a` was read. -/
def afterRead : Machine := (@MCall.run strict (.read [0x61]) (fun _ => false) enough someMachine).1

theorem afterRead_seen : seen (@MCall.run strict (.read [0x61]) (fun _ => false) enough someMachine) =
    (some (some (some 8)), false, some 21) := by decide +kernel

/-- The tag is on the heap, and nothing else. -/
theorem afterRead_holds : ∃ v, HoldsTag [] v 8 afterRead.heap := by
  have hs := afterRead_seen
  rcases h : @MCall.run strict (.read [0x61]) (fun _ => false) enough someMachine with ⟨s', r⟩
  rw [h] at hs
  obtain ⟨-, -, h1⟩ := @call_is_clean strict (.read [0x61]) (.read [0x61]) [] _ _ _ _ _ ⟨rfl, someMachine_rep⟩
    someMachine_fresh rfl h
  have hs' : s'.short = false := congrArg (·.2.1) hs
  have hr : r = .ok (some 8) := by
    have : (match r with
      | .ok p => some (some p)
      | .ub .nullDeref => some none
      | _ => none) = some (some (some 8)) := congrArg (·.1) hs
    split at this <;> cases this
    rfl
  obtain ⟨-, ⟨y, -, g⟩ | ⟨g, -⟩⟩ := h1 _ hr
  · have he : afterRead = s' := congrArg Prod.fst h
    rw [he]
    cases y with
    | tag t =>
      cases t with
      | some v => exact ⟨v, g⟩
      | none => exact g.elim
    | header t => exact g.elim
    | written t => exact g.elim
    | loaded t => exact g.elim
    | done => exact g.elim
  · rw [hs'] at g
    cases g

/-- `ID3v2_write_tag` when there is no memory for the bytes of the tag (after the header in the file, three blocks): the
program ends, and the file is as before. With enough memory it returns. The hypotheses of `call_is_clean` are met. -/
theorem out_of_memory_crashes : seen (@MCall.run strict (.write [0x61] 8) (fun _ => false) (fun k => k == 12) afterRead) =
      (some none, true, some 21) ∧
    seen (@MCall.run strict (.write [0x61] 8) (fun _ => false) enough afterRead) = (some (some none), false, some 21) ∧
    (∃ v, Given [] afterRead.heap (.write [0x61] 8) (.write [0x61] v)) ∧ afterRead.short = false := by
  refine ⟨by decide +kernel, by decide +kernel, ?_, by decide +kernel⟩
  obtain ⟨v, h⟩ := afterRead_holds
  exact ⟨v, rfl, h⟩

end Id3.Props
