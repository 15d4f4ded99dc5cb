import Verif.Props.Locked

/-!
# Threads that share tags behind a lock (C81): what the calls do to the tags

The common things are always what a program without threads can have, so every theorem about such programs holds for them.
The calls change and read the values of the common tags as the value-level model says.
-/

namespace Id3.Props

open Id3 Id3.Spec Id3.H

variable [p : Platform]

/-! ## Programs without threads -/

omit p in
/-- `malloc` can return the same address again. -/
theorem place_again (h : Heap) (g : Nat → Nat) : (h.with (picksCons h.place g)).place = h.place := by
  show (match h.cells h.place with | none => h.place | some _ => h.next) = h.place
  unfold Heap.place
  cases hc : h.cells (h.picks 0) with
  | none => simp only [hc]
  | some c => cases h.cells h.next <;> rfl

omit p in
/-- What `malloc` returns after a program does not depend on what it returned before. -/
theorem interp_picks {α : Type} {q : Prog α} {h h' : Heap} {a : α} (e : q.interp h = .ok (a, h')) (g : Nat → Nat) :
    ∃ g0, q.interp (h.with g0) = .ok (a, h'.with g) := by
  induction q generalizing h with
  | ret x =>
    have e : Res.ok (x, h) = Res.ok (a, h') := e
    simp only [Res.ok.injEq, Prod.mk.injEq] at e
    obtain ⟨rfl, rfl⟩ := e
    exact ⟨g, rfl⟩
  | ub k => exact (nomatch (show Res.ub k = Res.ok (a, h') from e))
  | exit => exact (nomatch (show Res.exit = Res.ok (a, h') from e))
  | hang => exact (nomatch (show Res.diverge = Res.ok (a, h') from e))
  | malloc c k ih =>
    have e' : (k h.place).interp ((h.add h.place c).with fun i => h.picks (i + 1)) = .ok (a, h') := e
    obtain ⟨g0, e0⟩ := ih _ e'
    refine ⟨picksCons h.place g0, ?_⟩
    show HeapM.bind (Id3.malloc c) (fun a => (k a).interp) _ = _
    unfold HeapM.bind Id3.malloc
    simp only [place_again]
    exact e0
  | free b k ih =>
    cases hc : h.cells b with
    | none => rw [interp_free_none hc] at e; cases e
    | some c =>
      rw [interp_free hc] at e
      obtain ⟨g0, e0⟩ := ih e
      exact ⟨g0, by rw [interp_free (h := h.with g0) (c := c) hc]; exact e0⟩
  | load b k ih =>
    cases hc : h.cells b with
    | none => rw [interp_load_none hc] at e; cases e
    | some c =>
      rw [interp_load hc] at e
      obtain ⟨g0, e0⟩ := ih _ e
      exact ⟨g0, by rw [interp_load (h := h.with g0) (c := c) hc]; exact e0⟩
  | store b c' k ih =>
    cases hc : h.cells b with
    | none => rw [interp_store_none hc] at e; cases e
    | some c =>
      rw [interp_store hc] at e
      obtain ⟨g0, e0⟩ := ih e
      exact ⟨g0, by rw [interp_store (h := h.with g0) (c := c) hc]; exact e0⟩
  | fuel k ih =>
    have e' : (k (h.next + 1)).interp h = .ok (a, h') := e
    exact ih _ e'

theorem reachable_picks {w : World} (r : Spec.Reachable w) : ∀ g, Spec.Reachable (w.loc.world (w.heap.with g)) := by
  induction r with
  | start disk picks => exact fun g => .start disk g
  | @step w w' c r ha e ih =>
    intro g
    have e' := call_same w.loc c w.heap
    rw [show w.loc.world w.heap = w from rfl, e] at e'
    obtain ⟨g0, e0⟩ := interp_picks e' g
    rw [call_same] at e0
    obtain ⟨w1, e1, e2⟩ := Res.bind_eq_ok.mp e0
    simp only [Res.ok.injEq, Prod.mk.injEq] at e2
    obtain ⟨e3, e4⟩ := e2
    refine .step (ih g0) (@allowed_picks (.current w.loc) (.current c) w.heap _ rfl ha) (e1.trans ?_)
    rw [← e3, ← e4]
    rfl

theorem creachable_picks {w : CWorld} (r : CReachable w) : ∀ g, CReachable (w.loc.world (w.heap.with g)) := by
  induction r with
  | start disk picks => exact fun g => .start disk g
  | @step w w' c r ha e ih =>
    intro g
    have e' := ccall_same w.loc c w.heap
    rw [show w.loc.world w.heap = w from rfl, e] at e'
    obtain ⟨g0, e0⟩ := interp_picks e' g
    rw [ccall_same] at e0
    obtain ⟨w1, e1, e2⟩ := Res.bind_eq_ok.mp e0
    simp only [Res.ok.injEq, Prod.mk.injEq] at e2
    obtain ⟨e3, e4⟩ := e2
    refine .step (ih g0) (@allowed_picks (.compat w.loc) (.compat c) w.heap _ rfl ha) (e1.trans ?_)
    rw [← e3, ← e4]
    rfl

theorem client_picks {m : Client} {h : Heap} (r : m.Reachable h) (g : Nat → Nat) : m.Reachable (h.with g) := by
  cases m with
  | current l => exact reachable_picks r g
  | compat l => exact creachable_picks r g

theorem makes_reachable {m m' : Client} {h h' : Heap} {c : AnyCall} (r : m.Reachable h) (ha : c.Allowed h m)
    (e : c.Makes m h m' h') : m'.Reachable h' := by
  cases m with
  | current l =>
    cases c with
    | compat c => exact ha.elim
    | current c =>
      cases m' with
      | current l' => exact .step r ha e
      | compat l' => exact e.elim
  | compat l =>
    cases c with
    | current c => exact ha.elim
    | compat c =>
      cases m' with
      | current l' => exact e.elim
      | compat l' => exact .step r ha e

variable {main : Client} {heap : Heap}

theorem turn_reachable {cs : List AnyCall} {m : Client} {h : Heap} (r : main.Reachable heap) (it : InTurn main heap cs m h) :
    ∀ g, m.Reachable (h.with g) := by
  induction it with
  | @nil h e1 e2 =>
    intro g
    have : h.with g = heap.with g := by
      unfold Heap.with
      rw [e1, e2]
    rw [this]
    exact client_picks r g
  | @call cs c m m' h h' g0 g1 it ha e ih =>
    intro g
    exact client_picks (makes_reachable (ih g0) (allowed_picks rfl ha) e) g

/-- The common things are what a program without threads can have. -/
theorem locked_reachable {s : Locked} (h : s.Reachable Locked.Lock main heap) (hc : s.Calm) (g : Nat → Nat) :
    s.common.Reachable (s.part none g) := turn_reachable h.1 (locked_serial h hc) g

/-- The same for a thread that holds the lock alone, between its calls. -/
theorem locked_reachable_alone {s : Locked} {i : Nat} {m l : Client} {q : Ptr} (h : s.Reachable Locked.Lock main heap)
    (hh : (s.threads i).hold = .alone l) (hi : s.Idle i m q) (g : Nat → Nat) : m.Reachable (s.part none g) :=
  turn_reachable h.1 (locked_serial_alone h hh hi) g

/-! ## Values -/

/-- A call with the common things changes the values of the common tags and buffers and the file of the program as the
value-level model says, whatever the other threads do in the meantime. -/
theorem locked_values {s s' : Locked} {i : Nat} {c : Call} {m' : Client} {q' : Ptr}
    (h : s.Reachable Locked.Lock main heap) (hd : s.Does Locked.Lock i (.change (.current c)) s') (hl : s'.Idle i m' q') :
    ∃ m m1 q x f a, s.Idle i (.current m) q ∧ m' = .current m1 ∧ (m.world (s.part none)).Holds x ∧
      c.abs (s.part none) x = .ok f ∧ (m1.world (s'.part none)).Holds (f a) := by
  obtain ⟨m, q, g, g', hi, ha, hr⟩ := locked_change h hd hl
  obtain ⟨m0, q0, hi0, ⟨l0, hh⟩, -, -⟩ := lchanging (ltogether h) hd
  cases (show (s.threads i).prog = _ from hi).symm.trans hi0
  have o := ((ltogether h).idle hi).1
  have ht : Locked.tag s i = none := by unfold Locked.tag; rw [hh]; rfl
  rw [ht] at o
  cases m with
  | compat m => exact ha.elim
  | current m =>
    cases m' with
    | compat m1 => exact hr.elim
    | current m1 =>
      have hr : c.run (m.world ((s.part none).with g)) = .ok (m1.world ((s'.part none).with g')) := hr
      obtain ⟨Ts, Ls, Hs, Us, K, iv⟩ := o.with g
      obtain ⟨Ts0, Ls0, Hs0, Us0, K0, iv0⟩ := o
      have hx : (m.world ((s.part none).with g)).Holds (absOf (m.world (s.part none)) Ts0 Us0) := iv0.holds
      have st := step_ok iv c (@allowed_picks (.current m) (.current c) _ ((s.part none).with g) rfl ha)
      rw [← iv.eq hx, hr] at st
      unfold StepOk at st
      split at st
      next f he =>
        obtain ⟨w', Ts', Ls', Hs', Us', N, a, e, i', ea, -⟩ := st
        cases e
        refine ⟨m, m1, q, _, f, a, hi, rfl, iv0.holds, (abs_cells rfl _ c).trans he, ?_⟩
        rw [← ea]
        exact i'.holds
      next => cases st
      next => cases st
      next => cases st

/-- The same for the compatibility API. -/
theorem locked_cvalues {s s' : Locked} {i : Nat} {c : CCall} {m' : Client} {q' : Ptr}
    (h : s.Reachable Locked.Lock main heap) (hd : s.Does Locked.Lock i (.change (.compat c)) s') (hl : s'.Idle i m' q') :
    ∃ m m1 q x f a, s.Idle i (.compat m) q ∧ m' = .compat m1 ∧ (m.world (s.part none)).Holds x ∧
      c.abs (s.part none) x = .ok f ∧ (m1.world (s'.part none)).Holds (f a) := by
  obtain ⟨m, q, g, g', hi, ha, hr⟩ := locked_change h hd hl
  obtain ⟨m0, q0, hi0, ⟨l0, hh⟩, -, -⟩ := lchanging (ltogether h) hd
  cases (show (s.threads i).prog = _ from hi).symm.trans hi0
  have o := ((ltogether h).idle hi).1
  have ht : Locked.tag s i = none := by unfold Locked.tag; rw [hh]; rfl
  rw [ht] at o
  cases m with
  | current m => exact ha.elim
  | compat m =>
    cases m' with
    | current m1 => exact hr.elim
    | compat m1 =>
      have hr : c.run (m.world ((s.part none).with g)) = .ok (m1.world ((s'.part none).with g')) := hr
      obtain ⟨Cs, Os, K, iv⟩ := o.with g
      obtain ⟨Cs0, Os0, K0, iv0⟩ := o
      have hx : (m.world ((s.part none).with g)).Holds (cabs (m.world (s.part none)) Cs0 Os0) := iv0.holds
      have st := cstep_ok iv c (@allowed_picks (.compat m) (.compat c) _ ((s.part none).with g) rfl ha)
      rw [← iv.eq hx, hr] at st
      unfold CStepOk at st
      split at st
      next f he =>
        obtain ⟨w', Cs', Os', N, a, e, i', ea, -⟩ := st
        cases e
        refine ⟨m, m1, q, _, f, a, hi, rfl, iv0.holds,
          (cabs_cells (h := s.part none) (h' := (s.part none).with g) rfl _ c).trans he, ?_⟩
        rw [← ea]
        exact i'.holds
      next => cases st
      next => cases st
      next => cases st

omit p in
/-- What a thread sees of the common blocks. -/
theorem locked_has {s : Locked} {i : Nat} {L X : List Block} (r : Rep (s.part none) (L ++ X)) {M : List Block}
    (hM : ∀ b ∈ M, b ∈ L) : Has (s.view i).cells M := fun b hb => by
  have h1 := (r.cells _ _).mpr (List.mem_append_left _ (hM b hb))
  have h1 : (if s.owner b.1 = none then s.cells b.1 else none) = some b.2 := h1
  show (if s.owner b.1 = some i ∨ s.owner b.1 = none then s.cells b.1 else none) = _
  split at h1
  next h => rw [if_pos (.inr h), h1]
  next => cases h1

/-- `ID3v2_Tag_get_frame` on a common tag: the thread gets the frame that the value-level model says, and can follow the
pointer as long as it shares the lock. -/
theorem locked_get {m : Local} {x : Abs} {s s' : Locked} {i t : Nat} {src : Src} {l' : Client} {q' : Ptr}
    (h : s.Reachable Locked.Lock main heap) (hm : s.common = .current m) (hx : (m.world (s.part none)).Holds x)
    (hd : s.Does Locked.Lock i (.read (.getFrame t src)) s') (hl : s'.Idle i l' q') :
    ∃ v, x.tags.lookup t = some v ∧
      match (generalizing := false) q' with
      | none => Id3.ID3v2_Tag_get_frame v (srcValue (s.view i) src) = .ok none
      | some a => ∃ f, Id3.ID3v2_Tag_get_frame v (srcValue (s.view i) src) = .ok (some f) ∧
          Spec.fetchFrame (some a) (s'.view i) = .ok (f, s'.view i) := by
  have t0 := ltogether h
  obtain ⟨⟨hc, -⟩, l, q, g, g', hi, ha, e⟩ := locked_read h hd hl
  obtain ⟨l0, q0, hi0, hh, -, hh', -, -⟩ := lreading t0 hd
  cases (show (s.threads i).prog = _ from hi).symm.trans hi0
  have om := (t0.calm (shared_calm t0.lock hh)).1
  have ht1 : Locked.tag s i = some i := by unfold Locked.tag; rw [hh]; rfl
  have hseen : Locked.seen s i = (s.part none).cells := by unfold Locked.seen; rw [hh]
  have d := t0.apart (i := i)
  have o := (t0.idle hi).1
  rw [hseen] at d
  rw [ht1] at d o
  obtain ⟨L, rl⟩ := o.rep
  rw [hm] at ha om
  cases l with
  | compat l => exact ha.elim
  | current l =>
    obtain ⟨ht, hs⟩ := ha
    obtain ⟨Ts, Ls, Hs, Us, K, im⟩ := om
    have hxe := im.eq hx
    obtain ⟨A, D, B, rfl, rfl, hA, hB, rm⟩ := im.tag ht
    obtain ⟨a, e1, e2⟩ := interp_ret Same.eq e
    cases e2
    have rv := rep_view (m := s.part none) rm rl d (t0.above i hh) g
    rw [part_view] at rv
    have hsrc := src_at rv (s := src) (by cases src <;> exact hs)
    rw [List.append_assoc] at rv hsrc
    rw [show srcValue (s.view i g) src = srcValue (s.view i) src from srcValue_cells rfl src] at hsrc
    obtain ⟨w, hw, e3, q1⟩ := refines_ok (tag_get_frame_at rv src _ hsrc) e1
    cases w with
    | none =>
      have q1 : q' = none := q1
      subst q1
      exact ⟨D.value, by rw [hxe]; exact abs_lookup hA, hw⟩
    | some f =>
      obtain ⟨j, n, F, p1, p2, p3, rfl⟩ := q1
      refine ⟨D.value, by rw [hxe]; exact abs_lookup hA, f, hw, ?_⟩
      rw [← p3]
      have rm' : Rep (s'.part none) (D.blocks ++ ((A ++ B).flatMap HTag.blocks ++ H.rest Ls Hs Us K)) := by
        rw [hc]
        exact rm
      exact fetch_frame (locked_has rm' fun b hb => mem_frames D b (mem_frameBlocks p2 b hb))

/-- The getters of the compatibility API on a common tag: the thread gets the entry that the value-level model says, and can
follow the pointer as long as it shares the lock. -/
theorem locked_field {m : CLocal} {x : CAbs} {s s' : Locked} {i t : Nat} {f : Slot} {l' : Client} {q' : Ptr}
    (h : s.Reachable Locked.Lock main heap) (hm : s.common = .compat m) (hx : (m.world (s.part none)).Holds x)
    (hd : s.Does Locked.Lock i (.read (f.read t)) s') (hl : s'.Idle i l' q') :
    ∃ v, x.tags.lookup t = some v ∧
      match (generalizing := false) q' with
      | none => f.get v = .ok none
      | some a => ∃ c, f.get v = .ok (some c) ∧ fetchEntry a (s'.view i) = .ok (c, s'.view i) := by
  have t0 := ltogether h
  obtain ⟨⟨hc, -⟩, l, q, g, g', hi, ha, e⟩ := locked_read h hd hl
  obtain ⟨l0, q0, hi0, hh, -, hh', -, -⟩ := lreading t0 hd
  cases (show (s.threads i).prog = _ from hi).symm.trans hi0
  have om := (t0.calm (shared_calm t0.lock hh)).1
  have ht1 : Locked.tag s i = some i := by unfold Locked.tag; rw [hh]; rfl
  have hseen : Locked.seen s i = (s.part none).cells := by unfold Locked.seen; rw [hh]
  have d := t0.apart (i := i)
  have o := (t0.idle hi).1
  rw [hseen] at d
  rw [ht1] at d o
  obtain ⟨L, rl⟩ := o.rep
  rw [hm] at ha om
  cases l with
  | current l => cases f <;> exact ha.elim
  | compat l =>
    have ht : t ∈ m.tags := by cases f <;> exact ha
    have hp : ∃ k : Prog Ptr, k.interp = H.tag_get (lit f.id) t ∧
        Read.prog (.compat l) (f.read t) = k >>= fun a => .ret (.compat l, a) := by
      cases f with
      | text f => exact ⟨f.pget t, by cases f <;> exact Same.eq, rfl⟩
      | comment => exact ⟨T.tag_get_comment t, Same.eq, rfl⟩
      | cover => exact ⟨T.tag_get_album_cover t, Same.eq, rfl⟩
    obtain ⟨k, hk, hp⟩ := hp
    rw [hp] at e
    obtain ⟨a, e1, e2⟩ := interp_ret hk e
    cases e2
    simp only [slot_get]
    obtain ⟨Cs, Os, K, im⟩ := om
    have hxe := im.eq hx
    obtain ⟨A, C, B, rfl, rfl, hlk, hA, hB, rm⟩ := im.tag ht
    have rv := rep_view (m := s.part none) rm rl d (t0.above i hh) g
    rw [part_view, List.append_assoc] at rv
    obtain ⟨w, hw, e3, q1⟩ := refines_ok (tag_get_spec rv _) e1
    cases w with
    | none =>
      have q1 : q' = none := q1
      subst q1
      exact ⟨C.value, by rw [hxe]; exact cabs_lookup hA, hw⟩
    | some f =>
      obtain ⟨j, n, c, p1, p2, p3, rfl⟩ := q1
      refine ⟨C.value, by rw [hxe]; exact cabs_lookup hA, f, hw, ?_⟩
      rw [← p3]
      rw [← hc] at rm
      obtain ⟨k1, k2⟩ := H.entry_blocks hlk (List.mem_of_getElem? p1)
      exact fetch_entry (locked_has rm k1) (locked_has rm k2)

end Id3.Props
