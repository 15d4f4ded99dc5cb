import Verif.Props.LockedValues

/-!
# Threads that share tags behind a lock (C81): calls are possible, and the lock is needed
-/

namespace Id3.Props

open Id3 Id3.Spec Id3.H

variable [p : Platform] {main : Client} {heap : Heap} {rule : Locked → Prop}

/-! ## Executions -/

theorem LExec.cons {s s' s'' : Locked} {i : Nat} {e : LEvent} {es : List (Nat × LEvent)} (st : LStep i s e s') (k : rule s')
    (ex : LExec rule s' es s'') : LExec rule s ((i, e) :: es) s'' := by
  induction ex with
  | refl => exact .step (es := []) .refl st k
  | step _ st' k' ih => exact .step (es := _ :: _) ih st' k'

theorem LExec.trans {s s' s'' : Locked} {es es' : List (Nat × LEvent)} (e1 : LExec rule s es s')
    (e2 : LExec rule s' es' s'') : LExec rule s (es ++ es') s'' := by
  induction e2 with
  | refl => rw [List.append_nil]; exact e1
  | step _ st' k' ih => rw [← List.append_assoc]; exact .step ih st' k'

theorem lexec_reachable {s s' : Locked} {es : List (Nat × LEvent)} (h : s.Reachable rule main heap)
    (ex : LExec rule s es s') : s'.Reachable rule main heap := by
  obtain ⟨hm, cl, es0, hf, ex0⟩ := h
  exact ⟨hm, cl, _, hf, LExec.trans ex0 ex⟩

omit p in
theorem levents_replicate (i n : Nat) (e : LEvent) : leventsOf i (List.replicate n (i, e)) = List.replicate n e := by
  induction n with
  | zero => rfl
  | succ n ih =>
    rw [List.replicate_succ, List.replicate_succ, ← ih]
    unfold leventsOf
    rw [List.filter_cons_of_pos (by simp)]
    rfl

omit p in
theorem levents_other {i j : Nat} (h : i ≠ j) (n : Nat) (e : LEvent) : leventsOf i (List.replicate n (j, e)) = [] := by
  unfold leventsOf
  rw [List.filter_eq_nil_iff.mpr fun p hp => by
    rw [List.eq_of_mem_replicate hp]
    simpa using fun e => h e.symm]
  rfl

/-! ## Calls are possible -/

/-- A thread that begins a call finishes it while the others do nothing. -/
theorem locked_does {s s1 : Locked} {i : Nat} {e : LEvent} (h : s.Reachable Locked.Lock main heap) (st : LStep i s e s1)
    (k : s1.Lock) :
    ∃ n s', LExec Locked.Lock s ((i, e) :: List.replicate n (i, .access)) s' ∧ s.Does Locked.Lock i e s' ∧
      s'.Reachable Locked.Lock main heap ∧ (∀ j, j ≠ i → s'.threads j = s.threads j) ∧
      ((∃ l q, s'.Idle i l q) ∨ (∃ k, (s'.threads i).prog = .ub k) ∨ (s'.threads i).prog = .exit ∨
        (s'.threads i).prog = .hang) := by
  have h1 : s1.Reachable Locked.Lock main heap := lexec_reachable h (.step .refl st k)
  obtain ⟨n, s', ex, hd⟩ := locked_goes_on (i := i) h1
  have ex' := LExec.cons st k ex
  refine ⟨n, s', ex', ⟨_, n, ex', ?_⟩, lexec_reachable h ex', fun j hj => ?_, hd⟩
  · unfold leventsOf
    rw [List.filter_cons_of_pos (by simp)]
    exact congrArg (_ :: ·) (levents_replicate ..)
  · refine (locked_still h ex' ?_).1
    unfold leventsOf
    rw [List.filter_cons_of_neg (by simpa using fun e => hj e.symm)]
    exact levents_other hj ..

/-- A thread that holds the lock alone can make every call with the common things: the call returns, if it does so in a
program without threads. -/
theorem locked_change_possible {s : Locked} {i : Nat} {m l : Client} {q : Ptr} {c : AnyCall}
    (h : s.Reachable Locked.Lock main heap) (ht : s.threads i = ⟨.ret (m, q), .alone l⟩) (ha : c.Allowed (s.part none) m)
    (hr : ∀ g, c.outcome m (s.part none g) = .ok ()) :
    ∃ n s' m' q', LExec Locked.Lock s ((i, .change c) :: List.replicate n (i, .access)) s' ∧
      s.Does Locked.Lock i (.change c) s' ∧ s'.threads i = ⟨.ret (m', q'), .alone l⟩ ∧
      s'.Reachable Locked.Lock main heap ∧ ∀ j, j ≠ i → s'.threads j = s.threads j := by
  have t := ltogether h
  have st := LStep.change ht ha
  have k : Locked.Lock { s.go i (c.prog m >>= fun m => .ret (m, none)) with log := s.log ++ [c] } := by
    intro a b l' hl hne
    have hh : ∀ j, ((s.go i (c.prog m >>= fun m => .ret (m, none))).threads j).hold = (s.threads j).hold := fun j => by
      by_cases e : j = i
      · rw [e, lgo_hold]
      · rw [lgo_other e]
    have := t.lock a b l' (by rw [← hh]; exact hl) hne
    exact (hh b).trans this
  obtain ⟨n, s', ex, hd, h', ho, hf⟩ := locked_does h st k
  obtain ⟨m0, q0, hi0, -, f1, f2, f3⟩ := locked_change_fail h hd
  have e0 : (s.threads i).prog = .ret (m, q) := by rw [ht]
  cases e0.symm.trans hi0
  obtain ⟨_, _, hi1, ⟨l1, h1⟩, -, ⟨l2, h2⟩, -⟩ := lchanging t hd
  have hl2 : (s'.threads i).hold = .alone l := by
    obtain ⟨es, n, ex, he⟩ := hd
    obtain ⟨s1, s2, t1, t2, e1, st, k⟩ := lduring t ex he
    rw [k.hold]
    cases st with
    | change hp _ =>
      show ((s1.go i _).threads i).hold = _
      rw [lgo_hold, e1.threads, ht]
  rcases hf with ⟨m', q', hf⟩ | ⟨k, hf⟩ | hf | hf
  · refine ⟨n, s', m', q', ex, hd, ?_, h', ho⟩
    have hf : (s'.threads i).prog = _ := hf
    rw [← hf, ← hl2]
  · obtain ⟨g, e⟩ := f1 k hf
    rw [hr g] at e
    cases e
  · obtain ⟨g, e⟩ := f2 hf
    rw [hr g] at e
    cases e
  · obtain ⟨g, e⟩ := f3 hf
    rw [hr g] at e
    cases e

/-- A thread that shares the lock can make every call that reads a common tag: the call returns, if it does so in a program
without other threads. -/
theorem locked_read_possible {s : Locked} {i : Nat} {l : Client} {q : Ptr} {r : Read}
    (h : s.Reachable Locked.Lock main heap) (ht : s.threads i = ⟨.ret (l, q), .shared⟩)
    (ha : r.Allowed s.common (s.part none) (s.view i) l) (hr : ∀ g, ∃ x, (r.prog l).interp (s.view i g) = .ok x) :
    ∃ s' l' q', s.Does Locked.Lock i (.read r) s' ∧ s'.Idle i l' q' ∧ s'.Reachable Locked.Lock main heap ∧
      ∀ j, j ≠ i → s'.threads j = s.threads j := by
  have t := ltogether h
  have st := LStep.read ht ha
  have k : (s.go i (r.prog l)).Lock := by
    intro a b l' hl hne
    rw [(plain_same st trivial).1] at hl ⊢
    exact t.lock a b l' hl hne
  obtain ⟨n, s', ex, hd, h', ho, hf⟩ := locked_does h st k
  obtain ⟨l0, q0, hi0, -, f1, f2, f3⟩ := locked_read_fail h hd
  have e0 : (s.threads i).prog = .ret (l, q) := by rw [ht]
  cases e0.symm.trans hi0
  rcases hf with ⟨l', q', hf⟩ | ⟨k, hf⟩ | hf | hf
  · exact ⟨s', l', q', hd, hf, h', ho⟩
  · obtain ⟨g, e⟩ := f1 k hf
    obtain ⟨x, e'⟩ := hr g
    rw [e] at e'
    cases e'
  · obtain ⟨g, e⟩ := f2 hf
    obtain ⟨x, e'⟩ := hr g
    rw [e] at e'
    cases e'
  · obtain ⟨g, e⟩ := f3 hf
    obtain ⟨x, e'⟩ := hr g
    rw [e] at e'
    cases e'

/-- The same in terms of the values: the call returns, and changes the values as the value-level model says. -/
theorem locked_values_possible {s : Locked} {i : Nat} {m : Local} {l : Client} {q : Ptr} {c : Call} {x : Abs} {f : Nat → Abs}
    (h : s.Reachable Locked.Lock main heap) (ht : s.threads i = ⟨.ret (.current m, q), .alone l⟩)
    (ha : (AnyCall.current c).Allowed (s.part none) (.current m)) (hx : (m.world (s.part none)).Holds x)
    (hf : c.abs (s.part none) x = .ok f) :
    ∃ s' m' q' a, s.Does Locked.Lock i (.change (.current c)) s' ∧ s'.threads i = ⟨.ret (.current m', q'), .alone l⟩ ∧
      s'.Reachable Locked.Lock main heap ∧ (∀ j, j ≠ i → s'.threads j = s.threads j) ∧
      (m'.world (s'.part none)).Holds (f a) := by
  obtain ⟨n, s', m', q', -, hd, hi, h', ho⟩ := locked_change_possible h ht ha fun g => by
    have r := locked_reachable_alone (i := i) h (by rw [ht]) (show (s.threads i).prog = _ by rw [ht]) g
    have hx : (m.world (s.part none g)).Holds x := hx
    obtain ⟨w', a, e, -⟩ := do_call (c := c) r hx (@allowed_picks (.current m) (.current c) _ (s.part none g) rfl ha)
      ((abs_cells rfl x c).trans hf)
    show (c.run (m.world (s.part none g)) >>= fun _ => Res.ok ()) = _
    rw [e]
    rfl
  obtain ⟨m0, m1, q0, x0, f0, a, hi0, e1, hx0, hf0, h1⟩ := locked_values h hd (show (s'.threads i).prog = _ by rw [hi])
  have e0 : (s.threads i).prog = .ret (.current m, q) := by rw [ht]
  cases e0.symm.trans hi0
  obtain ⟨Ts, Ls, Hs, Us, K, iv⟩ := own_main
    (locked_reachable_alone (i := i) h (by rw [ht]) e0 fun _ => 0)
  cases (iv.eq hx0).trans (iv.eq hx).symm
  cases hf.symm.trans hf0
  subst e1
  exact ⟨s', m1, q', a, hd, hi, h', ho, h1⟩

/-- `ID3v2_Tag_get_frame` is possible in a thread that shares the lock. -/
theorem locked_get_possible {s : Locked} {i t : Nat} {m l : Local} {x : Abs} {src : Src} {q : Ptr} {v : Tag}
    {o : Option Frame} (h : s.Reachable Locked.Lock main heap) (hm : s.common = .current m)
    (hx : (m.world (s.part none)).Holds x) (hl : s.threads i = ⟨.ret (.current l, q), .shared⟩)
    (hs : Src.Live (s.view i) src) (hv : x.tags.lookup t = some v)
    (hg : Id3.ID3v2_Tag_get_frame v (srcValue (s.view i) src) = .ok o) :
    ∃ s' l' q', s.Does Locked.Lock i (.read (.getFrame t src)) s' ∧ s'.Idle i l' q' ∧ s'.Reachable Locked.Lock main heap ∧
      ∀ j, j ≠ i → s'.threads j = s.threads j := by
  have t0 := ltogether h
  have hh : (s.threads i).hold = .shared := by rw [hl]
  have om := (t0.calm (shared_calm t0.lock hh)).1
  have ht1 : Locked.tag s i = some i := by unfold Locked.tag; rw [hh]; rfl
  have hseen : Locked.seen s i = (s.part none).cells := by unfold Locked.seen; rw [hh]
  have d := t0.apart (i := i)
  have ow := (t0.idle (show s.Idle i (.current l) q from by unfold Locked.Idle; rw [hl])).1
  rw [hseen] at d
  rw [ht1] at d ow
  obtain ⟨L, rl⟩ := ow.rep
  have ht : t ∈ m.tags := by
    have e := holds_tags hx
    show t ∈ (m.world (s.part none)).tags
    rw [e]
    exact List.mem_map.mpr ⟨_, lookup_mem hv, rfl⟩
  refine locked_read_possible h hl (by rw [hm]; exact ⟨ht, hs⟩) fun g => ?_
  rw [hm] at om
  obtain ⟨Ts, Ls, Hs, Us, K, im⟩ := om
  have hxe := im.eq hx
  obtain ⟨A, D, B, rfl, rfl, hA, hB, rm⟩ := im.tag ht
  have rv := rep_view (m := s.part none) rm rl d (t0.above i hh) g
  rw [part_view] at rv
  have hsrc := src_at rv (s := src) (by cases src <;> exact hs)
  rw [List.append_assoc] at rv hsrc
  rw [show srcValue (s.view i g) src = srcValue (s.view i) src from srcValue_cells rfl src] at hsrc
  have e : D.value = v := by
    rw [hxe] at hv
    exact Option.some.inj ((abs_lookup hA).symm.trans hv)
  subst e
  obtain ⟨a0, h0, e4, -⟩ := refines_of (tag_get_frame_at rv src _ hsrc) hg
  have e5 : (T.ID3v2_Tag_get_frame D.addr src).interp = H.ID3v2_Tag_get_frame D.addr src := Same.eq
  refine ⟨((.current l, a0), h0), ?_⟩
  show (T.ID3v2_Tag_get_frame D.addr src >>= fun a => Prog.ret (Client.current l, a)).interp (s.view i g) = _
  rw [Prog.interp_bind, HeapM.bind_apply, e5, e4, Res.bind_ok]
  rfl

/-- A program has an empty tag and starts threads. Thread 0 takes the lock alone, sets the title of the tag and gives the lock
back. Thread 1 takes the lock, looks for the title, and finds what thread 0 has set. -/
example : ∃ (m : Local) (heap : Heap) (s1 s2 s3 s4 : Locked) (t a : Nat) (l' : Client) (f : Frame),
    s1.Reachable Locked.Lock (.current m) heap ∧
    s1.Does Locked.Lock 0 (.change (.current (.setTextFrame t
      ⟨.literal tit2, .literal [some 0, some 0], .literal [some 0x68, some 0]⟩))) s2 ∧
    LExec Locked.Lock s2 [(0, .release), (1, .share)] s3 ∧
    s3.Does Locked.Lock 1 (.read (.getFrame t (.literal tit2))) s4 ∧ s4.Idle 1 l' (some a) ∧
    Spec.fetchFrame (some a) (s4.view 1) = .ok (f, s4.view 1) ∧ f.header.id = tit2.take 4 ∧
    ∃ x, f.data = .text x ∧ x.text.take 1 = [some 0x68] := by
  obtain ⟨v, f, hv, hget, hid, hx⟩ : ∃ v f, ID3v2_Tag_set_text_frame ID3v2_Tag_new_empty
      ⟨tit2, [some 0, some 0], [some 0x68, some 0]⟩ = .ok v ∧ ID3v2_Tag_get_frame v tit2 = .ok (some f) ∧
      f.header.id = tit2.take 4 ∧ ∃ x, f.data = .text x ∧ x.text.take 1 = [some 0x68] := by
    obtain ⟨b, n⟩ := p
    cases b <;> exact ⟨_, _, rfl, rfl, rfl, _, rfl, rfl⟩
  obtain ⟨w, t, hr, hw, reach⟩ := do_call (c := .newTag) (.start none) (s := ⟨[], [], none⟩)
    ⟨[], rfl, rfl, rfl, rfl, List.nodup_nil, nofun⟩ trivial rfl
  have ht : t ∈ w.tags := by rw [holds_tags hw]; exact List.mem_cons_self
  have e : ([(t, ID3v2_Tag_new_empty)] : List (Nat × Tag)).lookup t = some ID3v2_Tag_new_empty := by simp
  let m : Local := ⟨w.disk, w.tags, w.lists, w.headers, w.buffers⟩
  have hm : Client.Reachable w.heap (.current m) := reach
  let cl : Nat → Client := fun _ => .current ⟨none, [], [], [], []⟩
  let s0 := Locked.start (.current m) w.heap cl
  have h0 : s0.Reachable Locked.Lock (.current m) w.heap := ⟨hm, cl, [], fun i => ⟨rfl, rfl, rfl, rfl⟩, .refl⟩
  have st : LStep 0 s0 .seize (s0.turn 0 s0.common (.alone (cl 0))) := .seize (l := cl 0) (p := none) rfl
  have k : (s0.turn 0 s0.common (.alone (cl 0))).Lock := fun i j l hl hne => by
    by_cases hi : i = 0
    · subst hi
      show (if j = 0 then _ else _ : LThread).hold = _
      rw [if_neg hne]
      rfl
    · have : (if i = 0 then _ else _ : LThread).hold = _ := hl
      rw [if_neg hi] at this
      cases this
  have h1 := lexec_reachable h0 (.step .refl st k)
  obtain ⟨s2, m', q', a2, hd, hi, h2, ho, hx2⟩ := locked_values_possible (x := ⟨[(t, ID3v2_Tag_new_empty)], [], none⟩)
    (c := .setTextFrame t ⟨.literal tit2, .literal [some 0, some 0], .literal [some 0x68, some 0]⟩)
    (f := fun _ => ⟨setAt t v [(t, ID3v2_Tag_new_empty)], [], none⟩) h1
    (show (s0.turn 0 s0.common (.alone (cl 0))).threads 0 = ⟨.ret (.current m, none), .alone (cl 0)⟩ from rfl)
    ⟨ht, trivial, trivial, trivial⟩ (by
      obtain ⟨Ts, c1, c2, c3, c4, c5, c6⟩ := hw
      refine ⟨Ts, c1, c2, c3, c4, c5, fun b hb => ?_⟩
      show (if (none : Option Nat) = none then w.heap.cells b.1 else none) = _
      rw [if_pos rfl]
      exact c6 b hb) (by
      show Abs.update ⟨[(t, ID3v2_Tag_new_empty)], _, none⟩ t _ = _
      simp only [Abs.update, e, textValue, srcValue, hv]
      rfl)
  have es : setAt t v [(t, ID3v2_Tag_new_empty)] = [(t, v)] := by simp [setAt]
  rw [es] at hx2
  have ho : ∀ j, j ≠ 0 → s2.threads j = ⟨.ret (cl j, none), .nothing⟩ := fun j hj => by
    rw [ho j hj]
    show (if j = 0 then _ else _) = _
    rw [if_neg hj]
    rfl
  let s3 : Locked := { s2.turn 0 (cl 0) .nothing with common := .current m' }
  have st3 : LStep 0 s2 .release s3 := .unseize hi
  have hn : ∀ j, (s3.threads j).hold = .nothing := fun j => by
    show (if j = 0 then _ else _ : LThread).hold = _
    split
    next => rfl
    next hj => rw [ho j hj]
  have k3 : s3.Lock := fun i j l hl => by rw [hn i] at hl; cases hl
  have ht1 : s3.threads 1 = ⟨.ret (cl 1, none), .nothing⟩ := ho 1 (by decide)
  have st4 := LStep.share ht1
  have k4 : ∀ b, Locked.Lock { s3.turn 1 (cl 1) .shared with bound := b } := fun b i j l hl => by
    have : (if i = 1 then _ else s3.threads i : LThread).hold = _ := hl
    split at this
    next => cases this
    next => rw [hn i] at this; cases this
  have ex4 := LExec.step (LExec.step .refl st3 k3) st4 (k4 _)
  have h4 := lexec_reachable h2 ex4
  obtain ⟨s', l', q1, hd', hi', h', -⟩ := locked_get_possible (i := 1) (t := t) (x := ⟨[(t, v)], [], none⟩) (src := .literal tit2)
    (v := v) (o := some f) h4 rfl hx2 (l := ⟨none, [], [], [], []⟩) (q := none) rfl trivial (by simp) hget
  obtain ⟨v', hv', hq⟩ := locked_get h4 rfl hx2 hd' hi'
  have : v' = v := by
    have e : ([(t, v)] : List (Nat × Tag)).lookup t = some v := by simp
    exact Option.some.inj (hv'.symm.trans e)
  subst this
  cases q1 with
  | none => cases hget.symm.trans hq
  | some a =>
    obtain ⟨f', hf', hfetch⟩ := hq
    cases hget.symm.trans hf'
    exact ⟨m, w.heap, _, s2, _, s', t, a, l', f, h1, hd, ex4, hd', hi', hfetch, hid, hx⟩

/-! ## Without the lock -/

omit p in
theorem leaks_frames (l : List (Nat × Option HFrame)) : ∀ b ∈ leaks l, b ∈ frameBlocks l := by
  intro b hb
  induction l with
  | nil => exact hb
  | cons x l ih =>
    obtain ⟨n, f⟩ := x
    cases f with
    | none => exact ih hb
    | some F =>
      rw [frameBlocks_some]
      rcases List.mem_append.mp (show b ∈ F.leak ++ leaks l from hb) with hb | hb
      · refine List.mem_append_left _ ?_
        unfold HFrame.leak at hb
        split at hb
        · cases hb
        · rcases List.mem_cons.mp hb with rfl | hb
          · exact List.mem_cons_self
          · exact List.mem_cons_of_mem _ (List.mem_cons_of_mem _ (List.mem_cons_of_mem _ hb))
      · exact List.mem_append_right _ (ih hb)

omit p in
/-- After `ID3v2_Tag_free` the tag is no longer allocated. -/
theorem freed_tag {h h' : Heap} {D : HTag} {X : List Block} (r : Rep h (D.blocks ++ X)) (r' : Rep h' (leaks D.list ++ X)) :
    h'.cells D.addr = none := by
  cases e : h'.cells D.addr with
  | none => rfl
  | some c =>
    exfalso
    have hm := (r'.cells _ _).mp e
    have hn := r.nodup
    rw [List.map_append] at hn
    have hn : (D.addr :: D.hdr :: ((listNodes D.head (spine D.list) ++ frameBlocks D.list).map (·.1)) ++ X.map (·.1)).Nodup := hn
    have hn := (List.nodup_cons.mp hn).1
    apply hn
    rcases List.mem_append.mp hm with hm | hm
    · have := leaks_frames _ _ hm
      refine List.mem_cons_of_mem _ (List.mem_append_left _ (List.mem_map.mpr ⟨_, List.mem_append_right _ this, rfl⟩))
    · exact List.mem_cons_of_mem _ (List.mem_append_right _ (List.mem_map.mpr ⟨_, hm, rfl⟩))

/-- Another state of thread 1. -/
def Locked.put (s : Locked) (x : LThread) : Locked :=
  { s with threads := fun j => if j = 1 then x else s.threads j }

omit p in
theorem put_zero (s : Locked) (x : LThread) : (Locked.put s x).threads 0 = s.threads 0 := rfl

omit p in
theorem put_go (s : Locked) (x : LThread) (q : Prog (Client × Ptr)) : (Locked.put s x).go 0 q = Locked.put (s.go 0 q) x := by
  unfold Locked.put Locked.go
  congr 1
  funext j
  match j with
  | 0 => rfl
  | 1 => rfl
  | j + 2 => rfl

omit p in
theorem put_turn (s : Locked) (x : LThread) (l : Client) (h : Hold) :
    (Locked.put s x).turn 0 l h = Locked.put (s.turn 0 l h) x := by
  unfold Locked.put Locked.turn
  congr 1
  funext j
  match j with
  | 0 => rfl
  | 1 => rfl
  | j + 2 => rfl

/-- What thread 0 does does not depend on thread 1. -/
theorem put_step {s s' : Locked} {e : LEvent} (x : LThread) (st : LStep 0 s e s') (he : e ≠ .share) :
    LStep 0 (Locked.put s x) e (Locked.put s' x) := by
  cases st with
  | share hp => exact absurd rfl he
  | @seize l q hp =>
    rw [← put_turn]
    exact .seize (s := Locked.put s x) hp
  | @unshare l q hp =>
    rw [← put_turn]
    exact .unshare (s := Locked.put s x) hp
  | @unseize m l q hp =>
    have := LStep.unseize (i := 0) (s := Locked.put s x) hp
    rw [put_turn] at this
    exact this
  | @begin l q c hp hh ha =>
    rw [← put_go]
    exact .begin (s := Locked.put s x) hp hh ha
  | @change m l q c hp ha =>
    have := LStep.change (i := 0) (s := Locked.put s x) hp ha
    rw [put_go] at this
    exact this
  | @read l q r hp ha =>
    rw [← put_go]
    exact .read (s := Locked.put s x) hp ha
  | look hp ho hc => exact .look (s := Locked.put s x) hp ho hc
  | @malloc c k o a hp hn ho =>
    have := LStep.malloc (i := 0) (s := Locked.put s x) a hp hn ho
    rw [put_go] at this
    exact this
  | @free a c k hp hc =>
    rw [← put_go]
    exact .free (s := Locked.put s x) hp hc
  | @load a c k hp hc =>
    rw [← put_go]
    exact .load (s := Locked.put s x) hp hc
  | @store a c c' k hp hc =>
    rw [← put_go]
    exact .store (s := Locked.put s x) hp hc
  | fuel hp =>
    rw [← put_go]
    exact .fuel (s := Locked.put s x) hp

theorem put_exec {s s' : Locked} {es : List (Nat × LEvent)} (x : LThread) (ex : LExec rule s es s')
    (h0 : ∀ e ∈ es, e.1 = 0 ∧ e.2 ≠ .share) : LExec (fun _ => True) (Locked.put s x) es (Locked.put s' x) := by
  induction ex with
  | refl => exact .refl
  | @step s' s'' es i e _ st _ ih =>
    obtain ⟨rfl, he⟩ := h0 (i, e) (by simp)
    exact .step (ih fun e he => h0 e (by simp [he])) (put_step x st he) trivial

/-- What thread 0 allocates while it holds the lock alone is common. -/
theorem exec_common {s s' : Locked} {es : List (Nat × LEvent)} (ex : LExec rule s es s')
    (h0 : ∀ e ∈ es, e.1 = 0 ∧ e.2 ≠ .share ∧ e.2 ≠ .release) (ha : ∃ l, (s.threads 0).hold = .alone l)
    (hn : ∀ a, s.owner a = none) : (∃ l, (s'.threads 0).hold = .alone l) ∧ ∀ a, s'.owner a = none := by
  induction ex with
  | refl => exact ⟨ha, hn⟩
  | @step s' s'' es i e _ st _ ih =>
    obtain ⟨⟨l, h1⟩, h2⟩ := ih fun e he => h0 e (by simp [he])
    obtain ⟨rfl, he, hr⟩ := h0 (i, e) (by simp)
    cases st with
    | share hp => exact absurd rfl he
    | seize hp => rw [hp] at h1; cases h1
    | unshare hp => exact absurd rfl hr
    | unseize hp => exact absurd rfl hr
    | look hp _ _ => exact ⟨⟨l, h1⟩, h2⟩
    | begin hp _ _ => exact ⟨⟨l, (lgo_hold ..).trans h1⟩, h2⟩
    | change hp _ => exact ⟨⟨l, (lgo_hold ..).trans h1⟩, h2⟩
    | read hp _ => rw [hp] at h1; cases h1
    | @malloc c k o a hp hc ho =>
      refine ⟨⟨l, (lgo_hold ..).trans h1⟩, fun b => ?_⟩
      rw [h1] at ho
      show (if b = a then o else s'.owner b) = none
      split
      · exact ho.symm
      · exact h2 b
    | free hp _ => exact ⟨⟨l, (lgo_hold ..).trans h1⟩, h2⟩
    | load hp _ => exact ⟨⟨l, (lgo_hold ..).trans h1⟩, h2⟩
    | store hp _ => exact ⟨⟨l, (lgo_hold ..).trans h1⟩, h2⟩
    | fuel hp => exact ⟨⟨l, (lgo_hold ..).trans h1⟩, h2⟩

/-- The lock is needed: for every tag that a program can free, two threads that do not follow the rule reach a state in which
thread 1 is in `ID3v2_Tag_get_frame` and about to read the tag, and thread 0 has freed it. -/
theorem threads_lock_needed {m : Local} {t : Nat} (hm : Client.Reachable heap (.current m)) (ht : t ∈ m.tags)
    (hf : (AnyCall.current (.freeTag t)).outcome (.current m) heap = .ok ()) :
    ∃ s : Locked, s.Reachable (fun _ => True) (.current m) heap ∧ s.reads 1 = some t ∧ s.cells t = none := by
  let cl : Nat → Client := fun _ => .current ⟨none, [], [], [], []⟩
  have hcl : ∀ i, (cl i).Fresh := fun i => ⟨rfl, rfl, rfl, rfl⟩
  let s0 := Locked.start (.current m) heap cl
  have h0 : s0.Reachable Locked.Lock (.current m) heap := ⟨hm, cl, [], hcl, .refl⟩
  have hpart : ∀ g, s0.part none g = heap.with g := fun g => by
    show Locked.part (Locked.start (.current m) heap cl) none g = _
    unfold Locked.part Locked.start Heap.with
    simp
  -- thread 0 frees the tag
  have st : LStep 0 s0 .seize (s0.turn 0 s0.common (.alone (cl 0))) := .seize (l := cl 0) (p := none) rfl
  have k : (s0.turn 0 s0.common (.alone (cl 0))).Lock := fun i j l hl hne => by
    by_cases hi : i = 0
    · subst hi
      show (if j = 0 then _ else _ : LThread).hold = _
      rw [if_neg hne]
      rfl
    · have : (if i = 0 then _ else _ : LThread).hold = _ := hl
      rw [if_neg hi] at this
      cases this
  have h1 := lexec_reachable h0 (.step .refl st k)
  obtain ⟨Ts, Ls, Hs, Us, K, im⟩ := own_main hm
  obtain ⟨A, D, B, rfl, rfl, hA, hB, rm⟩ := im.tag ht
  have hfree : ∃ u, freeAll D.value.frames = .ok u := by
    have e : ((H.ID3v2_Tag_free D.addr heap >>= fun x => Res.ok (m.world x.2)) >>= fun _ => Res.ok ()) = Res.ok () := by
      have hf : ((Call.freeTag D.addr).run (m.world heap) >>= fun _ => Res.ok ()) = Res.ok () := hf
      obtain ⟨w, e1, -⟩ := Res.bind_eq_ok.mp hf
      obtain ⟨x, e2, -⟩ := Res.bind_eq_ok.mp e1
      rw [show H.ID3v2_Tag_free D.addr heap = _ from e2]
      rfl
    obtain ⟨w, e1, -⟩ := Res.bind_eq_ok.mp e
    obtain ⟨⟨u, h'⟩, e2, -⟩ := Res.bind_eq_ok.mp e1
    obtain ⟨v, hv, -⟩ := refines_ok (tag_free_spec rm) e2
    exact ⟨v, hv⟩
  obtain ⟨u, hu⟩ := hfree
  have hrun : ∀ g, ∃ h', H.ID3v2_Tag_free D.addr (heap.with g) = .ok ((), h') ∧ h'.cells D.addr = none := fun g => by
    obtain ⟨a, h', e, r'⟩ := refines_of (tag_free_spec (Rep.with rm g)) hu
    exact ⟨h', e, freed_tag (Rep.with rm g) r'⟩
  obtain ⟨n, s2, m', q', ex, hd, hidle, -, -⟩ := locked_change_possible (c := .current (.freeTag D.addr)) h1
    (show (s0.turn 0 s0.common (.alone (cl 0))).threads 0 = ⟨.ret (.current m, none), .alone (cl 0)⟩ from rfl) ht (fun g => by
      show ((Call.freeTag D.addr).run (m.world (s0.part none g)) >>= fun _ => Res.ok ()) = _
      rw [hpart]
      obtain ⟨h', e, -⟩ := hrun g
      show ((H.ID3v2_Tag_free D.addr (heap.with g) >>= _) >>= _) = _
      rw [e]
      rfl)
  have ex2 := LExec.cons st k ex
  have hcells : s2.cells D.addr = none := by
    obtain ⟨m0, q0, g, g', hi, -, hr⟩ := locked_change h1 hd (m' := m') (q' := q') (by unfold Locked.Idle; rw [hidle])
    have hi : Prog.ret (Client.current m, (none : Ptr)) = Prog.ret (m0, q0) := hi
    cases hi
    cases m' with
    | compat m' => exact hr.elim
    | current m' =>
      have hr : (Call.freeTag D.addr).run (m.world (s0.part none g)) = .ok (m'.world (s2.part none g')) := hr
      rw [hpart] at hr
      obtain ⟨h', e, hc⟩ := hrun g
      obtain ⟨x, e1, e2⟩ := Res.bind_eq_ok.mp hr
      have e1 : H.ID3v2_Tag_free D.addr (heap.with g) = .ok x := e1
      rw [e] at e1
      cases e1
      have e3 := congrArg (fun r => match r with | Res.ok (w : World) => w.heap | _ => heap) e2
      have e3 : h' = s2.part none g' := e3
      rw [e3] at hc
      have hc : (if s2.owner D.addr = none then s2.cells D.addr else none) = none := hc
      have ho : s2.owner D.addr = none := (exec_common ex (fun e he => by
        rcases List.mem_cons.mp he with rfl | he
        · exact ⟨rfl, fun e => (nomatch e), fun e => (nomatch e)⟩
        · rw [List.eq_of_mem_replicate he]
          exact ⟨rfl, fun e => (nomatch e), fun e => (nomatch e)⟩) ⟨_, rfl⟩ (fun _ => rfl)).2 D.addr
      rw [if_pos ho] at hc
      exact hc
  -- thread 1 begins to read before
  let x : LThread := ⟨Read.prog (cl 1) (.getFrame D.addr (.literal tit2)), .shared⟩
  have st1 := LStep.share (i := 1) (s := s0) (l := cl 1) (p := none) rfl
  have e1 : ({ s0.turn 1 (cl 1) .shared with
      bound := fun o => if o = some 1 then max (s0.bound o) (s0.bound none) else s0.bound o } : Locked) =
      Locked.put s0 ⟨.ret (cl 1, none), .shared⟩ := by
    have hb : (fun o : Option Nat => if o = some 1 then max (s0.bound o) (s0.bound none) else s0.bound o) = s0.bound := by
      funext o
      show (if o = some 1 then max heap.next heap.next else heap.next) = heap.next
      simp
    rw [hb]
    rfl
  rw [e1] at st1
  have st2 : LStep 1 (Locked.put s0 ⟨.ret (cl 1, none), .shared⟩) (.read (.getFrame D.addr (.literal tit2)))
      ((Locked.put s0 ⟨.ret (cl 1, none), .shared⟩).go 1 x.prog) :=
    .read (l := cl 1) (p := none) rfl ⟨ht, trivial⟩
  have e2 : (Locked.put s0 ⟨.ret (cl 1, none), .shared⟩).go 1 x.prog = Locked.put s0 x := by
    show ({ s0 with threads := _ } : Locked) = { s0 with threads := _ }
    congr 1
    funext j
    by_cases hj : j = 1
    · subst hj; rfl
    · simp only [if_neg hj]
      exact if_neg hj
  rw [e2] at st2
  refine ⟨Locked.put s2 x, ⟨hm, cl, _, hcl, LExec.cons st1 trivial (LExec.cons st2 trivial (put_exec x ex2 fun e he => ?_))⟩,
    rfl, hcells⟩
  rcases List.mem_cons.mp he with rfl | he
  · exact ⟨rfl, fun e => (nomatch e)⟩
  · rcases List.mem_cons.mp he with rfl | he
    · exact ⟨rfl, fun e => (nomatch e)⟩
    · rw [List.eq_of_mem_replicate he]
      exact ⟨rfl, fun e => (nomatch e)⟩

/-- The hypotheses of the theorems with a lock are met: the program starts with nothing, thread 0 takes the lock, makes a tag
that is common to all threads and gives the lock back; thread 1 then shares the lock. -/
example (disk : File) : ∃ (main : Client) (heap : Heap) (s s' s'' : Locked) (m : Local) (a : Nat),
    s.Reachable Locked.Lock main heap ∧ s.Does Locked.Lock 0 (.change (.current .newTag)) s' ∧
    s''.Reachable Locked.Lock main heap ∧ s''.Calm ∧ s''.common = .current m ∧ (s''.threads 1).hold = .shared ∧
    (m.world (s''.part none)).Holds ⟨[(a, ID3v2_Tag_new_empty)], [], disk⟩ := by
  let m0 : Local := ⟨disk, [], [], [], []⟩
  let h0 : Heap := ⟨fun _ => none, 0, fun _ => 0⟩
  have r0 : Client.Reachable h0 (.current m0) := .start disk (fun _ => 0)
  have q0 : (Locked.start (.current m0) h0 fun _ => .current m0).Reachable Locked.Lock (.current m0) h0 :=
    ⟨r0, fun _ => .current m0, [], fun _ => ⟨rfl, rfl, rfl, rfl⟩, .refl⟩
  generalize e0 : Locked.start (.current m0) h0 (fun _ => .current m0) = s0 at q0
  have t0 : ∀ j, s0.threads j = ⟨.ret (.current m0, none), .nothing⟩ := by subst e0; exact fun _ => rfl
  have c0 : s0.common = .current m0 := by subst e0; rfl
  have p0 : s0.part none = h0 := by subst e0; rfl
  have only : ∀ s : Locked, (∀ j, j ≠ 0 → (s.threads j).hold = .nothing) → s.Lock := by
    intro s hs i j l hi hne
    by_cases e : j = 0
    · subst e
      rw [hs i (Ne.symm hne)] at hi
      cases hi
    · exact hs j e
  have st1 := LStep.seize (t0 0)
  have k1 : (s0.turn 0 s0.common (.alone (.current m0))).Lock := only _ fun j hj => by
    show (if j = 0 then _ else s0.threads j : LThread).hold = _
    rw [if_neg hj, t0 j]
  have q1 := lexec_reachable q0 (.step .refl st1 k1)
  have t1 : (s0.turn 0 s0.common (.alone (.current m0))).threads 0 = ⟨.ret (.current m0, none), .alone (.current m0)⟩ := by
    rw [c0]; rfl
  obtain ⟨s', m', q', a, hd, ht, hr, ho, hv⟩ := locked_values_possible (x := ⟨[], [], disk⟩)
    (f := fun a => ⟨[(a, ID3v2_Tag_new_empty)], [], disk⟩) (c := .newTag) q1 t1 trivial
    (by
      show (m0.world (s0.part none)).Holds _
      rw [p0]
      exact ⟨[], rfl, rfl, rfl, rfl, List.nodup_nil, nofun⟩) rfl
  have st2 := LStep.unseize ht
  have others : ∀ j, j ≠ 0 → s'.threads j = ⟨.ret (.current m0, none), .nothing⟩ := by
    intro j hj
    rw [ho j hj]
    show (if j = 0 then _ else s0.threads j : LThread) = _
    rw [if_neg hj, t0 j]
  have k2 : Locked.Lock { s'.turn 0 (.current m0) .nothing with common := .current m' } := only _ fun j hj => by
    show (if j = 0 then _ else s'.threads j : LThread).hold = _
    rw [if_neg hj, others j hj]
  have q2 := lexec_reachable hr (.step .refl st2 k2)
  have t2 : ({ s'.turn 0 (.current m0) .nothing with common := .current m' } : Locked).threads 1 =
      ⟨.ret (.current m0, none), .nothing⟩ := by
    exact others 1 (by decide)
  have st3 := LStep.share t2
  generalize e2 : ({ s'.turn 0 (.current m0) .nothing with common := .current m' } : Locked) = s2 at q2 st3 t2
  have calm : ∀ s : Locked, (∀ j, (s.threads j).hold = .nothing ∨ (s.threads j).hold = .shared) → s.Calm ∧ s.Lock := by
    intro s hs
    have hc : s.Calm := fun i l e => by rcases hs i with h | h <;> rw [h] at e <;> cases e
    exact ⟨hc, fun i j l hi => absurd hi (hc i l)⟩
  have n2 : ∀ j, (s2.threads j).hold = .nothing := by
    subst e2
    intro j
    by_cases hj : j = 0
    · subst hj; rfl
    · show (if j = 0 then _ else s'.threads j : LThread).hold = _
      rw [if_neg hj, others j hj]
  obtain ⟨k3, k3'⟩ := calm { s2.turn 1 (.current m0) .shared with
      bound := fun o => if o = some 1 then max (s2.bound o) (s2.bound none) else s2.bound o } fun j => by
    by_cases hj : j = 1
    · subst hj; exact .inr rfl
    · refine .inl ?_
      show (if j = 1 then _ else s2.threads j : LThread).hold = _
      rw [if_neg hj, n2 j]
  refine ⟨_, _, _, s', _, m', a, q1, hd, lexec_reachable q2 (.step .refl st3 k3'), k3, by subst e2; rfl, rfl, ?_⟩
  subst e2
  exact hv

/-- A program that has made an empty tag meets the hypotheses. -/
example : ∃ (m : Local) (heap : Heap) (t : Nat), Client.Reachable heap (.current m) ∧ t ∈ m.tags ∧
    (AnyCall.current (.freeTag t)).outcome (.current m) heap = .ok () := by
  obtain ⟨w, t, hr, hw, reach⟩ := do_call (c := .newTag) (.start none) (s := ⟨[], [], none⟩)
    ⟨[], rfl, rfl, rfl, rfl, List.nodup_nil, nofun⟩ trivial rfl
  have ht : t ∈ w.tags := by rw [holds_tags hw]; exact List.mem_cons_self
  have e : ([(t, ID3v2_Tag_new_empty)] : List (Nat × Tag)).lookup t = some ID3v2_Tag_new_empty := by simp
  obtain ⟨w', a, e', -⟩ := do_call (c := .freeTag t) reach hw ht (f := fun _ => ⟨[], [], none⟩) (by
    show Call.abs _ ⟨[(t, ID3v2_Tag_new_empty)], [], none⟩ _ = _
    simp only [Call.abs, e]
    simp [ID3v2_Tag_new_empty, ID3v2_Tag_new]
    rfl)
  refine ⟨⟨w.disk, w.tags, w.lists, w.headers, w.buffers⟩, w.heap, t, reach, ht, ?_⟩
  show (Call.run w (.freeTag t) >>= fun _ => Res.ok ()) = _
  rw [e']
  rfl

end Id3.Props
