import Verif.Thread.Looks
import Verif.Props.Threads

/-!
# Threads that read the same tags (C78)

A program starts threads that read its tags at the same time (Spec/Readers.lean).
-/

namespace Id3.Props

open Id3 Id3.Spec Id3.H

variable [p : Platform]

/-! ## The invariant -/

/-- What holds in every state that the threads can reach. -/
structure RTogether (heap : Heap) (s : Forked) : Prop where
  unused : ∀ a, s.next ≤ a → s.cells a = none
  bound : ∀ i, heap.next ≤ (s.threads i).bound ∧ (s.threads i).bound ≤ s.next
  kept : ∀ a, s.owner a = none → s.cells a = heap.cells a
  new : ∀ a, s.owner a ≠ none → heap.cells a = none
  runs : ∀ i, Runs heap.cells Done (s.threads i).prog (s.own i)

/-- All blocks of the program are below `next`. -/
def Below (h : Heap) : Prop := ∀ a, h.next ≤ a → h.cells a = none

omit p in
theorem own_below {l : Client} {h : Heap} (o : Own l h) : Below h := fun a ha => by
  obtain ⟨L, r⟩ := o.rep
  cases e : h.cells a with
  | none => rfl
  | some c => exact absurd (r.bound _ ((r.cells _ _).mp e)) (by simp only; omega)

omit p in
/-- Where nothing is allocated, the program had nothing either. -/
theorem RTogether.free {heap : Heap} {s : Forked} (t : RTogether heap s) {a : Nat} (h : s.cells a = none) :
    heap.cells a = none := by
  by_cases ho : s.owner a = none
  · rw [← t.kept a ho, h]
  · exact t.new a ho

omit p in
theorem RTogether.apart {heap : Heap} {s : Forked} (t : RTogether heap s) (b : Below heap) (i : Nat) :
    Apart heap.cells (s.own i) := by
  refine ⟨fun a ha => b a (Nat.le_trans (t.bound i).1 ha), fun a c hc => ?_⟩
  have hc : (if s.owner a = some i then s.cells a else none) = some c := hc
  split at hc
  next h => exact t.new a (by rw [h]; exact Option.some_ne_none i)
  next => cases hc

omit p in
theorem RTogether.view {heap : Heap} {s : Forked} (t : RTogether heap s) (i : Nat) (g : Nat → Nat) :
    (s.own i).view heap.cells g = s.view i g := by
  unfold Heap.view Forked.view Forked.own
  congr 1
  funext a
  show (if s.owner a = some i then s.cells a else none).or (heap.cells a) = _
  by_cases h : s.owner a = some i
  · rw [if_pos h, if_pos (.inl h), t.new a (by rw [h]; exact Option.some_ne_none i), Option.or_none]
  · rw [if_neg h, Option.none_or]
    by_cases h' : s.owner a = none
    · rw [if_pos (.inr h'), t.kept a h']
    · rw [if_neg (fun h1 => h1.elim h h')]
      exact t.new a h'

omit p in
/-- The block that a thread writes is its own. -/
theorem RTogether.writes {heap : Heap} {s : Forked} (t : RTogether heap s) {i a : Nat} (h : s.writes i = some a) :
    s.owner a = some i ∧ ∃ c, s.cells a = some c := by
  have r := t.runs i
  unfold Forked.writes at h
  have key : (∃ c, (s.own i).cells a = some c) → s.owner a = some i ∧ ∃ c, s.cells a = some c := by
    rintro ⟨c, hc⟩
    have hc : (if s.owner a = some i then s.cells a else none) = some c := hc
    split at hc
    next h => exact ⟨h, c, hc⟩
    next => cases hc
  cases hp : (s.threads i).prog with
  | free b k => rw [hp] at h r; cases h; exact key r.1
  | store b c k => rw [hp] at h r; cases h; exact key r.1
  | _ => rw [hp] at h; cases h

omit p in
/-- The block that a thread reads is its own, or one of the program. -/
theorem RTogether.reads {heap : Heap} {s : Forked} (t : RTogether heap s) {i a : Nat}
    (h : s.reads i = some a) : (s.owner a = some i ∨ s.owner a = none) ∧ ∃ c, s.cells a = some c := by
  have r := t.runs i
  unfold Forked.reads at h
  cases hp : (s.threads i).prog with
  | load x k =>
    rw [hp] at h r
    cases h
    obtain ⟨c, hc, -⟩ := r
    have e : (s.view i).cells a = some c := by rw [← t.view i]; exact hc
    have e : (if s.owner a = some i ∨ s.owner a = none then s.cells a else none) = some c := e
    split at e
    next h => exact ⟨h, c, e⟩
    next => cases e
  | _ => rw [hp] at h; cases h

/-! ## Steps -/

omit p in
theorem rgo_own (s : Forked) (i j : Nat) (q : Prog (Client × Ptr)) : (s.go j q).own i = s.own i := by
  unfold Forked.own Forked.go
  congr 1
  show (if i = j then _ else _ : RThread).bound = _
  split
  next h => rw [h]
  next => rfl

omit p in
theorem rgo_prog (s : Forked) (i : Nat) (q : Prog (Client × Ptr)) : ((s.go i q).threads i).prog = q := by
  show (if i = i then _ else _ : RThread).prog = _
  rw [if_pos rfl]

omit p in
theorem rgo_other {s : Forked} {i j : Nat} (h : i ≠ j) (q : Prog (Client × Ptr)) : (s.go j q).threads i = s.threads i :=
  if_neg h

omit p in
theorem rset_own {s : Forked} {i a : Nat} (h : s.owner a = some i) (c : Option Cell) :
    (s.set a c).own i = (s.own i).set a c := by
  unfold Forked.own Forked.set Heap.set
  congr 1
  funext x
  by_cases hx : x = a
  · subst hx
    simp [h]
  · simp [hx]

omit p in
theorem rset_other {s : Forked} {i a : Nat} (h : s.owner a ≠ some i) (c : Option Cell) : (s.set a c).own i = s.own i := by
  unfold Forked.own Forked.set
  congr 1
  funext x
  by_cases hx : x = a
  · subst hx
    rw [if_neg h, if_neg h]
  · simp [hx]

variable {main : Client} {heap : Heap}

/-- A step of a thread changes nothing for the others. -/
theorem rstep_other {s s' : Forked} {i j : Nat} {e : REvent} (t : RTogether heap s) (st : RStep main heap j s e s')
    (h : i ≠ j) : s'.threads i = s.threads i ∧ s'.own i = s.own i := by
  have hj : ∀ a, s.writes j = some a → s.owner a ≠ some i := fun a ha e => by
    have := (t.writes ha).1
    rw [e] at this
    exact h (Option.some.inj this)
  cases st with
  | begin hp ha => exact ⟨rgo_other h _, rgo_own ..⟩
  | read hp ha => exact ⟨rgo_other h _, rgo_own ..⟩
  | look hp ho hc => exact ⟨rfl, rfl⟩
  | @malloc c k a hp hn =>
    refine ⟨if_neg h, ?_⟩
    unfold Forked.own
    congr 1
    · funext x
      by_cases hx : x = a
      · subst hx
        have : ¬ some j = some i := fun e => h (Option.some.inj e).symm
        simp [this, hn]
      · simp [hx]
    · simp [h]
  | @free a c k hp hc =>
    refine ⟨rgo_other h _, ?_⟩
    rw [rgo_own, rset_other (hj a (by unfold Forked.writes; rw [hp]))]
  | @load a c k hp hc => exact ⟨rgo_other h _, rgo_own ..⟩
  | @store a c c' k hp hc =>
    refine ⟨rgo_other h _, ?_⟩
    rw [rgo_own, rset_other (hj a (by unfold Forked.writes; rw [hp]))]
  | fuel hp => exact ⟨rgo_other h _, rgo_own ..⟩

/-- An access of a thread: it goes on with its call. -/
theorem rstep_own {s s' : Forked} {i : Nat} {Q : Res (Client × Ptr) → Heap → Prop} (t : RTogether heap s)
    (st : RStep main heap i s .access s') (r : Runs heap.cells Q (s.threads i).prog (s.own i)) :
    Runs heap.cells Q (s'.threads i).prog (s'.own i) := by
  have hw := fun a (ha : s.writes i = some a) => (t.writes ha).1
  cases st with
  | @malloc c k a hp hn =>
    rw [hp] at r
    have e : (Forked.own ⟨fun x => if x = a then some c else s.cells x, max s.next (a + 1),
        fun x => if x = a then some i else s.owner x,
        fun j => if j = i then ⟨k a, max (s.threads i).bound (a + 1)⟩ else s.threads j⟩ i) =
        (s.own i).add a c := by
      unfold Forked.own Heap.add
      congr 1
      · funext x
        by_cases hx : x = a
        · simp [hx]
        · simp [hx]
      · simp
    rw [e]
    simp only [if_true]
    exact r a (Option.or_eq_none_iff.mpr ⟨by
      show (if s.owner a = some i then s.cells a else none) = none
      rw [hn]
      split <;> rfl, t.free hn⟩)
  | @free a c k hp hc =>
    rw [rgo_prog, rgo_own, rset_own (hw a (by unfold Forked.writes; rw [hp]))]
    rw [hp] at r
    exact r.2
  | @load a c k hp hc =>
    rw [rgo_prog, rgo_own]
    have hr := (t.reads (i := i) (a := a) (by unfold Forked.reads; rw [hp])).1
    rw [hp] at r
    obtain ⟨c', e, r⟩ := r
    have e : (s.view i).cells a = some c' := by rw [← t.view i]; exact e
    have e : (if s.owner a = some i ∨ s.owner a = none then s.cells a else none) = some c' := e
    rw [if_pos hr, hc] at e
    cases e
    exact r
  | @store a c c' k hp hc =>
    rw [rgo_prog, rgo_own, rset_own (hw a (by unfold Forked.writes; rw [hp]))]
    rw [hp] at r
    exact r.2
  | fuel hp =>
    rw [rgo_prog, rgo_own]
    rw [hp] at r
    exact r

/-- A call with the thread's own things begins. -/
theorem rstep_begin {s s' : Forked} {i : Nat} {c : AnyCall} (t : RTogether heap s) (b : Below heap)
    (st : RStep main heap i s (.begin c) s') : ∃ l q, s.Idle i l q ∧ c.Allowed (s.own i) l ∧
      Runs heap.cells (fun x h' => (Apart heap.cells h' ∧
        Ends (c.prog l >>= fun l => .ret (l, none)) (s.own i).with x h'.with) ∧ Done x h') (s'.threads i).prog (s'.own i) := by
  cases st with
  | @begin l q _ hp ha =>
    refine ⟨l, q, hp, ha, ?_⟩
    rw [rgo_prog, rgo_own]
    have r := t.runs i
    rw [hp] at r
    exact runs_own r ha (t.apart b i)

/-- A call that reads a tag of the program begins. -/
theorem rstep_read {s s' : Forked} {i : Nat} {r : Read} (t : RTogether heap s) (om : Own main heap)
    (st : RStep main heap i s (.read r) s') : ∃ l q, s.Idle i l q ∧ r.Allowed main heap (s.view i) l ∧
      Runs heap.cells (fun x h' => (Apart heap.cells h' ∧ Ends (r.prog l) (fun g => s.view i g) x (h'.view heap.cells)) ∧ Done x h')
        (s'.threads i).prog (s'.own i) := by
  cases st with
  | @read l q _ hp ha =>
    refine ⟨l, q, hp, ha, ?_⟩
    rw [rgo_prog, rgo_own]
    have o := t.runs i
    rw [hp] at o
    have b := own_below om
    have hv : (s.own i).view heap.cells = fun g => s.view i g := funext fun g => t.view i g
    have := runs_read om o (t.apart b i) (t.bound i).1 (r := r) (by rw [hv]; exact ha)
    rwa [hv] at this

theorem RTogether.step {s s' : Forked} {j : Nat} {e : REvent} (t : RTogether heap s) (om : Own main heap)
    (st : RStep main heap j s e s') : RTogether heap s' := by
  have b := own_below om
  have hj := fun a (ha : s.writes j = some a) => (t.writes ha).1
  refine ⟨?_, ?_, ?_, ?_, fun i => ?_⟩
  · cases st with
    | @malloc c k a hp hn =>
      intro x (hx : max s.next (a + 1) ≤ x)
      show (if x = a then _ else _) = _
      rw [if_neg (by omega), t.unused x (by omega)]
    | @free a c k hp hc =>
      intro x hx
      show (if x = a then _ else _) = _
      split
      next => rfl
      next => exact t.unused x hx
    | @store a c c' k hp hc =>
      intro x hx
      show (if x = a then _ else _) = _
      have hx : s.next ≤ x := hx
      split
      next h => rw [h] at hx; rw [t.unused a hx] at hc; cases hc
      next => exact t.unused x hx
    | _ => exact t.unused
  · intro i
    by_cases h : i = j
    · subst h
      have hgo : ∀ q, heap.next ≤ ((s.go i q).threads i).bound ∧ ((s.go i q).threads i).bound ≤ s.next := fun q => by
        show heap.next ≤ (if i = i then _ else _ : RThread).bound ∧ (if i = i then _ else _ : RThread).bound ≤ _
        rw [if_pos rfl]
        exact t.bound i
      cases st with
      | @malloc c k a hp hn =>
        show heap.next ≤ (if i = i then _ else _ : RThread).bound ∧ (if i = i then _ else _ : RThread).bound ≤ _
        rw [if_pos rfl]
        have := t.bound i
        exact ⟨by simp only; omega, by simp only; omega⟩
      | look hp ho hc => exact t.bound i
      | free hp hc => exact hgo _
      | store hp hc => exact hgo _
      | _ => exact hgo _
    · obtain ⟨e1, -⟩ := rstep_other t st h
      rw [e1]
      refine ⟨(t.bound i).1, Nat.le_trans (t.bound i).2 ?_⟩
      cases st with
      | @malloc c k a hp hn => exact Nat.le_max_left ..
      | _ => exact Nat.le_refl _
  · cases st with
    | @malloc c k a hp hn =>
      intro x
      show (if x = a then _ else _) = none → (if x = a then _ else _) = _
      by_cases hx : x = a
      · rw [if_pos hx]
        exact fun e => (nomatch e)
      · rw [if_neg hx, if_neg hx]
        exact t.kept x
    | @free a c k hp hc =>
      intro x hx
      show (if x = a then _ else _) = _
      replace hx : s.owner x = none := hx
      have := hj a (by unfold Forked.writes; rw [hp])
      rw [if_neg (by rintro rfl; rw [hx] at this; cases this)]
      exact t.kept x hx
    | @store a c c' k hp hc =>
      intro x hx
      show (if x = a then _ else _) = _
      replace hx : s.owner x = none := hx
      have := hj a (by unfold Forked.writes; rw [hp])
      rw [if_neg (by rintro rfl; rw [hx] at this; cases this)]
      exact t.kept x hx
    | _ => exact t.kept
  · cases st with
    | @malloc c k a hp hn =>
      intro x
      show (if x = a then _ else _) ≠ none → _
      by_cases hx : x = a
      · subst hx
        exact fun _ => t.free hn
      · rw [if_neg hx]
        exact t.new x
    | _ => exact t.new
  · by_cases h : i = j
    · subst h
      cases e with
      | begin c => obtain ⟨l, q, -, -, r⟩ := rstep_begin t b st; exact r.mono fun _ _ h => h.2
      | read c => obtain ⟨l, q, -, -, r⟩ := rstep_read t om st; exact r.mono fun _ _ h => h.2
      | look a => cases st; exact t.runs i
      | access => exact rstep_own t st (t.runs i)
    · obtain ⟨e1, e2⟩ := rstep_other t st h
      rw [e1, e2]
      exact t.runs i

theorem RTogether.exec {s s' : Forked} {es : List (Nat × REvent)} (t : RTogether heap s) (om : Own main heap)
    (ex : RExec main heap s es s') : RTogether heap s' := by
  induction ex with
  | refl => exact t
  | step _ st ih => exact ih.step om st

theorem own_main (h : main.Reachable heap) : Own main heap := by
  cases main with
  | current l => exact reachable_inv h
  | compat l => exact creachable_inv h

theorem rtogether {s : Forked} (h : s.Reachable main heap) : Own main heap ∧ RTogether heap s := by
  obtain ⟨hm, cl, es, hf, ex⟩ := h
  have om := own_main hm
  refine ⟨om, RTogether.exec (s := Forked.start heap cl) ⟨own_below om, fun i => ⟨Nat.le_refl _, Nat.le_refl _⟩,
    fun _ _ => rfl, fun a h => absurd rfl h, fun i => own_fresh (hf i) _ fun a => ?_⟩ om ex⟩
  show (if (none : Option Nat) = some i then heap.cells a else none) = none
  rw [if_neg (fun e => (nomatch e))]

omit p in
theorem revents_last {i j : Nat} {es : List (Nat × REvent)} {e : REvent} :
    reventsOf i (es ++ [(j, e)]) = if j = i then reventsOf i es ++ [e] else reventsOf i es := by
  unfold reventsOf
  rw [List.filter_append, List.map_append]
  by_cases h : j = i
  · rw [if_pos h, List.filter_cons_of_pos (by simpa using h)]
    rfl
  · rw [if_neg h, List.filter_cons_of_neg (by simpa using h)]
    exact List.append_nil _

/-- While a thread does nothing, nothing changes for it. -/
theorem rwait {s s' : Forked} {es : List (Nat × REvent)} {i : Nat} (t : RTogether heap s) (om : Own main heap)
    (ex : RExec main heap s es s') (he : reventsOf i es = []) : s'.threads i = s.threads i ∧ s'.own i = s.own i := by
  induction ex with
  | refl => exact ⟨rfl, rfl⟩
  | @step s' s'' es j e ex st ih =>
    rw [revents_last] at he
    by_cases hj : j = i
    · rw [if_pos hj] at he
      simp at he
    · rw [if_neg hj] at he
      obtain ⟨h1, h2⟩ := ih he
      obtain ⟨h3, h4⟩ := rstep_other (t.exec om ex) st (Ne.symm hj)
      exact ⟨h3.trans h1, h4.trans h2⟩

/-- What holds after the first step of a call holds until it ends. -/
theorem rduring {s s' : Forked} {es : List (Nat × REvent)} {i n : Nat} {e : REvent} (t : RTogether heap s)
    (om : Own main heap) (ex : RExec main heap s es s') (he : reventsOf i es = e :: List.replicate n .access) :
    ∃ s1 s2, RTogether heap s1 ∧ s1.threads i = s.threads i ∧ s1.own i = s.own i ∧ RStep main heap i s1 e s2 ∧
      ∀ Q, Runs heap.cells Q (s2.threads i).prog (s2.own i) → Runs heap.cells Q (s'.threads i).prog (s'.own i) := by
  induction ex generalizing n with
  | refl => cases he
  | @step s' s'' es j e' ex st ih =>
    have t' := t.exec om ex
    rw [revents_last] at he
    by_cases hj : j = i
    · subst hj
      rw [if_pos rfl] at he
      cases n with
      | zero =>
        obtain ⟨h1, h2⟩ := List.append_inj' (t₁ := [e']) (s₂ := []) (t₂ := [e]) he rfl
        cases h2
        obtain ⟨h3, h4⟩ := rwait t om ex h1
        exact ⟨_, _, t', h3, h4, st, fun _ h => h⟩
      | succ n =>
        rw [List.replicate_succ', ← List.cons_append] at he
        obtain ⟨h1, h2⟩ := List.append_inj' he rfl
        cases h2
        obtain ⟨s1, s2, a1, a2, a3, a4, a5⟩ := ih h1
        exact ⟨s1, s2, a1, a2, a3, a4, fun Q h => rstep_own t' st (a5 Q h)⟩
    · rw [if_neg hj] at he
      obtain ⟨h3, h4⟩ := rstep_other t' st (Ne.symm hj)
      rw [h3, h4]
      exact ih he

/-- A call that reads, while it runs. -/
theorem rreading {s s' : Forked} {i : Nat} {r : Read} (om : Own main heap) (t : RTogether heap s)
    (hd : s.Does main heap i (.read r) s') : RTogether heap s' ∧ ∃ l q, s.Idle i l q ∧ r.Allowed main heap (s.view i) l ∧
      Runs heap.cells (fun x h' => Apart heap.cells h' ∧ Ends (r.prog l) (fun g => s.view i g) x (h'.view heap.cells))
        (s'.threads i).prog (s'.own i) := by
  obtain ⟨es, n, ex, he⟩ := hd
  have b := own_below om
  obtain ⟨s1, s2, t1, h1, h2, st, hQ⟩ := rduring t om ex he
  obtain ⟨l, q, hi, ha, hr⟩ := rstep_read t1 om st
  have hv : ∀ g, s1.view i g = s.view i g := fun g => by rw [← t1.view, ← t.view, h2]
  refine ⟨t.exec om ex, l, q, ?_, by rw [← hv]; exact ha, hQ _ (hr.mono fun x h' hx => ?_)⟩
  · unfold Forked.Idle at hi ⊢
    rw [← h1]
    exact hi
  · simp only [hv] at hx
    exact hx.1

/-- A call with the thread's own things, while it runs. -/
theorem rcalling {s s' : Forked} {i : Nat} {c : AnyCall} (om : Own main heap) (t : RTogether heap s)
    (hd : s.Does main heap i (.begin c) s') : RTogether heap s' ∧ ∃ l q, s.Idle i l q ∧ c.Allowed (s.own i) l ∧
      Runs heap.cells (fun x h' => Ends (c.prog l >>= fun l => .ret (l, none)) (s.own i).with x h'.with)
        (s'.threads i).prog (s'.own i) := by
  obtain ⟨es, n, ex, he⟩ := hd
  have b := own_below om
  obtain ⟨s1, s2, t1, h1, h2, st, hQ⟩ := rduring t om ex he
  obtain ⟨l, q, hi, ha, hr⟩ := rstep_begin t1 b st
  refine ⟨t.exec om ex, l, q, ?_, by rw [← h2]; exact ha, hQ _ (hr.mono fun x h' hx => ?_)⟩
  · unfold Forked.Idle at hi ⊢
    rw [← h1]
    exact hi
  · rw [h2] at hx
    exact hx.1.2

/-! ## The property -/

/-- The next access of a thread is always to a block that is allocated, so there is no use after free and no double free. What
a thread writes or frees it allocated itself. What it reads it allocated itself, or the program did before it started the
threads. -/
theorem readers_safe {s : Forked} {i a : Nat} (h : s.Reachable main heap) :
    (s.writes i = some a → s.owner a = some i ∧ ∃ c, s.cells a = some c) ∧
    (s.reads i = some a → (s.owner a = some i ∨ s.owner a = none) ∧ ∃ c, s.cells a = some c) :=
  ⟨(rtogether h).2.writes, (rtogether h).2.reads⟩

/-- There are no data races: while a thread is about to write or free a block, no other thread is about to read, write or
free it, and no thread may look at it. -/
theorem readers_no_race {s : Forked} {i j a : Nat} (h : s.Reachable main heap) (hij : i ≠ j) (ha : s.writes i = some a) :
    s.writes j ≠ some a ∧ s.reads j ≠ some a ∧ s.owner a ≠ none := by
  have ho := ((readers_safe h).1 ha).1
  refine ⟨fun hb => ?_, fun hb => ?_, by rw [ho]; exact Option.some_ne_none i⟩
  · have := ((readers_safe h).1 hb).1
    rw [ho] at this
    exact hij (Option.some.inj this)
  · rcases ((readers_safe h).2 hb).1 with h1 | h1 <;> rw [ho] at h1
    · exact hij (Option.some.inj h1)
    · cases h1

/-- In every state all blocks that the program had when it started the threads are as they were, and the threads got none of
them from `malloc`. -/
theorem readers_kept {s : Forked} (h : s.Reachable main heap) (a : Nat) (c : Cell) (hc : heap.cells a = some c) :
    s.cells a = some c ∧ s.owner a = none := by
  obtain ⟨om, t⟩ := rtogether h
  have ho : s.owner a = none := by
    cases e : s.owner a with
    | none => rfl
    | some i =>
      have := t.new a (by rw [e]; exact Option.some_ne_none i)
      rw [hc] at this
      cases this
  exact ⟨by rw [t.kept a ho, hc], ho⟩

/-- A call that reads: the thread gets what a program without other threads gets that has the blocks of the program and
those of the thread. -/
theorem readers_read {s s' : Forked} {i : Nat} {r : Read} {l' : Client} {q' : Ptr} (h : s.Reachable main heap)
    (hd : s.Does main heap i (.read r) s') (hl : s'.Idle i l' q') :
    ∃ l q g g', s.Idle i l q ∧ r.Allowed main heap (s.view i) l ∧
      (r.prog l).interp (s.view i g) = .ok ((l', q'), s'.view i g') := by
  obtain ⟨om, t⟩ := rtogether h
  obtain ⟨t', l, q, hi, ha, hr⟩ := rreading om t hd
  rw [show (s'.threads i).prog = _ from hl] at hr
  obtain ⟨-, g, g', e⟩ := hr
  refine ⟨l, q, g, g', hi, ha, ?_⟩
  rw [e, ← t'.view i]
  rfl

/-- A call that fails: it fails in the same way in a program without other threads that has the blocks of the program and
those of the thread. -/
theorem readers_read_fail {s s' : Forked} {i : Nat} {r : Read} (h : s.Reachable main heap)
    (hd : s.Does main heap i (.read r) s') :
    ∃ l q, s.Idle i l q ∧ r.Allowed main heap (s.view i) l ∧
      (∀ k, (s'.threads i).prog = .ub k → ∃ g, (r.prog l).interp (s.view i g) = .ub k) ∧
      ((s'.threads i).prog = .exit → ∃ g, (r.prog l).interp (s.view i g) = .exit) ∧
      ((s'.threads i).prog = .hang → ∃ g, (r.prog l).interp (s.view i g) = .diverge) := by
  obtain ⟨om, t⟩ := rtogether h
  obtain ⟨t', l, q, hi, ha, hr⟩ := rreading om t hd
  refine ⟨l, q, hi, ha, fun k hk => ?_, fun hk => ?_, fun hk => ?_⟩ <;>
  · rw [hk] at hr
    obtain ⟨-, g, g', e⟩ := hr
    exact ⟨g, e⟩

/-- A call with the thread's own things does what it does in a program with that thread only. -/
theorem readers_call {s s' : Forked} {i : Nat} {c : AnyCall} {l' : Client} {q' : Ptr} (h : s.Reachable main heap)
    (hd : s.Does main heap i (.begin c) s') (hl : s'.Idle i l' q') :
    ∃ l q g g', s.Idle i l q ∧ c.Allowed (s.own i) l ∧
      match l, c, l' with
      | .current l, .current c, .current l' => c.run (l.world ((s.own i).with g)) = .ok (l'.world ((s'.own i).with g'))
      | .compat l, .compat c, .compat l' => c.run (l.world ((s.own i).with g)) = .ok (l'.world ((s'.own i).with g'))
      | _, _, _ => False := by
  obtain ⟨om, t⟩ := rtogether h
  obtain ⟨t', l, q, hi, ha, hr⟩ := rcalling om t hd
  rw [show (s'.threads i).prog = _ from hl] at hr
  obtain ⟨g, g', e⟩ := hr
  rw [Prog.interp_bind, HeapM.bind_apply] at e
  obtain ⟨⟨l1, h1⟩, e1, e2⟩ := Res.bind_eq_ok.mp e
  have : Res.ok ((l1, (none : Ptr)), h1) = Res.ok ((l', q'), (s'.own i).with g') := e2
  simp only [Res.ok.injEq, Prod.mk.injEq] at this
  obtain ⟨⟨rfl, rfl⟩, rfl⟩ := this
  refine ⟨l, q, g, g', hi, ha, ?_⟩
  cases l with
  | current l =>
    cases c with
    | compat c => exact ha.elim
    | current c =>
      rw [current_same] at e1
      obtain ⟨w, e3, e4⟩ := Res.bind_eq_ok.mp e1
      simp only [Res.ok.injEq, Prod.mk.injEq] at e4
      obtain ⟨rfl, hw⟩ := e4
      rw [← hw]
      exact e3
  | compat l =>
    cases c with
    | current c => exact ha.elim
    | compat c =>
      rw [compat_same] at e1
      obtain ⟨w, e3, e4⟩ := Res.bind_eq_ok.mp e1
      simp only [Res.ok.injEq, Prod.mk.injEq] at e4
      obtain ⟨rfl, hw⟩ := e4
      rw [← hw]
      exact e3

/-! ### What the threads get -/

omit p in
theorem interp_ret {α β : Type} {q : Prog α} {x : HeapM α} {f : α → β} {h h' : Heap} {y : β} (e : q.interp = x)
    (hq : (q >>= fun a => .ret (f a)).interp h = .ok (y, h')) : ∃ a, x h = .ok (a, h') ∧ y = f a := by
  rw [Prog.interp_bind, HeapM.bind_apply, e] at hq
  obtain ⟨⟨a, h1⟩, e1, e2⟩ := Res.bind_eq_ok.mp hq
  have : Res.ok (f a, h1) = Res.ok (y, h') := e2
  simp only [Res.ok.injEq, Prod.mk.injEq] at this
  obtain ⟨rfl, rfl⟩ := this
  exact ⟨a, e1, rfl⟩

omit p in
theorem refines_ok {α β : Type} {x : Res (α × Heap)} {v : Res β} {Q : β → α → Heap → Prop} (r : Refines x v Q) {a : α}
    {h : Heap} (e : x = .ok (a, h)) : ∃ b, v = .ok b ∧ Q b a h := by
  cases v with
  | ok b =>
    obtain ⟨a', h', e', q⟩ := r
    rw [e'] at e
    cases e
    exact ⟨b, rfl, q⟩
  | ub k => cases (show x = _ from r).symm.trans e
  | exit => cases (show x = _ from r).symm.trans e
  | diverge => cases (show x = _ from r).symm.trans e

omit p in
theorem refines_of {α β : Type} {x : Res (α × Heap)} {v : Res β} {Q : β → α → Heap → Prop} (r : Refines x v Q) {b : β}
    (e : v = .ok b) : ∃ a h, x = .ok (a, h) ∧ Q b a h := by
  subst e
  exact r

omit p in
theorem srcValue_same (s : Forked) (i : Nat) (g : Nat → Nat) (src : Src) :
    srcValue (s.view i g) src = srcValue (s.view i) src := srcValue_cells rfl src

theorem does_reachable {s s' : Forked} {i : Nat} {e : REvent} (h : s.Reachable main heap) (hd : s.Does main heap i e s') :
    s'.Reachable main heap := by
  obtain ⟨hm, cl, es, hf, ex⟩ := h
  obtain ⟨es', n, ex', -⟩ := hd
  refine ⟨hm, cl, es ++ es', hf, ?_⟩
  clear hm hf
  induction ex' with
  | refl => rw [List.append_nil]; exact ex
  | step _ st ih => rw [← List.append_assoc]; exact .step ih st

/-- A thread sees the blocks of the program. -/
theorem readers_has {s : Forked} {i : Nat} (h : s.Reachable main heap) {L X : List Block} (r : Rep heap (L ++ X))
    {M : List Block} (hM : ∀ b ∈ M, b ∈ L) : Has (s.view i).cells M := fun b hb => by
  obtain ⟨h1, h2⟩ := readers_kept h b.1 b.2 ((r.cells _ _).mpr (List.mem_append_left _ (hM b hb)))
  show (if s.owner b.1 = some i ∨ s.owner b.1 = none then s.cells b.1 else none) = _
  rw [if_pos (.inr h2), h1]

/-- `ID3v2_Tag_get_frame` on a tag of the program: the thread gets the pointer that the program gets, and behind it is the
frame that the value-level model says. -/
theorem readers_get {m : Local} {x : Abs} {s s' : Forked} {i t : Nat} {src : Src} {l' : Client} {q' : Ptr}
    (h : s.Reachable (.current m) heap) (hx : (m.world heap).Holds x)
    (hd : s.Does (.current m) heap i (.read (.getFrame t src)) s') (hl : s'.Idle i l' q') :
    (∃ q, s.Idle i l' q) ∧ (∃ h', H.ID3v2_Tag_get_frame t (.literal (srcValue (s.view i) src)) heap = .ok (q', h')) ∧
      ∃ v, x.tags.lookup t = some v ∧
        match (generalizing := false) q' with
        | none => Id3.ID3v2_Tag_get_frame v (srcValue (s.view i) src) = .ok none
        | some a => ∃ f, Id3.ID3v2_Tag_get_frame v (srcValue (s.view i) src) = .ok (some f) ∧
            Spec.fetchFrame (some a) (s'.view i) = .ok (f, s'.view i) := by
  obtain ⟨om, t0⟩ := rtogether h
  have h' := does_reachable h hd
  have b := own_below om
  obtain ⟨l, q, g, g', hi, ha, e⟩ := readers_read h hd hl
  obtain ⟨L, rl⟩ : ∃ L, Rep (s.own i) L := by
    have r := t0.runs i
    rw [show (s.threads i).prog = _ from hi] at r
    exact Own.rep r
  cases l with
  | compat l => exact ha.elim
  | current l =>
    obtain ⟨ht, hs⟩ := ha
    obtain ⟨Ts, Ls, Hs, Us, K, im⟩ := om
    have hxe := im.eq hx
    obtain ⟨A, D, B, rfl, rfl, hA, hB, rm⟩ := im.tag ht
    obtain ⟨a, e1, e2⟩ := interp_ret Same.eq e
    cases e2
    refine ⟨⟨q, hi⟩, ?_⟩
    have rv := rep_view (m := heap) rm rl (t0.apart b i) (t0.bound i).1 g
    rw [t0.view i g] at rv
    have hsrc := src_at rv (s := src) (by cases src <;> exact hs)
    rw [List.append_assoc] at rv hsrc
    rw [srcValue_same] at hsrc
    obtain ⟨w, hw, e3, q1⟩ := refines_ok (tag_get_frame_at rv src _ hsrc) e1
    obtain ⟨a0, h0, e4, e5, q2⟩ := refines_of (tag_get_frame_at (h := heap) rm (.literal _) _ rfl) hw
    cases w with
    | none =>
      have q1 : q' = none := q1
      have q2 : a0 = none := q2
      subst q1 q2
      exact ⟨⟨_, e4⟩, D.value, by rw [hxe]; exact abs_lookup hA, hw⟩
    | some f =>
      obtain ⟨j, n, F, p1, p2, p3, rfl⟩ := q1
      obtain ⟨j', n', F', p1', p2', p3', rfl⟩ := q2
      rw [p1] at p1'
      cases p1'
      rw [p2] at p2'
      cases p2'
      refine ⟨⟨_, e4⟩, D.value, by rw [hxe]; exact abs_lookup hA, f, hw, ?_⟩
      rw [← p3]
      exact fetch_frame (readers_has h' rm fun b hb => mem_frames D b (mem_frameBlocks p2 b hb))

omit p in
theorem chain_nodes {cells : Nat → Option Cell} {head : Nat} : ∀ (sp : List (Nat × Ptr)), Has cells (listNodes head sp) →
    Chain cells (Id3.first sp) (sp.map (·.2))
  | [], _ => .nil
  | _ :: sp, h => .cons h.head (chain_nodes sp h.tail)

omit p in
/-- The frames of the list of matches, as values. -/
theorem match_vals (m : List (Nat × Frame)) :
    m.foldl (fun l p => Id3.FrameList_add_frame l p.2) Id3.FrameList_new =
      match m with
      | [] => [none]
      | m => m.map fun p => some p.2 := by
  cases m with
  | nil => rfl
  | cons x m =>
    show List.foldl _ (some x.2 :: []) m = _
    rw [foldl_add_from]
    rfl

omit p in
theorem matches_same {α : Type} {ms ms' : List (Nat × HFrame)} {l : List (α × Option HFrame)}
    (e : ms.map (fun p => (p.1, p.2.value)) = ms'.map (fun p => (p.1, p.2.value)))
    (h : ∀ p ∈ ms, ∃ n, l[p.1]? = some (n, some p.2)) (h' : ∀ p ∈ ms', ∃ n, l[p.1]? = some (n, some p.2)) : ms = ms' := by
  induction ms generalizing ms' with
  | nil =>
    cases ms' with
    | nil => rfl
    | cons y ms' => cases e
  | cons x ms ih =>
    cases ms' with
    | nil => cases e
    | cons y ms' =>
      simp only [List.map_cons, List.cons.injEq, Prod.mk.injEq] at e
      obtain ⟨⟨e1, -⟩, e2⟩ := e
      obtain ⟨n, hn⟩ := h x List.mem_cons_self
      obtain ⟨n', hn'⟩ := h' y List.mem_cons_self
      rw [e1, hn'] at hn
      obtain ⟨-, e3⟩ := Prod.mk.inj (Option.some.inj hn)
      rw [ih e2 (fun p hp => h p (List.mem_cons_of_mem _ hp)) (fun p hp => h' p (List.mem_cons_of_mem _ hp))]
      congr 1
      exact Prod.ext e1 (Option.some.inj e3).symm

/-- `ID3v2_Tag_get_frames` on a tag of the program: the list of the thread has the frames that a list of the program has,
and they are the frames that the value-level model says. -/
theorem readers_list {m : Local} {x : Abs} {s s' : Forked} {i t : Nat} {src : Src} {l' : Client} {q' : Ptr}
    (h : s.Reachable (.current m) heap) (hx : (m.world heap).Holds x)
    (hd : s.Does (.current m) heap i (.read (.getFrames t src)) s') (hl : s'.Idle i l' q') :
    ∃ fs, Chain (s'.view i).cells q' fs ∧
      (∃ a h', H.ID3v2_Tag_get_frames t (.literal (srcValue (s.view i) src)) heap = .ok (a, h') ∧
        Chain h'.cells (some a) fs) ∧
      ∃ v l, x.tags.lookup t = some v ∧ Id3.ID3v2_Tag_get_frames v (srcValue (s.view i) src) = .ok l ∧
        fs.map (Option.map fun a => Spec.fetchFrame (some a) (s'.view i)) =
          l.map (Option.map fun f => .ok (f, s'.view i)) := by
  obtain ⟨om, t0⟩ := rtogether h
  have h' := does_reachable h hd
  have b := own_below om
  obtain ⟨l, q, g, g', hi, ha, e⟩ := readers_read h hd hl
  obtain ⟨L, rl⟩ : ∃ L, Rep (s.own i) L := by
    have r := t0.runs i
    rw [show (s.threads i).prog = _ from hi] at r
    exact Own.rep r
  cases l with
  | compat l => exact ha.elim
  | current l =>
    obtain ⟨ht, hs⟩ := ha
    obtain ⟨Ts, Ls, Hs, Us, K, im⟩ := om
    have hxe := im.eq hx
    obtain ⟨A, D, B, rfl, rfl, hA, hB, rm⟩ := im.tag ht
    obtain ⟨a, e1, e2⟩ := interp_ret Same.eq e
    cases e2
    have rv := rep_view (m := heap) rm rl (t0.apart b i) (t0.bound i).1 g
    rw [t0.view i g] at rv
    have hsrc := src_at rv (s := src) (by cases src <;> exact hs)
    rw [List.append_assoc] at rv hsrc
    rw [srcValue_same] at hsrc
    obtain ⟨w, hw, ms, f, rest, rfl, hms, r1, hp⟩ := refines_ok (tag_get_frames_at rv src _ hsrc) e1
    obtain ⟨a0, h0, e4, ms', f', rest', hm', hms', r2, hp'⟩ := refines_of (tag_get_frames_at (h := heap) rm (.literal _) _ rfl) hw
    have := matches_same hm' hms hms'
    subst this
    have c1 : Chain (s'.view i g').cells (some a) (f :: rest.map (·.2)) :=
      chain_nodes (head := a) ((a, f) :: rest) fun b hb => (r1.cells _ _).mpr (List.mem_append_left _ hb)
    have c2 : Chain h0.cells (some a0) (f' :: rest'.map (·.2)) :=
      chain_nodes (head := a0) ((a0, f') :: rest') fun b hb => (r2.cells _ _).mpr (List.mem_append_left _ hb)
    rw [hp] at c1
    rw [hp'] at c2
    refine ⟨_, c1, ⟨a0, h0, e4, c2⟩, D.value,
      (ms.map (fun p => (p.1, p.2.value))).foldl (fun l p => Id3.FrameList_add_frame l p.2) Id3.FrameList_new,
      by rw [hxe]; exact abs_lookup hA, ?_, ?_⟩
    · exact (Res.bind_eq_ok.mpr ⟨_, hw, rfl⟩)
    · rw [match_vals]
      have hf : ∀ y ∈ ms, Spec.fetchFrame (some y.2.addr) (s'.view i) = .ok (y.2.value, s'.view i) := fun y hy => by
        obtain ⟨n, hn⟩ := hms y hy
        exact fetch_frame (readers_has h' rm fun b hb => mem_frames D b (mem_frameBlocks hn b hb))
      cases ms with
      | nil => rfl
      | cons y ms =>
        simp only [matchPtrs, List.map_cons, List.map_map, List.cons.injEq]
        refine ⟨by simp [hf y List.mem_cons_self], List.map_congr_left fun z hz => ?_⟩
        simp [hf z (List.mem_cons_of_mem _ hz)]

omit p in
theorem get_match {id : Bytes} : ∀ {l : CList} {f : CFrame}, Id3.get_from_list l id = .ok (some f) →
    strncmpEq 4 f.frame_id id = .ok true
  | [], _, h | none :: _, _, h => by cases h
  | some g :: l, f, h => by
    obtain ⟨b, e, h⟩ := Res.bind_eq_ok.mp h
    cases b with
    | true =>
      cases h
      exact e
    | false => exact get_match h

/-- A getter of the compatibility API. -/
theorem readers_entry {m l : CLocal} {x : CAbs} {s s' : Forked} {i t : Nat} {id : Bytes} {g g' : Nat → Nat} {q' : Ptr}
    (h : s.Reachable (.compat m) heap) (h' : s'.Reachable (.compat m) heap) (hx : (m.world heap).Holds x)
    (o : Own (.compat l) (s.own i)) (ht : t ∈ m.tags) (e : H.tag_get id t (s.view i g) = .ok (q', s'.view i g')) :
    (∃ h', H.tag_get id t heap = .ok (q', h')) ∧ ∃ v, x.tags.lookup t = some v ∧
      match (generalizing := false) q' with
      | none => Id3.get_from_list v.frames id = .ok none
      | some a => ∃ c, Id3.get_from_list v.frames id = .ok (some c) ∧ fetchEntry a (s'.view i) = .ok (c, s'.view i) := by
  obtain ⟨om, t0⟩ := rtogether h
  have b := own_below om
  obtain ⟨L, rl⟩ := o.rep
  obtain ⟨Cs, Os, K, im⟩ := om
  have hxe := im.eq hx
  obtain ⟨A, C, B, rfl, rfl, hlk, hA, hB, rm⟩ := im.tag ht
  have rv := rep_view (m := heap) rm rl (t0.apart b i) (t0.bound i).1 g
  rw [t0.view i g, List.append_assoc] at rv
  obtain ⟨w, hw, e3, q1⟩ := refines_ok (tag_get_spec rv id) e
  obtain ⟨a0, h0, e4, e5, q2⟩ := refines_of (tag_get_spec (h := heap) rm id) hw
  cases w with
  | none =>
    have q1 : q' = none := q1
    have q2 : a0 = none := q2
    subst q1 q2
    exact ⟨⟨_, e4⟩, C.value, by rw [hxe]; exact cabs_lookup hA, hw⟩
  | some f =>
    obtain ⟨j, n, c, p1, p2, p3, rfl⟩ := q1
    obtain ⟨j', n', c', p1', p2', p3', rfl⟩ := q2
    have hm := get_match hw
    have hj : j = j' := by
      rcases Nat.lt_trichotomy j j' with hlt | rfl | hlt
      · obtain ⟨_, e, q1, q2⟩ := p2' j hlt
        rw [p1] at q1
        obtain ⟨-, q3⟩ := Prod.mk.inj (Option.some.inj q1)
        rw [← p3, show c.value.frame_id = c.frame_id from rfl, Option.some.inj q3, q2] at hm
        cases hm
      · rfl
      · obtain ⟨_, e, q1, q2⟩ := p2 j' hlt
        rw [p1'] at q1
        obtain ⟨-, q3⟩ := Prod.mk.inj (Option.some.inj q1)
        rw [← p3', show c'.value.frame_id = c'.frame_id from rfl, Option.some.inj q3, q2] at hm
        cases hm
    subst hj
    rw [p1] at p1'
    obtain ⟨-, q3⟩ := Prod.mk.inj (Option.some.inj p1')
    rw [← Option.some.inj q3] at e4
    refine ⟨⟨_, e4⟩, C.value, by rw [hxe]; exact cabs_lookup hA, f, hw, ?_⟩
    rw [← p3]
    obtain ⟨k1, k2⟩ := H.entry_blocks hlk (List.mem_of_getElem? p1)
    exact fetch_entry (readers_has h' rm k1) (readers_has h' rm k2)

/-- The getters of the compatibility API on a tag of the program: the thread gets the pointer that the program gets, and
behind it is the entry that the value-level model says. -/
theorem readers_field {m : CLocal} {x : CAbs} {s s' : Forked} {i t : Nat} {f : Slot} {l' : Client} {q' : Ptr}
    (h : s.Reachable (.compat m) heap) (hx : (m.world heap).Holds x)
    (hd : s.Does (.compat m) heap i (.read (f.read t)) s') (hl : s'.Idle i l' q') :
    (∃ q, s.Idle i l' q) ∧ (∃ h', f.hget t heap = .ok (q', h')) ∧ ∃ v, x.tags.lookup t = some v ∧
      match (generalizing := false) q' with
      | none => f.get v = .ok none
      | some a => ∃ c, f.get v = .ok (some c) ∧ fetchEntry a (s'.view i) = .ok (c, s'.view i) := by
  have h' := does_reachable h hd
  obtain ⟨l, q, g, g', hi, ha, e⟩ := readers_read h hd hl
  obtain ⟨om, t0⟩ := rtogether h
  have o : Own l (s.own i) := by
    have r := t0.runs i
    rw [show (s.threads i).prog = _ from hi] at r
    exact r
  cases l with
  | current l => cases f <;> exact ha.elim
  | compat l =>
    have ht : t ∈ m.tags := by cases f <;> exact ha
    have hp : ∃ k : Prog Ptr, k.interp = H.tag_get (lit f.id) t ∧
        Read.prog (.compat l) (f.read t) = k >>= fun a => .ret (.compat l, a) := by
      cases f with
      | text f => exact ⟨f.pget t, by cases f <;> exact Same.eq, rfl⟩
      | comment => exact ⟨T.tag_get_comment t, Same.eq, rfl⟩
      | cover => exact ⟨T.tag_get_album_cover t, Same.eq, rfl⟩
    obtain ⟨k, hk, hp⟩ := hp
    rw [hp] at e
    obtain ⟨a, e1, e2⟩ := interp_ret hk e
    cases e2
    refine ⟨⟨q, hi⟩, ?_⟩
    rw [slot_hget]
    have := readers_entry h h' hx o ht e1
    simp only [slot_get]
    exact this

/-- An entry of the program, and the result of a function that parses it. -/
theorem readers_parsed {m : CLocal} {s s' : Forked} {i a e : Nat} {g g' : Nat → Nat} {l : CLocal} {β : Type}
    {x : Nat → HeapM Nat} {v : CFrame → Res β} {R : HFrame → β → HThing → Prop}
    (hs : ∀ {h : Heap} {c : HCFrame} {X : List Block}, Rep h X → (∀ b ∈ c.blocks, b ∈ X) → (∀ b ∈ c.frame.blocks, b ∈ X) →
      Refines (x c.addr h) (v c.value) (fun b a h' => ∃ O, O.addr = a ∧ R c.frame b O ∧ Rep h' (O.blocks ++ X)))
    (h : s.Reachable (.compat m) heap) (h' : s'.Reachable (.compat m) heap) (o : Own (.compat l) (s.own i))
    (ha : EntryLive heap e) (hx : x e (s.view i g) = .ok (a, s'.view i g')) :
    ∃ c b F O, fetchEntry e heap = .ok (c, heap) ∧ v c = .ok b ∧ O.addr = a ∧ R F b O ∧ Has (s'.view i).cells O.blocks ∧
      Has (s'.view i).cells F.blocks := by
  obtain ⟨om, t0⟩ := rtogether h
  have b := own_below om
  obtain ⟨L, rl⟩ := o.rep
  obtain ⟨Cs, Os, K, im⟩ := om
  obtain ⟨C, hC, n, E, hm, rfl⟩ := im.entry ha
  obtain ⟨k1, k2⟩ := im.entry_blocks hC hm
  have rv := rep_view (m := heap) im.rep rl (t0.apart b i) (t0.bound i).1 g
  rw [t0.view i g] at rv
  obtain ⟨w, hw, O, rfl, hR, r1⟩ := refines_ok (hs rv (fun b hb => List.mem_append_left _ (k1 b hb))
    fun b hb => List.mem_append_left _ (k2 b hb)) hx
  have r := im.rep
  rw [← List.append_nil (_ ++ _)] at r
  exact ⟨E.value, w, E.frame, O, im.fetch hC hm, hw, rfl, hR,
    fun b hb => (r1.cells _ _).mpr (List.mem_append_left _ hb), readers_has h' r k2⟩

/-- What a thread gets from a function that parses an entry of the program. -/
theorem readers_parse {m : CLocal} {s s' : Forked} {i e : Nat} {r : Read} {kind : Kind} {k : Prog Nat} {l' : Client} {q' : Ptr}
    {β : Type} {x : Nat → HeapM Nat} {v : CFrame → Res β} {R : HFrame → β → HThing → Prop}
    (hs : ∀ {h : Heap} {c : HCFrame} {X : List Block}, Rep h X → (∀ b ∈ c.blocks, b ∈ X) → (∀ b ∈ c.frame.blocks, b ∈ X) →
      Refines (x c.addr h) (v c.value) (fun b a h' => ∃ O, O.addr = a ∧ R c.frame b O ∧ Rep h' (O.blocks ++ X)))
    (hr : ∀ l view, r.Allowed (.compat m) heap view l → EntryLive heap e ∧ ∃ l1, l = .compat l1 ∧
      r.prog l = k >>= fun a => .ret (.compat { l1 with things := (a, kind) :: l1.things }, some a))
    (hk : k.interp = x e)
    (h : s.Reachable (.compat m) heap) (hd : s.Does (.compat m) heap i (.read r) s') (hl : s'.Idle i l' q') :
    ∃ c b F O, fetchEntry e heap = .ok (c, heap) ∧ v c = .ok b ∧ q' = some O.addr ∧ R F b O ∧
      Has (s'.view i).cells O.blocks ∧ Has (s'.view i).cells F.blocks := by
  have h' := does_reachable h hd
  obtain ⟨l, q, g, g', hi, ha, hx⟩ := readers_read h hd hl
  obtain ⟨om, t0⟩ := rtogether h
  have o : Own l (s.own i) := by
    have r := t0.runs i
    rw [show (s.threads i).prog = _ from hi] at r
    exact r
  obtain ⟨hlive, l1, rfl, hp⟩ := hr _ _ ha
  rw [hp] at hx
  obtain ⟨a, e1, e2⟩ := interp_ret hk hx
  cases e2
  obtain ⟨c, b, F, O, h1, h2, rfl, h3⟩ := readers_parsed hs h h' o hlive e1
  exact ⟨c, b, F, O, h1, h2, rfl, h3⟩

/-- `parse_text_frame_content` on an entry of the program. -/
theorem readers_text {m : CLocal} {s s' : Forked} {i e : Nat} {l' : Client} {q' : Ptr}
    (h : s.Reachable (.compat m) heap) (hd : s.Does (.compat m) heap i (.read (.parseText e)) s') (hl : s'.Idle i l' q') :
    ∃ c v, fetchEntry e heap = .ok (c, heap) ∧ Id3.parse_text_frame_content c = .ok v ∧
      fetchText q' (s'.view i) = .ok (v, s'.view i) := by
  obtain ⟨c, v, F, O, h1, h2, rfl, ⟨a, d, rfl⟩, hO, -⟩ := readers_parse (k := T.parse_text_frame_content e) (kind := .text)
    (R := fun _ v O => ∃ a d, O = .text a d v)
    (fun r hc hF => (parse_text_spec r hc hF).mono fun v a h' _ ⟨d, r⟩ => ⟨.text a d v, rfl, ⟨a, d, rfl⟩, r⟩)
    (fun l view ha => by
      cases l with
      | current l => exact ha.elim
      | compat l => exact ⟨ha, l, rfl, rfl⟩) Same.eq h hd hl
  exact ⟨c, v, h1, h2, fetch_text hO.head hO.tail.head⟩

/-- `parse_comment_frame_content` on an entry of the program. -/
theorem readers_comment {m : CLocal} {s s' : Forked} {i e : Nat} {l' : Client} {q' : Ptr}
    (h : s.Reachable (.compat m) heap) (hd : s.Does (.compat m) heap i (.read (.parseComment e)) s') (hl : s'.Idle i l' q') :
    ∃ c v a, fetchEntry e heap = .ok (c, heap) ∧ Id3.parse_comment_frame_content c = .ok v ∧ q' = some a ∧
      fetchComment a (s'.view i) = .ok (v, s'.view i) := by
  obtain ⟨c, v, F, O, h1, h2, rfl, h3, hO, hF⟩ := readers_parse (k := T.parse_comment_frame_content e) (kind := .comment)
    (R := CommentOf) parse_comment_spec
    (fun l view ha => by
      cases l with
      | current l => exact ha.elim
      | compat l => exact ⟨ha, l, rfl, rfl⟩) Same.eq h hd hl
  exact ⟨c, v, _, h1, h2, rfl, fetch_comment h3 hO hF⟩

/-- `parse_apic_frame_content` on an entry of the program. -/
theorem readers_picture {m : CLocal} {s s' : Forked} {i e : Nat} {l' : Client} {q' : Ptr}
    (h : s.Reachable (.compat m) heap) (hd : s.Does (.compat m) heap i (.read (.parsePicture e)) s') (hl : s'.Idle i l' q') :
    ∃ c v a, fetchEntry e heap = .ok (c, heap) ∧ Id3.parse_apic_frame_content c = .ok v ∧ q' = some a ∧
      fetchPicture a (s'.view i) = .ok (v, s'.view i) := by
  obtain ⟨c, v, F, O, h1, h2, rfl, h3, hO, hF⟩ := readers_parse (k := T.parse_apic_frame_content e) (kind := .picture)
    (R := PictureOf) parse_picture_spec
    (fun l view ha => by
      cases l with
      | current l => exact ha.elim
      | compat l => exact ⟨ha, l, rfl, rfl⟩) Same.eq h hd hl
  exact ⟨c, v, _, h1, h2, rfl, fetch_picture h3 hO hF⟩

/-! ## The program, and the other threads -/

/-- The tags and buffers of the program keep their values, whatever the threads do. -/
theorem readers_main {m : Local} {x : Abs} {s : Forked} (h : s.Reachable (.current m) heap) (hx : (m.world heap).Holds x)
    (g : Nat → Nat) : (m.world ⟨s.cells, s.next, g⟩).Holds x := by
  obtain ⟨Ts, h1, h2, h3, h4, h5, h6⟩ := hx
  exact ⟨Ts, h1, h2, h3, h4, h5, fun b hb => (readers_kept h b.1 b.2 (h6 b hb)).1⟩

/-- The same for the compatibility API. -/
theorem readers_cmain {m : CLocal} {x : CAbs} {s : Forked} (h : s.Reachable (.compat m) heap) (hx : (m.world heap).Holds x)
    (g : Nat → Nat) : (m.world ⟨s.cells, s.next, g⟩).Holds x := by
  obtain ⟨Cs, Os, h1, h2, h3, h4, h5, h6, h7, h8⟩ := hx
  exact ⟨Cs, Os, h1, h2, h3, h4, h5, h6, h7, fun b hb => (readers_kept h b.1 b.2 (h8 b hb)).1⟩

/-- While a thread does nothing, the others change nothing for it: neither its own blocks, nor those of the program. -/
theorem readers_others {s s' : Forked} {es : List (Nat × REvent)} {i : Nat} (h : s.Reachable main heap)
    (ex : RExec main heap s es s') (he : reventsOf i es = []) : s'.threads i = s.threads i ∧ s'.view i = s.view i := by
  obtain ⟨om, t⟩ := rtogether h
  obtain ⟨h1, h2⟩ := rwait t om ex he
  exact ⟨h1, by rw [← (t.exec om ex).view, ← t.view, h2]⟩

theorem idle_own {s : Forked} {i : Nat} {l : Client} {q : Ptr} (h : s.Reachable main heap) (hl : s.Idle i l q) :
    Own l (s.own i) := by
  have r := (rtogether h).2.runs i
  rw [show (s.threads i).prog = _ from hl] at r
  exact r

/-- A call of a thread with its own things changes the values of its tags and buffers and its file as the value-level model
says, whatever the other threads do in the meantime. -/
theorem readers_values {s s' : Forked} {i : Nat} {c : Call} {l' : Client} {q' : Ptr} (h : s.Reachable main heap)
    (hd : s.Does main heap i (.begin (.current c)) s') (hl : s'.Idle i l' q') :
    ∃ l l1 q x f a, s.Idle i (.current l) q ∧ l' = .current l1 ∧ (l.world (s.own i)).Holds x ∧ c.abs (s.own i) x = .ok f ∧
      (l1.world (s'.own i)).Holds (f a) := by
  obtain ⟨l, q, g, g', hi, ha, hr⟩ := readers_call h hd hl
  split at hr
  next l c' l1 e =>
    cases e
    have o := idle_own h hi
    obtain ⟨Ts, Ls, Hs, Us, K, iv⟩ := o.with g
    obtain ⟨Ts0, Ls0, Hs0, Us0, K0, iv0⟩ := o
    have hx : (l.world ((s.own i).with g)).Holds (absOf (l.world (s.own i)) Ts0 Us0) := iv0.holds
    have st := step_ok iv c (@allowed_picks (.current l) (.current c) _ ((s.own i).with g) rfl ha)
    rw [← iv.eq hx, hr] at st
    unfold StepOk at st
    split at st
    next f he =>
      obtain ⟨w', Ts', Ls', Hs', Us', N, a, e, i', ea, -⟩ := st
      cases e
      refine ⟨l, l1, q, _, f, a, hi, rfl, iv0.holds, (abs_cells rfl _ c).trans he, ?_⟩
      rw [← ea]
      exact i'.holds
    next => cases st
    next => cases st
    next => cases st
  next e => cases e
  next => exact hr.elim

/-- The same for the compatibility API. -/
theorem readers_cvalues {s s' : Forked} {i : Nat} {c : CCall} {l' : Client} {q' : Ptr} (h : s.Reachable main heap)
    (hd : s.Does main heap i (.begin (.compat c)) s') (hl : s'.Idle i l' q') :
    ∃ l l1 q x f a, s.Idle i (.compat l) q ∧ l' = .compat l1 ∧ (l.world (s.own i)).Holds x ∧ c.abs (s.own i) x = .ok f ∧
      (l1.world (s'.own i)).Holds (f a) := by
  obtain ⟨l, q, g, g', hi, ha, hr⟩ := readers_call h hd hl
  split at hr
  next e => cases e
  next l c' l1 e =>
    cases e
    have o := idle_own h hi
    obtain ⟨Cs, Os, K, iv⟩ := o.with g
    obtain ⟨Cs0, Os0, K0, iv0⟩ := o
    have hx : (l.world ((s.own i).with g)).Holds (cabs (l.world (s.own i)) Cs0 Os0) := iv0.holds
    have st := cstep_ok iv c (@allowed_picks (.compat l) (.compat c) _ ((s.own i).with g) rfl ha)
    rw [← iv.eq hx, hr] at st
    unfold CStepOk at st
    split at st
    next f he =>
      obtain ⟨w', Cs', Os', N, a, e, i', ea, -⟩ := st
      cases e
      refine ⟨l, l1, q, _, f, a, hi, rfl, iv0.holds, (cabs_cells (h := s.own i) (h' := (s.own i).with g) rfl _ c).trans he, ?_⟩
      rw [← ea]
      exact i'.holds
    next => cases st
    next => cases st
    next => cases st
  next => exact hr.elim

/-! ## Every call ends -/

/-- No thread waits for another one: in every state it can make its next access. -/
theorem readers_progress {s : Forked} {i : Nat} (h : s.Reachable main heap) :
    (∃ s', RStep main heap i s .access s') ∨ (∃ l q, s.Idle i l q) ∨ (∃ k, (s.threads i).prog = .ub k) ∨
      (s.threads i).prog = .exit ∨ (s.threads i).prog = .hang := by
  have safe := fun a => @readers_safe _ main heap s i a h
  unfold Forked.writes Forked.reads at safe
  cases hp : (s.threads i).prog with
  | ret l => exact .inr (.inl ⟨l.1, l.2, hp⟩)
  | ub k => exact .inr (.inr (.inl ⟨k, rfl⟩))
  | exit => exact .inr (.inr (.inr (.inl rfl)))
  | hang => exact .inr (.inr (.inr (.inr rfl)))
  | malloc c k => exact .inl ⟨_, .malloc s.next hp ((rtogether h).2.unused _ (Nat.le_refl _))⟩
  | free a k =>
    rw [hp] at safe
    obtain ⟨_, c, hc⟩ := (safe a).1 rfl
    exact .inl ⟨_, .free hp hc⟩
  | load a k =>
    rw [hp] at safe
    obtain ⟨_, c, hc⟩ := (safe a).2 rfl
    exact .inl ⟨_, .load hp hc⟩
  | store a c' k =>
    rw [hp] at safe
    obtain ⟨_, c, hc⟩ := (safe a).1 rfl
    exact .inl ⟨_, .store hp hc⟩
  | fuel k => exact .inl ⟨_, .fuel hp⟩

omit p in
/-- A program with one access less. -/
inductive Less : Prog (Client × Ptr) → Prog (Client × Ptr) → Prop where
  | malloc (c : Cell) (k : Nat → Prog (Client × Ptr)) (a : Nat) : Less (k a) (.malloc c k)
  | free (a : Nat) (k : Prog (Client × Ptr)) : Less k (.free a k)
  | load (a : Nat) (k : Cell → Prog (Client × Ptr)) (c : Cell) : Less (k c) (.load a k)
  | store (a : Nat) (c : Cell) (k : Prog (Client × Ptr)) : Less k (.store a c k)
  | fuel (k : Nat → Prog (Client × Ptr)) (n : Nat) : Less (k n) (.fuel k)

omit p in
theorem less_acc (q : Prog (Client × Ptr)) : Acc Less q := by
  induction q with
  | ret _ => exact ⟨_, fun _ h => (nomatch h)⟩
  | ub _ => exact ⟨_, fun _ h => (nomatch h)⟩
  | exit => exact ⟨_, fun _ h => (nomatch h)⟩
  | hang => exact ⟨_, fun _ h => (nomatch h)⟩
  | malloc c k ih => exact ⟨_, fun _ h => by cases h; exact ih _⟩
  | free a k ih => exact ⟨_, fun _ h => by cases h; exact ih⟩
  | load a k ih => exact ⟨_, fun _ h => by cases h; exact ih _⟩
  | store a c k ih => exact ⟨_, fun _ h => by cases h; exact ih⟩
  | fuel k ih => exact ⟨_, fun _ h => by cases h; exact ih _⟩

theorem access_less {s s' : Forked} {i : Nat} (st : RStep main heap i s .access s') :
    Less (s'.threads i).prog (s.threads i).prog := by
  cases st with
  | @malloc c k a hp hn =>
    rw [hp]
    show Less (if i = i then _ else _ : RThread).prog _
    rw [if_pos rfl]
    exact .malloc c k a
  | free hp _ => rw [hp, rgo_prog]; exact .free ..
  | load hp _ => rw [hp, rgo_prog]; exact .load ..
  | store hp _ => rw [hp, rgo_prog]; exact .store ..
  | fuel hp => rw [hp, rgo_prog]; exact .fuel ..

/-- Every call ends, whatever the other threads do: in an infinite execution, a thread that begins no call any more, and no
longer looks at blocks of the program, takes only finitely many steps. -/
theorem readers_end {i : Nat} {S : Nat → Forked} {W : Nat → Nat} {E : Nat → REvent} (h : (S 0).Reachable main heap)
    (st : ∀ n, RStep main heap (W n) (S n) (E n) (S (n + 1))) (hb : ∀ n, W n = i → E n = .access) :
    ∃ m, ∀ n, m ≤ n → W n ≠ i := by
  obtain ⟨om, t⟩ := rtogether h
  have reach : ∀ n, RTogether heap (S n) := by
    intro n
    induction n with
    | zero => exact t
    | succ n ih => exact ih.step om (st n)
  have stays : ∀ n d, (∀ k, k < d → W (n + k) ≠ i) → (S (n + d)).threads i = (S n).threads i := by
    intro n d
    induction d with
    | zero => exact fun _ => rfl
    | succ d ih =>
      intro hk
      rw [← ih fun k hlt => hk k (by omega)]
      exact (rstep_other (reach (n + d)) (st (n + d)) (Ne.symm (hk d (by omega)))).1
  have key : ∀ q : Prog (Client × Ptr), Acc Less q → ∀ n, ((S n).threads i).prog = q → ∃ m, ∀ n, m ≤ n → W n ≠ i := by
    intro q hq
    induction hq with
    | intro q _ ih =>
      intro n hn
      by_cases hx : ∃ d, W (n + d) = i
      · obtain ⟨d, hd, hmin⟩ : ∃ d, W (n + d) = i ∧ ∀ k, k < d → W (n + k) ≠ i := by
          obtain ⟨d, hd⟩ := hx
          induction d using Nat.strongRecOn with
          | _ d ihd =>
            by_cases hk : ∃ k, k < d ∧ W (n + k) = i
            · obtain ⟨k, h1, h2⟩ := hk
              exact ihd k h1 h2
            · exact ⟨d, hd, fun k h1 h2 => hk ⟨k, h1, h2⟩⟩
        have s1 := st (n + d)
        rw [hb _ hd, hd] at s1
        have l := access_less s1
        rw [stays n d hmin, hn] at l
        exact ih _ l (n + d + 1) rfl
      · refine ⟨n, fun m hm e => hx ⟨m - n, ?_⟩⟩
        rw [show n + (m - n) = m by omega]
        exact e
  exact key _ (less_acc _) 0 rfl

theorem RExec.cons {s s' s'' : Forked} {i : Nat} {e : REvent} {es : List (Nat × REvent)} (st : RStep main heap i s e s')
    (ex : RExec main heap s' es s'') : RExec main heap s ((i, e) :: es) s'' := by
  induction ex with
  | refl => exact .step .refl st
  | step _ st' ih => exact .step ih st'

theorem RExec.trans {s s' s'' : Forked} {es es' : List (Nat × REvent)} (e1 : RExec main heap s es s')
    (e2 : RExec main heap s' es' s'') : RExec main heap s (es ++ es') s'' := by
  induction e2 with
  | refl => rw [List.append_nil]; exact e1
  | step _ st' ih => rw [← List.append_assoc]; exact .step ih st'

theorem rexec_reachable {s s' : Forked} {es : List (Nat × REvent)} (h : s.Reachable main heap)
    (ex : RExec main heap s es s') : s'.Reachable main heap := by
  obtain ⟨hm, cl, es0, hf, ex0⟩ := h
  exact ⟨hm, cl, _, hf, RExec.trans ex0 ex⟩

omit p in
theorem revents_replicate (i n : Nat) (e : REvent) : reventsOf i (List.replicate n (i, e)) = List.replicate n e := by
  induction n with
  | zero => rfl
  | succ n ih =>
    rw [List.replicate_succ, List.replicate_succ, ← ih]
    unfold reventsOf
    rw [List.filter_cons_of_pos (by simp)]
    rfl

omit p in
theorem revents_other {i j : Nat} (h : i ≠ j) (n : Nat) (e : REvent) : reventsOf i (List.replicate n (j, e)) = [] := by
  unfold reventsOf
  rw [List.filter_eq_nil_iff.mpr fun p hp => by
    rw [List.eq_of_mem_replicate hp]
    simpa using fun e => h e.symm]
  rfl

/-- In every state, a thread can finish its call while the others do nothing. -/
theorem readers_finish {s : Forked} {i : Nat} (h : s.Reachable main heap) :
    ∃ n s', RExec main heap s (List.replicate n (i, .access)) s' ∧
      ((∃ l q, s'.Idle i l q) ∨ (∃ k, (s'.threads i).prog = .ub k) ∨ (s'.threads i).prog = .exit ∨
        (s'.threads i).prog = .hang) := by
  have key : ∀ q : Prog (Client × Ptr), Acc Less q → ∀ s : Forked, s.Reachable main heap → (s.threads i).prog = q →
      ∃ n s', RExec main heap s (List.replicate n (i, .access)) s' ∧
        ((∃ l q, s'.Idle i l q) ∨ (∃ k, (s'.threads i).prog = .ub k) ∨ (s'.threads i).prog = .exit ∨
          (s'.threads i).prog = .hang) := by
    intro q hq
    induction hq with
    | intro q _ ih =>
      intro s h hs
      rcases readers_progress (i := i) h with ⟨s1, st⟩ | hd
      · have l := access_less st
        rw [hs] at l
        obtain ⟨n, s', ex, hd⟩ := ih _ l s1 (rexec_reachable h (.step .refl st)) rfl
        exact ⟨n + 1, s', RExec.cons st ex, hd⟩
      · exact ⟨0, s, .refl, hd⟩
  exact key _ (less_acc _) s h rfl

/-- A thread that is between two calls can read a tag of the program: the call returns, if it does so in a program without
other threads that has the blocks of the program and those of the thread. -/
theorem readers_possible {s : Forked} {i : Nat} {l : Client} {q : Ptr} {r : Read} (h : s.Reachable main heap)
    (hl : s.Idle i l q) (ha : r.Allowed main heap (s.view i) l) (hr : ∀ g, ∃ x, (r.prog l).interp (s.view i g) = .ok x) :
    ∃ s' l' q', s.Does main heap i (.read r) s' ∧ s'.Idle i l' q' ∧ s'.Reachable main heap ∧
      ∀ j, j ≠ i → s'.threads j = s.threads j ∧ s'.view j = s.view j := by
  have st : RStep main heap i s (.read r) _ := .read hl ha
  have h1 := rexec_reachable h (.step .refl st)
  obtain ⟨n, s', ex, hd⟩ := readers_finish (i := i) h1
  have ex' := RExec.cons st ex
  have does : s.Does main heap i (.read r) s' := ⟨_, n, ex', by
    unfold reventsOf
    rw [List.filter_cons_of_pos (by simp)]
    exact congrArg (_ :: ·) (revents_replicate ..)⟩
  have ho : ∀ j, j ≠ i → s'.threads j = s.threads j ∧ s'.view j = s.view j := fun j hj => readers_others h ex' (by
    unfold reventsOf
    rw [List.filter_cons_of_neg (by simpa using fun e => hj e.symm)]
    exact revents_other hj ..)
  obtain ⟨l0, q0, hl0, -, f1, f2, f3⟩ := readers_read_fail h does
  cases hl.symm.trans hl0
  rcases hd with ⟨l', q', hd⟩ | ⟨k, hd⟩ | hd | hd
  · exact ⟨s', l', q', does, hd, does_reachable h does, ho⟩
  · obtain ⟨g, e⟩ := f1 k hd
    obtain ⟨x, e'⟩ := hr g
    rw [e] at e'
    cases e'
  · obtain ⟨g, e⟩ := f2 hd
    obtain ⟨x, e'⟩ := hr g
    rw [e] at e'
    cases e'
  · obtain ⟨g, e⟩ := f3 hd
    obtain ⟨x, e'⟩ := hr g
    rw [e] at e'
    cases e'

/-- `ID3v2_Tag_get_frame` on a tag of the program returns, if the value-level model says so. -/
theorem readers_get_possible {m l : Local} {x : Abs} {s : Forked} {i t : Nat} {src : Src} {q : Ptr} {v : Tag}
    {o : Option Frame} (h : s.Reachable (.current m) heap) (hx : (m.world heap).Holds x) (hl : s.Idle i (.current l) q)
    (hs : Src.Live (s.view i) src) (hv : x.tags.lookup t = some v)
    (ho : Id3.ID3v2_Tag_get_frame v (srcValue (s.view i) src) = .ok o) :
    ∃ s' l' q', s.Does (.current m) heap i (.read (.getFrame t src)) s' ∧ s'.Idle i l' q' ∧
      s'.Reachable (.current m) heap ∧ ∀ j, j ≠ i → s'.threads j = s.threads j ∧ s'.view j = s.view j := by
  obtain ⟨om, t0⟩ := rtogether h
  obtain ⟨L, rl⟩ := (idle_own h hl).rep
  have b := own_below om
  have ht : t ∈ m.tags := by
    have e := holds_tags hx
    show t ∈ (m.world heap).tags
    rw [e]
    exact List.mem_map.mpr ⟨_, lookup_mem hv, rfl⟩
  refine readers_possible h hl (r := .getFrame t src) ⟨ht, hs⟩ fun g => ?_
  obtain ⟨Ts, Ls, Hs, Us, K, im⟩ := om
  have hxe := im.eq hx
  obtain ⟨A, D, B, rfl, rfl, hA, hB, rm⟩ := im.tag ht
  have rv := rep_view (m := heap) rm rl (t0.apart b i) (t0.bound i).1 g
  rw [t0.view i g] at rv
  have hsrc := src_at rv (s := src) (by cases src <;> exact hs)
  rw [List.append_assoc] at rv hsrc
  rw [srcValue_same] at hsrc
  have e : D.value = v := by
    rw [hxe] at hv
    exact Option.some.inj ((abs_lookup hA).symm.trans hv)
  subst e
  obtain ⟨a0, h0, e4, -⟩ := refines_of (tag_get_frame_at rv src _ hsrc) ho
  have e5 : (T.ID3v2_Tag_get_frame D.addr src).interp = H.ID3v2_Tag_get_frame D.addr src := Same.eq
  refine ⟨((.current l, a0), h0), ?_⟩
  show (T.ID3v2_Tag_get_frame D.addr src >>= fun a => Prog.ret (Client.current l, a)).interp (s.view i g) = _
  rw [Prog.interp_bind, HeapM.bind_apply, e5, e4, Res.bind_ok]
  rfl

/-- A program has a tag with a title. It starts threads. Thread 1 begins to look for the title, and its next access is to the
tag; in the meantime thread 0 looks for the title of the same tag, and finds it. -/
example : ∃ (m : Local) (heap : Heap) (s s' : Forked) (t a : Nat) (l' : Client) (f : Frame), s.Reachable (.current m) heap ∧
    s.Does (.current m) heap 0 (.read (.getFrame t (.literal tit2))) s' ∧ s'.Idle 0 l' (some a) ∧
    Spec.fetchFrame (some a) (s'.view 0) = .ok (f, s'.view 0) ∧ f.header.id = tit2.take 4 ∧ s'.reads 1 = some t := by
  obtain ⟨v, f, hv, hget, hid⟩ : ∃ v f, ID3v2_Tag_set_text_frame ID3v2_Tag_new_empty
      ⟨tit2, [some 0, some 0], [some 0x68, some 0]⟩ = .ok v ∧ ID3v2_Tag_get_frame v tit2 = .ok (some f) ∧
      f.header.id = tit2.take 4 := by
    obtain ⟨b, n⟩ := p
    cases b <;> exact ⟨_, _, rfl, rfl, rfl⟩
  obtain ⟨w0, t, hr0, hw0, reach0⟩ := do_call (c := .newTag) (.start none) (s := ⟨[], [], none⟩)
    ⟨[], rfl, rfl, rfl, rfl, List.nodup_nil, nofun⟩ trivial rfl
  have ht0 : t ∈ w0.tags := by rw [holds_tags hw0]; exact List.mem_cons_self
  have e : ([(t, ID3v2_Tag_new_empty)] : List (Nat × Tag)).lookup t = some ID3v2_Tag_new_empty := by simp
  obtain ⟨w, b, hr, hw, reach⟩ := do_call
    (c := .setTextFrame t ⟨.literal tit2, .literal [some 0, some 0], .literal [some 0x68, some 0]⟩) reach0 hw0
    ⟨ht0, trivial, trivial, trivial⟩ (f := fun _ => ⟨setAt t v [(t, ID3v2_Tag_new_empty)], [], none⟩) (by
      show Abs.update ⟨[(t, ID3v2_Tag_new_empty)], _, none⟩ t _ = _
      simp only [Abs.update, e, textValue, srcValue, hv]
      rfl)
  have es : setAt t v [(t, ID3v2_Tag_new_empty)] = [(t, v)] := by simp [setAt]
  rw [es] at hw
  have ht : t ∈ w.tags := by rw [holds_tags hw]; exact List.mem_cons_self
  let m : Local := ⟨w.disk, w.tags, w.lists, w.headers, w.buffers⟩
  have hx : (m.world w.heap).Holds ⟨[(t, v)], [], none⟩ := hw
  have hm : Client.Reachable w.heap (.current m) := reach
  let cl : Nat → Client := fun _ => .current ⟨none, [], [], [], []⟩
  have st : RStep (.current m) w.heap 1 (Forked.start w.heap cl) (.read (.getFrame t (.literal tit2))) _ :=
    .read (l := cl 1) (p := none) rfl ⟨ht, trivial⟩
  have h1 : Forked.Reachable (.current m) w.heap _ := ⟨hm, cl, _, fun i => ⟨rfl, rfl, rfl, rfl⟩, .step .refl st⟩
  have hl : Forked.Idle (Forked.go (Forked.start w.heap cl) 1 (Read.prog (cl 1) (.getFrame t (.literal tit2)))) 0 (cl 0) none :=
    rfl
  obtain ⟨s', l', q', hd, hi, h', ho⟩ := readers_get_possible h1 hx hl (src := .literal tit2) trivial (t := t) (v := v)
    (by simp) hget
  obtain ⟨-, -, v', hv', hq⟩ := readers_get h1 hx hd hi
  have : v' = v := by
    have e : ([(t, v)] : List (Nat × Tag)).lookup t = some v := by simp
    exact Option.some.inj (hv'.symm.trans e)
  subst this
  cases q' with
  | none => cases hget.symm.trans hq
  | some a =>
    obtain ⟨f', hf', hfetch⟩ := hq
    cases hget.symm.trans hf'
    refine ⟨m, w.heap, _, s', t, a, l', f, h1, hd, hi, hfetch, hid, ?_⟩
    unfold Forked.reads
    rw [(ho 1 (by decide)).1]
    rfl

end Id3.Props
