import Verif.Props.Readers
import Verif.Spec.Locked

/-!
# Threads that share tags behind a lock (C81)

Threads read and change the same tags, and hold a readers-writer lock while they do (Spec/Locked.lean).
-/

namespace Id3.Props

open Id3 Id3.Spec Id3.H

variable [p : Platform]

/-! ## The invariant -/

/-- The common blocks, for a thread that shares the lock. -/
def Locked.seen (s : Locked) (i : Nat) : Nat → Option Cell :=
  match (s.threads i).hold with
  | .shared => (s.part none).cells
  | _ => fun _ => none

/-- Whose blocks a thread uses. -/
def Locked.tag (s : Locked) (i : Nat) : Option Nat := (s.threads i).hold.owner i

/-- How a call ends. -/
def LDone (main : Client) (heap : Heap) (s : Locked) (i : Nat) (x : Res (Client × Ptr)) (h : Heap) : Prop :=
  Done x h ∧ ∀ l, (s.threads i).hold = .alone l → ∀ m q, x = .ok (m, q) → InTurn main heap s.log m h

/-- What holds in every state that the threads can reach. -/
structure LTogether (main : Client) (heap : Heap) (s : Locked) : Prop where
  unused : ∀ a, s.next ≤ a → s.cells a = none
  bound : ∀ o, s.bound o ≤ s.next
  lock : s.Lock
  calm : s.Calm → Own s.common (s.part none) ∧ InTurn main heap s.log s.common (s.part none)
  above : ∀ i, (s.threads i).hold = .shared → s.bound none ≤ s.bound (some i)
  saved : ∀ i l, (s.threads i).hold = .alone l → Own l (s.part (some i))
  runs : ∀ i, Runs (Locked.seen s i) (LDone main heap s i) (s.threads i).prog (s.part (Locked.tag s i))

variable {main : Client} {heap : Heap}

omit p in
theorem tag_ne {s : Locked} (k : s.Lock) {i j : Nat} (h : i ≠ j) : Locked.tag s i ≠ Locked.tag s j := by
  unfold Locked.tag
  cases hi : (s.threads i).hold with
  | alone l => rw [k i j l hi (Ne.symm h)]; exact fun e => (nomatch e)
  | nothing =>
    cases hj : (s.threads j).hold with
    | alone l => exact fun e => (nomatch e)
    | _ => exact fun e => h (Option.some.inj e)
  | shared =>
    cases hj : (s.threads j).hold with
    | alone l => exact fun e => (nomatch e)
    | _ => exact fun e => h (Option.some.inj e)

omit p in
/-- While a thread shares the lock nobody holds it alone. -/
theorem shared_calm {s : Locked} (k : s.Lock) {i : Nat} (h : (s.threads i).hold = .shared) : s.Calm := fun j l hj => by
  by_cases e : i = j
  · subst e; rw [h] at hj; cases hj
  · have := k j i l hj e
    rw [h] at this
    cases this

theorem LTogether.apart {s : Locked} (t : LTogether main heap s) {i : Nat} :
    Apart (Locked.seen s i) (s.part (Locked.tag s i)) := by
  unfold Locked.seen Locked.tag
  cases h : (s.threads i).hold with
  | shared =>
    have b := own_below (t.calm (shared_calm t.lock h)).1
    refine ⟨fun a ha => b a (Nat.le_trans (t.above i h) ha), fun a c hc => ?_⟩
    have hc : (if s.owner a = some i then s.cells a else none) = some c := hc
    show (if s.owner a = none then s.cells a else none) = none
    split at hc
    next h => rw [h, if_neg (fun e => (nomatch e))]
    next => cases hc
  | nothing => exact ⟨fun _ _ => rfl, fun _ _ _ => rfl⟩
  | alone l => exact ⟨fun _ _ => rfl, fun _ _ _ => rfl⟩

omit p in
theorem part_view (s : Locked) (i : Nat) (g : Nat → Nat) : (s.part (some i)).view (s.part none).cells g = s.view i g := by
  unfold Heap.view Locked.view Locked.part
  congr 1
  funext a
  show (if s.owner a = some i then s.cells a else none).or (if s.owner a = none then s.cells a else none) = _
  by_cases h : s.owner a = some i
  · simp [h]
  · by_cases h' : s.owner a = none
    · simp [h']
    · simp [h, h']

/-- The block that a thread writes is one of those that it uses. -/
theorem LTogether.writes {s : Locked} (t : LTogether main heap s) {i a : Nat} (h : s.writes i = some a) :
    s.owner a = Locked.tag s i ∧ ∃ c, s.cells a = some c := by
  have r := t.runs i
  unfold Locked.writes at h
  have key : (∃ c, (s.part (Locked.tag s i)).cells a = some c) → s.owner a = Locked.tag s i ∧ ∃ c, s.cells a = some c := by
    rintro ⟨c, hc⟩
    have hc : (if s.owner a = Locked.tag s i then s.cells a else none) = some c := hc
    split at hc
    next h => exact ⟨h, c, hc⟩
    next => cases hc
  cases hp : (s.threads i).prog with
  | free b k => rw [hp] at h r; cases h; exact key r.1
  | store b c k => rw [hp] at h r; cases h; exact key r.1
  | _ => rw [hp] at h; cases h

/-- The block that a thread reads is one of those that it uses, or it is common and the thread shares the lock. -/
theorem LTogether.reads {s : Locked} (t : LTogether main heap s) {i a : Nat} (h : s.reads i = some a) :
    (s.owner a = Locked.tag s i ∨ s.owner a = none ∧ (s.threads i).hold = .shared) ∧ ∃ c, s.cells a = some c := by
  have r := t.runs i
  unfold Locked.reads at h
  cases hp : (s.threads i).prog with
  | load x k =>
    rw [hp] at h r
    cases h
    obtain ⟨c, hc, -⟩ := r
    have hc : (if s.owner a = Locked.tag s i then s.cells a else none).or (Locked.seen s i a) = some c := hc
    split at hc
    next h =>
      refine ⟨.inl h, ?_⟩
      cases e : s.cells a with
      | some c => exact ⟨c, rfl⟩
      | none =>
        rw [e, Option.none_or] at hc
        unfold Locked.seen at hc
        cases hh : (s.threads i).hold with
        | shared =>
          rw [hh] at hc
          have hc : (if s.owner a = none then s.cells a else none) = some c := hc
          rw [e] at hc
          split at hc <;> cases hc
        | nothing => rw [hh] at hc; cases hc
        | alone l => rw [hh] at hc; cases hc
    next h =>
      rw [Option.none_or] at hc
      unfold Locked.seen at hc
      cases hh : (s.threads i).hold with
      | shared =>
        rw [hh] at hc
        have hc : (if s.owner a = none then s.cells a else none) = some c := hc
        split at hc
        next h => exact ⟨.inr ⟨h, rfl⟩, c, hc⟩
        next => cases hc
      | nothing => rw [hh] at hc; cases hc
      | alone l => rw [hh] at hc; cases hc
  | _ => rw [hp] at h; cases h

/-! ## Steps -/

omit p in
theorem lgo_self (s : Locked) (i : Nat) (q : Prog (Client × Ptr)) : (s.go i q).threads i = { s.threads i with prog := q } :=
  if_pos rfl

omit p in
theorem lgo_hold (s : Locked) (i : Nat) (q : Prog (Client × Ptr)) : ((s.go i q).threads i).hold = (s.threads i).hold := by
  rw [lgo_self]

omit p in
theorem lgo_other {s : Locked} {i j : Nat} (h : i ≠ j) (q : Prog (Client × Ptr)) : (s.go j q).threads i = s.threads i :=
  if_neg h

omit p in
theorem lset_part {s : Locked} {a : Nat} {o : Option Nat} (h : s.owner a = o) (c : Option Cell) :
    (s.set a c).part o = (s.part o).set a c := by
  unfold Locked.part Locked.set Heap.set
  congr 1
  funext x
  by_cases hx : x = a
  · subst hx
    simp [h]
  · simp [hx]

omit p in
theorem lset_other {s : Locked} {a : Nat} {o : Option Nat} (h : s.owner a ≠ o) (c : Option Cell) :
    (s.set a c).part o = s.part o := by
  unfold Locked.part Locked.set
  congr 1
  funext x
  by_cases hx : x = a
  · subst hx
    rw [if_neg h, if_neg h]
  · simp [hx]

/-- The blocks that a step of a thread can change. -/
theorem lstep_part {s s' : Locked} {j : Nat} {e : LEvent} (t : LTogether main heap s) (st : LStep j s e s') {o : Option Nat}
    (h : o ≠ Locked.tag s j) (ho : e = .share → o ≠ some j) : s'.part o = s.part o := by
  have hj : ∀ a, s.writes j = some a → s.owner a ≠ o := fun a ha e => h (e.symm.trans (t.writes ha).1)
  cases st with
  | share hp =>
    unfold Locked.part
    congr 1
    exact if_neg (ho rfl)
  | @malloc c k q a hp hn hq =>
    have hq' : o ≠ q := fun e => h (e.trans hq.symm)
    unfold Locked.part
    congr 1
    · funext x
      by_cases hx : x = a
      · subst hx
        show (if (if x = x then q else _) = o then _ else none) = _
        rw [if_pos rfl, if_neg (Ne.symm hq'), hn, ite_self]
      · show (if (if x = a then q else _) = o then (if x = a then _ else _) else none) = _
        rw [if_neg hx, if_neg hx]
    · exact if_neg hq'
  | @free a c k hp hc => exact lset_other (hj a (by unfold Locked.writes; rw [hp])) none
  | @store a c c' k hp hc => exact lset_other (hj a (by unfold Locked.writes; rw [hp])) (some c')
  | _ => rfl

omit p in
/-- A step of a thread changes nothing for the others. -/
theorem lstep_other [Platform] {s s' : Locked} {i j : Nat} {e : LEvent} (st : LStep j s e s') (h : i ≠ j) :
    s'.threads i = s.threads i := by
  cases st with
  | look _ _ _ => rfl
  | _ => exact if_neg h

omit p in
/-- An access does not change whether the thread holds the lock. -/
theorem laccess_hold [Platform] {s s' : Locked} {i : Nat} (st : LStep i s .access s') :
    (s'.threads i).hold = (s.threads i).hold ∧ s'.log = s.log ∧ s'.common = s.common := by
  cases st with
  | malloc _ _ _ _ => exact ⟨lgo_hold .., rfl, rfl⟩
  | free _ _ => exact ⟨lgo_hold .., rfl, rfl⟩
  | load _ _ => exact ⟨lgo_hold .., rfl, rfl⟩
  | store _ _ => exact ⟨lgo_hold .., rfl, rfl⟩
  | fuel _ => exact ⟨lgo_hold .., rfl, rfl⟩

/-- An access of a thread: it goes on with its call. -/
theorem lstep_own {s s' : Locked} {i : Nat} {Q : Res (Client × Ptr) → Heap → Prop} (t : LTogether main heap s)
    (st : LStep i s .access s') (r : Runs (Locked.seen s i) Q (s.threads i).prog (s.part (Locked.tag s i))) :
    Runs (Locked.seen s i) Q (s'.threads i).prog (s'.part (Locked.tag s i)) := by
  have hw := fun a (ha : s.writes i = some a) => (t.writes ha).1
  cases st with
  | @malloc c k o a hp hn ho =>
    rw [hp] at r
    have e : (Locked.part { s.go i (k a) with
        cells := fun x => if x = a then some c else s.cells x, next := max s.next (a + 1),
        owner := fun x => if x = a then o else s.owner x,
        bound := fun q => if q = o then max (s.bound o) (a + 1) else s.bound q } (Locked.tag s i)) = (s.part (Locked.tag s i)).add a c := by
      rw [show Locked.tag s i = o from ho]
      unfold Locked.part Heap.add
      congr 1
      · funext x
        by_cases hx : x = a
        · simp [hx]
        · simp [hx]
      · simp
    rw [e, show ((_ : Locked).threads i) = _ from lgo_self s i (k a)]
    refine r a (Option.or_eq_none_iff.mpr ⟨?_, ?_⟩)
    · show (if s.owner a = Locked.tag s i then s.cells a else none) = none
      rw [hn, ite_self]
    · unfold Locked.seen
      cases (s.threads i).hold with
      | shared =>
        show (if s.owner a = none then s.cells a else none) = none
        rw [hn, ite_self]
      | _ => rfl
  | @free a c k hp hc =>
    rw [lgo_self]
    rw [hp] at r
    rw [show ((s.set a none).go i k).part (Locked.tag s i) = _ from lset_part (hw a (by unfold Locked.writes; rw [hp])) none]
    exact r.2
  | @load a c k hp hc =>
    rw [lgo_self]
    have hr := (t.reads (i := i) (a := a) (by unfold Locked.reads; rw [hp])).1
    rw [hp] at r
    obtain ⟨c', e, r⟩ := r
    have e : (if s.owner a = Locked.tag s i then s.cells a else none).or (Locked.seen s i a) = some c' := e
    have : c' = c := by
      rcases hr with h | ⟨h, hs⟩
      · rw [if_pos h, hc, Option.some_or] at e
        exact (Option.some.inj e).symm
      · unfold Locked.seen Locked.tag at e
        rw [hs] at e
        have e : (if s.owner a = some i then s.cells a else none).or (if s.owner a = none then s.cells a else none) = some c' := e
        rw [h, if_neg (fun e => (nomatch e)), if_pos rfl, hc, Option.none_or] at e
        exact (Option.some.inj e).symm
    subst this
    exact r
  | @store a c c' k hp hc =>
    rw [lgo_self]
    rw [hp] at r
    rw [show ((s.set a (some c')).go i k).part (Locked.tag s i) = _ from
      lset_part (hw a (by unfold Locked.writes; rw [hp])) (some c')]
    exact r.2
  | fuel hp =>
    rw [lgo_self]
    rw [hp] at r
    exact r

/-- A step that is not about the lock. -/
def Plain : LEvent → Prop
  | .share | .seize | .release | .change _ => False
  | _ => True

omit p in
theorem plain_same [Platform] {s s' : Locked} {i : Nat} {e : LEvent} (st : LStep i s e s') (q : Plain e) :
    (∀ j, (s'.threads j).hold = (s.threads j).hold) ∧ s'.log = s.log ∧ s'.common = s.common := by
  refine ⟨fun j => ?_, ?_⟩
  · by_cases h : j = i
    · subst h
      cases st with
      | share _ => exact q.elim
      | seize _ => exact q.elim
      | unshare _ => exact q.elim
      | unseize _ => exact q.elim
      | change _ _ => exact q.elim
      | look _ _ _ => rfl
      | malloc _ _ _ _ => exact lgo_hold ..
      | free _ _ => exact lgo_hold ..
      | load _ _ => exact lgo_hold ..
      | store _ _ => exact lgo_hold ..
      | fuel _ => exact lgo_hold ..
      | begin _ _ _ => exact lgo_hold ..
      | read _ _ => exact lgo_hold ..
    · rw [lstep_other st h]
  · cases st <;> first | exact q.elim | exact ⟨rfl, rfl⟩

omit p in
theorem calm_tag {s : Locked} (k : s.Calm) (i : Nat) : Locked.tag s i = some i := by
  unfold Locked.tag
  cases h : (s.threads i).hold with
  | alone l => exact absurd h (k i l)
  | _ => rfl

/-- The call of a program without threads. -/
theorem makes_of {m m' : Client} {h h' : Heap} {c : AnyCall} {q : Ptr} (ha : c.Allowed h m) {g g' : Nat → Nat}
    (e : (c.prog m >>= fun l => Prog.ret (l, (none : Ptr))).interp (h.with g) = .ok ((m', q), h'.with g')) :
    c.Makes m (h.with g) m' (h'.with g') := by
  rw [Prog.interp_bind, HeapM.bind_apply] at e
  obtain ⟨⟨l1, h1⟩, e1, e2⟩ := Res.bind_eq_ok.mp e
  have : Res.ok ((l1, (none : Ptr)), h1) = Res.ok ((m', q), h'.with g') := e2
  simp only [Res.ok.injEq, Prod.mk.injEq] at this
  obtain ⟨⟨rfl, rfl⟩, rfl⟩ := this
  cases m with
  | current l =>
    cases c with
    | compat c => exact ha.elim
    | current c =>
      rw [current_same] at e1
      obtain ⟨w, e3, e4⟩ := Res.bind_eq_ok.mp e1
      simp only [Res.ok.injEq, Prod.mk.injEq] at e4
      obtain ⟨rfl, hw⟩ := e4
      rw [← hw]
      exact e3
  | compat l =>
    cases c with
    | current c => exact ha.elim
    | compat c =>
      rw [compat_same] at e1
      obtain ⟨w, e3, e4⟩ := Res.bind_eq_ok.mp e1
      simp only [Res.ok.injEq, Prod.mk.injEq] at e4
      obtain ⟨rfl, hw⟩ := e4
      rw [← hw]
      exact e3

omit p in
theorem own_same {l : Client} {h h' : Heap} (o : Own l h) (e : h'.cells = h.cells) (le : h.next ≤ h'.next) : Own l h' := by
  cases l with
  | current l =>
    obtain ⟨Ts, Ls, Hs, Us, K, i⟩ := o
    exact ⟨Ts, Ls, Hs, Us, K, Rep.same i.rep (fun a => congrFun e a) le, i.tags, i.lists, i.headers, i.buffers⟩
  | compat l =>
    obtain ⟨Cs, Os, K, i⟩ := o
    exact ⟨Cs, Os, K, Rep.same i.rep (fun a => congrFun e a) le, i.linked, i.tags, i.things, i.quiet⟩

theorem LTogether.idle {s : Locked} (t : LTogether main heap s) {i : Nat} {l : Client} {q : Ptr} (h : s.Idle i l q) :
    Own l (s.part (Locked.tag s i)) ∧
      ∀ l', (s.threads i).hold = .alone l' → InTurn main heap s.log l (s.part none) := by
  have r := t.runs i
  rw [show (s.threads i).prog = _ from h] at r
  obtain ⟨r1, r2⟩ := r
  refine ⟨r1, fun l' hl => ?_⟩
  have := r2 l' hl l q rfl
  unfold Locked.tag at this
  rwa [hl] at this

omit p in
/-- Before a thread took the lock alone, nobody held it so. -/
theorem seize_calm {s : Locked} {i : Nat} {m l : Client} {q : Prog (Client × Ptr)} (h : s.threads i = ⟨q, .nothing⟩)
    (k : (s.turn i m (.alone l)).Lock) : s.Calm := fun j l' hj => by
  by_cases e : j = i
  · subst e; rw [h] at hj; cases hj
  · have h1 := k i j l (by show (if i = i then _ else _ : LThread).hold = _; rw [if_pos rfl]) e
    have h2 : (s.turn i m (.alone l)).threads j = s.threads j := if_neg e
    rw [h2, hj] at h1
    cases h1

theorem LTogether.step {s s' : Locked} {j : Nat} {e : LEvent} (t : LTogether main heap s) (st : LStep j s e s')
    (k : s'.Lock) : LTogether main heap s' := by
  have nothing_tag : (s.threads j).hold = .nothing → Locked.tag s j = some j := fun h => by unfold Locked.tag; rw [h]; rfl
  -- the parts of the memory
  have hpart : ∀ i, i ≠ j → s'.part (some i) = s.part (some i) := fun i hi => by
    refine lstep_part t st ?_ fun _ e => hi (Option.some.inj e)
    unfold Locked.tag
    cases (s.threads j).hold <;> intro e <;> first | exact hi (Option.some.inj e) | cases e
  have hnone : Locked.tag s j ≠ none → s'.part none = s.part none := fun h =>
    lstep_part t st (Ne.symm h) fun _ e => (nomatch e)
  have hshared : ∀ i, i ≠ j → (s.threads i).hold = .shared → Locked.tag s j ≠ none := fun i hi h => by
    unfold Locked.tag
    cases hj : (s.threads j).hold with
    | alone l => have := t.lock j i l hj hi; rw [h] at this; cases this
    | _ => exact fun e => (nomatch e)
  have hself : (s.threads j).hold = .shared → Locked.tag s j ≠ none := fun h => by
    unfold Locked.tag
    rw [h]
    exact fun e => (nomatch e)
  refine ⟨?_, ?_, k, ?_, ?_, ?_, fun i => ?_⟩
  · cases st with
    | @malloc c k o a hp hn ho =>
      intro x (hx : max s.next (a + 1) ≤ x)
      show (if x = a then _ else _) = _
      rw [if_neg (by omega), t.unused x (by omega)]
    | @free a c k hp hc =>
      intro x hx
      show (if x = a then _ else _) = _
      split
      next => rfl
      next => exact t.unused x hx
    | @store a c c' k hp hc =>
      intro x hx
      show (if x = a then _ else _) = _
      have hx : s.next ≤ x := hx
      split
      next h => rw [h] at hx; rw [t.unused a hx] at hc; cases hc
      next => exact t.unused x hx
    | _ => exact t.unused
  · intro o
    cases st with
    | @malloc c k q a hp hn hq =>
      show (if o = q then max (s.bound q) (a + 1) else s.bound o) ≤ max s.next (a + 1)
      have := t.bound o
      have := t.bound q
      split <;> omega
    | share hp =>
      show (if o = some j then max (s.bound o) (s.bound none) else s.bound o) ≤ s.next
      have := t.bound o
      have := t.bound none
      split <;> omega
    | _ => exact t.bound o
  · intro hc
    have plain : Plain e → Own s'.common (s'.part none) ∧ InTurn main heap s'.log s'.common (s'.part none) := fun q => by
      obtain ⟨h1, h2, h3⟩ := plain_same st q
      have hs : s.Calm := fun i l => by rw [← h1 i]; exact hc i l
      rw [h2, h3, hnone (by rw [calm_tag hs]; exact fun e => (nomatch e))]
      exact t.calm hs
    cases st with
    | @share l q hp =>
      have hs : s.Calm := fun i l hi => by
        by_cases hij : i = j
        · subst hij; rw [hp] at hi; cases hi
        · refine hc i l ?_
          rw [show (Locked.threads _ i) = s.threads i from if_neg hij]
          exact hi
      have := hnone (by rw [calm_tag hs]; exact fun e => (nomatch e))
      rw [this]
      exact t.calm hs
    | @seize l q hp => exact absurd (show (if j = j then _ else _ : LThread).hold = _ by rw [if_pos rfl]) (hc j l)
    | @unshare l q hp =>
      exact t.calm (shared_calm t.lock (i := j) (by rw [hp]))
    | @unseize m l q hp =>
      have hi := t.idle (i := j) (l := m) (q := q) (by unfold Locked.Idle; rw [hp])
      have ht : Locked.tag s j = none := by unfold Locked.tag; rw [hp]; rfl
      rw [ht] at hi
      exact ⟨hi.1, hi.2 l (by rw [hp])⟩
    | @change m l q c hp ha =>
      refine absurd ?_ (hc j l)
      show ((s.go j _).threads j).hold = _
      rw [lgo_hold, hp]
    | begin _ _ _ => exact plain trivial
    | read _ _ => exact plain trivial
    | look _ _ _ => exact plain trivial
    | malloc _ _ _ _ => exact plain trivial
    | free _ _ => exact plain trivial
    | load _ _ => exact plain trivial
    | store _ _ => exact plain trivial
    | fuel _ => exact plain trivial
  · intro i hi
    by_cases hij : i = j
    · subst hij
      have plain : Plain e → (s.threads i).hold = .shared := fun q => by rw [← (plain_same st q).1 i]; exact hi
      cases st with
      | @share l q hp =>
        show (if none = some i then max (s.bound none) (s.bound none) else s.bound none) ≤
          if some i = some i then max (s.bound (some i)) (s.bound none) else s.bound (some i)
        rw [if_pos rfl, if_neg (fun e => (nomatch e))]
        exact Nat.le_max_right ..
      | @seize l q hp =>
        have : (if i = i then _ else _ : LThread).hold = _ := hi
        rw [if_pos rfl] at this
        cases this
      | @unshare l q hp =>
        have : (if i = i then _ else _ : LThread).hold = _ := hi
        rw [if_pos rfl] at this
        cases this
      | @unseize m l q hp =>
        have : (if i = i then _ else _ : LThread).hold = _ := hi
        rw [if_pos rfl] at this
        cases this
      | @change m l q c hp ha =>
        have : ((s.go i _).threads i).hold = _ := hi
        rw [lgo_hold, hp] at this
        cases this
      | @malloc c k o a hp hn ho =>
        have hs := plain trivial
        rw [hs] at ho
        subst ho
        show (if none = some i then max (s.bound (some i)) (a + 1) else s.bound none) ≤
          if some i = some i then max (s.bound (some i)) (a + 1) else s.bound (some i)
        rw [if_pos rfl, if_neg (fun e => (nomatch e))]
        exact Nat.le_trans (t.above i hs) (Nat.le_max_left ..)
      | begin _ _ _ => exact t.above i (plain trivial)
      | read _ _ => exact t.above i (plain trivial)
      | look _ _ _ => exact t.above i (plain trivial)
      | free _ _ => exact t.above i (plain trivial)
      | load _ _ => exact t.above i (plain trivial)
      | store _ _ => exact t.above i (plain trivial)
      | fuel _ => exact t.above i (plain trivial)
    · rw [lstep_other st hij] at hi
      have h1 := congrArg Heap.next (hpart i hij)
      have h2 := congrArg Heap.next (hnone (hshared i hij hi))
      have h1 : s'.bound (some i) = s.bound (some i) := h1
      have h2 : s'.bound none = s.bound none := h2
      rw [h1, h2]
      exact t.above i hi
  · intro i l hi
    by_cases hij : i = j
    · subst hij
      have stay : ∀ {m}, (s.threads i).hold = .alone m → e ≠ .share → s'.part (some i) = s.part (some i) := fun h hne => by
        refine lstep_part t st ?_ fun h => absurd h hne
        unfold Locked.tag
        rw [h]
        exact fun e => (nomatch e)
      have plain : Plain e → Own l (s'.part (some i)) := fun q => by
        rw [(plain_same st q).1 i] at hi
        rw [stay hi (by rintro rfl; exact q.elim)]
        exact t.saved i l hi
      cases st with
      | @share l q hp =>
        have : (if i = i then _ else _ : LThread).hold = _ := hi
        rw [if_pos rfl] at this
        cases this
      | @seize l q hp =>
        have : (if i = i then _ else _ : LThread).hold = _ := hi
        rw [if_pos rfl] at this
        cases this
        have := (t.idle (i := i) (l := l) (q := q) (by unfold Locked.Idle; rw [hp])).1
        rwa [nothing_tag (by rw [hp])] at this
      | @unshare l q hp =>
        have : (if i = i then _ else _ : LThread).hold = _ := hi
        rw [if_pos rfl] at this
        cases this
      | @unseize m l q hp =>
        have : (if i = i then _ else _ : LThread).hold = _ := hi
        rw [if_pos rfl] at this
        cases this
      | @change m l q c hp ha =>
        have : ((s.go i _).threads i).hold = _ := hi
        rw [lgo_hold] at this
        exact t.saved i _ this
      | begin _ _ _ => exact plain trivial
      | read _ _ => exact plain trivial
      | look _ _ _ => exact plain trivial
      | malloc _ _ _ _ => exact plain trivial
      | free _ _ => exact plain trivial
      | load _ _ => exact plain trivial
      | store _ _ => exact plain trivial
      | fuel _ => exact plain trivial
    · rw [lstep_other st hij] at hi
      rw [hpart i hij]
      exact t.saved i l hi
  · by_cases hij : i = j
    · subst hij
      have acc : e = .access →
          Runs (Locked.seen s' i) (LDone main heap s' i) (s'.threads i).prog (s'.part (Locked.tag s' i)) := by
        rintro rfl
        obtain ⟨h1, h2, -⟩ := laccess_hold st
        have e1 : Locked.tag s' i = Locked.tag s i := by unfold Locked.tag; rw [h1]
        have e2 : Locked.seen s' i = Locked.seen s i := by
          unfold Locked.seen
          rw [h1]
          cases hh : (s.threads i).hold with
          | shared => simp only [hnone (hself hh)]
          | _ => rfl
        rw [e1, e2]
        refine lstep_own t st ((t.runs i).mono fun x h hx => ⟨hx.1, ?_⟩)
        rw [h1, h2]
        exact hx.2
      cases st with
      | @share l q hp =>
        have ho := (t.idle (i := i) (l := l) (q := q) (by unfold Locked.Idle; rw [hp])).1
        rw [nothing_tag (by rw [hp])] at ho
        have ht : (Locked.threads { s.turn i l .shared with
            bound := fun o => if o = some i then max (s.bound o) (s.bound none) else s.bound o } i) =
            ⟨.ret (l, none), .shared⟩ := if_pos rfl
        unfold Locked.tag LDone
        rw [ht]
        refine ⟨own_same ho rfl ?_, fun l' h => (nomatch h)⟩
        show s.bound (some i) ≤ if some i = some i then max (s.bound (some i)) (s.bound none) else s.bound (some i)
        rw [if_pos rfl]
        exact Nat.le_max_left ..
      | @seize l q hp =>
        have ⟨h1, h2⟩ := t.calm (seize_calm hp k)
        have ht : ((s.turn i s.common (.alone l)).threads i) = ⟨.ret (s.common, none), .alone l⟩ := if_pos rfl
        unfold Locked.tag LDone
        rw [ht]
        refine ⟨h1, fun l' _ m q e => ?_⟩
        cases e
        exact h2
      | @unshare l q hp =>
        have ho := (t.idle (i := i) (l := l) (q := q) (by unfold Locked.Idle; rw [hp])).1
        have htag : Locked.tag s i = some i := by unfold Locked.tag; rw [hp]; rfl
        rw [htag] at ho
        have ht : ((s.turn i l .nothing).threads i) = ⟨.ret (l, none), .nothing⟩ := if_pos rfl
        unfold Locked.tag LDone
        rw [ht]
        exact ⟨ho, fun l' h => (nomatch h)⟩
      | @unseize m l q hp =>
        have ho := t.saved i l (by rw [hp])
        have ht : (Locked.threads { s.turn i l .nothing with common := m } i) = ⟨.ret (l, none), .nothing⟩ := if_pos rfl
        unfold Locked.tag LDone
        rw [ht]
        exact ⟨ho, fun l' h => (nomatch h)⟩
      | @begin l q c hp hh ha =>
        have ho := (t.idle (i := i) (l := l) (q := q) hp).1
        have htag : Locked.tag s i = some i := hh
        have d := t.apart (i := i)
        have e1 : Locked.tag (s.go i (c.prog l >>= fun l => .ret (l, none))) i = some i := by
          unfold Locked.tag; rw [lgo_hold]; exact hh
        have e2 : Locked.seen (s.go i (c.prog l >>= fun l => .ret (l, none))) i = Locked.seen s i := by
          unfold Locked.seen; rw [lgo_hold]; rfl
        rw [e1, e2, lgo_self]
        rw [htag] at d ho
        refine (runs_own ho ha d).mono fun x h hx => ⟨hx.2, fun l' hl => ?_⟩
        rw [lgo_hold] at hl
        rw [hl] at hh
        cases hh
      | @change m l q c hp ha =>
        have hi := t.idle (i := i) (l := m) (q := q) (by unfold Locked.Idle; rw [hp])
        have hh : (s.threads i).hold = .alone l := by rw [hp]
        have htag : Locked.tag s i = none := by unfold Locked.tag; rw [hh]; rfl
        rw [htag] at hi
        have ht : (Locked.threads { s.go i (c.prog m >>= fun m => .ret (m, none)) with log := s.log ++ [c] } i) =
            ⟨c.prog m >>= fun m => .ret (m, none), .alone l⟩ := by
          show (s.go i _).threads i = _
          rw [lgo_self, hp]
        unfold Locked.tag LDone Locked.seen
        rw [ht]
        refine (runs_own (S := fun _ => none) hi.1 ha ⟨fun _ _ => rfl, fun _ _ _ => rfl⟩).mono
          fun x h hx => ⟨hx.2, fun l' _ m' q' e => ?_⟩
        subst e
        obtain ⟨⟨-, g, g', e⟩, -⟩ := hx
        exact .call g g' (hi.2 l hh) ha (makes_of ha e)
      | @read l q r hp ha =>
        have ho := (t.idle (i := i) (l := l) (q := q) (by unfold Locked.Idle; rw [hp])).1
        have hh : (s.threads i).hold = .shared := by rw [hp]
        have htag : Locked.tag s i = some i := by unfold Locked.tag; rw [hh]; rfl
        have hseen : Locked.seen s i = (s.part none).cells := by unfold Locked.seen; rw [hh]
        have d := t.apart (i := i)
        have e1 : Locked.tag (s.go i (r.prog l)) i = some i := by
          unfold Locked.tag; rw [lgo_hold]; exact htag
        have e2 : Locked.seen (s.go i (r.prog l)) i = (s.part none).cells := by
          unfold Locked.seen; rw [lgo_hold, hh]; rfl
        rw [e1, e2, lgo_self]
        rw [htag] at d ho
        rw [hseen] at d
        have om := (t.calm (shared_calm t.lock hh)).1
        refine (runs_read om ho d (t.above i hh) (r := r) (by rw [part_view]; exact ha)).mono
          fun x h hx => ⟨hx.2, fun l' hl => ?_⟩
        rw [lgo_hold, hh] at hl
        cases hl
      | look hp ho hc => exact t.runs i
      | _ => exact acc rfl
    · have ht := lstep_other st hij
      have htag : Locked.tag s' i = Locked.tag s i := by unfold Locked.tag; rw [ht]
      have hp : s'.part (Locked.tag s i) = s.part (Locked.tag s i) :=
        lstep_part t st (tag_ne t.lock hij) fun _ e => by
          unfold Locked.tag at e
          cases hh : (s.threads i).hold <;> rw [hh] at e <;> first | exact hij (Option.some.inj e) | cases e
      have hseen : Locked.seen s' i = Locked.seen s i := by
        unfold Locked.seen
        rw [ht]
        cases hh : (s.threads i).hold with
        | shared => simp only [hnone (hshared i hij hh)]
        | _ => rfl
      rw [htag, hseen, hp, ht]
      refine (t.runs i).mono fun x h hx => ⟨hx.1, fun l hl m q hm => ?_⟩
      rw [ht] at hl
      have := hx.2 l hl m q hm
      have hlog : s'.log = s.log := by
        have hj := t.lock i j l hl (Ne.symm hij)
        cases st with
        | change hp' ha => rw [hp'] at hj; cases hj
        | _ => rfl
      rw [hlog]
      exact this

theorem LTogether.exec {s s' : Locked} {es : List (Nat × LEvent)} (t : LTogether main heap s)
    (ex : LExec Locked.Lock s es s') : LTogether main heap s' := by
  induction ex with
  | refl => exact t
  | step _ st k ih => exact ih.step st k

theorem ltogether {s : Locked} (h : s.Reachable Locked.Lock main heap) : LTogether main heap s := by
  obtain ⟨hm, cl, es, hf, ex⟩ := h
  have om := own_main hm
  have hn : ∀ i, ((Locked.start main heap cl).threads i) = ⟨.ret (cl i, none), .nothing⟩ := fun _ => rfl
  have hc : (Locked.start main heap cl).part none = { heap with picks := fun _ => 0 } := by
    unfold Locked.part Locked.start
    simp
  refine LTogether.exec (s := Locked.start main heap cl) ⟨own_below om, fun _ => Nat.le_refl _, fun i j l h => (nomatch h),
    fun _ => ⟨?_, ?_⟩, fun i h => (nomatch h), fun i l h => (nomatch h), fun i => ⟨?_, fun l h => (nomatch h)⟩⟩ ex
  · rw [hc]
    exact om.with _
  · rw [hc]
    exact .nil rfl rfl
  · refine own_fresh (hf i) _ fun a => ?_
    show (if (none : Option Nat) = some i then heap.cells a else none) = none
    rw [if_neg (fun e => (nomatch e))]

/-! ## While a call runs -/

omit p in
theorem levents_last {i j : Nat} {es : List (Nat × LEvent)} {e : LEvent} :
    leventsOf i (es ++ [(j, e)]) = if j = i then leventsOf i es ++ [e] else leventsOf i es := by
  unfold leventsOf
  rw [List.filter_append, List.map_append]
  by_cases h : j = i
  · rw [if_pos h, List.filter_cons_of_pos (by simpa using h)]
    rfl
  · rw [if_neg h, List.filter_cons_of_neg (by simpa using h)]
    exact List.append_nil _

/-- What is the same for a thread in two states. -/
structure LSame (s s' : Locked) (i : Nat) : Prop where
  threads : s'.threads i = s.threads i
  part : s'.part (Locked.tag s i) = s.part (Locked.tag s i)
  mine : s'.part (some i) = s.part (some i)
  common : (s.threads i).hold = .shared → s'.part none = s.part none ∧ s'.common = s.common

omit p in
theorem LSame.tag {s s' : Locked} {i : Nat} (h : LSame s s' i) : Locked.tag s' i = Locked.tag s i := by
  unfold Locked.tag
  rw [h.threads]

omit p in
theorem LSame.seen {s s' : Locked} {i : Nat} (h : LSame s s' i) : Locked.seen s' i = Locked.seen s i := by
  unfold Locked.seen
  rw [h.threads]
  cases hh : (s.threads i).hold with
  | shared => simp only [(h.common hh).1]
  | _ => rfl

omit p in
theorem LSame.trans {s s' s'' : Locked} {i : Nat} (h : LSame s s' i) (h' : LSame s' s'' i) : LSame s s'' i := by
  refine ⟨h'.threads.trans h.threads, ?_, h'.mine.trans h.mine, fun hs => ?_⟩
  · have := h'.part
    rw [h.tag] at this
    exact this.trans h.part
  · obtain ⟨h1, h2⟩ := h.common hs
    obtain ⟨h3, h4⟩ := h'.common (by rw [h.threads]; exact hs)
    exact ⟨h3.trans h1, h4.trans h2⟩

/-- A step of another thread. -/
theorem lother {s s' : Locked} {i j : Nat} {e : LEvent} (t : LTogether main heap s) (st : LStep j s e s') (h : i ≠ j) :
    LSame s s' i := by
  refine ⟨lstep_other st h, lstep_part t st (tag_ne t.lock h) fun _ e => ?_,
    lstep_part t st (fun e => ?_) fun _ e => h (Option.some.inj e), fun hs => ?_⟩
  · unfold Locked.tag at e
    cases hh : (s.threads i).hold <;> rw [hh] at e <;> first | exact h (Option.some.inj e) | cases e
  · unfold Locked.tag at e
    cases hh : (s.threads j).hold <;> rw [hh] at e <;> first | exact h (Option.some.inj e) | cases e
  · have hc := shared_calm t.lock hs
    refine ⟨lstep_part t st (by rw [calm_tag hc]; exact fun e => (nomatch e)) fun _ e => (nomatch e), ?_⟩
    cases st with
    | @unseize m l q hp => exact absurd (by rw [hp]) (hc j l)
    | _ => rfl

/-- While a thread does nothing, nothing changes for it. -/
theorem lwait {s s' : Locked} {es : List (Nat × LEvent)} {i : Nat} (t : LTogether main heap s)
    (ex : LExec Locked.Lock s es s') (he : leventsOf i es = []) : LSame s s' i := by
  induction ex with
  | refl => exact ⟨rfl, rfl, rfl, fun _ => ⟨rfl, rfl⟩⟩
  | @step s' s'' es j e ex st k ih =>
    rw [levents_last] at he
    by_cases hj : j = i
    · rw [if_pos hj] at he
      simp at he
    · rw [if_neg hj] at he
      exact (ih he).trans (lother (t.exec ex) st (Ne.symm hj))

/-- What is the same for a thread after some of its accesses. -/
structure LKept (s s' : Locked) (i : Nat) : Prop where
  hold : (s'.threads i).hold = (s.threads i).hold
  common : (s.threads i).hold = .shared → s'.part none = s.part none ∧ s'.common = s.common
  runs : ∀ Q, Runs (Locked.seen s i) Q (s.threads i).prog (s.part (Locked.tag s i)) →
    Runs (Locked.seen s' i) Q (s'.threads i).prog (s'.part (Locked.tag s' i))

theorem laccess {s s' : Locked} {i : Nat} (t : LTogether main heap s) (st : LStep i s .access s') : LKept s s' i := by
  obtain ⟨h1, h2, h3⟩ := laccess_hold st
  have hc : (s.threads i).hold = .shared → s'.part none = s.part none ∧ s'.common = s.common := fun hs =>
    ⟨lstep_part t st (by rw [calm_tag (shared_calm t.lock hs)]; exact fun e => (nomatch e)) fun _ e => (nomatch e), h3⟩
  refine ⟨h1, hc, fun Q r => ?_⟩
  have e1 : Locked.tag s' i = Locked.tag s i := by unfold Locked.tag; rw [h1]
  have e2 : Locked.seen s' i = Locked.seen s i := by
    unfold Locked.seen
    rw [h1]
    cases hh : (s.threads i).hold with
    | shared => simp only [(hc hh).1]
    | _ => rfl
  rw [e1, e2]
  exact lstep_own t st r

omit p in
theorem LSame.kept {s s' : Locked} {i : Nat} (h : LSame s s' i) : LKept s s' i :=
  ⟨by rw [h.threads], h.common, fun Q r => by rw [h.tag, h.seen, h.threads, h.part]; exact r⟩

omit p in
theorem LKept.trans {s s' s'' : Locked} {i : Nat} (h : LKept s s' i) (h' : LKept s' s'' i) : LKept s s'' i := by
  refine ⟨h'.hold.trans h.hold, fun hs => ?_, fun Q r => h'.runs Q (h.runs Q r)⟩
  obtain ⟨h1, h2⟩ := h.common hs
  obtain ⟨h3, h4⟩ := h'.common (by rw [h.hold]; exact hs)
  exact ⟨h3.trans h1, h4.trans h2⟩

/-- What holds after the first step of a call holds until it ends. -/
theorem lduring {s s' : Locked} {es : List (Nat × LEvent)} {i n : Nat} {e : LEvent} (t : LTogether main heap s)
    (ex : LExec Locked.Lock s es s') (he : leventsOf i es = e :: List.replicate n .access) :
    ∃ s1 s2, LTogether main heap s1 ∧ LTogether main heap s2 ∧ LSame s s1 i ∧ LStep i s1 e s2 ∧ LKept s2 s' i := by
  induction ex generalizing n with
  | refl => cases he
  | @step s' s'' es j e' ex st k ih =>
    have t' := t.exec ex
    rw [levents_last] at he
    by_cases hj : j = i
    · subst hj
      rw [if_pos rfl] at he
      cases n with
      | zero =>
        obtain ⟨h1, h2⟩ := List.append_inj' (t₁ := [e']) (s₂ := []) (t₂ := [e]) he rfl
        cases h2
        exact ⟨_, _, t', t'.step st k, lwait t ex h1, st, rfl, fun _ => ⟨rfl, rfl⟩, fun _ h => h⟩
      | succ n =>
        rw [List.replicate_succ', ← List.cons_append] at he
        obtain ⟨h1, h2⟩ := List.append_inj' he rfl
        cases h2
        obtain ⟨s1, s2, a1, a2, a3, a4, a5⟩ := ih h1
        exact ⟨s1, s2, a1, a2, a3, a4, a5.trans (laccess t' st)⟩
    · rw [if_neg hj] at he
      obtain ⟨s1, s2, a1, a2, a3, a4, a5⟩ := ih he
      exact ⟨s1, s2, a1, a2, a3, a4, a5.trans (lother t' st (Ne.symm hj)).kept⟩

/-! ## The property -/

/-- The next access of a thread is always to a block that is allocated: there is no use after free and no double free. A
common block is only written or freed by a thread that holds the lock alone, and only read by a thread that holds the lock.
All other blocks that a thread uses are its own. -/
theorem locked_safe {s : Locked} {i a : Nat} (h : s.Reachable Locked.Lock main heap) :
    (s.writes i = some a → (∃ c, s.cells a = some c) ∧
      (s.owner a = some i ∨ s.owner a = none ∧ ∃ l, (s.threads i).hold = .alone l)) ∧
    (s.reads i = some a → (∃ c, s.cells a = some c) ∧
      (s.owner a = some i ∨ s.owner a = none ∧ (s.threads i).hold ≠ .nothing)) := by
  have t := ltogether h
  refine ⟨fun hw => ?_, fun hr => ?_⟩
  · obtain ⟨h1, h2⟩ := t.writes hw
    refine ⟨h2, ?_⟩
    unfold Locked.tag at h1
    cases hh : (s.threads i).hold with
    | alone l => rw [hh] at h1; exact .inr ⟨h1, l, rfl⟩
    | _ => rw [hh] at h1; exact .inl h1
  · obtain ⟨h1, h2⟩ := t.reads hr
    refine ⟨h2, ?_⟩
    rcases h1 with h1 | ⟨h1, h3⟩
    · unfold Locked.tag at h1
      cases hh : (s.threads i).hold with
      | alone l => rw [hh] at h1; exact .inr ⟨h1, fun e => (nomatch e)⟩
      | _ => rw [hh] at h1; exact .inl h1
    · exact .inr ⟨h1, by rw [h3]; exact fun e => (nomatch e)⟩

/-- There are no data races: while a thread is about to write or free a block, no other thread is about to read, write or
free it, and no other thread may look at it. -/
theorem locked_no_race {s : Locked} {i j a : Nat} (h : s.Reachable Locked.Lock main heap) (hij : i ≠ j)
    (ha : s.writes i = some a) :
    s.writes j ≠ some a ∧ s.reads j ≠ some a ∧ (s.owner a = none → (s.threads j).hold = .nothing) := by
  have t := ltogether h
  obtain ⟨-, ho⟩ := (locked_safe h).1 ha
  have hlock : s.owner a = none → (s.threads j).hold = .nothing := fun hn => by
    rcases ho with ho | ⟨-, l, hl⟩
    · rw [hn] at ho; cases ho
    · exact t.lock i j l hl (Ne.symm hij)
  refine ⟨fun hb => ?_, fun hb => ?_, hlock⟩
  · obtain ⟨-, h1⟩ := (locked_safe h).1 hb
    rcases h1 with h1 | ⟨h1, l, hl⟩
    · rcases ho with ho | ⟨ho, -⟩ <;> rw [h1] at ho
      · exact hij (Option.some.inj ho).symm
      · cases ho
    · rw [hlock h1] at hl; cases hl
  · obtain ⟨-, h1⟩ := (locked_safe h).2 hb
    rcases h1 with h1 | ⟨h1, hl⟩
    · rcases ho with ho | ⟨ho, -⟩ <;> rw [h1] at ho
      · exact hij (Option.some.inj ho).symm
      · cases ho
    · exact hl (hlock h1)

/-- When no thread holds the lock alone, the common things are what a program without threads has that makes the same calls,
one after the other. -/
theorem locked_serial {s : Locked} (h : s.Reachable Locked.Lock main heap) (hc : s.Calm) :
    InTurn main heap s.log s.common (s.part none) := ((ltogether h).calm hc).2

/-- The same for a thread that holds the lock alone, between its calls. -/
theorem locked_serial_alone {s : Locked} {i : Nat} {m l : Client} {q : Ptr} (h : s.Reachable Locked.Lock main heap)
    (hh : (s.threads i).hold = .alone l) (hi : s.Idle i m q) : InTurn main heap s.log m (s.part none) :=
  ((ltogether h).idle hi).2 l hh

/-- A call with the common things, while it runs. -/
theorem lchanging {s s' : Locked} {i : Nat} {c : AnyCall} (t : LTogether main heap s)
    (hd : s.Does Locked.Lock i (.change c) s') : ∃ m q, s.Idle i m q ∧ (∃ l, (s.threads i).hold = .alone l) ∧
      c.Allowed (s.part none) m ∧ (∃ l, (s'.threads i).hold = .alone l) ∧
      Runs (fun _ => none) (fun x h' => Ends (c.prog m >>= fun m => .ret (m, none)) (s.part none).with x h'.with)
        (s'.threads i).prog (s'.part none) := by
  obtain ⟨es, n, ex, he⟩ := hd
  obtain ⟨s1, s2, t1, t2, e1, st, k⟩ := lduring t ex he
  cases st with
  | @change m l q _ hp ha =>
    have hi : s.Idle i m q := by unfold Locked.Idle; rw [← e1.threads, hp]
    have hpart : s1.part none = s.part none := by
      have := e1.part
      have ht : Locked.tag s i = none := by rw [← e1.tag]; unfold Locked.tag; rw [hp]; rfl
      rwa [ht] at this
    have hown := (t1.idle (i := i) (l := m) (q := q) (by unfold Locked.Idle; rw [hp])).1
    have ht1 : Locked.tag s1 i = none := by unfold Locked.tag; rw [hp]; rfl
    rw [ht1] at hown
    have ht : (Locked.threads { s1.go i (c.prog m >>= fun m => .ret (m, none)) with log := s1.log ++ [c] } i) =
        ⟨c.prog m >>= fun m => .ret (m, none), .alone l⟩ := by
      show (s1.go i _).threads i = _
      rw [lgo_self, hp]
    have r := runs_own (S := fun _ => none) hown ha ⟨fun _ _ => rfl, fun _ _ _ => rfl⟩
    have hr := k.runs _ (by
      unfold Locked.tag Locked.seen
      rw [ht]
      exact r)
    have hh' : (s'.threads i).hold = .alone l := by rw [k.hold, ht]
    have ht' : Locked.tag s' i = none := by unfold Locked.tag; rw [hh']; rfl
    have hs' : Locked.seen s' i = fun _ => none := by unfold Locked.seen; rw [hh']
    rw [ht', hs'] at hr
    refine ⟨m, q, hi, ⟨l, by rw [← e1.threads, hp]⟩, by rw [← hpart]; exact ha, ⟨l, hh'⟩, hr.mono fun x h' hx => ?_⟩
    rw [← hpart]
    exact hx.1.2

/-- A call with the common things does what it does in a program without threads. -/
theorem locked_change {s s' : Locked} {i : Nat} {c : AnyCall} {m' : Client} {q' : Ptr}
    (h : s.Reachable Locked.Lock main heap) (hd : s.Does Locked.Lock i (.change c) s') (hl : s'.Idle i m' q') :
    ∃ m q g g', s.Idle i m q ∧ c.Allowed (s.part none) m ∧ c.Makes m (s.part none g) m' (s'.part none g') := by
  obtain ⟨m, q, hi, -, ha, -, hr⟩ := lchanging (ltogether h) hd
  rw [show (s'.threads i).prog = _ from hl] at hr
  obtain ⟨g, g', e⟩ := hr
  exact ⟨m, q, g, g', hi, ha, makes_of ha e⟩

theorem outcome_of {m : Client} {h : Heap} {c : AnyCall} (ha : c.Allowed h m) (g : Nat → Nat) :
    c.outcome m (h.with g) = (c.prog m >>= fun l => Prog.ret (l, (none : Ptr))).interp (h.with g) >>= fun _ => .ok () := by
  rw [Prog.interp_bind, HeapM.bind_apply]
  cases m with
  | current l =>
    cases c with
    | compat c => exact ha.elim
    | current c =>
      rw [current_same]
      show (c.run (l.world (h.with g)) >>= fun _ => .ok ()) = _
      cases c.run (l.world (h.with g)) <;> rfl
  | compat l =>
    cases c with
    | current c => exact ha.elim
    | compat c =>
      rw [compat_same]
      show (c.run (l.world (h.with g)) >>= fun _ => .ok ()) = _
      cases c.run (l.world (h.with g)) <;> rfl

/-- A call with the common things that fails: it fails in the same way in a program without threads. -/
theorem locked_change_fail {s s' : Locked} {i : Nat} {c : AnyCall} (h : s.Reachable Locked.Lock main heap)
    (hd : s.Does Locked.Lock i (.change c) s') :
    ∃ m q, s.Idle i m q ∧ c.Allowed (s.part none) m ∧
      (∀ k, (s'.threads i).prog = .ub k → ∃ g, c.outcome m (s.part none g) = .ub k) ∧
      ((s'.threads i).prog = .exit → ∃ g, c.outcome m (s.part none g) = .exit) ∧
      ((s'.threads i).prog = .hang → ∃ g, c.outcome m (s.part none g) = .diverge) := by
  obtain ⟨m, q, hi, -, ha, -, hr⟩ := lchanging (ltogether h) hd
  refine ⟨m, q, hi, ha, fun k hk => ?_, fun hk => ?_, fun hk => ?_⟩ <;>
  · rw [hk] at hr
    obtain ⟨g, g', e⟩ := hr
    refine ⟨g, ?_⟩
    have := outcome_of ha g
    rw [e] at this
    exact this

/-- A call that reads a common tag, while it runs. -/
theorem lreading {s s' : Locked} {i : Nat} {r : Read} (t : LTogether main heap s)
    (hd : s.Does Locked.Lock i (.read r) s') : ∃ l q, s.Idle i l q ∧ (s.threads i).hold = .shared ∧
      r.Allowed s.common (s.part none) (s.view i) l ∧ (s'.threads i).hold = .shared ∧
      (s'.part none = s.part none ∧ s'.common = s.common) ∧
      Runs (s.part none).cells (fun x h' => Ends (r.prog l) (fun g => s.view i g) x (h'.view (s.part none).cells))
        (s'.threads i).prog (s'.part (some i)) := by
  obtain ⟨es, n, ex, he⟩ := hd
  obtain ⟨s1, s2, t1, t2, e1, st, k⟩ := lduring t ex he
  cases st with
  | @read l q _ hp ha =>
    have hh : (s1.threads i).hold = .shared := by rw [hp]
    have hhs : (s.threads i).hold = .shared := by rw [← e1.threads]; exact hh
    obtain ⟨c1, c2⟩ := e1.common hhs
    have hi : s.Idle i l q := by unfold Locked.Idle; rw [← e1.threads, hp]
    have hown := (t1.idle (i := i) (l := l) (q := q) (by unfold Locked.Idle; rw [hp])).1
    have ht1 : Locked.tag s1 i = some i := by unfold Locked.tag; rw [hp]; rfl
    have hseen : Locked.seen s1 i = (s1.part none).cells := by unfold Locked.seen; rw [hh]
    have d := t1.apart (i := i)
    rw [hseen] at d
    rw [ht1] at d hown
    have om := (t1.calm (shared_calm t1.lock hh)).1
    have rr := runs_read om hown d (t1.above i hh) (r := r) (by rw [part_view]; exact ha)
    have hh2 : ((s1.go i (r.prog l)).threads i).hold = .shared := by rw [lgo_hold]; exact hh
    have hr := k.runs _ (by
      unfold Locked.tag Locked.seen
      rw [hh2, lgo_self]
      exact rr)
    obtain ⟨k1, k2⟩ := k.common hh2
    have k1 : s'.part none = s1.part none := k1
    have k2 : s'.common = s1.common := k2
    have hh' : (s'.threads i).hold = .shared := by rw [k.hold, hh2]
    have ht' : Locked.tag s' i = some i := by unfold Locked.tag; rw [hh']; rfl
    have hs' : Locked.seen s' i = (s.part none).cells := by unfold Locked.seen; rw [hh', k1, c1]
    rw [ht', hs'] at hr
    have hv : ∀ g, s1.view i g = s.view i g := fun g => by
      rw [← part_view, ← part_view, e1.mine, c1]
    refine ⟨l, q, hi, hhs, ?_, hh', ⟨k1.trans c1, k2.trans c2⟩, hr.mono fun x h' hx => ?_⟩
    · rw [← c2, ← c1, ← hv]
      exact ha
    · obtain ⟨⟨-, g, g', e⟩, -⟩ := hx
      rw [part_view, hv, c1] at e
      exact ⟨g, g', e⟩

/-- A call that reads a common tag: the thread gets what a program without other threads gets that has the common blocks and
those of the thread. While the call runs nothing changes about the common things. -/
theorem locked_read {s s' : Locked} {i : Nat} {r : Read} {l' : Client} {q' : Ptr}
    (h : s.Reachable Locked.Lock main heap) (hd : s.Does Locked.Lock i (.read r) s') (hl : s'.Idle i l' q') :
    (s'.part none = s.part none ∧ s'.common = s.common) ∧
    ∃ l q g g', s.Idle i l q ∧ r.Allowed s.common (s.part none) (s.view i) l ∧
      (r.prog l).interp (s.view i g) = .ok ((l', q'), s'.view i g') := by
  obtain ⟨l, q, hi, -, ha, -, hc, hr⟩ := lreading (ltogether h) hd
  rw [show (s'.threads i).prog = _ from hl] at hr
  obtain ⟨g, g', e⟩ := hr
  refine ⟨hc, l, q, g, g', hi, ha, ?_⟩
  rw [← hc.1, part_view] at e
  exact e

/-- A call that reads a common tag and fails: it fails in the same way in a program without other threads. -/
theorem locked_read_fail {s s' : Locked} {i : Nat} {r : Read} (h : s.Reachable Locked.Lock main heap)
    (hd : s.Does Locked.Lock i (.read r) s') :
    ∃ l q, s.Idle i l q ∧ r.Allowed s.common (s.part none) (s.view i) l ∧
      (∀ k, (s'.threads i).prog = .ub k → ∃ g, (r.prog l).interp (s.view i g) = .ub k) ∧
      ((s'.threads i).prog = .exit → ∃ g, (r.prog l).interp (s.view i g) = .exit) ∧
      ((s'.threads i).prog = .hang → ∃ g, (r.prog l).interp (s.view i g) = .diverge) := by
  obtain ⟨l, q, hi, -, ha, -, hc, hr⟩ := lreading (ltogether h) hd
  refine ⟨l, q, hi, ha, fun k hk => ?_, fun hk => ?_, fun hk => ?_⟩ <;>
  · rw [hk] at hr
    obtain ⟨g, g', e⟩ := hr
    exact ⟨g, e⟩

/-- A call with the thread's own things, while it runs. -/
theorem lcalling {s s' : Locked} {i : Nat} {c : AnyCall} (t : LTogether main heap s)
    (hd : s.Does Locked.Lock i (.begin c) s') : ∃ l q, s.Idle i l q ∧ c.Allowed (s.part (some i)) l ∧
      Runs (Locked.seen s' i) (fun x h' => Ends (c.prog l >>= fun l => .ret (l, none)) (s.part (some i)).with x h'.with)
        (s'.threads i).prog (s'.part (some i)) := by
  obtain ⟨es, n, ex, he⟩ := hd
  obtain ⟨s1, s2, t1, t2, e1, st, k⟩ := lduring t ex he
  cases st with
  | @begin l q _ hp hh ha =>
    have hi : s.Idle i l q := by unfold Locked.Idle; rw [← e1.threads, hp]
    have hown := (t1.idle (i := i) (l := l) (q := q) hp).1
    have ht1 : Locked.tag s1 i = some i := hh
    have d := t1.apart (i := i)
    rw [ht1] at d hown
    have rr := runs_own hown ha d
    have e2 : Locked.tag (s1.go i (c.prog l >>= fun l => .ret (l, none))) i = some i := by
      unfold Locked.tag; rw [lgo_hold]; exact hh
    have e3 : Locked.seen (s1.go i (c.prog l >>= fun l => .ret (l, none))) i = Locked.seen s1 i := by
      unfold Locked.seen; rw [lgo_hold]; rfl
    have hr := k.runs _ (by
      rw [e2, e3, lgo_self]
      exact rr)
    have ht' : Locked.tag s' i = some i := by unfold Locked.tag; rw [k.hold]; exact e2
    rw [ht'] at hr
    refine ⟨l, q, hi, by rw [← e1.mine]; exact ha, hr.mono fun x h' hx => ?_⟩
    rw [← e1.mine]
    exact hx.1.2

/-- A call with the thread's own things does what it does in a program with that thread only. -/
theorem locked_call {s s' : Locked} {i : Nat} {c : AnyCall} {l' : Client} {q' : Ptr}
    (h : s.Reachable Locked.Lock main heap) (hd : s.Does Locked.Lock i (.begin c) s') (hl : s'.Idle i l' q') :
    ∃ l q g g', s.Idle i l q ∧ c.Allowed (s.part (some i)) l ∧ c.Makes l (s.part (some i) g) l' (s'.part (some i) g') := by
  obtain ⟨l, q, hi, ha, hr⟩ := lcalling (ltogether h) hd
  rw [show (s'.threads i).prog = _ from hl] at hr
  obtain ⟨g, g', e⟩ := hr
  exact ⟨l, q, g, g', hi, ha, makes_of ha e⟩

/-- A call with the thread's own things that fails: it fails in the same way in a program with that thread only. -/
theorem locked_call_fail {s s' : Locked} {i : Nat} {c : AnyCall} (h : s.Reachable Locked.Lock main heap)
    (hd : s.Does Locked.Lock i (.begin c) s') :
    ∃ l q, s.Idle i l q ∧ c.Allowed (s.part (some i)) l ∧
      (∀ k, (s'.threads i).prog = .ub k → ∃ g, c.outcome l (s.part (some i) g) = .ub k) ∧
      ((s'.threads i).prog = .exit → ∃ g, c.outcome l (s.part (some i) g) = .exit) ∧
      ((s'.threads i).prog = .hang → ∃ g, c.outcome l (s.part (some i) g) = .diverge) := by
  obtain ⟨l, q, hi, ha, hr⟩ := lcalling (ltogether h) hd
  refine ⟨l, q, hi, ha, fun k hk => ?_, fun hk => ?_, fun hk => ?_⟩ <;>
  · rw [hk] at hr
    obtain ⟨g, g', e⟩ := hr
    refine ⟨g, ?_⟩
    have := outcome_of ha g
    rw [e] at this
    exact this

/-- While a thread does nothing, nothing changes about its own things. If it holds the lock, alone or not, nothing changes
about the common blocks. -/
theorem locked_still {s s' : Locked} {i : Nat} {es : List (Nat × LEvent)} (h : s.Reachable Locked.Lock main heap)
    (ex : LExec Locked.Lock s es s') (he : leventsOf i es = []) :
    s'.threads i = s.threads i ∧ s'.part (some i) = s.part (some i) ∧
    ((s.threads i).hold ≠ .nothing → s'.part none = s.part none) := by
  have e := lwait (ltogether h) ex he
  refine ⟨e.threads, e.mine, fun hn => ?_⟩
  cases hh : (s.threads i).hold with
  | nothing => exact absurd hh hn
  | shared => exact (e.common hh).1
  | alone l =>
    have := e.part
    unfold Locked.tag at this
    rwa [hh] at this

/-- A thread in a call can always go on, whatever the others do: with its next accesses the call ends, or it fails. -/
theorem locked_goes_on {s : Locked} {i : Nat} (h : s.Reachable Locked.Lock main heap) :
    ∃ n s', LExec Locked.Lock s (List.replicate n (i, .access)) s' ∧
      ((∃ l q, s'.Idle i l q) ∨ (∃ k, (s'.threads i).prog = .ub k) ∨ (s'.threads i).prog = .exit ∨
        (s'.threads i).prog = .hang) := by
  have t := ltogether h
  clear h
  have go : ∀ {s s' : Locked}, LTogether main heap s → LStep i s .access s' →
      (∃ n s'', LExec Locked.Lock s' (List.replicate n (i, .access)) s'' ∧
        ((∃ l q, s''.Idle i l q) ∨ (∃ k, (s''.threads i).prog = .ub k) ∨ (s''.threads i).prog = .exit ∨
          (s''.threads i).prog = .hang)) →
      ∃ n s', LExec Locked.Lock s (List.replicate n (i, .access)) s' ∧
        ((∃ l q, s'.Idle i l q) ∨ (∃ k, (s'.threads i).prog = .ub k) ∨ (s'.threads i).prog = .exit ∨
          (s'.threads i).prog = .hang) := by
    rintro s s' t st ⟨n, s'', ex, hd⟩
    have k : s'.Lock := fun i j l => by
      rw [(plain_same st trivial).1, (plain_same st trivial).1]
      exact t.lock i j l
    refine ⟨n + 1, s'', ?_, hd⟩
    clear hd
    have : ∀ {es s''}, LExec Locked.Lock s' es s'' → LExec Locked.Lock s ((i, .access) :: es) s'' := by
      intro es s'' ex
      induction ex with
      | refl => exact .step (es := []) .refl st k
      | step _ st k ih => exact .step (es := _ :: _) ih st k
    exact this ex
  generalize hp : (s.threads i).prog = q
  induction q generalizing s with
  | ret a => exact ⟨0, s, .refl, .inl ⟨a.1, a.2, hp⟩⟩
  | ub k => exact ⟨0, s, .refl, .inr (.inl ⟨k, hp⟩)⟩
  | exit => exact ⟨0, s, .refl, .inr (.inr (.inl hp))⟩
  | hang => exact ⟨0, s, .refl, .inr (.inr (.inr hp))⟩
  | malloc c k ih =>
    have st := LStep.malloc s.next hp (t.unused _ (Nat.le_refl _)) (rfl : (s.threads i).hold.owner i = _)
    have k : Locked.Lock _ := fun i j l => by
      rw [(plain_same st trivial).1, (plain_same st trivial).1]
      exact t.lock i j l
    exact go t st (ih _ (t.step st k) (congrArg LThread.prog (lgo_self s i _)))
  | free a q ih =>
    obtain ⟨c, hc⟩ := (t.writes (i := i) (a := a) (by unfold Locked.writes; rw [hp])).2
    have st := LStep.free hp hc
    have k : Locked.Lock _ := fun i j l => by
      rw [(plain_same st trivial).1, (plain_same st trivial).1]
      exact t.lock i j l
    exact go t st (ih (t.step st k) (by rw [lgo_self]))
  | load a q ih =>
    obtain ⟨c, hc⟩ := (t.reads (i := i) (a := a) (by unfold Locked.reads; rw [hp])).2
    have st := LStep.load hp hc
    have k : Locked.Lock _ := fun i j l => by
      rw [(plain_same st trivial).1, (plain_same st trivial).1]
      exact t.lock i j l
    exact go t st (ih _ (t.step st k) (by rw [lgo_self]))
  | store a c' q ih =>
    obtain ⟨c, hc⟩ := (t.writes (i := i) (a := a) (by unfold Locked.writes; rw [hp])).2
    have st := LStep.store hp hc
    have k : Locked.Lock _ := fun i j l => by
      rw [(plain_same st trivial).1, (plain_same st trivial).1]
      exact t.lock i j l
    exact go t st (ih (t.step st k) (by rw [lgo_self]))
  | fuel q ih =>
    have st := LStep.fuel hp
    have k : Locked.Lock _ := fun i j l => by
      rw [(plain_same st trivial).1, (plain_same st trivial).1]
      exact t.lock i j l
    exact go t st (ih _ (t.step st k) (by rw [lgo_self]))

end Id3.Props
