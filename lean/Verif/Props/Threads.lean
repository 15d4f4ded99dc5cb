import Verif.Thread.Solo
import Verif.Props.Heap
import Verif.Props.CompatHeap

/-!
# Several threads (C77)

The threads share the memory, and their accesses happen in any order (Spec/Threads.lean). Every thread uses its own tags,
buffers and file.
-/

namespace Id3.Props

open Id3 Id3.Spec Id3.H

variable [p : Platform]

/-! ## The invariant -/

theorem safe_call {l : Client} {c : AnyCall} {h : Heap} (g : Good l h) (ha : c.Allowed h l) :
    (AnyCall.prog l c).interp h ≠ .ub .useAfterFree ∧ (AnyCall.prog l c).interp h ≠ .ub .badFree := by
  cases l with
  | current l =>
    cases c with
    | current c =>
      have := C37 g ha
      rw [current_same]
      cases e : c.run (l.world h) with
      | ub k =>
        rw [e] at this
        exact ⟨fun e => this.1 (by cases e; rfl), fun e => this.2 (by cases e; rfl)⟩
      | _ => exact ⟨fun e => (nomatch e), fun e => (nomatch e)⟩
    | compat c => exact ha.elim
  | compat l =>
    cases c with
    | current c => exact ha.elim
    | compat c =>
      have := C54 g ha
      rw [compat_same]
      cases e : c.run (l.world h) with
      | ub k =>
        rw [e] at this
        exact ⟨fun e => this.1 (by cases e; rfl), fun e => this.2 (by cases e; rfl)⟩
      | _ => exact ⟨fun e => (nomatch e), fun e => (nomatch e)⟩

theorem Solo.safe {p : Prog Client} {h : Heap} (s : Solo p h) :
    p.interp h ≠ .ub .useAfterFree ∧ p.interp h ≠ .ub .badFree := by
  obtain ⟨l', e, g⟩ | ⟨l0, c, h0, g, ha, e⟩ := s
  · subst e
    exact ⟨fun e => (nomatch e), fun e => (nomatch e)⟩
  · rw [← e]
    exact safe_call g ha

/-- What holds in every state that the threads can reach. -/
structure Together (s : Shared) : Prop where
  unused : ∀ a, s.next ≤ a → s.cells a = none
  bound : ∀ i, (s.threads i).bound ≤ s.next
  solo : ∀ i g, Solo (s.threads i).prog (s.heap i g)

/-- The target of an access is a block of the thread, and it is allocated. -/
theorem Together.target {s : Shared} (t : Together s) {i a : Nat} (h : s.target i = some a) :
    s.owner a = i ∧ ∃ c, s.cells a = some c := by
  have safe := Solo.safe (t.solo i fun _ => 0)
  have key : ((s.heap i fun _ => 0).cells a = none → False) → s.owner a = i ∧ ∃ c, s.cells a = some c := by
    intro hn
    by_cases ho : s.owner a = i
    · refine ⟨ho, ?_⟩
      cases hc : s.cells a with
      | none => exact (hn (by show (if _ then _ else _) = _; rw [if_pos ho, hc])).elim
      | some c => exact ⟨c, rfl⟩
    · exact (hn (by show (if _ then _ else _) = _; rw [if_neg ho])).elim
  unfold Shared.target at h
  cases hp : (s.threads i).prog with
  | free b k =>
    rw [hp] at h safe
    cases h
    refine key fun hn => safe.2 ?_
    show HeapM.bind (Id3.free (some a)) _ _ = _
    unfold HeapM.bind Id3.free
    simp only [hn]
  | load b k =>
    rw [hp] at h safe
    cases h
    refine key fun hn => safe.1 ?_
    show HeapM.bind (loadCell (some a)) _ _ = _
    unfold HeapM.bind loadCell
    simp only [hn]
  | store b c k =>
    rw [hp] at h safe
    cases h
    refine key fun hn => safe.1 ?_
    show HeapM.bind (storeCell (some a) c) _ _ = _
    unfold HeapM.bind storeCell
    simp only [hn]
  | _ => rw [hp] at h; cases h

omit [Platform] in
theorem heap_go (s : Shared) (i j : Nat) (p : Prog Client) (g : Nat → Nat) : (s.go j p).heap i g = s.heap i g := by
  unfold Shared.go Shared.heap
  congr 1
  show (if i = j then _ else _ : Thread).bound = _
  split
  · next e => rw [e]
  · rfl

omit [Platform] in
theorem heap_set {s : Shared} {i a : Nat} (h : s.owner a = i) (c : Option Cell) (g : Nat → Nat) :
    (s.set a c).heap i g = (s.heap i g).set a c := by
  unfold Shared.set Shared.heap Heap.set
  congr 1
  funext x
  show (if s.owner x = i then (if x = a then c else s.cells x) else none) = if x = a then c else if _ then _ else none
  by_cases hx : x = a
  · subst hx
    rw [if_pos h, if_pos rfl, if_pos rfl]
  · rw [if_neg hx, if_neg hx]

omit [Platform] in
theorem heap_set_other {s : Shared} {i a : Nat} (h : s.owner a ≠ i) (c : Option Cell) (g : Nat → Nat) :
    (s.set a c).heap i g = s.heap i g := by
  unfold Shared.set Shared.heap
  congr 1
  funext x
  by_cases hx : x = a
  · subst hx
    rw [if_neg h, if_neg h]
  · show (if s.owner x = i then (if x = a then c else s.cells x) else none) = _
    rw [if_neg hx]

omit [Platform] in
theorem go_prog (s : Shared) (i : Nat) (p : Prog Client) : ((s.go i p).threads i).prog = p := by
  show (if i = i then _ else _ : Thread).prog = _
  rw [if_pos rfl]

omit [Platform] in
theorem go_other {s : Shared} {i j : Nat} (h : i ≠ j) (p : Prog Client) : (s.go j p).threads i = s.threads i := if_neg h

/-- An access of a thread changes nothing for the others. -/
theorem step_other {s s' : Shared} {i j : Nat} {e : Event} (t : Together s) (st : Step j s e s') (h : i ≠ j) :
    s'.threads i = s.threads i ∧ ∀ g, s'.heap i g = s.heap i g := by
  have hj : j ≠ i := fun e => h e.symm
  cases st with
  | begin hp ha => exact ⟨go_other h _, fun g => heap_go ..⟩
  | @malloc c k a hp hn =>
    refine ⟨if_neg h, fun g => ?_⟩
    unfold Shared.heap
    congr 1
    · funext x
      show (if (if x = a then j else s.owner x) = i then (if x = a then some c else s.cells x) else none) = _
      by_cases hx : x = a
      · subst hx
        rw [if_pos rfl, if_neg hj, hn]
        split <;> rfl
      · rw [if_neg hx, if_neg hx]
    · show (if i = j then _ else _ : Thread).bound = _
      rw [if_neg h]
  | @free a c k hp hc =>
    have ho := (t.target (i := j) (a := a) (by unfold Shared.target; rw [hp])).1
    exact ⟨go_other h _, fun g => by rw [heap_go, heap_set_other (by rw [ho]; exact hj)]⟩
  | load hp hc => exact ⟨go_other h _, fun g => heap_go ..⟩
  | @store a c c' k hp hc =>
    have ho := (t.target (i := j) (a := a) (by unfold Shared.target; rw [hp])).1
    exact ⟨go_other h _, fun g => by rw [heap_go, heap_set_other (by rw [ho]; exact hj)]⟩
  | fuel hp => exact ⟨go_other h _, fun g => heap_go ..⟩

/-- An access of a thread is the first one of its rest. -/
theorem step_own {s s' : Shared} {i : Nat} (t : Together s) (st : Step i s .access s') (g : Nat → Nat) :
    ∃ g0, (s.threads i).prog.interp (s.heap i g0) = (s'.threads i).prog.interp (s'.heap i g) := by
  cases st with
  | @malloc c k a hp hn =>
    refine ⟨picksCons a g, ?_⟩
    have hb : (s.heap i (picksCons a g)).place = a := place_eq (by
      show (if s.owner a = i then s.cells a else none) = none
      rw [hn]
      split <;> rfl)
    rw [hp]
    show HeapM.bind (Id3.malloc c) (fun a => (k a).interp) _ = (if i = i then _ else _ : Thread).prog.interp _
    rw [if_pos rfl]
    unfold HeapM.bind Id3.malloc
    simp only [hb]
    unfold Shared.heap picksCons
    congr 2
    · funext x
      by_cases hx : x = a
      · subst hx
        simp only [if_true]
      · simp only [if_neg hx]
    · simp only [if_true]
  | @free a c k hp hc =>
    have ho := (t.target (i := i) (a := a) (by unfold Shared.target; rw [hp])).1
    refine ⟨g, ?_⟩
    rw [hp, go_prog, heap_go, heap_set ho]
    show HeapM.bind (Id3.free (some a)) (fun _ => k.interp) _ = _
    have e : (s.heap i g).cells a = some c := by
      show (if _ then _ else _) = _
      rw [if_pos ho, hc]
    unfold HeapM.bind Id3.free
    simp only [e]
  | @load a c k hp hc =>
    have ho := (t.target (i := i) (a := a) (by unfold Shared.target; rw [hp])).1
    refine ⟨g, ?_⟩
    rw [hp, go_prog, heap_go]
    show HeapM.bind (loadCell (some a)) (fun c => (k c).interp) _ = _
    have e : (s.heap i g).cells a = some c := by
      show (if _ then _ else _) = _
      rw [if_pos ho, hc]
    unfold HeapM.bind loadCell
    simp only [e]
  | @store a c c' k hp hc =>
    have ho := (t.target (i := i) (a := a) (by unfold Shared.target; rw [hp])).1
    refine ⟨g, ?_⟩
    rw [hp, go_prog, heap_go, heap_set ho]
    show HeapM.bind (storeCell (some a) c') (fun _ => k.interp) _ = _
    have e : (s.heap i g).cells a = some c := by
      show (if _ then _ else _) = _
      rw [if_pos ho, hc]
    unfold HeapM.bind storeCell
    simp only [e]
  | @fuel k hp =>
    refine ⟨g, ?_⟩
    rw [hp, go_prog, heap_go]
    rfl

omit [Platform] in
theorem allowed_picks {l : Client} {c : AnyCall} {h h' : Heap} (hc : h.cells = h'.cells) (ha : c.Allowed h l) :
    c.Allowed h' l := by
  have live : ∀ s, Src.Live h s → Src.Live h' s := by
    intro s
    cases s <;> (unfold Src.Live; rw [hc]; exact id)
  cases l with
  | current l =>
    cases c with
    | current c =>
      cases c with
      | newTag | readTag | readHeader | deleteTag | alloc | changeDisk => trivial
      | readTagFromBuffer | readHeaderFromBuffer => exact live _ ha
      | setTextFrame => exact ⟨ha.1, live _ ha.2.1, live _ ha.2.2.1, live _ ha.2.2.2⟩
      | setCommentFrame | addCommentFrame | setApicFrame | addApicFrame =>
        exact ⟨ha.1, live _ ha.2.1, live _ ha.2.2.1, live _ ha.2.2.2.1, live _ ha.2.2.2.2⟩
      | deleteFrame | getFrame | getFrames => exact ⟨ha.1, live _ ha.2⟩
      | _ => exact ha
    | compat c => exact ha.elim
  | compat l =>
    cases c with
    | current c => exact ha.elim
    | compat c =>
      have entry : ∀ p, EntryLive h p → EntryLive h' p := by
        intro p
        unfold EntryLive
        rw [hc]
        exact id
      cases c with
      | newTag | loadTag | removeTag | alloc | changeDisk => trivial
      | loadTagWithBuffer => exact live _ ha
      | setText | setComment => exact ⟨ha.1, live _ ha.2⟩
      | setCoverFromBytes => exact ⟨ha.1, live _ ha.2.1, live _ ha.2.2⟩
      | parseText | parseComment | parsePicture => exact entry _ ha
      | _ => exact ha

theorem Together.step {s s' : Shared} {j : Nat} {e : Event} (t : Together s) (st : Step j s e s') : Together s' := by
  constructor
  · cases st with
    | begin hp ha => exact t.unused
    | @malloc c k a hp hn =>
      intro x (hx : max s.next (a + 1) ≤ x)
      show (if x = a then _ else _) = _
      rw [if_neg (by omega), t.unused x (by omega)]
    | @free a c k hp hc =>
      intro x hx
      show (if x = a then none else s.cells x) = none
      split
      · rfl
      · exact t.unused x hx
    | load hp hc => exact t.unused
    | @store a c c' k hp hc =>
      intro x hx
      show (if x = a then some c' else s.cells x) = none
      have := t.unused x hx
      rw [if_neg (fun e => by rw [e, hc] at this; cases this), this]
    | fuel hp => exact t.unused
  · intro i
    have same : ∀ (s : Shared) (p : Prog Client), ((s.go j p).threads i).bound = (s.threads i).bound := by
      intro s p
      show (if i = j then _ else _ : Thread).bound = _
      split
      · next e => rw [e]
      · rfl
    cases st with
    | @malloc c k a hp hn =>
      show (if i = j then _ else _ : Thread).bound ≤ max s.next (a + 1)
      split
      · show max (s.threads j).bound (a + 1) ≤ _
        have := t.bound j
        omega
      · have := t.bound i
        omega
    | begin hp ha => rw [same]; exact t.bound i
    | free hp hc => rw [same]; exact t.bound i
    | load hp hc => rw [same]; exact t.bound i
    | store hp hc => rw [same]; exact t.bound i
    | fuel hp => rw [same]; exact t.bound i
  · intro i g
    by_cases h : i = j
    · subst h
      cases e with
      | begin c =>
        cases st with
        | @begin l _ hp ha =>
          rw [go_prog, heap_go]
          have so := t.solo i g
          rw [hp] at so
          exact .inr ⟨l, c, _, so.good, allowed_picks rfl ha, rfl⟩
      | access =>
        obtain ⟨g0, e⟩ := step_own t st g
        obtain ⟨l, e', _⟩ | ⟨l0, c, h0, gd, ha, e'⟩ := t.solo i g0
        · cases st with
          | malloc _ hp _ => rw [hp] at e'; cases e'
          | free hp _ => rw [hp] at e'; cases e'
          | load hp _ => rw [hp] at e'; cases e'
          | store hp _ => rw [hp] at e'; cases e'
          | fuel hp => rw [hp] at e'; cases e'
        · exact .inr ⟨l0, c, h0, gd, ha, e'.trans e⟩
    · obtain ⟨e1, e2⟩ := step_other t st h
      rw [e1, e2]
      exact t.solo i g

theorem Together.exec {s s' : Shared} {es : List (Nat × Event)} (t : Together s) (ex : Exec s es s') : Together s' := by
  induction ex with
  | refl => exact t
  | step _ st ih => exact ih.step st

theorem together {s : Shared} (h : s.Reachable) : Together s := by
  obtain ⟨cl, es, hf, ex⟩ := h
  refine Together.exec ⟨fun _ _ => rfl, fun _ => Nat.le_refl _, fun i g => .inl ⟨cl i, rfl, ?_⟩⟩ ex
  have : (Shared.start cl).heap i g = ⟨fun _ => none, 0, g⟩ := by
    unfold Shared.heap Shared.start
    congr 1
    funext a
    split <;> rfl
  rw [this]
  exact good_start (hf i) g

/-! ## C77 -/

/-- C77: under every schedule, whatever a thread accesses is allocated, and the thread allocated it itself. So no thread
uses a freed block, frees one twice, or touches a block of another thread. -/
theorem threads_safe {s : Shared} {i a : Nat} (h : s.Reachable) (ha : s.target i = some a) :
    s.owner a = i ∧ ∃ c, s.cells a = some c := (together h).target ha

/-- There are no data races: two threads are never about to access the same block. -/
theorem threads_no_race {s : Shared} {i j a b : Nat} (h : s.Reachable) (hij : i ≠ j) (ha : s.target i = some a)
    (hb : s.target j = some b) : a ≠ b := by
  intro e
  subst e
  exact hij ((threads_safe h ha).1.symm.trans (threads_safe h hb).1)

/-- Under every schedule, a thread between two calls is in a state that it can reach without the other threads. So all
theorems about programs without threads are about it as well. -/
theorem threads_alone {s : Shared} {i : Nat} (h : s.Reachable) :
    (∀ l, s.Idle i (.current l) → Reachable (l.world (s.heap i))) ∧
    (∀ l, s.Idle i (.compat l) → CReachable (l.world (s.heap i))) := by
  have so := (together h).solo i fun _ => 0
  refine ⟨fun l hl => ?_, fun l hl => ?_⟩
  · rw [hl] at so
    exact so.good
  · rw [hl] at so
    exact so.good

/-- What the other threads do changes neither what a thread knows nor its blocks. -/
theorem threads_others {s s' : Shared} {es : List (Nat × Event)} {i : Nat} (h : s.Reachable) (ex : Exec s es s')
    (he : eventsOf i es = []) : s'.threads i = s.threads i ∧ s'.heap i = s.heap i := by
  have t := together h
  clear h
  induction ex with
  | refl => exact ⟨rfl, rfl⟩
  | @step s' s'' es j e ex st ih =>
    unfold eventsOf at he
    rw [List.filter_append, List.map_append, List.append_eq_nil_iff] at he
    by_cases hj : j = i
    · rw [List.filter_cons_of_pos (by simpa using hj)] at he
      cases he.2
    · obtain ⟨e1, e2⟩ := ih he.1
      obtain ⟨e3, e4⟩ := step_other (t.exec ex) st (fun e => hj e.symm)
      exact ⟨e3.trans e1, (e4 _).trans e2⟩

omit [Platform] in
theorem events_last {i j : Nat} {es : List (Nat × Event)} {e : Event} :
    eventsOf i (es ++ [(j, e)]) = if j = i then eventsOf i es ++ [e] else eventsOf i es := by
  unfold eventsOf
  rw [List.filter_append, List.map_append]
  by_cases h : j = i
  · rw [if_pos h, List.filter_cons_of_pos (by simpa using h)]
    rfl
  · rw [if_neg h, List.filter_cons_of_neg (by simpa using h)]
    exact List.append_nil _

omit [Platform] in
theorem replicate_last {a e : Event} {n : Nat} {l : List Event} (h : l ++ [e] = List.replicate n a) :
    e = a ∧ ∃ m, l = List.replicate m a := by
  cases n with
  | zero =>
    have := congrArg List.length h
    simp at this
  | succ n =>
    rw [List.replicate_succ'] at h
    have := List.append_inj' h rfl
    exact ⟨by simpa using this.2, n, this.1⟩

/-- While a thread makes a call, the rest of the call is what remains of the call made at the start at once. -/
theorem during {s s' : Shared} {es : List (Nat × Event)} {i n : Nat} {c : AnyCall} (t : Together s) (ex : Exec s es s')
    (he : eventsOf i es = .begin c :: List.replicate n .access) :
    ∃ l, s.Idle i l ∧ c.Allowed (s.heap i) l ∧
      ∀ g, ∃ g0, (AnyCall.prog l c).interp (s.heap i g0) = (s'.threads i).prog.interp (s'.heap i g) := by
  induction ex generalizing n with
  | refl => cases he
  | @step s' s'' es j e ex st ih =>
    rw [events_last] at he
    have t' := t.exec ex
    by_cases hj : j = i
    · subst hj
      rw [if_pos rfl] at he
      cases hes : eventsOf j es with
      | nil =>
        rw [hes] at he
        obtain ⟨h1, _⟩ := List.cons.inj he
        subst h1
        have o : s'.threads j = s.threads j ∧ s'.heap j = s.heap j ∧ ∀ g, s'.heap j g = s.heap j g := by
          clear ih st
          have key : ∀ {es s'}, Exec s es s' → eventsOf j es = [] → s'.threads j = s.threads j ∧
              ∀ g, s'.heap j g = s.heap j g := by
            intro es s' ex
            induction ex with
            | refl => exact fun _ => ⟨rfl, fun _ => rfl⟩
            | @step a b es k e ex st ih =>
              intro he
              rw [events_last] at he
              by_cases hk : k = j
              · rw [if_pos hk] at he
                simp at he
              · rw [if_neg hk] at he
                obtain ⟨e1, e2⟩ := ih he
                obtain ⟨e3, e4⟩ := step_other (t.exec ex) st (fun e => hk e.symm)
                exact ⟨e3.trans e1, fun g => (e4 g).trans (e2 g)⟩
          obtain ⟨a, b⟩ := key ex hes
          exact ⟨a, b _, b⟩
        cases st with
        | @begin l _ hp ha =>
          refine ⟨l, by rw [Shared.Idle, ← o.1]; exact hp, by rw [← o.2.1]; exact ha, fun g => ⟨g, ?_⟩⟩
          rw [go_prog, heap_go, o.2.2]
      | cons e0 r =>
        rw [hes, List.cons_append] at he
        obtain ⟨h1, h2⟩ := List.cons.inj he
        subst h1
        obtain ⟨h3, m, h4⟩ := replicate_last h2
        subst h3 h4
        obtain ⟨l, hl, ha, hg⟩ := ih hes
        refine ⟨l, hl, ha, fun g => ?_⟩
        obtain ⟨g1, e1⟩ := step_own t' st g
        obtain ⟨g0, e0⟩ := hg g1
        exact ⟨g0, e0.trans e1⟩
    · rw [if_neg hj] at he
      obtain ⟨l, hl, ha, hg⟩ := ih he
      refine ⟨l, hl, ha, fun g => ?_⟩
      obtain ⟨e1, e2⟩ := step_other t' st (fun e => hj e.symm)
      obtain ⟨g0, e0⟩ := hg g
      exact ⟨g0, by rw [e0, e1, e2]⟩

/-- A call of a thread does what it does without the other threads: the thread ends up with the same memory, the same file
and the same pointers as after a call made at once, for some results of `malloc`. -/
theorem threads_call {s s' : Shared} {i : Nat} {c : Call} (h : s.Reachable) (hc : s.Calls i (.current c) s') :
    ∃ l l' g, s.Idle i (.current l) ∧ s'.Idle i (.current l') ∧ c.Allowed (l.world (s.heap i)) ∧
      c.run (l.world (s.heap i g)) = .ok (l'.world (s'.heap i)) := by
  obtain ⟨es, n, ex, he, l', hl'⟩ := hc
  obtain ⟨l, hl, ha, hg⟩ := during (together h) ex he
  obtain ⟨g, e⟩ := hg fun _ => 0
  rw [hl'] at e
  cases l with
  | compat l => exact ha.elim
  | current l =>
    rw [current_same] at e
    obtain ⟨w, e1, e2⟩ := Res.bind_eq_ok.mp e
    obtain ⟨h1, h2⟩ := Prod.mk.inj (Res.ok.inj e2)
    refine ⟨l, w.loc, g, hl, h1 ▸ hl', ha, ?_⟩
    rw [e1, ← h2]
    rfl

/-- The same for the compatibility API. -/
theorem threads_ccall {s s' : Shared} {i : Nat} {c : CCall} (h : s.Reachable) (hc : s.Calls i (.compat c) s') :
    ∃ l l' g, s.Idle i (.compat l) ∧ s'.Idle i (.compat l') ∧ c.Allowed (l.world (s.heap i)) ∧
      c.run (l.world (s.heap i g)) = .ok (l'.world (s'.heap i)) := by
  obtain ⟨es, n, ex, he, l', hl'⟩ := hc
  obtain ⟨l, hl, ha, hg⟩ := during (together h) ex he
  obtain ⟨g, e⟩ := hg fun _ => 0
  rw [hl'] at e
  cases l with
  | current l => exact ha.elim
  | compat l =>
    rw [compat_same] at e
    obtain ⟨w, e1, e2⟩ := Res.bind_eq_ok.mp e
    obtain ⟨h1, h2⟩ := Prod.mk.inj (Res.ok.inj e2)
    refine ⟨l, w.loc, g, hl, h1 ▸ hl', ha, ?_⟩
    rw [e1, ← h2]
    rfl

omit [Platform] in
/-- The characters that an argument points to do not depend on `next` and `picks`. -/
theorem srcValue_cells {h h' : Heap} (e : h.cells = h'.cells) (b : Src) : srcValue h b = srcValue h' b := by
  cases b <;> unfold srcValue <;> rw [e]

theorem abs_cells {h h' : Heap} (e : h.cells = h'.cells) (x : Abs) (c : Call) : c.abs h x = c.abs h' x := by
  have s := srcValue_cells e
  cases c <;> simp only [Call.abs, textValue, commentValue, apicValue, s]

/-- A call of a thread changes the values of its tags and buffers and its file as the value-level model says, whatever the
other threads do in the meantime. -/
theorem threads_values {s s' : Shared} {i : Nat} {c : Call} (h : s.Reachable) (hc : s.Calls i (.current c) s') :
    ∃ l l' x f a, s.Idle i (.current l) ∧ s'.Idle i (.current l') ∧ (l.world (s.heap i)).Holds x ∧
      c.abs (s.heap i) x = .ok f ∧ (l'.world (s'.heap i)).Holds (f a) := by
  obtain ⟨l, l', g, hl, hl', ha, hr⟩ := threads_call h hc
  have rg : Reachable (l.world (s.heap i g)) := by
    have so := (together h).solo i g
    rw [hl] at so
    exact so.good
  obtain ⟨x, hx, _⟩ := C37_holds ((threads_alone h).1 l hl)
  obtain ⟨f, a, e, q⟩ := run_holds rg (s := x) hx (@allowed_picks (.current l) (.current c) _ (s.heap i g) rfl ha) hr
  exact ⟨l, l', x, f, a, hl, hl', hx, (abs_cells rfl x c).trans e, q⟩

/-- A function that only reads: it does not depend on `next` and `picks`, and it leaves the heap as it is. -/
def Reads {α : Type} (x : HeapM α) : Prop :=
  ∀ h h' : Heap, h.cells = h'.cells → x h = x h' >>= fun r => .ok (r.1, h)

section
omit [Platform]

theorem reads_pure {α : Type} (a : α) : Reads (pure a) := fun _ _ _ => rfl

theorem reads_lift {α : Type} (x : Res α) : Reads (lift x) := fun h h' _ => by
  cases x <;> rfl

theorem reads_load (p : Ptr) : Reads (loadCell p) := fun h h' e => by
  unfold loadCell
  cases p with
  | none => rfl
  | some a =>
    simp only [e]
    cases h'.cells a <;> rfl

theorem reads_bind {α β : Type} {x : HeapM α} {f : α → HeapM β} (hx : Reads x) (hf : ∀ a, Reads (f a)) :
    Reads (x >>= f) := fun h h' e => by
  show HeapM.bind x f h = HeapM.bind x f h' >>= _
  unfold HeapM.bind
  rw [hx h h' e]
  have e2 := hx h' h' rfl
  cases e3 : x h' with
  | ok r =>
    rw [e3] at e2
    have e4 : r = (r.1, h') := Res.ok.inj e2
    show f r.1 h = f r.1 r.2 >>= _
    rw [show r.2 = h' from congrArg (·.2) e4]
    exact hf _ h h' e
  | _ => rfl

/-- Proves that a function only reads. -/
macro "reads" : tactic => `(tactic| repeat' first
  | exact reads_pure _
  | exact reads_lift _
  | exact reads_load _
  | (refine reads_bind ?_ (fun _ => ?_))
  | split)


theorem reads_entry (p : Nat) : Reads (fetchEntry p) := by
  unfold fetchEntry Spec.fetchFrame loadFrame loadFrameHeader loadCFrame loadBytes
  reads

end

theorem cabs_cells {h h' : Heap} (e : h.cells = h'.cells) (x : CAbs) (c : CCall) : c.abs h x = c.abs h' x := by
  have s := srcValue_cells e
  cases c with
  | parseText p | parseComment p | parsePicture p =>
    simp only [CCall.abs]
    rw [reads_entry p h h' e]
    cases fetchEntry p h' <;> rfl
  | _ => simp only [CCall.abs, s]

/-- The same for the compatibility API. -/
theorem threads_cvalues {s s' : Shared} {i : Nat} {c : CCall} (h : s.Reachable) (hc : s.Calls i (.compat c) s') :
    ∃ l l' x f a, s.Idle i (.compat l) ∧ s'.Idle i (.compat l') ∧ (l.world (s.heap i)).Holds x ∧
      c.abs (s.heap i) x = .ok f ∧ (l'.world (s'.heap i)).Holds (f a) := by
  obtain ⟨l, l', g, hl, hl', ha, hr⟩ := threads_ccall h hc
  have rg : CReachable (l.world (s.heap i g)) := by
    have so := (together h).solo i g
    rw [hl] at so
    exact so.good
  obtain ⟨x, hx, _⟩ := C54_holds ((threads_alone h).2 l hl)
  have st := C54_refinement rg (s := x) hx (@allowed_picks (.compat l) (.compat c) _ (s.heap i g) rfl ha)
  rw [hr] at st
  split at st
  next f he =>
    obtain ⟨w'', a, e, q⟩ := st
    cases e
    exact ⟨l, l', x, f, a, hl, hl', hx, (cabs_cells (h := s.heap i) (h' := (l.world (s.heap i g)).heap) rfl x c).trans he, q⟩
  next => cases st
  next => cases st
  next => cases st

/-- A call of a thread that fails does so as it does without the other threads. -/
theorem threads_fail {s s' : Shared} {es : List (Nat × Event)} {i n : Nat} {c : AnyCall} (h : s.Reachable)
    (ex : Exec s es s') (he : eventsOf i es = .begin c :: List.replicate n .access) :
    ∃ l g, s.Idle i l ∧ c.Allowed (s.heap i) l ∧
      (∀ k, (s'.threads i).prog = .ub k → (AnyCall.prog l c).interp (s.heap i g) = .ub k) ∧
      ((s'.threads i).prog = .exit → (AnyCall.prog l c).interp (s.heap i g) = .exit) ∧
      ((s'.threads i).prog = .hang → (AnyCall.prog l c).interp (s.heap i g) = .diverge) := by
  obtain ⟨l, hl, ha, hg⟩ := during (together h) ex he
  obtain ⟨g, e⟩ := hg fun _ => 0
  refine ⟨l, g, hl, ha, fun k hk => ?_, fun hk => ?_, fun hk => ?_⟩ <;> rw [e, hk] <;> rfl

/-- No thread waits for another one: in every state it can make its next access. -/
theorem threads_progress {s : Shared} {i : Nat} (h : s.Reachable) :
    (∃ s', Step i s .access s') ∨ (∃ l, s.Idle i l) ∨ (∃ k, (s.threads i).prog = .ub k) ∨
      (s.threads i).prog = .exit ∨ (s.threads i).prog = .hang := by
  have safe := fun a => @threads_safe _ s i a h
  unfold Shared.target at safe
  cases hp : (s.threads i).prog with
  | ret l => exact .inr (.inl ⟨l, hp⟩)
  | ub k => exact .inr (.inr (.inl ⟨k, rfl⟩))
  | exit => exact .inr (.inr (.inr (.inl rfl)))
  | hang => exact .inr (.inr (.inr (.inr rfl)))
  | malloc c k => exact .inl ⟨_, .malloc s.next hp ((together h).unused _ (Nat.le_refl _))⟩
  | free a k =>
    rw [hp] at safe
    obtain ⟨_, c, hc⟩ := safe a rfl
    exact .inl ⟨_, .free hp hc⟩
  | load a k =>
    rw [hp] at safe
    obtain ⟨_, c, hc⟩ := safe a rfl
    exact .inl ⟨_, .load hp hc⟩
  | store a c' k =>
    rw [hp] at safe
    obtain ⟨_, c, hc⟩ := safe a rfl
    exact .inl ⟨_, .store hp hc⟩
  | fuel k => exact .inl ⟨_, .fuel hp⟩

/-- Every call ends, whatever the other threads do: in an infinite execution, a thread that begins no call any more makes
only finitely many accesses. -/
theorem threads_end {i : Nat} {S : Nat → Shared} {W : Nat → Nat} {E : Nat → Event} (h : (S 0).Reachable)
    (st : ∀ n, Step (W n) (S n) (E n) (S (n + 1))) (hb : ∀ n, W n = i → E n = .access) :
    ∃ m, ∀ n, m ≤ n → W n ≠ i := by
  have reach : ∀ n, Together (S n) := by
    intro n
    induction n with
    | zero => exact together h
    | succ n ih => exact ih.step (st n)
  have key : ∀ (p : Prog Client) (n : Nat), ((S n).threads i).prog = p → ∃ m, ∀ n, m ≤ n → W n ≠ i := by
    intro p
    -- the first step of the thread from `n` on, if there is one
    have first : ∀ n, (∀ m, n ≤ m → W m ≠ i) ∨ ∃ m, n ≤ m ∧ W m = i ∧ (S m).threads i = (S n).threads i := by
      intro n
      by_cases hx : ∃ m, n ≤ m ∧ W m = i
      · right
        obtain ⟨m, hm, hw⟩ := hx
        obtain ⟨d, rfl⟩ := Nat.exists_eq_add_of_le hm
        clear hm
        induction d generalizing n with
        | zero => exact ⟨n, Nat.le_refl _, hw, rfl⟩
        | succ d ih =>
          by_cases h0 : W n = i
          · exact ⟨n, Nat.le_refl _, h0, rfl⟩
          · obtain ⟨m, h1, h2, h3⟩ := ih (n + 1) (by rw [← hw]; congr 1; omega)
            exact ⟨m, by omega, h2, h3.trans (step_other (reach n) (st n) fun e => h0 e.symm).1⟩
      · left
        exact fun m hm hw => hx ⟨m, hm, hw⟩
    have stay : ∀ n, (∀ m, n ≤ m → W m = i → (S m).threads i = (S n).threads i →
        ∃ m', ∀ n, m' ≤ n → W n ≠ i) → ∃ m, ∀ n, m ≤ n → W n ≠ i := by
      intro n hn
      obtain hf | ⟨m, h1, h2, h3⟩ := first n
      · exact ⟨n, hf⟩
      · exact hn m h1 h2 h3
    have acc : ∀ m, W m = i → Step i (S m) .access (S (m + 1)) := by
      intro m hm
      have := st m
      rw [hb m hm] at this
      rw [← hm]
      exact this
    have dead : ∀ m q, ((S m).threads i).prog = q → W m = i →
        (∀ k, q = .ub k → False) ∧ (q = .exit → False) ∧ (q = .hang → False) ∧ ∀ l, q = .ret l → False := by
      intro m q hq hm
      have := acc m hm
      generalize S (m + 1) = s' at this
      cases this with
      | malloc _ hp _ => rw [hp] at hq; subst hq; exact ⟨nofun, nofun, nofun, nofun⟩
      | free hp _ => rw [hp] at hq; subst hq; exact ⟨nofun, nofun, nofun, nofun⟩
      | load hp _ => rw [hp] at hq; subst hq; exact ⟨nofun, nofun, nofun, nofun⟩
      | store hp _ => rw [hp] at hq; subst hq; exact ⟨nofun, nofun, nofun, nofun⟩
      | fuel hp => rw [hp] at hq; subst hq; exact ⟨nofun, nofun, nofun, nofun⟩
    induction p with
    | ret l => exact fun n hp => stay n fun m _ hm h3 => ((dead m _ (h3 ▸ hp) hm).2.2.2 l rfl).elim
    | ub k => exact fun n hp => stay n fun m _ hm h3 => ((dead m _ (h3 ▸ hp) hm).1 k rfl).elim
    | exit => exact fun n hp => stay n fun m _ hm h3 => ((dead m _ (h3 ▸ hp) hm).2.1 rfl).elim
    | hang => exact fun n hp => stay n fun m _ hm h3 => ((dead m _ (h3 ▸ hp) hm).2.2.1 rfl).elim
    | malloc c k ih =>
      refine fun n hp => stay n fun m _ hm h3 => ?_
      have hp : ((S m).threads i).prog = .malloc c k := h3 ▸ hp
      have st := acc m hm
      generalize e : S (m + 1) = s' at st
      cases st with
      | malloc a hp' _ =>
        rw [hp] at hp'
        cases hp'
        refine ih a (m + 1) ?_
        rw [e]
        show (if i = i then _ else _ : Thread).prog = _
        rw [if_pos rfl]
      | free hp' _ => rw [hp] at hp'; cases hp'
      | load hp' _ => rw [hp] at hp'; cases hp'
      | store hp' _ => rw [hp] at hp'; cases hp'
      | fuel hp' => rw [hp] at hp'; cases hp'
    | free a k ih =>
      refine fun n hp => stay n fun m _ hm h3 => ?_
      have hp : ((S m).threads i).prog = .free a k := h3 ▸ hp
      have st := acc m hm
      generalize e : S (m + 1) = s' at st
      cases st with
      | free hp' _ =>
        rw [hp] at hp'
        cases hp'
        exact ih (m + 1) (by rw [e, go_prog])
      | malloc _ hp' _ => rw [hp] at hp'; cases hp'
      | load hp' _ => rw [hp] at hp'; cases hp'
      | store hp' _ => rw [hp] at hp'; cases hp'
      | fuel hp' => rw [hp] at hp'; cases hp'
    | load a k ih =>
      refine fun n hp => stay n fun m _ hm h3 => ?_
      have hp : ((S m).threads i).prog = .load a k := h3 ▸ hp
      have st := acc m hm
      generalize e : S (m + 1) = s' at st
      cases st with
      | load hp' _ =>
        rw [hp] at hp'
        cases hp'
        exact ih _ (m + 1) (by rw [e, go_prog])
      | malloc _ hp' _ => rw [hp] at hp'; cases hp'
      | free hp' _ => rw [hp] at hp'; cases hp'
      | store hp' _ => rw [hp] at hp'; cases hp'
      | fuel hp' => rw [hp] at hp'; cases hp'
    | store a c k ih =>
      refine fun n hp => stay n fun m _ hm h3 => ?_
      have hp : ((S m).threads i).prog = .store a c k := h3 ▸ hp
      have st := acc m hm
      generalize e : S (m + 1) = s' at st
      cases st with
      | store hp' _ =>
        rw [hp] at hp'
        cases hp'
        exact ih (m + 1) (by rw [e, go_prog])
      | malloc _ hp' _ => rw [hp] at hp'; cases hp'
      | free hp' _ => rw [hp] at hp'; cases hp'
      | load hp' _ => rw [hp] at hp'; cases hp'
      | fuel hp' => rw [hp] at hp'; cases hp'
    | fuel k ih =>
      refine fun n hp => stay n fun m _ hm h3 => ?_
      have hp : ((S m).threads i).prog = .fuel k := h3 ▸ hp
      have st := acc m hm
      generalize e : S (m + 1) = s' at st
      cases st with
      | fuel hp' =>
        rw [hp] at hp'
        cases hp'
        exact ih _ (m + 1) (by rw [e, go_prog])
      | malloc _ hp' _ => rw [hp] at hp'; cases hp'
      | free hp' _ => rw [hp] at hp'; cases hp'
      | load hp' _ => rw [hp] at hp'; cases hp'
      | store hp' _ => rw [hp] at hp'; cases hp'
  exact key _ 0 rfl

/-! ## The hypotheses are met -/

theorem Exec.cons {s s' s'' : Shared} {i : Nat} {e : Event} {es : List (Nat × Event)} (st : Step i s e s')
    (ex : Exec s' es s'') : Exec s ((i, e) :: es) s'' := by
  induction ex with
  | refl => exact .step .refl st
  | step _ st' ih => exact .step ih st'

theorem Exec.trans {s s' s'' : Shared} {es es' : List (Nat × Event)} (e1 : Exec s es s') (e2 : Exec s' es' s'') :
    Exec s (es ++ es') s'' := by
  induction e2 with
  | refl => rw [List.append_nil]; exact e1
  | step _ st' ih => rw [← List.append_assoc]; exact .step ih st'

theorem finish {i : Nat} (p : Prog Client) : ∀ s : Shared, Together s → (s.threads i).prog = p →
    (∀ g, ∃ r, p.interp (s.heap i g) = .ok r) →
    ∃ n s', Exec s (List.replicate n (i, .access)) s' ∧ ∃ l, s'.Idle i l := by
  have more : ∀ s s' : Shared, Together s → Step i s .access s' →
      (∀ g, ∃ r, (s.threads i).prog.interp (s.heap i g) = .ok r) →
      ∀ g, ∃ r, (s'.threads i).prog.interp (s'.heap i g) = .ok r := by
    intro s s' t st hr g
    obtain ⟨g0, e⟩ := step_own t st g
    rw [← e]
    exact hr g0
  have next : ∀ s s' : Shared, Step i s .access s' →
      (∃ n s'', Exec s' (List.replicate n (i, .access)) s'' ∧ ∃ l, s''.Idle i l) →
      ∃ n s'', Exec s (List.replicate n (i, .access)) s'' ∧ ∃ l, s''.Idle i l := by
    intro s s' st ⟨n, s'', ex, hl⟩
    exact ⟨n + 1, s'', Exec.cons st ex, hl⟩
  induction p with
  | ret l => exact fun s t hp _ => ⟨0, s, .refl, l, hp⟩
  | ub k =>
    intro s t hp hr
    obtain ⟨r, e⟩ := hr fun _ => 0
    cases e
  | exit =>
    intro s t hp hr
    obtain ⟨r, e⟩ := hr fun _ => 0
    cases e
  | hang =>
    intro s t hp hr
    obtain ⟨r, e⟩ := hr fun _ => 0
    cases e
  | malloc c k ih =>
    intro s t hp hr
    rw [← hp] at hr
    have st := Step.malloc s.next hp (t.unused _ (Nat.le_refl _))
    have hq := more _ _ t st hr
    refine next _ _ st (ih s.next _ (t.step st) ?_ ?_)
    · show (if i = i then _ else _ : Thread).prog = _
      rw [if_pos rfl]
    · intro g
      have := hq g
      rwa [show (((_ : Shared).threads i).prog : Prog Client) = k s.next from by
        show (if i = i then _ else _ : Thread).prog = _
        rw [if_pos rfl]] at this
  | free a k ih =>
    intro s t hp hr
    rw [← hp] at hr
    obtain ⟨_, c, hc⟩ := t.target (i := i) (a := a) (by unfold Shared.target; rw [hp])
    have st := Step.free hp hc
    refine next _ _ st (ih _ (t.step st) (go_prog ..) fun g => ?_)
    have := more _ _ t st hr g
    rwa [go_prog] at this
  | load a k ih =>
    intro s t hp hr
    rw [← hp] at hr
    obtain ⟨_, c, hc⟩ := t.target (i := i) (a := a) (by unfold Shared.target; rw [hp])
    have st := Step.load hp hc
    refine next _ _ st (ih _ _ (t.step st) (go_prog ..) fun g => ?_)
    have := more _ _ t st hr g
    rwa [go_prog] at this
  | store a c' k ih =>
    intro s t hp hr
    rw [← hp] at hr
    obtain ⟨_, c, hc⟩ := t.target (i := i) (a := a) (by unfold Shared.target; rw [hp])
    have st := Step.store hp hc
    refine next _ _ st (ih _ (t.step st) (go_prog ..) fun g => ?_)
    have := more _ _ t st hr g
    rwa [go_prog] at this
  | fuel k ih =>
    intro s t hp hr
    rw [← hp] at hr
    have st := Step.fuel hp
    refine next _ _ st (ih _ _ (t.step st) (go_prog ..) fun g => ?_)
    have := more _ _ t st hr g
    rwa [go_prog] at this

omit [Platform] in
theorem events_replicate (i n : Nat) (e : Event) : eventsOf i (List.replicate n (i, e)) = List.replicate n e := by
  induction n with
  | zero => rfl
  | succ n ih =>
    rw [List.replicate_succ, List.replicate_succ, ← ih]
    unfold eventsOf
    rw [List.filter_cons_of_pos (by simp)]
    rfl

omit [Platform] in
theorem events_other {i j : Nat} (h : i ≠ j) (n : Nat) (e : Event) : eventsOf i (List.replicate n (j, e)) = [] := by
  unfold eventsOf
  rw [List.filter_eq_nil_iff.mpr fun p hp => by
    rw [List.eq_of_mem_replicate hp]
    simpa using fun e => h e.symm]
  rfl

theorem exec_reachable {s s' : Shared} {es : List (Nat × Event)} (h : s.Reachable) (ex : Exec s es s') :
    s'.Reachable := by
  obtain ⟨cl, es0, hf, ex0⟩ := h
  exact ⟨cl, _, hf, Exec.trans ex0 ex⟩

/-- From every state, a thread can make every call that the value-level model says succeeds, while the other threads do
nothing. -/
theorem threads_possible {s : Shared} {i : Nat} {l : Local} {x : Abs} {c : Call} {f : Nat → Abs} (h : s.Reachable)
    (hl : s.Idle i (.current l)) (ha : c.Allowed (l.world (s.heap i))) (hx : (l.world (s.heap i)).Holds x)
    (hf : c.abs (s.heap i) x = .ok f) : ∃ s', s.Calls i (.current c) s' ∧ s'.Reachable ∧
      ∀ j, j ≠ i → s'.threads j = s.threads j ∧ s'.heap j = s.heap j := by
  have st : Step i s (.begin (.current c)) _ := .begin hl ha
  obtain ⟨n, s', ex, hl'⟩ := finish (i := i) _ _ ((together h).step st) (go_prog ..) fun g => by
    rw [heap_go, current_same]
    have rg : Reachable (l.world (s.heap i g)) := by
      have so := (together h).solo i g
      rw [hl] at so
      exact so.good
    have := C37_refinement rg (s := x) hx (@allowed_picks (.current l) (.current c) _ (s.heap i g) rfl ha)
    rw [abs_cells (h := (l.world (s.heap i g)).heap) (h' := s.heap i) rfl, hf] at this
    obtain ⟨w', a, e, _⟩ := this
    rw [e]
    exact ⟨_, rfl⟩
  have ex' := Exec.cons st ex
  refine ⟨s', ⟨_, n, ex', ?_, hl'⟩, exec_reachable h ex', fun j hj => threads_others h ex' ?_⟩
  rotate_left
  · show eventsOf j ((i, _) :: _) = _
    unfold eventsOf
    rw [List.filter_cons_of_neg (by simpa using fun e => hj e.symm)]
    exact events_other hj ..
  show eventsOf i ((i, _) :: _) = _
  unfold eventsOf
  rw [List.filter_cons_of_pos (by simp)]
  exact congrArg (_ :: ·) (events_replicate ..)

/-- Thread 0 makes a tag while thread 1 is in the middle of `new_tag`: it has allocated its first block. Then thread 0 sets
the title of its tag, and thread 1 is still there. -/
example : ∃ (s s' s'' : Shared) (a : Nat) (l : Local) (v : Tag), s.Reachable ∧ s.Calls 0 (.current .newTag) s' ∧
    s'.Calls 0 (.current (.setTextFrame a ⟨.literal tit2, .literal [some 0, some 0], .literal [some 0x68, some 0]⟩)) s'' ∧
    s''.Idle 0 (.current l) ∧ (l.world (s''.heap 0)).Holds ⟨[(a, v)], [], none⟩ ∧
    ID3v2_Tag_get_frame v tit2 ≠ .ok none ∧ (¬ ∃ l, s''.Idle 1 l) ∧ ∃ b, s''.owner b = 1 ∧ s''.cells b ≠ none := by
  let cl : Nat → Client := fun i => if i = 0 then .current ⟨none, [], [], [], []⟩ else .compat ⟨none, [], []⟩
  have r0 : (Shared.start cl).Reachable := ⟨cl, [], fun i => by
    show Client.Fresh (if i = 0 then _ else _)
    split
    · exact ⟨rfl, rfl, rfl, rfl⟩
    · exact ⟨rfl, rfl⟩, .refl⟩
  obtain ⟨s1, ex, hp, ho, hc⟩ : ∃ s1, Exec (Shared.start cl)
      [(0, .begin (.current .newTag)), (1, .begin (.compat .newTag)), (1, .access)] s1 ∧
      (¬ ∃ l, s1.Idle 1 l) ∧ s1.owner 0 = 1 ∧ s1.cells 0 ≠ none := by
    refine ⟨_, .step (.step (.step .refl (.begin (l := cl 0) (c := .current .newTag) rfl trivial))
      (.begin (l := cl 1) (c := .compat .newTag) rfl trivial)) (.malloc 0 rfl rfl), ?_, rfl, nofun⟩
    intro ⟨l, e⟩
    cases e
  have r1 := exec_reachable r0 ex
  obtain ⟨l0, hl0, ha0, hg⟩ := during (i := 0) (n := 0) (together r0) ex rfl
  cases hl0
  obtain ⟨n, s2, ex2, hl2⟩ := finish (i := 0) _ s1 (together r1) rfl fun g => by
    obtain ⟨g0, e⟩ := hg g
    rw [← e]
    have so := ((together r0).solo 0 g0).good
    obtain ⟨w', _, hr, _⟩ := do_call (c := .newTag) so (s := ⟨[], [], none⟩)
      ⟨[], rfl, rfl, rfl, rfl, List.nodup_nil, nofun⟩ trivial rfl
    exact ⟨_, (current_same _ _ _).trans (by rw [hr]; rfl)⟩
  have c1 : (Shared.start cl).Calls 0 (.current .newTag) s2 := ⟨_, n, Exec.trans ex ex2, by
    unfold eventsOf
    rw [List.filter_append, List.map_append]
    exact congrArg (_ :: ·) (events_replicate ..), hl2⟩
  have r2 := exec_reachable r1 ex2
  obtain ⟨o1, o2⟩ := threads_others r1 ex2 (events_other (by decide : (1 : Nat) ≠ 0) n .access)
  obtain ⟨l, l', x, f, a, il, il', hx, hf, hq⟩ := threads_values r0 c1
  cases il
  have hx' : x = ⟨[], [], none⟩ := by
    obtain ⟨y, _, hy⟩ := C37_holds ((threads_alone (i := 0) r0).1 ⟨none, [], [], [], []⟩ rfl)
    rw [hy _ hx, ← hy ⟨[], [], none⟩ ⟨[], rfl, rfl, rfl, rfl, List.nodup_nil, nofun⟩]
  subst hx'
  cases hf
  obtain ⟨v, hv, hget⟩ : ∃ v, ID3v2_Tag_set_text_frame ID3v2_Tag_new_empty
      ⟨tit2, [some 0, some 0], [some 0x68, some 0]⟩ = .ok v ∧ ID3v2_Tag_get_frame v tit2 ≠ .ok none := by
    obtain ⟨b, n⟩ := p
    cases b <;> exact ⟨_, rfl, nofun⟩
  have ht : a ∈ (l'.world (s2.heap 0)).tags := by rw [holds_tags hq]; exact List.mem_cons_self
  have e : ([(a, ID3v2_Tag_new_empty)] : List (Nat × Tag)).lookup a = some ID3v2_Tag_new_empty := by simp
  have habs : (Call.setTextFrame a ⟨.literal tit2, .literal [some 0, some 0], .literal [some 0x68, some 0]⟩).abs
      (s2.heap 0) (Abs.add ⟨[], [], none⟩ (some ID3v2_Tag_new_empty) a) =
      .ok fun _ => ⟨setAt a v [(a, ID3v2_Tag_new_empty)], [], none⟩ := by
    show Abs.update ⟨[(a, ID3v2_Tag_new_empty)], _, none⟩ a _ = _
    simp only [Abs.update, e, textValue, srcValue, hv]
    rfl
  obtain ⟨s3, c2, r3, o3⟩ := threads_possible r2 il' (c := .setTextFrame a ⟨.literal tit2, .literal [some 0, some 0], .literal [some 0x68, some 0]⟩) ⟨ht, trivial, trivial, trivial⟩ hq habs
  obtain ⟨l2, l3, y, f2, a2, i2, i3, hy, hf2, hq2⟩ := threads_values r2 c2
  have hl : l2 = l' := by
    have := i2.symm.trans il'
    cases this
    rfl
  subst hl
  obtain ⟨_, _, uniq⟩ := C37_holds ((threads_alone r2).1 _ i2)
  rw [uniq _ hy, ← uniq _ hq, habs] at hf2
  cases hf2
  refine ⟨_, s2, s3, a, l3, v, r0, c1, c2, i3, ?_, hget, ?_, 0, ?_⟩
  · have : setAt a v [(a, ID3v2_Tag_new_empty)] = [(a, v)] := by simp [setAt]
    rw [← this]
    exact hq2
  · intro ⟨z, hz⟩
    refine hp ⟨z, ?_⟩
    rw [Shared.Idle, (o3 1 (by decide)).1, o1] at hz
    exact hz
  · have : (s3.heap 1).cells 0 ≠ none := by
      rw [(o3 1 (by decide)).2, o2]
      show (if s1.owner 0 = 1 then s1.cells 0 else none) ≠ none
      rw [if_pos ho]
      exact hc
    by_cases h1 : s3.owner 0 = 1
    · refine ⟨h1, ?_⟩
      show s3.cells 0 ≠ none
      have h2 : (s3.heap 1).cells 0 = s3.cells 0 := if_pos h1
      rw [← h2]
      exact this
    · exact (this (if_neg h1)).elim

end Id3.Props
