import Verif.Thread.Core

/-!
# Running next to other threads

A thread that has blocks of its own and may look at blocks that do not change: `Runs`. Between its accesses other threads do
anything with their own blocks, so `malloc` may return any address at which nothing is allocated.
-/

namespace Id3

/-- The heap without the results of `malloc`. -/
def Heap.with (h : Heap) (g : Nat → Nat) : Heap := { h with picks := g }

/-- A block was allocated. -/
def Heap.add (h : Heap) (a : Nat) (c : Cell) : Heap :=
  { h with cells := fun x => if x = a then some c else h.cells x, next := max h.next (a + 1) }

/-- The blocks of the thread, and those that it may look at. -/
def Heap.view (S : Nat → Option Cell) (h : Heap) (g : Nat → Nat) : Heap :=
  { cells := fun a => (h.cells a).or (S a), next := h.next, picks := g }

/-- The program never frees or changes a block that is not its own, and never follows a pointer to a block that is neither
its own nor one of `S`. It ends with a result for which `Q` holds. -/
def Runs {α : Type} (S : Nat → Option Cell) (Q : Res α → Heap → Prop) : Prog α → Heap → Prop
  | .ret a, h => Q (.ok a) h
  | .ub k, h => Q (.ub k) h
  | .exit, h => Q .exit h
  | .hang, h => Q .diverge h
  | .malloc c k, h => ∀ a, (h.cells a).or (S a) = none → Runs S Q (k a) (h.add a c)
  | .free a k, h => (∃ c, h.cells a = some c) ∧ Runs S Q k (h.set a none)
  | .load a k, h => ∃ c, (h.cells a).or (S a) = some c ∧ Runs S Q (k c) h
  | .store a c k, h => (∃ c, h.cells a = some c) ∧ Runs S Q k (h.set a (some c))
  | .fuel k, h => Runs S Q (k (h.next + 1)) h

namespace Runs

variable {α β : Type} {S : Nat → Option Cell}

theorem mono {Q Q' : Res α → Heap → Prop} {p : Prog α} {h : Heap} (r : Runs S Q p h) (hq : ∀ x h, Q x h → Q' x h) :
    Runs S Q' p h := by
  induction p generalizing h with
  | ret a => exact hq _ _ r
  | ub k => exact hq _ _ r
  | exit => exact hq _ _ r
  | hang => exact hq _ _ r
  | malloc c k ih => exact fun a ha => ih a (r a ha)
  | free a k ih => exact ⟨r.1, ih r.2⟩
  | load a k ih => obtain ⟨c, hc, r⟩ := r; exact ⟨c, hc, ih c r⟩
  | store a c k ih => exact ⟨r.1, ih r.2⟩
  | fuel k ih => exact ih _ r

/-- What a program does with a part of its result. -/
def after (S : Nat → Option Cell) (f : α → Prog β) (Q : Res β → Heap → Prop) : Res α → Heap → Prop
  | .ok a, h => Runs S Q (f a) h
  | .ub k, h => Q (.ub k) h
  | .exit, h => Q .exit h
  | .diverge, h => Q .diverge h

theorem bind {Q : Res β → Heap → Prop} {p : Prog α} {f : α → Prog β} {h : Heap} (r : Runs S (after S f Q) p h) :
    Runs S Q (p >>= f) h := by
  show Runs S Q (p.bind f) h
  induction p generalizing h with
  | ret a => exact r
  | ub k => exact r
  | exit => exact r
  | hang => exact r
  | malloc c k ih => exact fun a ha => ih a (r a ha)
  | free a k ih => exact ⟨r.1, ih r.2⟩
  | load a k ih => obtain ⟨c, hc, r⟩ := r; exact ⟨c, hc, ih c r⟩
  | store a c k ih => exact ⟨r.1, ih r.2⟩
  | fuel k ih => exact ih _ r

/-- One program, and then another one. -/
theorem seq {P : Res α → Heap → Prop} {Q : Res β → Heap → Prop} {p : Prog α} {f : α → Prog β} {h : Heap} (r : Runs S P p h)
    (h1 : ∀ a h, P (.ok a) h → Runs S Q (f a) h) (h2 : ∀ k h, P (.ub k) h → Q (.ub k) h)
    (h3 : ∀ h, P .exit h → Q .exit h) (h4 : ∀ h, P .diverge h → Q .diverge h) : Runs S Q (p >>= f) h := by
  refine bind (r.mono fun x h hx => ?_)
  cases x with
  | ok a => exact h1 a h hx
  | ub k => exact h2 k h hx
  | exit => exact h3 h hx
  | diverge => exact h4 h hx

end Runs

/-- The program ended as it does when it runs alone. -/
def Ends {α : Type} (p : Prog α) (h0 : (Nat → Nat) → Heap) (x : Res α) (h : (Nat → Nat) → Heap) : Prop :=
  ∃ g g', p.interp (h0 g) = x >>= fun a => .ok (a, h g')

section

variable {α : Type} {S : Nat → Option Cell}

theorem interp_malloc (c : Cell) (k : Nat → Prog α) (h : Heap) (a : Nat) (ha : h.cells a = none) (g : Nat → Nat) :
    (Prog.malloc c k).interp (h.with (picksCons a g)) = (k a).interp ((h.add a c).with g) := by
  show HeapM.bind (Id3.malloc c) (fun a => (k a).interp) _ = _
  unfold HeapM.bind Id3.malloc
  have e : (h.with (picksCons a g)).place = a := place_eq ha
  simp only [e]
  rfl

theorem interp_view_malloc (c : Cell) (k : Nat → Prog α) (h : Heap) (a : Nat) (ha : (h.cells a).or (S a) = none)
    (g : Nat → Nat) :
    (Prog.malloc c k).interp (h.view S (picksCons a g)) = (k a).interp ((h.add a c).view S g) := by
  show HeapM.bind (Id3.malloc c) (fun a => (k a).interp) _ = _
  unfold HeapM.bind Id3.malloc
  have e : (h.view S (picksCons a g)).place = a := place_eq ha
  simp only [e]
  simp only [Heap.view, picksCons, Heap.add]
  congr 2
  funext x
  by_cases hx : x = a
  · subst hx
    simp
  · simp [hx]

theorem interp_free {a : Nat} {k : Prog α} {h : Heap} {c : Cell} (hc : h.cells a = some c) :
    (Prog.free a k).interp h = k.interp (h.set a none) := by
  show HeapM.bind (Id3.free (some a)) _ _ = _
  unfold HeapM.bind Id3.free
  simp only [hc]

theorem interp_free_none {a : Nat} {k : Prog α} {h : Heap} (hc : h.cells a = none) :
    (Prog.free a k).interp h = .ub .badFree := by
  show HeapM.bind (Id3.free (some a)) _ _ = _
  unfold HeapM.bind Id3.free
  simp only [hc]

theorem interp_load {a : Nat} {k : Cell → Prog α} {h : Heap} {c : Cell} (hc : h.cells a = some c) :
    (Prog.load a k).interp h = (k c).interp h := by
  show HeapM.bind (loadCell (some a)) _ _ = _
  unfold HeapM.bind loadCell
  simp only [hc]

theorem interp_load_none {a : Nat} {k : Cell → Prog α} {h : Heap} (hc : h.cells a = none) :
    (Prog.load a k).interp h = .ub .useAfterFree := by
  show HeapM.bind (loadCell (some a)) _ _ = _
  unfold HeapM.bind loadCell
  simp only [hc]

theorem interp_store {a : Nat} {k : Prog α} {h : Heap} {c c' : Cell} (hc : h.cells a = some c) :
    (Prog.store a c' k).interp h = k.interp (h.set a (some c')) := by
  show HeapM.bind (storeCell (some a) c') _ _ = _
  unfold HeapM.bind storeCell
  simp only [hc]

theorem interp_store_none {a : Nat} {k : Prog α} {h : Heap} {c' : Cell} (hc : h.cells a = none) :
    (Prog.store a c' k).interp h = .ub .useAfterFree := by
  show HeapM.bind (storeCell (some a) c') _ _ = _
  unfold HeapM.bind storeCell
  simp only [hc]

theorem view_set {h : Heap} {a : Nat} (hs : S a = none) (c : Option Cell) (g : Nat → Nat) :
    (h.set a c).view S g = (h.view S g).set a c := by
  unfold Heap.view Heap.set
  congr 1
  funext x
  by_cases hx : x = a
  · subst hx
    simp [hs]
  · simp [hx]

/-- The blocks of the thread are none of those that it may only look at. -/
def Apart (S : Nat → Option Cell) (h : Heap) : Prop :=
  (∀ a, h.next ≤ a → S a = none) ∧ ∀ a c, h.cells a = some c → S a = none

theorem Apart.add {h : Heap} (d : Apart S h) {a : Nat} (ha : (h.cells a).or (S a) = none) (c : Cell) :
    Apart S (h.add a c) := by
  refine ⟨fun b hb => d.1 b (Nat.le_trans (Nat.le_max_left ..) hb), fun b x hx => ?_⟩
  by_cases e : b = a
  · subst e; exact (Option.or_eq_none_iff.mp ha).2
  · simp only [Heap.add, if_neg e] at hx
    exact d.2 b x hx

theorem Apart.set {h : Heap} (d : Apart S h) {a : Nat} {c : Cell} (hc : h.cells a = some c) (c' : Option Cell) :
    Apart S (h.set a c') := by
  refine ⟨d.1, fun b x hx => ?_⟩
  by_cases e : b = a
  · subst e; exact d.2 b c hc
  · simp only [Heap.set, if_neg e] at hx
    exact d.2 b x hx

/-- A program that makes no mistakes with memory when it runs alone runs next to others in the same way. -/
theorem runs_alone {p : Prog α} {h : Heap}
    (safe : ∀ g, p.interp (h.with g) ≠ .ub .useAfterFree ∧ p.interp (h.with g) ≠ .ub .badFree) (d : Apart S h) :
    Runs S (fun x h' => Apart S h' ∧ Ends p h.with x h'.with) p h := by
  induction p generalizing h with
  | ret a => exact ⟨d, fun _ => 0, fun _ => 0, rfl⟩
  | ub k => exact ⟨d, fun _ => 0, fun _ => 0, rfl⟩
  | exit => exact ⟨d, fun _ => 0, fun _ => 0, rfl⟩
  | hang => exact ⟨d, fun _ => 0, fun _ => 0, rfl⟩
  | malloc c k ih =>
    intro a ha
    refine (ih a (fun g => ?_) (d.add ha c)).mono fun x h' ⟨d', g, g', e⟩ => ⟨d', picksCons a g, g', ?_⟩
    · rw [← interp_malloc c k h a (Option.or_eq_none_iff.mp ha).1]
      exact safe _
    · rw [interp_malloc c k h a (Option.or_eq_none_iff.mp ha).1, e]
  | free a k ih =>
    cases hc : h.cells a with
    | none => exact absurd (interp_free_none (h := h.with fun _ => 0) hc) (safe _).2
    | some c =>
      refine ⟨⟨c, hc⟩, (ih (fun g => ?_) (d.set hc _)).mono fun x h' ⟨d', g, g', e⟩ => ⟨d', g, g', ?_⟩⟩
      · have := safe g
        rw [interp_free (h := h.with g) hc] at this
        exact this
      · rw [interp_free (h := h.with g) hc]
        exact e
  | load a k ih =>
    cases hc : h.cells a with
    | none => exact absurd (interp_load_none (h := h.with fun _ => 0) hc) (safe _).1
    | some c =>
      refine ⟨c, by rw [hc]; rfl, (ih c (fun g => ?_) d).mono fun x h' ⟨d', g, g', e⟩ => ⟨d', g, g', ?_⟩⟩
      · have := safe g
        rw [interp_load (h := h.with g) hc] at this
        exact this
      · rw [interp_load (h := h.with g) hc]
        exact e
  | store a c' k ih =>
    cases hc : h.cells a with
    | none => exact absurd (interp_store_none (h := h.with fun _ => 0) hc) (safe _).1
    | some c =>
      refine ⟨⟨c, hc⟩, (ih (fun g => ?_) (d.set hc _)).mono fun x h' ⟨d', g, g', e⟩ => ⟨d', g, g', ?_⟩⟩
      · have := safe g
        rw [interp_store (h := h.with g) hc] at this
        exact this
      · rw [interp_store (h := h.with g) hc]
        exact e
  | fuel k ih => exact ih (h.next + 1) (h := h) safe d

/-- A program that runs next to others does what it does when it runs alone, with the blocks that it may look at. -/
theorem runs_view {p : Prog α} {h : Heap} {Q : Res α → Heap → Prop} (r : Runs S Q p h) (d : Apart S h) :
    Runs S (fun x h' => (Apart S h' ∧ Ends p (h.view S) x (h'.view S)) ∧ Q x h') p h := by
  induction p generalizing h with
  | ret a => exact ⟨⟨d, fun _ => 0, fun _ => 0, rfl⟩, r⟩
  | ub k => exact ⟨⟨d, fun _ => 0, fun _ => 0, rfl⟩, r⟩
  | exit => exact ⟨⟨d, fun _ => 0, fun _ => 0, rfl⟩, r⟩
  | hang => exact ⟨⟨d, fun _ => 0, fun _ => 0, rfl⟩, r⟩
  | malloc c k ih =>
    intro a ha
    refine (ih a (r a ha) (d.add ha c)).mono fun x h' ⟨⟨d', g, g', e⟩, q⟩ => ⟨⟨d', picksCons a g, g', ?_⟩, q⟩
    rw [interp_view_malloc c k h a ha, e]
  | free a k ih =>
    obtain ⟨⟨c, hc⟩, r⟩ := r
    refine ⟨⟨c, hc⟩, (ih r (d.set hc _)).mono fun x h' ⟨⟨d', g, g', e⟩, q⟩ => ⟨⟨d', g, g', ?_⟩, q⟩⟩
    rw [interp_free (h := h.view S g) (c := c) (by simp [Heap.view, hc]), ← view_set (d.2 a c hc)]
    exact e
  | load a k ih =>
    obtain ⟨c, hc, r⟩ := r
    refine ⟨c, hc, (ih c r d).mono fun x h' ⟨⟨d', g, g', e⟩, q⟩ => ⟨⟨d', g, g', ?_⟩, q⟩⟩
    rw [interp_load (h := h.view S g) (c := c) hc]
    exact e
  | store a c' k ih =>
    obtain ⟨⟨c, hc⟩, r⟩ := r
    refine ⟨⟨c, hc⟩, (ih r (d.set hc _)).mono fun x h' ⟨⟨d', g, g', e⟩, q⟩ => ⟨⟨d', g, g', ?_⟩, q⟩⟩
    rw [interp_store (h := h.view S g) (c := c) (by simp [Heap.view, hc]), ← view_set (d.2 a c hc)]
    exact e
  | fuel k ih => exact ih _ r d

/-- The program changes and frees only blocks that it allocates itself, and those of `A`. -/
def OnlyNew (A : List Nat) : Prog α → Prop
  | .ret _ => True
  | .ub _ => True
  | .exit => True
  | .hang => True
  | .malloc _ k => ∀ a, OnlyNew (a :: A) (k a)
  | .free _ _ => False
  | .load _ k => ∀ c, OnlyNew A (k c)
  | .store a _ k => a ∈ A ∧ OnlyNew A k
  | .fuel k => ∀ n, OnlyNew A (k n)

/-- A program that changes only what it allocates itself, and that makes no mistakes with memory when it runs alone, runs
next to others. -/
theorem runs_new {A : List Nat} {p : Prog α} {h : Heap} (o : OnlyNew A p) (hA : ∀ a ∈ A, ∃ c, h.cells a = some c)
    (safe : ∀ g, p.interp (h.view S g) ≠ .ub .useAfterFree) (d : Apart S h) : Runs S (fun _ _ => True) p h := by
  induction p generalizing h A with
  | ret a => trivial
  | ub k => trivial
  | exit => trivial
  | hang => trivial
  | malloc c k ih =>
    intro a ha
    refine ih a (o a) (fun b hb => ?_) (fun g => ?_) (d.add ha c)
    · by_cases e : b = a
      · exact ⟨c, by simp [Heap.add, e]⟩
      · obtain ⟨x, hx⟩ := hA b (by simpa [e] using hb)
        exact ⟨x, by simp [Heap.add, e, hx]⟩
    · rw [← interp_view_malloc c k h a ha]
      exact safe _
  | free a k ih => exact o.elim
  | load a k ih =>
    cases hc : (h.cells a).or (S a) with
    | none => exact absurd (interp_load_none (h := h.view S fun _ => 0) hc) (safe _)
    | some c =>
      refine ⟨c, hc, ih c (o c) hA (fun g => ?_) d⟩
      rw [← interp_load (h := h.view S g) hc]
      exact safe _
  | store a c' k ih =>
    obtain ⟨c, hc⟩ := hA a o.1
    refine ⟨⟨c, hc⟩, ih o.2 (fun b hb => ?_) (fun g => ?_) (d.set hc _)⟩
    · by_cases e : b = a
      · exact ⟨c', by simp [Heap.set, e]⟩
      · obtain ⟨x, hx⟩ := hA b hb
        exact ⟨x, by simp [Heap.set, e, hx]⟩
    · rw [view_set (d.2 a c hc), ← interp_store (h := h.view S g) (c := c) (by simp [Heap.view, hc])]
      exact safe _
  | fuel k ih => exact ih (h.next + 1) (h := h) (o _) hA safe d

end

end Id3
