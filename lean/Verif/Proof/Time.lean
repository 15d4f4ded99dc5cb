import Verif.Spec.Time
import Verif.Heap.Io

/-!
# Rules to count memory accesses
-/

namespace Id3

namespace Prog

variable {α β γ : Type}

theorem accesses_bind (x : Prog α) (f : α → Prog β) (h : Heap) :
    (x >>= f).accesses h = x.accesses h + (match x.interp h with
      | .ok (a, h') => (f a).accesses h'
      | _ => 0) := by
  show (x.bind f).accesses h = _
  induction x generalizing h with
  | ret a => simp only [Prog.bind, accesses, interp, Nat.zero_add]; rfl
  | ub k => rfl
  | exit => rfl
  | hang => rfl
  | malloc c k ih =>
    simp only [Prog.bind, accesses, interp]
    rw [HeapM.bind_apply]
    cases Id3.malloc c h with
    | ok p => obtain ⟨a, h'⟩ := p; simp only [ih, Nat.add_assoc]; rfl
    | ub k => rfl
    | exit => rfl
    | diverge => rfl
  | free a k ih =>
    simp only [Prog.bind, accesses, interp]
    rw [HeapM.bind_apply]
    cases Id3.free (some a) h with
    | ok p => obtain ⟨a, h'⟩ := p; simp only [ih, Nat.add_assoc]; rfl
    | ub k => rfl
    | exit => rfl
    | diverge => rfl
  | load a k ih =>
    simp only [Prog.bind, accesses, interp]
    rw [HeapM.bind_apply]
    cases loadCell (some a) h with
    | ok p => obtain ⟨a, h'⟩ := p; simp only [ih, Nat.add_assoc]; rfl
    | ub k => rfl
    | exit => rfl
    | diverge => rfl
  | store a c k ih =>
    simp only [Prog.bind, accesses, interp]
    rw [HeapM.bind_apply]
    cases storeCell (some a) c h with
    | ok p => obtain ⟨a, h'⟩ := p; simp only [ih, Nat.add_assoc]; rfl
    | ub k => rfl
    | exit => rfl
    | diverge => rfl
  | fuel k ih => exact ih _ h

theorem accesses_pure (a : α) (h : Heap) : (pure a : Prog α).accesses h = 0 := rfl

/-- A call that returns. -/
theorem acc_step {x : Prog α} {y : HeapM α} [s : Same x y] {k : α → Prog γ} {b : β} {h : Heap} {Q : β → α → Heap → Prop}
    (hx : Refines (y h) (.ok b) Q) :
    ∃ a h', Q b a h' ∧ (x >>= k).accesses h = x.accesses h + (k a).accesses h' := by
  obtain ⟨a, h', e, q⟩ := hx
  refine ⟨a, h', q, ?_⟩
  rw [accesses_bind, s.eq, e]

/-- A call that may not return. -/
theorem acc_call {x : Prog α} {y : HeapM α} [s : Same x y] {k : α → Prog γ} {v : Res β} {h : Heap} {Q : β → α → Heap → Prop}
    (hx : Refines (y h) v Q) :
    (∃ b a h', v = .ok b ∧ Q b a h' ∧ (x >>= k).accesses h = x.accesses h + (k a).accesses h') ∨
      ((∀ b, v ≠ .ok b) ∧ (x >>= k).accesses h = x.accesses h) := by
  cases v with
  | ok b => exact .inl (by obtain ⟨a, h', q, e⟩ := acc_step (x := x) (k := k) hx; exact ⟨b, a, h', rfl, q, e⟩)
  | ub j => exact .inr ⟨by simp, by rw [accesses_bind, s.eq, show y h = .ub j from hx]; rfl⟩
  | exit => exact .inr ⟨by simp, by rw [accesses_bind, s.eq, show y h = .exit from hx]; rfl⟩
  | diverge => exact .inr ⟨by simp, by rw [accesses_bind, s.eq, show y h = .diverge from hx]; rfl⟩

theorem acc_lift_ok {r : Res α} {a : α} (hr : r = .ok a) (k : α → Prog γ) (h : Heap) :
    (T.lift r >>= k).accesses h = (k a).accesses h := by
  subst hr
  rfl

theorem acc_lift_fail {r : Res α} (hr : ∀ a, r ≠ .ok a) (k : α → Prog γ) (h : Heap) : (T.lift r >>= k).accesses h = 0 := by
  cases r with
  | ok a => exact absurd rfl (hr a)
  | ub k => rfl
  | exit => rfl
  | diverge => rfl

theorem acc_malloc {c : Cell} {h : Heap} {L : List Block} (r : Rep h L) (k : Nat → Prog γ) :
    ∃ a h', Rep h' ((a, c) :: L) ∧ (T.malloc c >>= k).accesses h = 1 + (k a).accesses h' := by
  obtain ⟨a, h', e, r'⟩ := r.malloc c
  refine ⟨a, h', r', ?_⟩
  show (Prog.malloc c _).accesses h = _
  simp only [accesses, e]
  rfl

theorem acc_load {a : Nat} {c : Cell} {h : Heap} {L : List Block} (r : Rep h L) (hm : (a, c) ∈ L) (k : Cell → Prog γ) :
    (T.loadCell (some a) >>= k).accesses h = 1 + (k c).accesses h := by
  show (Prog.load a _).accesses h = _
  simp only [accesses, r.load hm]
  rfl

theorem acc_store {a : Nat} {c c' : Cell} {h : Heap} {L L' : List Block} (r : Rep h L) (p : L.Perm ((a, c) :: L'))
    (k : Unit → Prog γ) :
    ∃ h', Rep h' ((a, c') :: L') ∧ (T.storeCell (some a) c' >>= k).accesses h = 1 + (k ()).accesses h' := by
  obtain ⟨h', e, r'⟩ := (r.perm p).store c'
  refine ⟨h', r', ?_⟩
  show (Prog.store a c' _).accesses h = _
  simp only [accesses, e]
  rfl

theorem acc_free {a : Nat} {c : Cell} {h : Heap} {L L' : List Block} (r : Rep h L) (p : L.Perm ((a, c) :: L'))
    (k : Unit → Prog γ) : ∃ h', Rep h' L' ∧ (T.free (some a) >>= k).accesses h = 1 + (k ()).accesses h' := by
  obtain ⟨h', e, r'⟩ := (r.perm p).free
  refine ⟨h', r', ?_⟩
  show (Prog.free a _).accesses h = _
  simp only [accesses, e]
  rfl

theorem acc_fuel {h : Heap} {L : List Block} (r : Rep h L) (k : Nat → Prog γ) :
    ∃ n, L.length < n ∧ (T.heapFuel >>= k).accesses h = (k n).accesses h :=
  ⟨h.next + 1, Nat.lt_succ_of_le r.length, rfl⟩

/-- The last call of a function. -/
theorem acc_last (x : Prog α) (h : Heap) : (x >>= fun a => pure a).accesses h = x.accesses h := by
  rw [accesses_bind]
  cases x.interp h <;> rfl

theorem acc_store_last {a : Nat} {c : Cell} {h : Heap} : (T.storeCell (some a) c).accesses h = 1 := by
  show (Prog.store a c _).accesses h = _
  simp only [accesses]
  cases storeCell (some a) c h <;> rfl

theorem acc_free_last {a : Nat} {h : Heap} : (T.free (some a)).accesses h = 1 := by
  show (Prog.free a _).accesses h = _
  simp only [accesses]
  cases Id3.free (some a) h <;> rfl

theorem acc_loadNode {a : Nat} {f n s : Ptr} {h : Heap} {L : List Block} (r : Rep h L) (hm : (a, Cell.node f n s) ∈ L)
    (k : Node → Prog γ) : (T.loadNode (some a) >>= k).accesses h = 1 + (k ⟨f, n, s⟩).accesses h := by
  show (Prog.load a _).accesses h = _
  simp only [accesses, r.load hm]
  rfl

theorem acc_loadFrame {a : Nat} {p d : Ptr} {h : Heap} {L : List Block} (r : Rep h L) (hm : (a, Cell.frame p d) ∈ L)
    (k : FrameStruct → Prog γ) : (T.loadFrame (some a) >>= k).accesses h = 1 + (k ⟨p, d⟩).accesses h := by
  show (Prog.load a _).accesses h = _
  simp only [accesses, r.load hm]
  rfl

theorem acc_loadFrameHeader {a : Nat} {x : FrameHeader} {h : Heap} {L : List Block} (r : Rep h L)
    (hm : (a, Cell.frameHeader x) ∈ L)
    (k : FrameHeader → Prog γ) : (T.loadFrameHeader (some a) >>= k).accesses h = 1 + (k x).accesses h := by
  show (Prog.load a _).accesses h = _
  simp only [accesses, r.load hm]
  rfl

theorem acc_loadTag {a : Nat} {p f : Ptr} {s : Int} {h : Heap} {L : List Block} (r : Rep h L) (hm : (a, Cell.tag p f s) ∈ L)
    (k : TagStruct → Prog γ) : (T.loadTag (some a) >>= k).accesses h = 1 + (k ⟨p, f, s⟩).accesses h := by
  show (Prog.load a _).accesses h = _
  simp only [accesses, r.load hm]
  rfl

theorem acc_loadTagHeader {a : Nat} {x : TagHeader} {h : Heap} {L : List Block} (r : Rep h L)
    (hm : (a, Cell.tagHeader x) ∈ L)
    (k : TagHeader → Prog γ) : (T.loadTagHeader (some a) >>= k).accesses h = 1 + (k x).accesses h := by
  show (Prog.load a _).accesses h = _
  simp only [accesses, r.load hm]
  rfl

/-! ## The same rules, to count backwards from the end -/

theorem cost_malloc {c : Cell} {h : Heap} {L : List Block} {k : Nat → Prog γ} {n : Nat} (r : Rep h L)
    (hk : ∀ a h', Rep h' ((a, c) :: L) → (k a).accesses h' = n) : (T.malloc c >>= k).accesses h = n + 1 := by
  obtain ⟨a, h', r', e⟩ := acc_malloc r k
  rw [e, hk a h' r', Nat.add_comm]

theorem cost_store {a : Nat} {c c' : Cell} {h : Heap} {L L' : List Block} {k : Unit → Prog γ} {n : Nat} (r : Rep h L)
    (p : L.Perm ((a, c) :: L')) (hk : ∀ h', Rep h' ((a, c') :: L') → (k ()).accesses h' = n) :
    (T.storeCell (some a) c' >>= k).accesses h = n + 1 := by
  obtain ⟨h', r', e⟩ := acc_store (c' := c') r p k
  rw [e, hk h' r', Nat.add_comm]

theorem cost_free {a : Nat} {c : Cell} {h : Heap} {L L' : List Block} {k : Unit → Prog γ} {n : Nat} (r : Rep h L)
    (p : L.Perm ((a, c) :: L')) (hk : ∀ h', Rep h' L' → (k ()).accesses h' = n) :
    (T.free (some a) >>= k).accesses h = n + 1 := by
  obtain ⟨h', r', e⟩ := acc_free r p k
  rw [e, hk h' r', Nat.add_comm]

theorem cost_fuel {h : Heap} {L : List Block} {k : Nat → Prog γ} {n : Nat} (r : Rep h L)
    (hk : ∀ m, L.length < m → (k m).accesses h = n) : (T.heapFuel >>= k).accesses h = n := by
  obtain ⟨m, hm, e⟩ := acc_fuel r k
  rw [e, hk m hm]

theorem cost_step {x : Prog α} {y : HeapM α} [s : Same x y] {k : α → Prog γ} {b : β} {h : Heap} {Q : β → α → Heap → Prop}
    {m n : Nat} (hx : Refines (y h) (.ok b) Q) (hc : x.accesses h = m) (hk : ∀ a h', Q b a h' → (k a).accesses h' = n) :
    (x >>= k).accesses h = n + m := by
  obtain ⟨a, h', q, e⟩ := acc_step (x := x) (k := k) hx
  rw [e, hk a h' q, hc, Nat.add_comm]

theorem cost_loadNode {a : Nat} {f n s : Ptr} {h : Heap} {L : List Block} {k : Node → Prog γ} {m : Nat} (r : Rep h L)
    (hm : (a, Cell.node f n s) ∈ L) (hk : (k ⟨f, n, s⟩).accesses h = m) :
    (T.loadNode (some a) >>= k).accesses h = m + 1 := by
  rw [acc_loadNode r hm, hk, Nat.add_comm]

theorem cost_loadFrame {a : Nat} {p d : Ptr} {h : Heap} {L : List Block} {k : FrameStruct → Prog γ} {m : Nat} (r : Rep h L)
    (hm : (a, Cell.frame p d) ∈ L) (hk : (k ⟨p, d⟩).accesses h = m) :
    (T.loadFrame (some a) >>= k).accesses h = m + 1 := by
  rw [acc_loadFrame r hm, hk, Nat.add_comm]

theorem cost_loadFrameHeader {a : Nat} {x : FrameHeader} {h : Heap} {L : List Block} {k : FrameHeader → Prog γ} {m : Nat}
    (r : Rep h L) (hm : (a, Cell.frameHeader x) ∈ L) (hk : (k x).accesses h = m) :
    (T.loadFrameHeader (some a) >>= k).accesses h = m + 1 := by
  rw [acc_loadFrameHeader r hm, hk, Nat.add_comm]

theorem cost_loadTag {a : Nat} {p f : Ptr} {s : Int} {h : Heap} {L : List Block} {k : TagStruct → Prog γ} {m : Nat}
    (r : Rep h L) (hm : (a, Cell.tag p f s) ∈ L) (hk : (k ⟨p, f, s⟩).accesses h = m) :
    (T.loadTag (some a) >>= k).accesses h = m + 1 := by
  rw [acc_loadTag r hm, hk, Nat.add_comm]

theorem cost_loadTagHeader {a : Nat} {x : TagHeader} {h : Heap} {L : List Block} {k : TagHeader → Prog γ} {m : Nat}
    (r : Rep h L) (hm : (a, Cell.tagHeader x) ∈ L) (hk : (k x).accesses h = m) :
    (T.loadTagHeader (some a) >>= k).accesses h = m + 1 := by
  rw [acc_loadTagHeader r hm, hk, Nat.add_comm]

theorem cost_load {a : Nat} {c : Cell} {h : Heap} {L : List Block} {k : Cell → Prog γ} {m : Nat} (r : Rep h L)
    (hm : (a, c) ∈ L) (hk : (k c).accesses h = m) : (T.loadCell (some a) >>= k).accesses h = m + 1 := by
  rw [acc_load r hm, hk, Nat.add_comm]

end Prog

end Id3
