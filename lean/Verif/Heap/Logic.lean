import Verif.Heap.Rep

/-!
# Proof rules for heap programs
-/

namespace Id3

/-! ## The heap -/

theorem Rep.perm {h : Heap} {L L' : List Block} (r : Rep h L) (p : L.Perm L') : Rep h L' :=
  ⟨fun a c => (r.cells a c).trans p.mem_iff, (p.map _).nodup_iff.mp r.nodup,
    fun b hb => r.bound b (p.mem_iff.mpr hb)⟩

theorem nodup_bounded : ∀ (n : Nat) (l : List Nat), l.Nodup → (∀ x ∈ l, x < n) → l.length ≤ n
  | 0, [], _, _ => Nat.le_refl _
  | 0, x :: _, _, hb => absurd (hb x (by simp)) (by omega)
  | n + 1, l, hn, hb => by
    by_cases hm : n ∈ l
    · have h1 := nodup_bounded n (l.erase n) (hn.erase n) (fun x hx => by
        have h2 := (List.Nodup.mem_erase_iff hn).mp hx
        have h3 := hb x h2.2
        have h4 := h2.1
        omega)
      have h2 := List.length_erase_of_mem hm
      have h3 : 0 < l.length := List.length_pos_of_mem hm
      omega
    · have h1 := nodup_bounded n l hn (fun x hx => by
        have h3 := hb x hx
        have h4 : x ≠ n := fun e => hm (e ▸ hx)
        omega)
      omega

theorem Rep.length {h : Heap} {L : List Block} (r : Rep h L) : L.length ≤ h.next := by
  have := nodup_bounded h.next (L.map (·.1)) r.nodup (fun x hx => by
    obtain ⟨b, hb, rfl⟩ := List.mem_map.mp hx
    exact r.bound b hb)
  simpa using this

theorem Rep.load {h : Heap} {L : List Block} (r : Rep h L) {a : Nat} {c : Cell} (hm : (a, c) ∈ L) :
    loadCell (some a) h = .ok (c, h) := by
  simp only [loadCell, (r.cells a c).mpr hm]

theorem Rep.absent {h : Heap} {L : List Block} (r : Rep h L) {a : Nat} (hm : a ∉ L.map (·.1)) : h.cells a = none := by
  cases e : h.cells a with
  | none => rfl
  | some c => exact absurd (List.mem_map.mpr ⟨_, (r.cells a c).mp e, rfl⟩) hm

/-- The address that `malloc` returns is not allocated. -/
theorem Rep.place {h : Heap} {L : List Block} (r : Rep h L) (c : Cell) : (h.place, c) ∉ L := by
  intro hm
  unfold Heap.place at hm
  split at hm
  · next hn => rw [(r.cells _ _).mpr hm] at hn; cases hn
  · exact absurd (r.bound _ hm) (Nat.lt_irrefl _)

theorem Rep.malloc {h : Heap} {L : List Block} (r : Rep h L) (c : Cell) :
    ∃ a h', malloc c h = .ok (a, h') ∧ Rep h' ((a, c) :: L) := by
  refine ⟨_, _, rfl, ?_, ?_, ?_⟩
  · intro a c'
    dsimp only
    by_cases ha : a = h.place
    · subst ha
      rw [if_pos rfl]
      constructor
      · intro e
        cases e
        exact List.mem_cons_self
      · intro hm
        rcases List.mem_cons.mp hm with e | hm
        · cases e; rfl
        · exact absurd hm (r.place _)
    · rw [if_neg ha, r.cells]
      constructor
      · exact List.mem_cons_of_mem _
      · intro hm
        rcases List.mem_cons.mp hm with e | hm
        · cases e; exact absurd rfl ha
        · exact hm
  · rw [List.map_cons, List.nodup_cons]
    refine ⟨?_, r.nodup⟩
    intro hm
    obtain ⟨⟨_, c'⟩, hb, rfl⟩ := List.mem_map.mp hm
    exact r.place c' hb
  · intro b hb
    rcases List.mem_cons.mp hb with e | hb
    · subst e; exact Nat.lt_of_lt_of_le (Nat.lt_succ_self _) (Nat.le_max_right ..)
    · exact Nat.lt_of_lt_of_le (r.bound b hb) (Nat.le_max_left ..)

theorem Rep.fresh {h : Heap} {a : Nat} {c : Cell} {L : List Block} (r : Rep h ((a, c) :: L)) :
    ∀ c', (a, c') ∉ L := by
  intro c' hm
  have := r.nodup
  rw [List.map_cons, List.nodup_cons] at this
  exact this.1 (List.mem_map.mpr ⟨_, hm, rfl⟩)

theorem Rep.store {h : Heap} {a : Nat} {c : Cell} {L : List Block} (r : Rep h ((a, c) :: L)) (c' : Cell) :
    ∃ h', storeCell (some a) c' h = .ok ((), h') ∧ Rep h' ((a, c') :: L) := by
  have hc := (r.cells a c).mpr List.mem_cons_self
  refine ⟨h.set a (some c'), ?_, ?_, ?_, ?_⟩
  · simp only [storeCell, hc]
  · intro x d
    dsimp only [Heap.set]
    by_cases hx : x = a
    · subst hx
      rw [if_pos rfl]
      constructor
      · intro e; cases e; exact List.mem_cons_self
      · intro hm
        rcases List.mem_cons.mp hm with e | hm
        · cases e; rfl
        · exact absurd hm (r.fresh d)
    · rw [if_neg hx, r.cells]
      constructor
      · intro hm
        rcases List.mem_cons.mp hm with e | hm
        · cases e; exact absurd rfl hx
        · exact List.mem_cons_of_mem _ hm
      · intro hm
        rcases List.mem_cons.mp hm with e | hm
        · cases e; exact absurd rfl hx
        · exact List.mem_cons_of_mem _ hm
  · have := r.nodup
    rwa [List.map_cons] at this ⊢
  · intro b hb
    rcases List.mem_cons.mp hb with e | hb
    · subst e; exact r.bound (a, c) List.mem_cons_self
    · exact r.bound b (List.mem_cons_of_mem _ hb)

theorem Rep.free {h : Heap} {a : Nat} {c : Cell} {L : List Block} (r : Rep h ((a, c) :: L)) :
    ∃ h', free (some a) h = .ok ((), h') ∧ Rep h' L := by
  have hc := (r.cells a c).mpr List.mem_cons_self
  refine ⟨h.set a none, ?_, ?_, ?_, ?_⟩
  · simp only [Id3.free, hc]
  · intro x d
    dsimp only [Heap.set]
    by_cases hx : x = a
    · subst hx
      rw [if_pos rfl]
      constructor
      · intro e; cases e
      · intro hm; exact absurd hm (r.fresh d)
    · rw [if_neg hx, r.cells]
      constructor
      · intro hm
        rcases List.mem_cons.mp hm with e | hm
        · cases e; exact absurd rfl hx
        · exact hm
      · exact List.mem_cons_of_mem _
  · have := r.nodup
    rw [List.map_cons, List.nodup_cons] at this
    exact this.2
  · intro b hb
    exact r.bound b (List.mem_cons_of_mem _ hb)

/-! ## Refinement -/

/-- A heap computation does what a value-level computation says: it fails in the same way, or both succeed with results
related by `Q`. -/
def Refines {α β : Type} (x : Res (α × Heap)) (v : Res β) (Q : β → α → Heap → Prop) : Prop :=
  match v with
  | .ok b => ∃ a h', x = .ok (a, h') ∧ Q b a h'
  | .ub k => x = .ub k
  | .exit => x = .exit
  | .diverge => x = .diverge

namespace Refines

variable {α β γ δ : Type}

theorem pure {Q : β → α → Heap → Prop} {a : α} {b : β} {h : Heap} (hq : Q b a h) :
    Refines ((Pure.pure a : HeapM α) h) (.ok b) Q := ⟨a, h, rfl, hq⟩

theorem mono {x : Res (α × Heap)} {v : Res β} {Q Q' : β → α → Heap → Prop} (hx : Refines x v Q)
    (hq : ∀ b a h', v = .ok b → Q b a h' → Q' b a h') : Refines x v Q' := by
  cases v with
  | ok b => obtain ⟨a, h', e, q⟩ := hx; exact ⟨a, h', e, hq b a h' rfl q⟩
  | ub k => exact hx
  | exit => exact hx
  | diverge => exact hx

/-- The value-level program computes something from the result. -/
theorem vmap {x : Res (α × Heap)} {v : Res β} {g : β → Res δ} {Q : β → α → Heap → Prop} {Q' : δ → α → Heap → Prop}
    (hx : Refines x v Q) (hq : ∀ b a h', v = .ok b → Q b a h' → ∃ c, g b = .ok c ∧ Q' c a h') :
    Refines x (v >>= g) Q' := by
  cases v with
  | ok b =>
    obtain ⟨a, h', e, q⟩ := hx
    obtain ⟨c, e', q'⟩ := hq b a h' rfl q
    rw [Res.bind_ok, e']
    exact ⟨a, h', e, q'⟩
  | ub k => exact hx
  | exit => exact hx
  | diverge => exact hx

/-- The heap program calls a function that the value-level program calls too. -/
theorem call {x : HeapM α} {k : α → HeapM γ} {v : Res β} {g : β → Res δ} {h : Heap} {Q : β → α → Heap → Prop}
    {Q' : δ → γ → Heap → Prop} (hx : Refines (x h) v Q)
    (hk : ∀ b a h', v = .ok b → Q b a h' → Refines (k a h') (g b) Q') : Refines ((x >>= k) h) (v >>= g) Q' := by
  rw [HeapM.bind_apply]
  cases v with
  | ok b => obtain ⟨a, h', e, q⟩ := hx; rw [e]; exact hk b a h' rfl q
  | ub k => rw [show x h = .ub k from hx]; rfl
  | exit => rw [show x h = .exit from hx]; rfl
  | diverge => rw [show x h = .diverge from hx]; rfl

/-- The heap program calls a function that has no counterpart. -/
theorem step {x : HeapM α} {k : α → HeapM γ} {b : β} {v : Res δ} {h : Heap} {Q : β → α → Heap → Prop}
    {Q' : δ → γ → Heap → Prop} (hx : Refines (x h) (.ok b) Q)
    (hk : ∀ a h', Q b a h' → Refines (k a h') v Q') : Refines ((x >>= k) h) v Q' := by
  rw [HeapM.bind_apply]
  obtain ⟨a, h', e, q⟩ := hx
  rw [e]
  exact hk a h' q

theorem lift {r : Res α} {k : α → HeapM γ} {g : α → Res δ} {h : Heap} {Q' : δ → γ → Heap → Prop}
    (hk : ∀ a, r = .ok a → Refines (k a h) (g a) Q') : Refines ((Id3.lift r >>= k) h) (r >>= g) Q' := by
  rw [HeapM.bind_apply]
  unfold Id3.lift
  cases r with
  | ok a => exact hk a rfl
  | ub k => rfl
  | exit => rfl
  | diverge => rfl

theorem lift' {r : Res α} {k : α → HeapM γ} {h : Heap} {Q' : α → γ → Heap → Prop}
    (hk : ∀ a, r = .ok a → Refines (k a h) (.ok a) Q') : Refines ((Id3.lift r >>= k) h) r Q' := by
  have e : r = (r >>= fun x => .ok x) := by cases r <;> rfl
  have := Refines.lift (r := r) (k := k) (g := fun x => .ok x) (h := h) (Q' := Q') hk
  rwa [← e] at this

theorem malloc {c : Cell} {k : Nat → HeapM γ} {v : Res δ} {h : Heap} {L : List Block} {Q' : δ → γ → Heap → Prop}
    (r : Rep h L) (hk : ∀ a h', Rep h' ((a, c) :: L) → Refines (k a h') v Q') :
    Refines ((Id3.malloc c >>= k) h) v Q' := by
  obtain ⟨a, h', e, r'⟩ := r.malloc c
  rw [HeapM.bind_apply, e]
  exact hk a h' r'

theorem load {a : Nat} {c : Cell} {k : Cell → HeapM γ} {v : Res δ} {h : Heap} {L : List Block}
    {Q' : δ → γ → Heap → Prop} (r : Rep h L) (hm : (a, c) ∈ L) (hk : Refines (k c h) v Q') :
    Refines ((loadCell (some a) >>= k) h) v Q' := by
  rw [HeapM.bind_apply, r.load hm]
  exact hk

theorem store {a : Nat} {c c' : Cell} {k : Unit → HeapM γ} {v : Res δ} {h : Heap} {L L' : List Block}
    {Q' : δ → γ → Heap → Prop} (r : Rep h L) (p : L.Perm ((a, c) :: L'))
    (hk : ∀ h', Rep h' ((a, c') :: L') → Refines (k () h') v Q') :
    Refines ((storeCell (some a) c' >>= k) h) v Q' := by
  obtain ⟨h', e, r'⟩ := (r.perm p).store c'
  rw [HeapM.bind_apply, e]
  exact hk h' r'

theorem free {a : Nat} {c : Cell} {k : Unit → HeapM γ} {v : Res δ} {h : Heap} {L L' : List Block}
    {Q' : δ → γ → Heap → Prop} (r : Rep h L) (p : L.Perm ((a, c) :: L'))
    (hk : ∀ h', Rep h' L' → Refines (k () h') v Q') : Refines ((Id3.free (some a) >>= k) h) v Q' := by
  obtain ⟨h', e, r'⟩ := (r.perm p).free
  rw [HeapM.bind_apply, e]
  exact hk h' r'

theorem fuel {k : Nat → HeapM γ} {v : Res δ} {h : Heap} {L : List Block} {Q' : δ → γ → Heap → Prop}
    (r : Rep h L) (hk : ∀ n, L.length < n → Refines (k n h) v Q') : Refines ((heapFuel >>= k) h) v Q' := by
  rw [HeapM.bind_apply]
  exact hk (h.next + 1) (Nat.lt_succ_of_le r.length)

/-- The last call of a function. -/
theorem last {x : HeapM α} {v : Res β} {h : Heap} {Q : β → α → Heap → Prop}
    (hx : Refines ((x >>= fun a => Pure.pure a) h) v Q) : Refines (x h) v Q := by
  have e : ((x >>= fun a => Pure.pure a) h : Res (α × Heap)) = x h := by
    rw [HeapM.bind_apply]
    cases x h <;> rfl
  rwa [e] at hx

theorem loadNode {a : Nat} {f n s : Ptr} {k : Node → HeapM γ} {v : Res δ} {h : Heap} {L : List Block}
    {Q' : δ → γ → Heap → Prop} (r : Rep h L) (hm : (a, Cell.node f n s) ∈ L) (hk : Refines (k ⟨f, n, s⟩ h) v Q') :
    Refines ((Id3.loadNode (some a) >>= k) h) v Q' := by
  have e : Id3.loadNode (some a) h = .ok (⟨f, n, s⟩, h) := by
    unfold Id3.loadNode
    rw [HeapM.bind_apply, r.load hm]
    rfl
  rw [HeapM.bind_apply, e]
  exact hk

theorem loadFrame {a : Nat} {p d : Ptr} {k : FrameStruct → HeapM γ} {v : Res δ} {h : Heap} {L : List Block}
    {Q' : δ → γ → Heap → Prop} (r : Rep h L) (hm : (a, Cell.frame p d) ∈ L) (hk : Refines (k ⟨p, d⟩ h) v Q') :
    Refines ((Id3.loadFrame (some a) >>= k) h) v Q' := by
  have e : Id3.loadFrame (some a) h = .ok (⟨p, d⟩, h) := by
    unfold Id3.loadFrame
    rw [HeapM.bind_apply, r.load hm]
    rfl
  rw [HeapM.bind_apply, e]
  exact hk

theorem loadFrameHeader {a : Nat} {x : FrameHeader} {k : FrameHeader → HeapM γ} {v : Res δ} {h : Heap}
    {L : List Block} {Q' : δ → γ → Heap → Prop} (r : Rep h L) (hm : (a, Cell.frameHeader x) ∈ L)
    (hk : Refines (k x h) v Q') : Refines ((Id3.loadFrameHeader (some a) >>= k) h) v Q' := by
  have e : Id3.loadFrameHeader (some a) h = .ok (x, h) := by
    unfold Id3.loadFrameHeader
    rw [HeapM.bind_apply, r.load hm]
    rfl
  rw [HeapM.bind_apply, e]
  exact hk

theorem loadTag {a : Nat} {p f : Ptr} {s : Int} {k : TagStruct → HeapM γ} {v : Res δ} {h : Heap} {L : List Block}
    {Q' : δ → γ → Heap → Prop} (r : Rep h L) (hm : (a, Cell.tag p f s) ∈ L) (hk : Refines (k ⟨p, f, s⟩ h) v Q') :
    Refines ((Id3.loadTag (some a) >>= k) h) v Q' := by
  have e : Id3.loadTag (some a) h = .ok (⟨p, f, s⟩, h) := by
    unfold Id3.loadTag
    rw [HeapM.bind_apply, r.load hm]
    rfl
  rw [HeapM.bind_apply, e]
  exact hk

theorem loadTagHeader {a : Nat} {x : TagHeader} {k : TagHeader → HeapM γ} {v : Res δ} {h : Heap}
    {L : List Block} {Q' : δ → γ → Heap → Prop} (r : Rep h L) (hm : (a, Cell.tagHeader x) ∈ L)
    (hk : Refines (k x h) v Q') : Refines ((Id3.loadTagHeader (some a) >>= k) h) v Q' := by
  have e : Id3.loadTagHeader (some a) h = .ok (x, h) := by
    unfold Id3.loadTagHeader
    rw [HeapM.bind_apply, r.load hm]
    rfl
  rw [HeapM.bind_apply, e]
  exact hk

theorem loadCFrame {a : Nat} {i fl : Bytes} {sz : Int} {d x : Ptr} {k : CFrameStruct → HeapM γ} {v : Res δ} {h : Heap}
    {L : List Block} {Q' : δ → γ → Heap → Prop} (r : Rep h L) (hm : (a, Cell.cframe i sz fl d x) ∈ L)
    (hk : Refines (k ⟨i, sz, fl, d, x⟩ h) v Q') : Refines ((Id3.loadCFrame (some a) >>= k) h) v Q' := by
  have e : Id3.loadCFrame (some a) h = .ok (⟨i, sz, fl, d, x⟩, h) := by
    unfold Id3.loadCFrame
    rw [HeapM.bind_apply, r.load hm]
    rfl
  rw [HeapM.bind_apply, e]
  exact hk

theorem loadCNode {a : Nat} {f n s : Ptr} {l : Option Ptr} {k : CNode → HeapM γ} {v : Res δ} {h : Heap}
    {L : List Block} {Q' : δ → γ → Heap → Prop} (r : Rep h L) (hm : (a, Cell.cnode f n s l) ∈ L)
    (hk : Refines (k ⟨f, n, s, l⟩ h) v Q') : Refines ((Id3.loadCNode (some a) >>= k) h) v Q' := by
  have e : Id3.loadCNode (some a) h = .ok (⟨f, n, s, l⟩, h) := by
    unfold Id3.loadCNode
    rw [HeapM.bind_apply, r.load hm]
    rfl
  rw [HeapM.bind_apply, e]
  exact hk

theorem loadCTag {a : Nat} {w : Option Ptr} {x f t : Ptr} {k : CTagStruct → HeapM γ} {v : Res δ} {h : Heap}
    {L : List Block} {Q' : δ → γ → Heap → Prop} (r : Rep h L) (hm : (a, Cell.ctag w x f t) ∈ L)
    (hk : Refines (k ⟨w, x, f, t⟩ h) v Q') : Refines ((Id3.loadCTag (some a) >>= k) h) v Q' := by
  have e : Id3.loadCTag (some a) h = .ok (⟨w, x, f, t⟩, h) := by
    unfold Id3.loadCTag
    rw [HeapM.bind_apply, r.load hm]
    rfl
  rw [HeapM.bind_apply, e]
  exact hk

theorem loadBytes {a : Nat} {b : Bytes} {k : Bytes → HeapM γ} {v : Res δ} {h : Heap} {L : List Block}
    {Q' : δ → γ → Heap → Prop} (r : Rep h L) (hm : (a, Cell.bytes b) ∈ L) (hk : Refines (k b h) v Q') :
    Refines ((Id3.loadBytes (some a) >>= k) h) v Q' := by
  have e : Id3.loadBytes (some a) h = .ok (b, h) := by
    unfold Id3.loadBytes
    rw [HeapM.bind_apply, r.load hm]
    rfl
  rw [HeapM.bind_apply, e]
  exact hk

end Refines

/-- Two lists of blocks made of the same parts. -/
macro "blocks" : tactic => `(tactic| (
  rw [List.perm_iff_count]; intro b__
  simp only [List.count_append, List.count_cons, List.count_nil, List.append_assoc, List.cons_append,
    List.nil_append, List.append_nil]
  first | omega | skip))

/-- Two lists of blocks made of the same parts, given that some other lists are. -/
macro "blocks_using" h:term : tactic => `(tactic| (
  have hc__ := List.perm_iff_count.mp $h
  rw [List.perm_iff_count]; intro b__
  have hb__ := hc__ b__
  simp only [List.count_append, List.count_cons, List.count_nil, List.append_assoc, List.cons_append,
    List.nil_append, List.append_nil] at hb__ ⊢
  first | omega | skip))

end Id3
