import Verif.Proof.Compat

/-!
# Comparing ids

The compatibility API compares the ids of its entries with `memcmp`, the tag those of its frames with `strncmp`. For the
ids of the library both say the same.
-/

namespace Id3

open Spec

theorem memcpySrc_take {p a : Bytes} {n : Int} (h : memcpySrc p n = .ok a) : a = p.take n.toNat ∧ n.toNat ≤ p.length := by
  unfold memcpySrc at h
  split at h
  · cases h
  · split at h
    · cases h
    · rename_i h1 h2
      exact ⟨(Res.ok.inj h).symm, by omega⟩

theorem loadAll_eq : ∀ {a : Bytes} {b : List UInt8}, loadAll a = .ok b → a = ofB b
  | [], b, h => by cases h; rfl
  | x :: a, b, h => by
    unfold loadAll at h
    obtain ⟨y, h1, h2⟩ := Res.bind_eq_ok.mp h
    obtain ⟨ys, h3, h4⟩ := Res.bind_eq_ok.mp h2
    have := Res.ok.inj h4
    subst this
    cases x with
    | none => cases h1
    | some x =>
      cases h1
      rw [loadAll_eq h3]
      rfl

theorem strncmp_take : ∀ (n : Nat) (a b : Bytes), strncmpEq n a b = strncmpEq n (a.take n) b
  | 0, _, _ => by simp [strncmpEq]
  | _ + 1, [], _ => rfl
  | n + 1, x :: a, [] => rfl
  | n + 1, x :: a, y :: b => by
    rw [List.take_succ_cons]
    simp only [strncmpEq]
    rw [strncmp_take n a b]

/-- A string that `strncmp` says is equal to a string without a NUL in its first `n` characters starts with those. -/
theorem strncmp_true : ∀ (k : List UInt8) (a rest : Bytes), 0 ∉ k → strncmpEq k.length a (ofB k ++ rest) = .ok true →
    a.take k.length = ofB k
  | [], a, rest, _, _ => by simp [ofB]
  | y :: k, [], rest, _, h => by cases h
  | y :: k, x :: a, rest, h0, h => by
    simp only [List.length_cons, ofB, List.map_cons, List.cons_append, strncmpEq] at h
    cases x with
    | none => cases h
    | some x =>
      simp only [load, Res.bind_ok, Res.pure_eq] at h
      split at h
      · cases h
      · rename_i e
        have e : x = y := by simpa using e
        subst e
        split at h
        · rename_i e
          exact absurd (by rw [e]; simp) h0
        · rw [List.length_cons, List.take_succ_cons, strncmp_true k a rest (fun hm => h0 (List.mem_cons_of_mem _ hm)) h]
          rfl

/-- `memcmp` on the id of an entry and `strncmp` on the id of its frame agree. -/
theorem ids_agree {p a : Bytes} {k : List UInt8} {r : Bool} (rest : Bytes) (hk : ValidId k) (ha : memcpySrc p 4 = .ok a)
    (h : idEq a (ofB k) = .ok r) : strncmpEq 4 p (ofB k ++ rest) = .ok r := by
  obtain ⟨e, hl⟩ := memcpySrc_take ha
  have e : a = p.take 4 := e
  have hl : 4 ≤ p.length := hl
  have h' := h
  unfold idEq at h'
  obtain ⟨b, h1, h'⟩ := Res.bind_eq_ok.mp h'
  obtain ⟨c, h2, h'⟩ := Res.bind_eq_ok.mp h'
  obtain ⟨j, h3, h'⟩ := Res.bind_eq_ok.mp h'
  obtain ⟨e1, _⟩ := memcpySrc_take h1
  have e1 : b = a.take 4 := e1
  have hj := loadAll_eq h3
  have hab : a = ofB j := by rw [← hj, e1, e, List.take_take]; rfl
  have hjl : j.length = 4 := by
    have : a.length = 4 := by rw [e, List.length_take]; omega
    rw [hab] at this
    simpa using this
  rw [hab, idEq_ofB j k hjl hk.1] at h
  rw [strncmp_take, ← e, hab, strncmp_ofB 4 j k rest hjl hk.1 hk.2]
  exact h

/-- The frame that the getter finds is the first one with the id. -/
theorem get_first : ∀ {l : FrameList} {id : Bytes} {i : Nat} {f : Frame},
    FrameList_get_frame_by_id l id = .ok (some (i, f)) →
      l[i]? = some (some f) ∧ idMatches f id = .ok true ∧
        ∀ j, j < i → ∃ g, l[j]? = some (some g) ∧ idMatches g id = .ok false
  | [], _, _, _, h => by cases h
  | none :: _, _, _, _, h => by cases h
  | some f :: l, id, i, g, h => by
    unfold FrameList_get_frame_by_id at h
    obtain ⟨b, h1, h⟩ := Res.bind_eq_ok.mp h
    cases b with
    | true =>
      simp only [if_true] at h
      have := Res.ok.inj h
      cases this
      exact ⟨rfl, h1, fun j hj => absurd hj (by omega)⟩
    | false =>
      simp only [Bool.false_eq_true, if_false] at h
      obtain ⟨r, h2, h⟩ := Res.bind_eq_ok.mp h
      cases r with
      | none => cases h
      | some p =>
        obtain ⟨i', g'⟩ := p
        have := Res.ok.inj h
        cases this
        obtain ⟨e1, e2, e3⟩ := get_first h2
        refine ⟨by simpa using e1, e2, fun j hj => ?_⟩
        cases j with
        | zero => exact ⟨f, rfl, h1⟩
        | succ j => simpa using e3 j (by omega)

theorem get_of_first : ∀ {l : FrameList} {id : Bytes} {i : Nat} {f : Frame},
    l[i]? = some (some f) → idMatches f id = .ok true →
      (∀ j, j < i → ∃ g, l[j]? = some (some g) ∧ idMatches g id = .ok false) →
      FrameList_get_frame_by_id l id = .ok (some (i, f))
  | [], _, _, _, h, _, _ => by simp at h
  | none :: _, _, 0, _, h, _, _ => by simp at h
  | none :: _, _, i + 1, _, _, _, h => by
    obtain ⟨g, hg, _⟩ := h 0 (by omega)
    simp at hg
  | some f :: l, id, 0, g, h, h1, _ => by
    have : f = g := by simpa using h
    subst this
    unfold FrameList_get_frame_by_id
    rw [h1]
    rfl
  | some f :: l, id, i + 1, g, h, h1, h2 => by
    obtain ⟨f', hf, hm⟩ := h2 0 (by omega)
    have : f = f' := by simpa using hf
    subst this
    unfold FrameList_get_frame_by_id
    rw [hm]
    simp only [Res.bind_ok, Bool.false_eq_true, if_false]
    rw [get_of_first (l := l) (i := i) (f := g) (by simpa using h) h1 (fun j hj => by simpa using h2 (j + 1) (by omega))]
    rfl

end Id3
