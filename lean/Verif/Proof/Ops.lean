import Verif.Spec.Multimap
import Verif.Proof.Wire
import Verif.Proof.NewFrames

/-!
# The operations on frame lists and tags
-/

namespace Id3

open Spec

theorem strncmp_ofB (n : Nat) (a b : List UInt8) (rest : Bytes) (ha : a.length = n) (hb : b.length = n) (h0 : 0 ∉ b) :
    strncmpEq n (ofB a) (ofB b ++ rest) = .ok (decide (a = b)) := by
  induction n generalizing a b with
  | zero =>
    have h1 := List.length_eq_zero_iff.mp ha
    have h2 := List.length_eq_zero_iff.mp hb
    subst h1; subst h2; rfl
  | succ n ih =>
    cases a with
    | nil => simp at ha
    | cons x xs =>
      cases b with
      | nil => simp at hb
      | cons y ys =>
        simp only [List.mem_cons, not_or] at h0
        simp only [ofB, List.map_cons, List.cons_append, strncmpEq, load, Res.bind_ok, Res.pure_eq]
        by_cases h : x = y
        · subst h
          rw [if_neg (by simp), if_neg (fun e => h0.1 e.symm)]
          have := ih xs ys (by simpa using ha) (by simpa using hb) h0.2
          simp only [ofB] at this
          rw [this]; simp
        · rw [if_pos h]; simp [h]

/-- `strncmp` on arbitrary strings, which may end before `n` characters. -/
theorem strncmp_any (n : Nat) (a b : List UInt8) (rest : Bytes) (ha : n ≤ a.length ∨ 0 ∈ a) (hb : n ≤ b.length ∨ 0 ∈ b) :
    strncmpEq n (ofB a) (ofB b ++ rest) =
      .ok (decide ((a.take n).takeWhile (· ≠ 0) = (b.take n).takeWhile (· ≠ 0))) := by
  induction n generalizing a b with
  | zero => simp [strncmpEq]
  | succ n ih =>
    cases a with
    | nil => simp at ha
    | cons x xs =>
      cases b with
      | nil => simp at hb
      | cons y ys =>
        simp only [ofB, List.map_cons, List.cons_append, strncmpEq, load, Res.bind_ok, Res.pure_eq]
        by_cases h : x = y
        · subst h
          rw [if_neg (by simp)]
          by_cases hx : x = 0
          · subst hx; simp
          · rw [if_neg hx]
            have := ih xs ys (by simpa [Ne.symm hx] using ha) (by simpa [Ne.symm hx] using hb)
            simp only [ofB] at this
            rw [this]
            simp [hx]
        · rw [if_pos h]
          by_cases hx : x = 0
          · subst hx
            simp [Ne.symm h]
          · by_cases hy : y = 0
            · subst hy
              simp [hx]
            · simp [hx, hy, h]

theorem key_ofB (f : Frame) (k : List UInt8) (h : f.header.id = ofB k) : f.key = k := by
  unfold Frame.key
  rw [h]
  induction k <;> simp_all [ofB]

/-- Comparing the id of a sound frame with an id. -/
theorem idMatches_eq (f : Frame) (k : List UInt8) (rest : Bytes) (hf : f.Sound) (hk : ValidId k) :
    idMatches f (ofB k ++ rest) = .ok (decide (f.key = k)) := by
  obtain ⟨⟨j, hj, e⟩, -⟩ := hf
  unfold idMatches
  rw [e, strncmp_ofB 4 j k rest hj hk.1 hk.2, key_ofB f j e]

/-- Where a node list ends for the getters: at its end, or at a node without a frame. -/
def Stops (l : FrameList) : Prop := l = [] ∨ ∃ t, l = none :: t

theorem get_skip (a : List Frame) (l : FrameList) (k : List UInt8) (rest : Bytes) (hk : ValidId k)
    (ha : ∀ f ∈ a, f.Sound ∧ f.key ≠ k) :
    FrameList_get_frame_by_id (a.map some ++ l) (ofB k ++ rest) =
      (FrameList_get_frame_by_id l (ofB k ++ rest)).bind
        (fun r => .ok (r.map (fun (p : Nat × Frame) => (p.1 + a.length, p.2)))) := by
  induction a with
  | nil =>
    simp only [List.map_nil, List.nil_append, List.length_nil, Nat.add_zero]
    cases FrameList_get_frame_by_id l (ofB k ++ rest) with
    | ok r => cases r <;> rfl
    | _ => rfl
  | cons f a ih =>
    have hf := ha f (by simp)
    simp only [List.map_cons, List.cons_append, FrameList_get_frame_by_id]
    rw [idMatches_eq f k rest hf.1 hk]
    simp only [Res.bind_ok, hf.2, decide_false, Bool.false_eq_true, if_false]
    rw [ih (fun g hg => ha g (by simp [hg]))]
    cases FrameList_get_frame_by_id l (ofB k ++ rest) with
    | ok r =>
      cases r with
      | none => rfl
      | some p =>
        simp only [Res.bind, Option.map, Bind.bind, Res.pure_eq, List.length_cons, Nat.add_assoc]
    | _ => rfl

theorem get_stops (l : FrameList) (id : Bytes) (h : Stops l) : FrameList_get_frame_by_id l id = .ok none := by
  rcases h with rfl | ⟨t, rfl⟩ <;> rfl

theorem get_miss (a : List Frame) (l : FrameList) (k : List UInt8) (rest : Bytes) (hk : ValidId k)
    (ha : ∀ f ∈ a, f.Sound ∧ f.key ≠ k) (hl : Stops l) :
    FrameList_get_frame_by_id (a.map some ++ l) (ofB k ++ rest) = .ok none := by
  rw [get_skip a l k rest hk ha, get_stops l _ hl]; rfl

theorem get_hit (a : List Frame) (f : Frame) (l : FrameList) (k : List UInt8) (rest : Bytes) (hk : ValidId k)
    (ha : ∀ f ∈ a, f.Sound ∧ f.key ≠ k) (hf : f.Sound) (hfk : f.key = k) :
    FrameList_get_frame_by_id (a.map some ++ some f :: l) (ofB k ++ rest) = .ok (some (a.length, f)) := by
  rw [get_skip a _ k rest hk ha]
  simp only [FrameList_get_frame_by_id]
  rw [idMatches_eq f k rest hf hk]
  simp [hfk, Res.bind]

/-- Either no frame has the id, or there is a first one. -/
theorem split_first (fs : List Frame) (k : List UInt8) :
    (∀ f ∈ fs, f.key ≠ k) ∨ ∃ a f b, fs = a ++ f :: b ∧ f.key = k ∧ ∀ g ∈ a, g.key ≠ k := by
  induction fs with
  | nil => left; simp
  | cons x xs ih =>
    by_cases hx : x.key = k
    · right; exact ⟨[], x, xs, rfl, hx, by simp⟩
    · rcases ih with h | ⟨a, f, b, rfl, h1, h2⟩
      · left
        intro f hf
        rcases List.mem_cons.mp hf with rfl | hf
        · exact hx
        · exact h f hf
      · right
        refine ⟨x :: a, f, b, rfl, h1, ?_⟩
        intro g hg
        rcases List.mem_cons.mp hg with rfl | hg
        · exact hx
        · exact h2 g hg

variable {α : Type} {key : α → List UInt8}

theorem first_miss (k : List UInt8) (l : List α) (h : ∀ x ∈ l, key x ≠ k) : first key k l = none := by
  simpa [first, List.find?_eq_none] using h

theorem first_hit (k : List UInt8) (a : List α) (x : α) (b : List α) (h : ∀ x ∈ a, key x ≠ k) (hx : key x = k) :
    first key k (a ++ x :: b) = some x := by
  induction a with
  | nil => simp [first, hx]
  | cons y ys ih =>
    have := ih (fun z hz => h z (by simp [hz]))
    have hy := h y (by simp)
    simp only [first] at *
    simp [hy, this]

theorem put_miss (k : List UInt8) (new : α) (l : List α) (h : ∀ x ∈ l, key x ≠ k) : put key k new l = l ++ [new] := by
  induction l with
  | nil => rfl
  | cons y ys ih =>
    have hy := h y (by simp)
    simp [put, hy, ih (fun z hz => h z (by simp [hz]))]

theorem put_hit (k : List UInt8) (new : α) (a : List α) (x : α) (b : List α) (h : ∀ x ∈ a, key x ≠ k) (hx : key x = k) :
    put key k new (a ++ x :: b) = a ++ new :: b := by
  induction a with
  | nil => simp [put, hx]
  | cons y ys ih =>
    have hy := h y (by simp)
    simp [put, hy, ih (fun z hz => h z (by simp [hz]))]

theorem eraseFirst_miss (k : List UInt8) (l : List α) (h : ∀ x ∈ l, key x ≠ k) : eraseFirst key k l = l := by
  induction l with
  | nil => rfl
  | cons y ys ih =>
    have hy := h y (by simp)
    simp [eraseFirst, hy, ih (fun z hz => h z (by simp [hz]))]

theorem eraseFirst_hit (k : List UInt8) (a : List α) (x : α) (b : List α) (h : ∀ x ∈ a, key x ≠ k) (hx : key x = k) :
    eraseFirst key k (a ++ x :: b) = a ++ b := by
  induction a with
  | nil => simp [eraseFirst, hx]
  | cons y ys ih =>
    have hy := h y (by simp)
    simp [eraseFirst, hy, ih (fun z hz => h z (by simp [hz]))]

/-! ## Node lists -/

theorem nodes_eq (fs : List Frame) (h : fs ≠ []) : nodes fs = fs.map some := by
  cases fs with
  | nil => exact absurd rfl h
  | cons => rfl

/-- The node list as frames followed by a stop. -/
theorem nodes_stops (fs : List Frame) : ∃ l, nodes fs = fs.map some ++ l ∧ Stops l := by
  cases fs with
  | nil => exact ⟨[none], rfl, Or.inr ⟨[], rfl⟩⟩
  | cons f fs => exact ⟨[], by simp [nodes], Or.inl rfl⟩

theorem add_nodes (fs : List Frame) (f : Frame) : FrameList_add_frame (nodes fs) f = nodes (fs ++ [f]) := by
  cases fs with
  | nil => rfl
  | cons x xs => simp [nodes, FrameList_add_frame]

theorem replace_at (a l : FrameList) (x : Option Frame) (f : Frame) (n : Nat) (hn : n = a.length) :
    FrameList_replace_frame (a ++ x :: l) n f = a ++ some f :: l := by
  subst hn
  induction a with
  | nil => rfl
  | cons y ys ih => simp [FrameList_replace_frame, ih]

theorem remove_at (a l : FrameList) (x : Option Frame) (n : Nat) (hn : n = a.length) :
    FrameList_remove_frame (a ++ x :: l) n = a ++ unlinkNode l := by
  subst hn
  induction a with
  | nil => rfl
  | cons y ys ih => simp [FrameList_remove_frame, ih]

theorem remove_hit (a : List Frame) (f : Frame) (l : FrameList) (k : List UInt8) (rest : Bytes) (hk : ValidId k)
    (ha : ∀ f ∈ a, f.Sound ∧ f.key ≠ k) (hf : f.Sound) (hfk : f.key = k) :
    FrameList_remove_frame_by_id (a.map some ++ some f :: l) (ofB k ++ rest) =
      .ok (some f, a.map some ++ unlinkNode l) := by
  induction a with
  | nil =>
    simp only [List.map_nil, List.nil_append, FrameList_remove_frame_by_id]
    rw [idMatches_eq f k rest hf hk]
    simp [hfk]
  | cons g a ih =>
    have hg := ha g (by simp)
    simp only [List.map_cons, List.cons_append, FrameList_remove_frame_by_id]
    rw [idMatches_eq g k rest hg.1 hk]
    simp only [Res.bind_ok, hg.2, decide_false, Bool.false_eq_true, if_false]
    rw [ih (fun g hg => ha g (by simp [hg]))]
    simp

/-- Nothing matches before the end of the list. -/
theorem remove_miss (a : List Frame) (k : List UInt8) (rest : Bytes) (hk : ValidId k)
    (ha : ∀ f ∈ a, f.Sound ∧ f.key ≠ k) :
    FrameList_remove_frame_by_id (a.map some) (ofB k ++ rest) = .ok (none, a.map some) := by
  induction a with
  | nil => rfl
  | cons g a ih =>
    have hg := ha g (by simp)
    simp only [List.map_cons, FrameList_remove_frame_by_id]
    rw [idMatches_eq g k rest hg.1 hk]
    simp only [Res.bind_ok, hg.2, decide_false, Bool.false_eq_true, if_false]
    rw [ih (fun g hg => ha g (by simp [hg]))]
    simp

/-- Nothing matches before a node without a frame. -/
theorem remove_hole (a : List Frame) (l : FrameList) (k : List UInt8) (rest : Bytes) (hk : ValidId k)
    (ha : ∀ f ∈ a, f.Sound ∧ f.key ≠ k) :
    FrameList_remove_frame_by_id (a.map some ++ none :: l) (ofB k ++ rest) = .ub .nullDeref := by
  induction a with
  | nil => rfl
  | cons g a ih =>
    have hg := ha g (by simp)
    simp only [List.map_cons, List.cons_append, FrameList_remove_frame_by_id]
    rw [idMatches_eq g k rest hg.1 hk]
    simp only [Res.bind_ok, hg.2, decide_false, Bool.false_eq_true, if_false]
    rw [ih (fun g hg => ha g (by simp [hg]))]
    simp

/-! ## All matches -/

/-- The frames with the id and their positions, from a start position. -/
def matchesFrom (k : List UInt8) : Nat → List Frame → List (Nat × Frame)
  | _, [] => []
  | n, f :: fs => if f.key = k then (n, f) :: matchesFrom k (n + 1) fs else matchesFrom k (n + 1) fs

theorem matchesFrom_shift (k : List UInt8) (n : Nat) (fs : List Frame) :
    (matchesFrom k n fs).map (fun (p : Nat × Frame) => (p.1 + 1, p.2)) = matchesFrom k (n + 1) fs := by
  induction fs generalizing n with
  | nil => rfl
  | cons f fs ih =>
    simp only [matchesFrom]
    split <;> simp [ih]

theorem matchesFrom_frames (k : List UInt8) (n : Nat) (fs : List Frame) :
    (matchesFrom k n fs).map (fun p => p.2) = all Frame.key k fs := by
  induction fs generalizing n with
  | nil => rfl
  | cons f fs ih =>
    simp only [matchesFrom, all, List.filter_cons]
    split <;> simp_all [all]

theorem matching_eq (fs : List Frame) (l : FrameList) (k : List UInt8) (rest : Bytes) (hk : ValidId k)
    (hf : ∀ f ∈ fs, f.Sound) (hl : Stops l) :
    FrameList_matching (fs.map some ++ l) (ofB k ++ rest) = .ok (matchesFrom k 0 fs) := by
  induction fs with
  | nil =>
    rcases hl with rfl | ⟨t, rfl⟩ <;> rfl
  | cons f fs ih =>
    simp only [List.map_cons, List.cons_append, FrameList_matching]
    rw [idMatches_eq f k rest (hf f (by simp)) hk, ih (fun g hg => hf g (by simp [hg]))]
    simp only [Res.bind_ok, Res.pure_eq, matchesFrom, decide_eq_true_eq]
    rw [matchesFrom_shift]

theorem foldl_nodes (ms : List (Nat × Frame)) (fs : List Frame) :
    ms.foldl (fun l p => FrameList_add_frame l p.2) (nodes fs) = nodes (fs ++ ms.map (fun p => p.2)) := by
  induction ms generalizing fs with
  | nil => simp
  | cons m ms ih => simp only [List.foldl_cons, add_nodes, ih]; simp

theorem get_frames_eq (fs : List Frame) (l : FrameList) (k : List UInt8) (rest : Bytes) (hk : ValidId k)
    (hf : ∀ f ∈ fs, f.Sound) (hl : Stops l) :
    FrameList_get_frames_by_id (fs.map some ++ l) (ofB k ++ rest) = .ok (nodes (all Frame.key k fs)) := by
  unfold FrameList_get_frames_by_id
  rw [matching_eq fs l k rest hk hf hl]
  simp only [Res.bind_ok, Res.pure_eq]
  have := foldl_nodes (matchesFrom k 0 fs) []
  rw [show FrameList_new = nodes [] from rfl, this, List.nil_append, matchesFrom_frames]

/-! Ids that are arbitrary strings -/

theorem idMatches_any (f : Frame) (k : List UInt8) (rest : Bytes) (hf : f.Sound) (hk : 4 ≤ k.length ∨ 0 ∈ k) :
    idMatches f (ofB k ++ rest) = .ok (decide (idString f.key = idString k)) := by
  obtain ⟨⟨j, hj, e⟩, -⟩ := hf
  unfold idMatches idString
  rw [e, strncmp_any 4 j k rest (Or.inl (by omega)) hk, key_ofB f j e]

theorem get_any (fs : List Frame) (l : FrameList) (k : List UInt8) (rest : Bytes) (hk : 4 ≤ k.length ∨ 0 ∈ k)
    (hf : ∀ f ∈ fs, f.Sound) (hl : Stops l) :
    ∃ r, FrameList_get_frame_by_id (fs.map some ++ l) (ofB k ++ rest) = .ok r ∧
      r.map (·.2) = fs.find? (fun f => idString f.key = idString k) := by
  induction fs with
  | nil => exact ⟨none, get_stops l _ hl, rfl⟩
  | cons f fs ih =>
    obtain ⟨r, e, hr⟩ := ih (fun g hg => hf g (by simp [hg]))
    simp only [List.map_cons, List.cons_append, FrameList_get_frame_by_id]
    rw [idMatches_any f k rest (hf f (by simp)) hk, e]
    by_cases h : idString f.key = idString k
    · exact ⟨some (0, f), by simp [h], by simp [h]⟩
    · refine ⟨r.map (fun p => (p.1 + 1, p.2)), ?_, ?_⟩
      · cases r <;> simp [h]
      · simp only [List.find?_cons, h, decide_false, ← hr, Option.map_map]
        rfl

theorem matching_any (fs : List Frame) (l : FrameList) (k : List UInt8) (rest : Bytes) (hk : 4 ≤ k.length ∨ 0 ∈ k)
    (hf : ∀ f ∈ fs, f.Sound) (hl : Stops l) :
    ∃ ms, FrameList_matching (fs.map some ++ l) (ofB k ++ rest) = .ok ms ∧
      ms.map (fun p => p.2) = fs.filter (fun f => idString f.key = idString k) := by
  induction fs with
  | nil =>
    rcases hl with rfl | ⟨t, rfl⟩ <;> exact ⟨[], rfl, rfl⟩
  | cons f fs ih =>
    obtain ⟨ms, e, hr⟩ := ih (fun g hg => hf g (by simp [hg]))
    simp only [List.map_cons, List.cons_append, FrameList_matching]
    rw [idMatches_any f k rest (hf f (by simp)) hk, e]
    simp only [Res.bind_ok, Res.pure_eq]
    refine ⟨_, rfl, ?_⟩
    have e2 : ms.map (fun p => p.2) = (ms.map (fun p => (p.1 + 1, p.2))).map (fun p => p.2) := by
      rw [List.map_map]; rfl
    by_cases h : idString f.key = idString k
    · simp only [h, decide_true, if_true, List.map_cons, List.filter_cons, ← hr, e2]
    · simp only [h, decide_false, Bool.false_eq_true, if_false, List.filter_cons, ← hr, e2]

theorem get_frames_any (fs : List Frame) (l : FrameList) (k : List UInt8) (rest : Bytes) (hk : 4 ≤ k.length ∨ 0 ∈ k)
    (hf : ∀ f ∈ fs, f.Sound) (hl : Stops l) :
    FrameList_get_frames_by_id (fs.map some ++ l) (ofB k ++ rest) =
      .ok (nodes (fs.filter (fun f => idString f.key = idString k))) := by
  unfold FrameList_get_frames_by_id
  obtain ⟨ms, e, hr⟩ := matching_any fs l k rest hk hf hl
  rw [e]
  simp only [Res.bind_ok, Res.pure_eq]
  have := foldl_nodes ms []
  rw [show FrameList_new = nodes [] from rfl, this, List.nil_append, hr]

/-- The `n`-th match splits the list. -/
theorem matchesFrom_get (k : List UInt8) (m n : Nat) (fs : List Frame) (i : Nat) (f : Frame)
    (h : (matchesFrom k m fs)[n]? = some (i, f)) :
    ∃ a b, fs = a ++ f :: b ∧ f.key = k ∧ i = m + a.length ∧ eraseNth Frame.key k n fs = a ++ b ∧
      (all Frame.key k a).length = n := by
  induction fs generalizing m n with
  | nil => simp [matchesFrom] at h
  | cons g gs ih =>
    unfold matchesFrom at h
    by_cases hg : g.key = k
    · rw [if_pos hg] at h
      cases n with
      | zero =>
        simp only [List.getElem?_cons_zero, Option.some.injEq, Prod.mk.injEq] at h
        obtain ⟨rfl, rfl⟩ := h
        exact ⟨[], gs, rfl, hg, by simp, by simp [eraseNth, hg], rfl⟩
      | succ n =>
        rw [List.getElem?_cons_succ] at h
        obtain ⟨a, b, rfl, h1, h2, h3, h4⟩ := ih (m + 1) n h
        exact ⟨g :: a, b, rfl, h1, by simp [h2]; omega, by simp [eraseNth, hg, h3], by simpa [all, hg] using h4⟩
    · rw [if_neg hg] at h
      obtain ⟨a, b, rfl, h1, h2, h3, h4⟩ := ih (m + 1) n h
      refine ⟨g :: a, b, rfl, h1, by simp [h2]; omega, ?_, by simpa [all, hg] using h4⟩
      cases n with
      | zero => simp [eraseNth, hg, h3]
      | succ n => simp [eraseNth, hg, h3]

theorem eraseNth_miss (k : List UInt8) (n : Nat) (fs : List α) (h : (all key k fs).length ≤ n) :
    eraseNth key k n fs = fs := by
  induction fs generalizing n with
  | nil => cases n <;> rfl
  | cons g gs ih =>
    by_cases hg : key g = k
    · simp only [all, List.filter_cons, hg, decide_true, if_true, List.length_cons] at h
      cases n with
      | zero => omega
      | succ n =>
        simp only [eraseNth, hg, if_true]
        rw [ih n (by simp only [all]; omega)]
    · simp only [all, List.filter_cons, hg, decide_false, Bool.false_eq_true, if_false] at h
      cases n with
      | zero => simp only [eraseNth, hg, if_false]; rw [ih 0 h]
      | succ n => simp only [eraseNth, hg, if_false]; rw [ih (n + 1) h]

theorem remove_null_clean (fs : List Frame) : FrameList_remove_null (nodes fs) = nodes fs := by
  have : ∀ l : List Frame, FrameList_remove_null (l.map some) = l.map some := by
    intro l; induction l with
    | nil => rfl
    | cons x xs ih => simp [FrameList_remove_null, ih]
  cases fs with
  | nil => rfl
  | cons x xs => exact this (x :: xs)

/-! ## Tags -/

theorem set_frame_miss (tag : Tag) (a : List Frame) (l : FrameList) (k : List UInt8) (rest : Bytes) (new : Frame)
    (ht : tag.frames = a.map some ++ l) (hl : Stops l) (hk : ValidId k) (ha : ∀ f ∈ a, f.Sound ∧ f.key ≠ k) :
    Tag_set_frame tag (ofB k ++ rest) new = .ok (Tag_append tag new) := by
  unfold Tag_set_frame
  rw [ht, get_miss a l k rest hk ha hl]
  rfl

theorem set_frame_hit (tag : Tag) (a : List Frame) (f : Frame) (l : FrameList) (k : List UInt8) (rest : Bytes) (new : Frame)
    (ht : tag.frames = a.map some ++ some f :: l) (hk : ValidId k) (ha : ∀ f ∈ a, f.Sound ∧ f.key ≠ k)
    (hf : f.Sound) (hfk : f.key = k) (h0 : 0 ≤ new.header.size) (h1 : new.header.size ≤ 2147483647) :
    Tag_set_frame tag (ofB k ++ rest) new =
      .ok (tag.withSize (a.map some ++ some new :: l)
        (u32 (tag.header.tag_size + (new.header.size - f.header.size)))) := by
  obtain ⟨-, hfree, hs0, hs1⟩ := _root_.id hf
  unfold Tag_set_frame
  rw [ht, get_hit a f l k rest hk ha hf hfk]
  simp only [Res.bind_ok]
  rw [ck_ok (by omega) (by omega)]
  simp only [Res.bind_ok]
  rw [replace_at (a.map some) l (some f) new a.length (by simp), hfree]
  rfl

theorem delete_hit (tag : Tag) (a : List Frame) (f : Frame) (l : FrameList) (k : List UInt8) (rest : Bytes)
    (ht : tag.frames = a.map some ++ some f :: l) (hk : ValidId k) (ha : ∀ f ∈ a, f.Sound ∧ f.key ≠ k)
    (hf : f.Sound) (hfk : f.key = k) :
    ID3v2_Tag_delete_frame tag (ofB k ++ rest) =
      .ok (tag.withSize (a.map some ++ unlinkNode l) (u32 (tag.header.tag_size - (f.header.size + 10)))) := by
  obtain ⟨-, hfree, hs0, hs1⟩ := _root_.id hf
  unfold ID3v2_Tag_delete_frame
  rw [ht, remove_hit a f l k rest hk ha hf hfk]
  simp only [Res.bind_ok]
  rw [ck_ok (by omega) (by omega)]
  simp only [Res.bind_ok]
  rw [hfree]
  rfl

theorem delete_miss (tag : Tag) (fs : List Frame) (k : List UInt8) (rest : Bytes)
    (ht : tag.Holds fs) (hk : ValidId k) (ha : ∀ f ∈ fs, f.key ≠ k) :
    ID3v2_Tag_delete_frame tag (ofB k ++ rest) = .ub .nullDeref := by
  unfold ID3v2_Tag_delete_frame
  rw [ht.1]
  cases fs with
  | nil => rfl
  | cons x xs =>
    rw [nodes_eq _ (by simp), remove_miss _ k rest hk (fun f hf => ⟨ht.2 f hf, ha f hf⟩)]
    rfl

/-! ## Frames of the specification are sound -/

theorem toFrame_key (f : SFrame) : f.toFrame.key = f.id := key_ofB _ _ rfl

theorem SFrame.sound [Platform] (f : SFrame) (h : f.Usable) : f.toFrame.Sound := by
  obtain ⟨hwf, hsz, hu⟩ := h
  have hl := SFrame.bytes_length f hwf
  have hs : (0 : Int) ≤ f.toFrame.header.size ∧ f.toFrame.header.size ≤ 2147483637 := by
    have : f.toFrame.header.size = (f.body.length : Int) := rfl
    rw [this]; omega
  refine ⟨⟨f.id, ?_, rfl⟩, ?_, hs⟩
  · cases f with
    | text => exact hwf.1
    | comment => rfl
    | apic => rfl
    | other => exact hwf.1
  · unfold ID3v2_Frame_free FrameHeader_isTextFrame FrameHeader_isCommentFrame FrameHeader_isApicFrame
    cases f with
    | text id flags s =>
      simp only [SFrame.toFrame, SFrame.id, SFrame.flags]
      rw [idStartsWith_ofB id flags _ _ 0x54 hwf.2.1]
      rfl
    | comment => rfl
    | apic => rfl
    | other id flags data =>
      obtain ⟨hi, h1, h2, h3, -, -⟩ := hwf
      obtain ⟨b, hb⟩ : ∃ b, id.head? = some b := by
        cases id with
        | nil => simp at hi
        | cons x xs => exact ⟨x, rfl⟩
      simp only [SFrame.toFrame, SFrame.id, SFrame.flags]
      rw [idStartsWith_ofB id flags _ _ b hb, idStartsWith_ofB id flags _ _ b hb, idStartsWith_ofB id flags _ _ b hb]
      rw [hb] at h1 h2 h3
      simp only [ne_eq, Option.some.injEq] at h1 h2 h3
      simp [h1, h2, h3]

theorem toFrameList_nodes (fs : List SFrame) : toFrameList fs = nodes (fs.map SFrame.toFrame) := by
  cases fs with
  | nil => rfl
  | cons f fs => simp [toFrameList, nodes]

theorem toTag_holds [Platform] (major minor flags : UInt8) (n : Nat) (fs : List SFrame) (p : Int)
    (h : ∀ f ∈ fs, f.Usable) : (toTag major minor flags n fs p).Holds (fs.map SFrame.toFrame) := by
  refine ⟨toFrameList_nodes fs, ?_⟩
  intro f hf
  obtain ⟨g, hg, rfl⟩ := List.mem_map.mp hf
  exact SFrame.sound g (h g hg)

theorem lit_eq (s : List UInt8) : lit s = ofB s ++ ofB [0] := by simp [lit, ofB]

end Id3
