import Verif.Props.Concurrent

/-!
# Two writers in any schedule (C60)

What can still be relied on when two processes write a tag to the same file at the same time, whatever the interleaving of
their steps.
-/

namespace Id3.Props

open Id3 Spec

theorem writeAt_get (dest : Bytes) (pos : Nat) (data : Bytes) (i : Nat) :
    (writeAt dest pos data)[i]? =
      if data = [] then dest[i]?
      else if i < pos then (if i < dest.length then dest[i]? else some (some 0))
      else if i < pos + data.length then data[i - pos]? else dest[i]? := by
  unfold writeAt
  by_cases hd : data = []
  · rw [if_pos hd, if_pos hd]
  · rw [if_neg hd, if_neg hd]
    by_cases h1 : i < pos
    · have hl : i < (dest.take pos ++ List.replicate (pos - dest.length) (some 0 : MByte)).length := by
        rw [List.length_append, List.length_take, List.length_replicate]; omega
      rw [if_pos h1, List.append_assoc, List.getElem?_append_left hl]
      by_cases h2 : i < dest.length
      · rw [if_pos h2, List.getElem?_append_left (by rw [List.length_take]; omega), List.getElem?_take_of_lt h1]
      · rw [if_neg h2, List.getElem?_append_right (by rw [List.length_take]; omega), List.getElem?_replicate,
          if_pos (by rw [List.length_take]; omega)]
    · rw [if_neg h1]
      have hl : (dest.take pos ++ List.replicate (pos - dest.length) (some 0 : MByte)).length = pos := by
        rw [List.length_append, List.length_take, List.length_replicate]; omega
      rw [List.append_assoc, List.getElem?_append_right (by omega), hl]
      by_cases h2 : i < pos + data.length
      · rw [if_pos h2, List.getElem?_append_left (by omega)]
      · rw [if_neg h2, List.getElem?_append_right (by omega), List.getElem?_drop]
        congr 1; omega

theorem writeAt_length (dest : Bytes) (pos : Nat) (data : Bytes) :
    (writeAt dest pos data).length = if data = [] then dest.length else max dest.length (pos + data.length) := by
  unfold writeAt
  split
  · rfl
  · simp only [List.length_append, List.length_take, List.length_replicate, List.length_drop]
    omega

/-- What a process has saved in its temporary file to be copied to the file (if it is so far), and how much of it was
copied. -/
def Saved (tag : Bytes) : WPhase → Option Bytes → Nat → Prop
  | .start, o, w => o = none ∧ w = 0
  | .reading temp _, o, w => o = none ∧ w = 0 ∧ tag <+: temp
  | .saved temp, o, w => o = none ∧ w = 0 ∧ tag <+: temp
  | .copying pos buf rest, o, w => ∃ done, o = some (done ++ (buf ++ rest)) ∧ done.length = pos ∧ w = pos ∧
      tag <+: done ++ (buf ++ rest)
  | .finished, o, w => ∃ t, o = some t ∧ w = t.length ∧ tag <+: t

/-- The bytes of the file. -/
def Mixed (c dest : Bytes) (o o' : Option Bytes) (w w' : Nat) : Prop :=
  (o = none ∧ o' = none ∧ dest = c) ∨
  (dest.length ≤ max w w' ∧
    (∀ (i : Nat) (x : MByte), dest[i]? = some x → (∃ t, o = some t ∧ t[i]? = some x) ∨ (∃ t, o' = some t ∧ t[i]? = some x) ∨ x = some 0) ∧
    ((o ≠ none ∧ ∀ i : Nat, i < w → ∃ x, dest[i]? = some x ∧
        ((∃ t, o = some t ∧ t[i]? = some x) ∨ ∃ t, o' = some t ∧ t[i]? = some x)) ∨
     (o' ≠ none ∧ ∀ i : Nat, i < w' → ∃ x, dest[i]? = some x ∧
        ((∃ t, o = some t ∧ t[i]? = some x) ∨ ∃ t, o' = some t ∧ t[i]? = some x))))

theorem Mixed.swap {c dest : Bytes} {o o' : Option Bytes} {w w' : Nat} (h : Mixed c dest o o' w w') :
    Mixed c dest o' o w' w := by
  rcases h with ⟨h1, h2, h3⟩ | ⟨h1, h2, h3⟩
  · exact .inl ⟨h2, h1, h3⟩
  · refine .inr ⟨by omega, fun i x hx => ?_, ?_⟩
    · rcases h2 i x hx with h | h | h
      · exact .inr (.inl h)
      · exact .inl h
      · exact .inr (.inr h)
    · rcases h3 with ⟨h3, h4⟩ | ⟨h3, h4⟩
      · refine .inr ⟨h3, fun i hi => ?_⟩
        obtain ⟨x, hx, h⟩ := h4 i hi
        exact ⟨x, hx, h.symm⟩
      · refine .inl ⟨h3, fun i hi => ?_⟩
        obtain ⟨x, hx, h⟩ := h4 i hi
        exact ⟨x, hx, h.symm⟩

theorem mixed_step [Platform] {tag : Bytes} {dest dest' : Bytes} {p p' : WPhase} (h : WStep tag (dest, p) (dest', p'))
    {c : Bytes} {o o₂ : Option Bytes} {w w₂ : Nat} (hs : Saved tag p o w) (hm : Mixed c dest o o₂ w w₂) :
    ∃ o' w', Saved tag p' o' w' ∧ Mixed c dest' o' o₂ w' w₂ := by
  cases h with
  | header _ n hn =>
    obtain ⟨rfl, rfl⟩ := hs
    exact ⟨none, 0, ⟨rfl, rfl, List.prefix_refl _⟩, hm⟩
  | save _ temp pos b hb =>
    obtain ⟨rfl, rfl, hp⟩ := hs
    exact ⟨none, 0, ⟨rfl, rfl, hp.trans (List.prefix_append _ _)⟩, hm⟩
  | eof _ temp pos hl =>
    obtain ⟨rfl, rfl, hp⟩ := hs
    exact ⟨none, 0, ⟨rfl, rfl, hp⟩, hm⟩
  | truncate _ temp =>
    obtain ⟨rfl, rfl, hp⟩ := hs
    refine ⟨some temp, 0, ⟨[], rfl, rfl, rfl, hp⟩, .inr ⟨by simp, by simp, .inl ⟨by simp, ?_⟩⟩⟩
    intro i hi; omega
  | copy _ buffer rest pos b =>
    obtain ⟨done, rfl, h1, rfl, h2⟩ := hs
    have e : done ++ (buffer ++ b :: rest) = done ++ (buffer ++ [b] ++ rest) := by simp
    rw [e] at hm h2
    exact ⟨_, _, ⟨done, rfl, h1, rfl, h2⟩, hm⟩
  | flush _ buf₁ buf₂ rest pos =>
    obtain ⟨done, rfl, h1, hw, h2⟩ := hs
    replace hw := hw.symm
    subst hw
    have e : done ++ (buf₁ ++ buf₂ ++ rest) = done ++ buf₁ ++ (buf₂ ++ rest) := by simp
    rw [e] at hm h2
    refine ⟨_, _, ⟨done ++ buf₁, rfl, by rw [List.length_append, h1], rfl, h2⟩, ?_⟩
    rcases hm with ⟨h, -⟩ | ⟨m1, m2, m3⟩
    · cases h
    have hget : ∀ i, pos ≤ i → i < pos + buf₁.length → ∃ x, buf₁[i - pos]? = some x ∧
        (done ++ buf₁ ++ (buf₂ ++ rest))[i]? = some x := by
      intro i hi hj
      refine ⟨buf₁[i - pos]'(by omega), List.getElem?_eq_getElem (by omega), ?_⟩
      rw [List.getElem?_append_left (by rw [List.length_append]; omega), List.getElem?_append_right (by omega), h1,
        List.getElem?_eq_getElem (by omega)]
    refine .inr ⟨?_, ?_, ?_⟩
    · rw [writeAt_length]
      split <;> omega
    · intro i x hx
      rw [writeAt_get] at hx
      split at hx
      · exact m2 i x hx
      · split at hx
        · split at hx
          · exact m2 i x hx
          · cases hx; exact .inr (.inr rfl)
        · split at hx
          · next h3 h4 =>
            obtain ⟨y, hy, hz⟩ := hget i (by omega) h4
            rw [hy] at hx
            cases hx
            exact .inl ⟨_, rfl, hz⟩
          · exact m2 i x hx
    · -- positions that hold a byte of one of the two keep holding one
      have keep : ∀ i : Nat, (∃ x, dest[i]? = some x ∧
          ((∃ t, some (done ++ buf₁ ++ (buf₂ ++ rest)) = some t ∧ t[i]? = some x) ∨ ∃ t, o₂ = some t ∧ t[i]? = some x)) →
          ∃ x, (writeAt dest pos buf₁)[i]? = some x ∧
          ((∃ t, some (done ++ buf₁ ++ (buf₂ ++ rest)) = some t ∧ t[i]? = some x) ∨ ∃ t, o₂ = some t ∧ t[i]? = some x) := by
        rintro i ⟨x, hx, h⟩
        rw [writeAt_get]
        split
        · exact ⟨x, hx, h⟩
        · split
          · rw [if_pos (List.getElem?_eq_some_iff.mp hx).1]
            exact ⟨x, hx, h⟩
          · split
            · obtain ⟨y, hy, hz⟩ := hget i (by omega) (by assumption)
              exact ⟨y, hy, .inl ⟨_, rfl, hz⟩⟩
            · exact ⟨x, hx, h⟩
      rcases m3 with ⟨h3, h4⟩ | ⟨h3, h4⟩
      · refine .inl ⟨by simp, fun i hi => ?_⟩
        by_cases hip : i < pos
        · exact keep i (h4 i hip)
        · obtain ⟨y, hy, hz⟩ := hget i (by omega) hi
          refine ⟨y, ?_, .inl ⟨_, rfl, hz⟩⟩
          rw [writeAt_get, if_neg (by intro h; subst h; simp at hi; omega), if_neg hip, if_pos hi, hy]
      · exact .inr ⟨h3, fun i hi => keep i (h4 i hi)⟩
  | close _ pos =>
    obtain ⟨done, rfl, h1, rfl, h2⟩ := hs
    simp only [List.append_nil] at hm h2
    exact ⟨_, _, ⟨done, rfl, h1.symm, h2⟩, hm⟩

theorem mixed_run [Platform] {a b : Bytes} {c : Bytes} {s : WWState} (h : WWSteps a b ⟨c, .start, .start⟩ s) :
    ∃ o₁ w₁ o₂ w₂, Saved a s.first o₁ w₁ ∧ Saved b s.second o₂ w₂ ∧ Mixed c s.dest o₁ o₂ w₁ w₂ := by
  induction h with
  | refl =>
    exact ⟨none, 0, none, 0, ⟨rfl, rfl⟩, ⟨rfl, rfl⟩, .inl ⟨rfl, rfl, rfl⟩⟩
  | tail t u _ hstep ih =>
    obtain ⟨o₁, w₁, o₂, w₂, h1, h2, h3⟩ := ih
    cases hstep with
    | first d d' p p' q h =>
      obtain ⟨o', w', h4, h5⟩ := mixed_step h h1 h3
      exact ⟨o', w', o₂, w₂, h4, h2, h5⟩
    | second d d' p q q' h =>
      obtain ⟨o', w', h4, h5⟩ := mixed_step h h2 h3.swap
      exact ⟨o₁, w₁, o', w', h1, h4, h5.swap⟩

/-- **C60**, what holds in every schedule: when both processes are finished, every byte of the file was written at its
position by one of the two (or is a zero in a gap), each of the two wrote its tag first, and there is no gap in the part that
one of the two wrote. -/
theorem two_writers_bytes [Platform] (c a b dest : Bytes)
    (h : WWSteps a b ⟨c, .start, .start⟩ ⟨dest, .finished, .finished⟩) :
    ∃ out₁ out₂ : Bytes, a <+: out₁ ∧ b <+: out₂ ∧ dest.length ≤ max out₁.length out₂.length ∧
      (∀ (i : Nat) (x : MByte), dest[i]? = some x → out₁[i]? = some x ∨ out₂[i]? = some x ∨ x = some 0) ∧
      ((∀ i : Nat, i < out₁.length → dest[i]? ≠ none ∧ (dest[i]? = out₁[i]? ∨ dest[i]? = out₂[i]?)) ∨
       (∀ i : Nat, i < out₂.length → dest[i]? ≠ none ∧ (dest[i]? = out₁[i]? ∨ dest[i]? = out₂[i]?))) := by
  obtain ⟨o₁, w₁, o₂, w₂, ⟨t₁, rfl, rfl, h1⟩, ⟨t₂, rfl, rfl, h2⟩, h3⟩ := mixed_run h
  rcases h3 with ⟨h, -⟩ | ⟨h3, h4, h5⟩
  · cases h
  have conv : ∀ i : Nat, (∃ x, dest[i]? = some x ∧
      ((∃ t, some t₁ = some t ∧ t[i]? = some x) ∨ ∃ t, some t₂ = some t ∧ t[i]? = some x)) →
      dest[i]? ≠ none ∧ (dest[i]? = t₁[i]? ∨ dest[i]? = t₂[i]?) := by
    rintro i ⟨x, hx, ⟨t, ht, hy⟩ | ⟨t, ht, hy⟩⟩ <;> cases ht
    · exact ⟨by rw [hx]; simp, .inl (by rw [hx, hy])⟩
    · exact ⟨by rw [hx]; simp, .inr (by rw [hx, hy])⟩
  refine ⟨t₁, t₂, h1, h2, h3, ?_, ?_⟩
  · intro i x hx
    rcases h4 i x hx with ⟨t, ht, hy⟩ | ⟨t, ht, hy⟩ | h
    · cases ht; exact .inl hy
    · cases ht; exact .inr (.inl hy)
    · exact .inr (.inr h)
  · rcases h5 with ⟨-, h5⟩ | ⟨-, h5⟩
    · exact .inl fun i hi => conv i (h5 i hi)
    · exact .inr fun i hi => conv i (h5 i hi)

/-- **C60**: as far as both tags reach, every byte of the file is the byte of one of the tags at this position. -/
theorem two_writers_tags_mix [Platform] (c a b dest : Bytes)
    (h : WWSteps a b ⟨c, .start, .start⟩ ⟨dest, .finished, .finished⟩) (i : Nat) (h₁ : i < a.length) (h₂ : i < b.length) :
    dest[i]? = a[i]? ∨ dest[i]? = b[i]? := by
  obtain ⟨o₁, o₂, ⟨r₁, rfl⟩, ⟨r₂, rfl⟩, -, -, h3⟩ := two_writers_bytes c a b dest h
  have h4 : dest[i]? = (a ++ r₁)[i]? ∨ dest[i]? = (b ++ r₂)[i]? := by
    rcases h3 with h3 | h3
    · exact (h3 i (by rw [List.length_append]; omega)).2
    · exact (h3 i (by rw [List.length_append]; omega)).2
  rw [List.getElem?_append_left h₁, List.getElem?_append_left h₂] at h4
  exact h4

/-- **C60**: the file still starts with a tag header, in every schedule. -/
theorem two_writers_header [Platform] (c : Bytes) (v₁ m₁ f₁ v₂ m₂ f₂ : UInt8) (n₁ n₂ : Nat) (r₁ r₂ dest : Bytes)
    (h : WWSteps (ofB (Spec.tagHeaderBytes v₁ m₁ f₁ n₁) ++ r₁) (ofB (Spec.tagHeaderBytes v₂ m₂ f₂ n₂) ++ r₂)
      ⟨c, .start, .start⟩ ⟨dest, .finished, .finished⟩) :
    dest.take 3 = ofB [0x49, 0x44, 0x33] ∧ (dest[3]? = some (some v₁) ∨ dest[3]? = some (some v₂)) := by
  have k := two_writers_tags_mix _ _ _ _ h
  have k0 := k 0 (by simp [Spec.tagHeaderBytes, ofB]) (by simp [Spec.tagHeaderBytes, ofB])
  have k1 := k 1 (by simp [Spec.tagHeaderBytes, ofB]) (by simp [Spec.tagHeaderBytes, ofB])
  have k2 := k 2 (by simp [Spec.tagHeaderBytes, ofB]) (by simp [Spec.tagHeaderBytes, ofB])
  have k3 := k 3 (by simp [Spec.tagHeaderBytes, ofB]) (by simp [Spec.tagHeaderBytes, ofB])
  have e0 : dest[0]? = some (some 0x49) := by rcases k0 with h | h <;> exact h
  have e1 : dest[1]? = some (some 0x44) := by rcases k1 with h | h <;> exact h
  have e2 : dest[2]? = some (some 0x33) := by rcases k2 with h | h <;> exact h
  refine ⟨?_, k3⟩
  match dest, e0, e1, e2 with
  | x :: y :: z :: r, e0, e1, e2 =>
    simp only [List.getElem?_cons_zero, Option.some.injEq, List.getElem?_cons_succ] at e0 e1 e2
    subst e0 e1 e2
    rfl

/-- The hypothesis is met by every pair of processes that take turns (`turns`), and by those of `two_writers_lose_audio`,
which do not. -/
example (contents : List UInt8) (a b : Bytes) :
    ∃ out₁ out₂ : Bytes, a <+: out₁ ∧ b <+: out₂ ∧ b.length ≤ max out₁.length out₂.length := by
  obtain ⟨o₁, o₂, h1, h2, h3, -⟩ := @two_writers_bytes strict _ a b b (@two_writers_lose_audio strict contents a b)
  exact ⟨o₁, o₂, h1, h2, h3⟩

end Id3.Props
