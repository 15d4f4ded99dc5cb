import Verif.Proof.Strings

/-!
# C01, C02: strings
-/

namespace Id3.Props

open Id3 Spec

theorem widen_ofB (chars : List UInt8) :
    widen (ofB chars) = ofB ((chars.map (fun c => (c, (0 : UInt8)))).flatMap (fun u => [u.1, u.2])) := by
  induction chars with
  | nil => rfl
  | cons c cs ih => simp [widen, ih]

/-- **C01**: an ISO string becomes the little-endian UTF-16 string of the same characters, with BOM and terminator,
whatever follows the string in memory. -/
theorem to_unicode_latin [Platform] (chars : List UInt8) (rest : Bytes) (h : (Str.latin chars).Usable)
    (hsize : 2 * chars.length + 4 ≤ 2147483647) :
    ID3v2_to_unicode ((Str.latin chars).inMemory rest) =
      .ok (ofB (Str.utf16 true (chars.map (fun c => (c, 0)))).bytes) := by
  unfold ID3v2_to_unicode Str.inMemory
  rw [has_bom_usable h]
  have hc : c_strlen (ofB (Str.latin chars).bytes ++ rest) = .ok chars.length := by
    have := c_strlen_str chars h.1.1 rest
    simpa [Str.bytes, Str.content, Str.terminator] using this
  simp only [Res.bind_ok, Str.encoding, hc]
  rw [ck_ok (by omega) (by omega)]
  have ht : (ofB (Str.latin chars).bytes ++ rest).take chars.length = ofB chars := by
    have e : ofB (Str.latin chars).bytes ++ rest = ofB chars ++ (some 0 :: rest) := by
      simp [Str.bytes, Str.content, Str.terminator]
    rw [e, ← ofB_length chars]; simp
  rw [ht, widen_ofB]
  simp [Str.bytes, Str.content, Str.terminator, Str.bom]

/-- **C01**, the limit of its domain: the size of the result is computed in an `int` (utils.c:28), and a longer ISO
string is never converted: the block allocated for it is too small, or there is none. So the bound on the length in
`to_unicode_latin` is exact. -/
theorem to_unicode_too_long [Platform] (chars : List UInt8) (rest : Bytes) (h : (Str.latin chars).WF)
    (hsize : 2147483647 < 2 * chars.length + 4) :
    ID3v2_to_unicode ((Str.latin chars).inMemory rest) = .ub .intOverflow := by
  unfold ID3v2_to_unicode Str.inMemory
  rw [string_has_bom_str h rest (memOk_of_length (by
    intro e
    cases e
    simp at hsize) rest)]
  have hc : c_strlen (ofB (Str.latin chars).bytes ++ rest) = .ok chars.length := by
    have := c_strlen_str chars h.1 rest
    simpa [Str.bytes, Str.content, Str.terminator] using this
  simp only [Res.bind_ok, Str.encoding, hc]
  have hk : ck ((chars.length : Int) * 2 + 2 + 2) = .ub .intOverflow := by
    unfold ck; rw [if_neg (by omega)]
  rw [hk]
  rfl

/-- **C01**: the converted string is well formed. -/
theorem to_unicode_wf (chars : List UInt8) (h : (Str.latin chars).WF) :
    (Str.utf16 true (chars.map (fun c => (c, 0)))).WF := by
  simp only [Str.WF, List.mem_map, Prod.mk.injEq, not_exists, not_and]
  intro c hc h0 _
  exact h.1 (h0 ▸ hc)

/-- **C01**: a string with BOM is returned as it is (the very same memory). -/
theorem to_unicode_utf16 [Platform] (le : Bool) (units : List (UInt8 × UInt8)) (rest : Bytes)
    (h : (Str.utf16 le units).Usable) :
    ID3v2_to_unicode ((Str.utf16 le units).inMemory rest) = .ok ((Str.utf16 le units).inMemory rest) := by
  unfold ID3v2_to_unicode Str.inMemory
  rw [has_bom_usable h]
  simp [Str.encoding]

/-- **C01**: converting twice is the same as converting once. -/
theorem to_unicode_idempotent [Platform] (s : Str) (rest : Bytes) (h : s.Usable)
    (hsize : 2 * s.bytes.length + 4 ≤ 2147483647) (u : Bytes)
    (hu : ID3v2_to_unicode (s.inMemory rest) = .ok u) : ID3v2_to_unicode u = .ok u := by
  cases s with
  | latin chars =>
    have hlen : (Str.latin chars).bytes.length = chars.length + 1 := by
      simp [Str.bytes, Str.content, Str.terminator]
    rw [to_unicode_latin chars rest h (by omega)] at hu
    cases hu
    have := to_unicode_utf16 true (chars.map (fun c => (c, 0))) [] ⟨to_unicode_wf chars h.1, by
      simp only [Str.bytes, Str.content, Str.terminator, List.length_append, flat_length, Str.bom_length,
        List.length_map]
      simp
      omega, Or.inr (by simp)⟩
    simpa [Str.inMemory] using this
  | utf16 le units =>
    rw [to_unicode_utf16 le units rest h] at hu
    cases hu
    exact to_unicode_utf16 le units rest h

/-- **C02**: `ID3v2_strlen` is the number of bytes before the terminator, whatever follows the string in memory. -/
theorem strlen_exact [Platform] (s : Str) (rest : Bytes) (h : s.Usable) :
    ID3v2_strlen (s.inMemory rest) = .ok (s.content.length : Int) := strlen_usable h rest

/-- **C02**: `ID3v2_strlent` counts the terminator too. -/
theorem strlent_exact [Platform] (s : Str) (rest : Bytes) (h : s.Usable) :
    ID3v2_strlent (s.inMemory rest) = .ok (s.content.length + s.terminator.length : Int) := by
  have := strlent_usable h rest
  rw [Str.bytes_length] at this
  exact this

/-- **C02**, the converse: whenever `ID3v2_strlent` returns, the memory starts with a terminated string of that many
bytes. -/
theorem strlent_sound [Platform] (p : Bytes) (n : Int) (h : ID3v2_strlent p = .ok n) :
    ∃ (s : Str) (rest : Bytes), p = s.inMemory rest ∧ s.WF ∧ n = s.bytes.length := strlent_inv p n h

/-- **C02**, the limit of its domain: a terminated string that takes more bytes than an `int` can count is not
measured. -/
theorem strlent_too_long [Platform] (s : Str) (rest : Bytes) (hwf : s.WF) (hsize : 2147483647 < s.bytes.length) :
    ∀ n, ID3v2_strlent (s.inMemory rest) ≠ .ok n := by
  intro n hn
  have hm : MemOk (ofB s.bytes ++ rest) := memOk_of_length (by
    intro e
    subst e
    simp [Str.bytes, Str.content, Str.terminator] at hsize) rest
  have hlen := Str.bytes_length s
  unfold ID3v2_strlent Str.inMemory at hn
  rw [string_has_bom_str hwf rest hm] at hn
  simp only [Res.bind_ok] at hn
  obtain ⟨m, h1, h2⟩ := Res.bind_eq_ok.mp hn
  have e : m = (s.content.length : Int) := by
    by_cases hl : s.content.length ≤ 2147483647
    · rw [strlen_str hwf rest hm hl] at h1
      exact (Res.ok.inj h1).symm
    · exfalso
      unfold ID3v2_strlen at h1
      rw [string_has_bom_str hwf rest hm] at h1
      cases s with
      | latin chars =>
        have e : ofB (Str.latin chars).bytes ++ rest = ofB chars ++ some 0 :: rest := by
          simp [Str.bytes, Str.content, Str.terminator]
        rw [e, c_strlen_str chars hwf.1 rest] at h1
        simp only [Str.encoding, Res.bind_ok] at h1
        have := ck_inv h1
        simp only [Str.content] at hl
        omega
      | utf16 le units =>
        simp only [Str.encoding, Res.bind_ok, decide_true, if_true, utf16_scan_utf16 le units hwf rest] at h1
        have := ck_inv h1
        omega
  subst e
  have := ck_inv h2
  have ht : (s.terminator.length : Int) = if decide (s.encoding = 1) = true then 2 else 1 := by
    cases s <;> simp [Str.encoding, Str.terminator]
  rw [← ht] at this
  omega

/-- The empty string takes one byte; on a platform whose `memcmp` accesses both bytes it is out of bounds. -/
theorem strlen_empty_strict : @ID3v2_strlen strict (ofB [0]) = .ub .oobRead := by decide

example : @Str.Usable strict (.latin [0x41, 0xE9]) := by decide
example : @Str.Usable strict (.utf16 false [(0x30, 0x42), (0x00, 0x41), (0x41, 0x00)]) := by decide
example : @Str.Usable lenient (.latin []) := by decide
-- strings beyond the limits exist
example (n : Nat) (h : 1073741822 ≤ n) : (Str.latin (List.replicate (n + 1) 0x41)).WF ∧
    2147483647 < 2 * (List.replicate (n + 1) (0x41 : UInt8)).length + 4 :=
  ⟨by simp [Str.WF, Str.bom, List.mem_replicate, List.replicate_succ], by rw [List.length_replicate]; omega⟩
example : @ID3v2_to_unicode strict (ofB [0x41, 0xE9, 0, 0x77]) = .ok (ofB [0xFF, 0xFE, 0x41, 0, 0xE9, 0, 0, 0]) := by
  decide

end Id3.Props
