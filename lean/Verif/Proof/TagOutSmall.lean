import Verif.Proof.TagOut

/-!
# Serialising a tag whose buffer is smaller than a tag header
-/

namespace Id3

open Spec

theorem write_empty (n : Int) (hn : n ≤ 0) (d : Bytes) (k : Int) (hk : k = d.length) (h0 : d ≠ []) :
    CharStream_write (CharStream_new n) d k = .ub .oobWrite := by
  have hl := List.length_pos_iff.mpr h0
  unfold CharStream_write CharStream_new CharStream_get_cur
  have e : n.toNat = 0 := by omega
  rw [e]
  subst hk
  simp only [List.replicate_zero, List.length_nil]
  rw [if_pos (by simp)]
  simp only [Res.bind_ok, memcpySrc]
  rw [if_neg (by omega), if_neg (by omega)]
  simp only [Res.bind_ok]
  rw [if_pos (by simp; omega)]

/-- A tag size that wrapped around below zero makes the buffer smaller than the header. -/
theorem tag_out_small [Platform] (t : Tag) (z : Int) (hid : t.header.identifier = ofB [0x49, 0x44, 0x33])
    (hz : t.header.tag_size = u32 z) (h1 : -2147483648 ≤ z + 10) (h2 : z + 10 < 10) :
    Tag_to_char_stream t = .ub .oobWrite := by
  unfold Tag_to_char_stream
  have e : toInt32 (u32 ((t.header.tag_size : Int) + 10)) = z + 10 := by
    rw [hz]
    unfold toInt32 u32
    split <;> omega
  rw [e, hid]
  by_cases hneg : z + 10 ≤ 0
  · dsimp only
    rw [write_empty _ hneg (ofB [0x49, 0x44, 0x33]) 3 (by simp) (by simp [ofB])]
    simp
  obtain ⟨n, hn⟩ : ∃ n : Nat, z + 10 = n := ⟨(z + 10).toNat, by omega⟩
  rw [hn, CharStream_new_csOut _ _ rfl]
  have hn10 : n < 10 := by omega
  dsimp only
  by_cases h3 : n < 3
  · rw [write_csOut_oob _ _ _ _ (by simp) (by simp <;> omega)]; rfl
  rw [write_csOut' _ _ _ _ (by simp) (by simp <;> omega) (by simp <;> omega)]
  simp only [Res.bind_ok]
  by_cases h4 : n < 4
  · rw [write_csOut_oob _ _ _ _ (by simp) (by simp <;> omega)]; rfl
  rw [write_csOut' _ _ _ _ (by simp) (by simp <;> omega) (by simp <;> omega)]
  simp only [Res.bind_ok]
  by_cases h5 : n < 5
  · rw [write_csOut_oob _ _ _ _ (by simp) (by simp <;> omega)]; rfl
  rw [write_csOut' _ _ _ _ (by simp) (by simp <;> omega) (by simp <;> omega)]
  simp only [Res.bind_ok]
  by_cases h6 : n < 6
  · rw [write_csOut_oob _ _ _ _ (by simp) (by simp <;> omega)]; rfl
  rw [write_csOut' _ _ _ _ (by simp) (by simp <;> omega) (by simp <;> omega)]
  simp only [Res.bind_ok]
  rw [syncint_encode_eq]
  simp only [Res.bind_ok]
  rw [write_csOut_oob _ _ _ _ (by simp) (by simp; omega)]; simp

end Id3
