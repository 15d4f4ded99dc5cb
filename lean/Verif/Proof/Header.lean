import Verif.Proof.TagParse

/-!
# The tag header parser on arbitrary bytes
-/

namespace Id3

open Spec

/-- The size the library computes from the four size bytes, which need not be below 0x80. -/
def sizeValue (s0 s1 s2 s3 : UInt8) : Nat :=
  (s3.toNat ||| s2.toNat * 2 ^ 7 ||| s1.toNat * 2 ^ 14 ||| s0.toNat * 2 ^ 21)

theorem sizeValue_lt (s0 s1 s2 s3 : UInt8) : sizeValue s0 s1 s2 s3 < 2 ^ 29 := by
  have := syncint_decode_lt (btoi_loop 0 [s0, s1, s2, s3])
  rw [syncint_decode_bytes] at this
  exact this

theorem sizeValue_eq (s0 s1 s2 s3 : UInt8) (h1 : s1.toNat < 128) (h2 : s2.toNat < 128) (h3 : s3.toNat < 128) :
    sizeValue s0 s1 s2 s3 = s0.toNat * 128 ^ 3 + s1.toNat * 128 ^ 2 + s2.toNat * 128 + s3.toNat := by
  unfold sizeValue
  have := s0.toNat_lt
  rw [or_eq_add _ _ 7 (by omega), or_eq_add _ _ 14 (by omega), or_eq_add _ _ 21 (by omega)]
  omega

/-- What `CharStream_read` does at the end of the stream. -/
theorem read_csAt_short (pre post : Bytes) (n : Int) (h : (post.length : Int) ≤ n) :
    CharStream_read (csAt pre post) n = .ok (post, csAt (pre ++ post) []) := by
  unfold CharStream_read
  have hc : clamp_int n 0 ((csAt pre post).size - (csAt pre post).cursor) = post.length := by
    have e : (csAt pre post).size - (csAt pre post).cursor = post.length := by simp [csAt]; omega
    rw [e]
    unfold clamp_int
    rw [if_neg (by omega)]
    split <;> omega
  simp only [hc, get_cur_csAt, Res.bind_ok, memcpySrc_self _ _ rfl]
  simp [csAt]

/-- The header of a stream whose first ten bytes are given. -/
theorem tag_header_parse_all [Platform] (b0 b1 b2 b3 b4 b5 s0 s1 s2 s3 : UInt8) (post : Bytes) :
    TagHeader_parse (csAt [] (ofB [b0, b1, b2, b3, b4, b5, s0, s1, s2, s3] ++ post)) =
      if [b0, b1, b2] = [0x49, 0x44, 0x33] then
        if b3 = 3 ∨ b3 = 4 then
          if b5 &&& 0x40 = 0x40 then
            .ok (some { identifier := ofB [0x49, 0x44, 0x33], major_version := b3, minor_version := b4, flags := b5,
                        tag_size := sizeValue s0 s1 s2 s3,
                        extended_header_size := decodeSizeIndet (intoArray 4 (post.take 4)) },
                 csAt (ofB [b0, b1, b2, b3, b4, b5, s0, s1, s2, s3] ++ post.take 4) (post.drop 4))
          else
            .ok (some { identifier := ofB [0x49, 0x44, 0x33], major_version := b3, minor_version := b4, flags := b5,
                        tag_size := sizeValue s0 s1 s2 s3, extended_header_size := some 0 },
                 csAt (ofB [b0, b1, b2, b3, b4, b5, s0, s1, s2, s3]) post)
        else .ok (none, csAt (ofB [b0, b1, b2, b3, b4]) (ofB [b5, s0, s1, s2, s3] ++ post))
      else .ok (none, csAt [] (ofB [b0, b1, b2, b3, b4, b5, s0, s1, s2, s3] ++ post)) := by
  unfold TagHeader_parse
  have e : ofB [b0, b1, b2, b3, b4, b5, s0, s1, s2, s3] ++ post =
      ofB [b0, b1, b2] ++ (some b3 :: some b4 :: some b5 :: (ofB [s0, s1, s2, s3] ++ post)) := by simp
  rw [e]
  have e2 : (csAt [] (ofB [b0, b1, b2] ++ (some b3 :: some b4 :: some b5 ::
      (ofB [s0, s1, s2, s3] ++ post)))).stream = ofB [b0, b1, b2] ++ (some b3 :: some b4 :: some b5 ::
      (ofB [s0, s1, s2, s3] ++ post)) := rfl
  rw [e2, memcmpEq_ofB [b0, b1, b2] [0x49, 0x44, 0x33] _ rfl]
  simp only [Res.bind_ok]
  by_cases hid : [b0, b1, b2] = [0x49, 0x44, 0x33]
  · rw [if_pos hid, decide_eq_true hid]
    simp only [Bool.not_true, Bool.false_eq_true, if_false]
    rw [read_csAt _ _ _ _ (by simp)]
    simp only [Res.bind_ok]
    rw [getc_csAt]
    simp only [Res.bind_ok]
    rw [getc_csAt]
    simp only [Res.bind_ok]
    by_cases hv : b3 = 3 ∨ b3 = 4
    · have hv' : ¬ (charToInt b3 ≠ 3 ∧ charToInt b3 ≠ 4) := by
        rw [Ne, Ne, charToInt_eq_three, charToInt_eq_four]
        rcases hv with h | h <;> simp [h]
      rw [if_neg hv', if_pos hv, getc_csAt]
      simp only [Res.bind_ok]
      rw [read_csAt _ _ _ _ (by simp)]
      simp only [Res.bind_ok]
      rw [intoArray_ofB _ _ (by simp)]
      have hb := btoi_ofB' [s0, s1, s2, s3] 4 rfl
      rw [hb]
      simp only [Res.bind_ok, syncint_decode_bytes]
      have hx : hasExtendedHeader (charToInt b5) = decide (b5 &&& 0x40 = 0x40) := by
        unfold hasExtendedHeader
        rw [toChar_charToInt]; rfl
      rw [hx]
      by_cases hf : b5 &&& 0x40 = 0x40
      · rw [if_pos hf, if_pos (by simpa using hf)]
        by_cases hl : 4 ≤ post.length
        · rw [read_csAt' _ (post.take 4) (post.drop 4) _ _ (by simp) (by simp; omega)]
          simp only [Res.bind_ok]
          simp [TagHeader_new, toChar_charToInt, sizeValue]
        · rw [read_csAt_short _ _ _ (by omega)]
          have t1 : post.take 4 = post := List.take_of_length_le (by omega)
          have t2 : post.drop 4 = [] := List.drop_of_length_le (by omega)
          rw [t1, t2]
          simp only [Res.bind_ok]
          simp [TagHeader_new, toChar_charToInt, sizeValue]
      · rw [if_neg hf, if_neg (by simpa using hf)]
        simp [TagHeader_new, toChar_charToInt, sizeValue]
    · have hv' : charToInt b3 ≠ 3 ∧ charToInt b3 ≠ 4 := by
        rw [Ne, Ne, charToInt_eq_three, charToInt_eq_four]
        simpa using hv
      rw [if_pos hv', if_neg hv]
      simp
  · rw [if_neg hid, decide_eq_false hid]
    simp

theorem decodeSizeIndet_short (d : Bytes) (h : d.length < 4) : decodeSizeIndet (intoArray 4 d) = none := by
  unfold decodeSizeIndet
  have hl : (intoArray 4 d).length = 4 := by simp [intoArray]; omega
  have hn : none ∈ intoArray 4 d := by
    simp [intoArray]; right; omega
  generalize intoArray 4 d = r at hl hn
  have hla : ∀ r : Bytes, none ∈ r → loadAll r = .ub .uninit := by
    intro r
    induction r with
    | nil => simp
    | cons b bs ih =>
      intro h
      cases b with
      | none => simp [loadAll]
      | some v =>
        have : none ∈ bs := by simpa using h
        simp [loadAll, ih this]
  simp only [btoi]
  rw [memcpySrc_self _ _ (by simp [hl])]
  simp [hla r hn]

theorem header_from_buffer [Platform] (b0 b1 b2 b3 b4 b5 s0 s1 s2 s3 : UInt8) (rest : Bytes) :
    ID3v2_read_tag_header_from_buffer (ofB [b0, b1, b2, b3, b4, b5, s0, s1, s2, s3] ++ rest) =
      .ok (if [b0, b1, b2] = [0x49, 0x44, 0x33] ∧ (b3 = 3 ∨ b3 = 4) then
        some { identifier := ofB [0x49, 0x44, 0x33], major_version := b3, minor_version := b4, flags := b5,
               tag_size := sizeValue s0 s1 s2 s3,
               extended_header_size := if b5 &&& 0x40 = 0x40 then none else some 0 }
        else none) := by
  unfold ID3v2_read_tag_header_from_buffer
  rw [from_buffer_csAt _ _ _ (by simp)]
  simp only [Res.bind_ok]
  have := tag_header_parse_all b0 b1 b2 b3 b4 b5 s0 s1 s2 s3 []
  rw [List.append_nil] at this
  rw [this]
  by_cases hid : [b0, b1, b2] = [0x49, 0x44, 0x33]
  · by_cases hv : b3 = 3 ∨ b3 = 4
    · have hc : [b0, b1, b2] = [0x49, 0x44, 0x33] ∧ (b3 = 3 ∨ b3 = 4) := And.intro hid hv
      by_cases hf : b5 &&& 0x40 = 0x40
      · simp only [if_pos hid, if_pos hv, if_pos hf, if_pos hc, Res.bind_ok]
        rw [decodeSizeIndet_short _ (by simp)]
        rfl
      · simp only [if_pos hid, if_pos hv, if_neg hf, if_pos hc, Res.bind_ok]
        rfl
    · simp only [if_pos hid, if_neg hv, if_neg (fun h : [b0, b1, b2] = [0x49, 0x44, 0x33] ∧ _ => hv h.2), Res.bind_ok]
      rfl
  · simp only [if_neg hid, if_neg (fun h : [b0, b1, b2] = [0x49, 0x44, 0x33] ∧ _ => hid h.1), Res.bind_ok]
    rfl

end Id3
