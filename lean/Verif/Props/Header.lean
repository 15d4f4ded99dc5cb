import Verif.Proof.Header

/-!
# C05, C06, C07: the tag header
-/

namespace Id3.Props

open Id3 Spec

/-- **C05**: whatever the ten bytes and whatever follows them, the call returns; it gives a header exactly when the
bytes start with "ID3" and version 3 or 4. -/
theorem header_recognition [Platform] (b0 b1 b2 b3 b4 b5 s0 s1 s2 s3 : UInt8) (rest : Bytes) :
    ∃ r, ID3v2_read_tag_header_from_buffer (ofB [b0, b1, b2, b3, b4, b5, s0, s1, s2, s3] ++ rest) = .ok r ∧
      (r.isSome ↔ b0 = 0x49 ∧ b1 = 0x44 ∧ b2 = 0x33 ∧ (b3 = 3 ∨ b3 = 4)) := by
  refine ⟨_, header_from_buffer b0 b1 b2 b3 b4 b5 s0 s1 s2 s3 rest, ?_⟩
  by_cases h : [b0, b1, b2] = [0x49, 0x44, 0x33] ∧ (b3 = 3 ∨ b3 = 4)
  · rw [if_pos h]
    obtain ⟨h1, h2⟩ := h
    simp only [List.cons.injEq, and_true] at h1
    simp [h1.1, h1.2.1, h1.2.2, h2]
  · rw [if_neg h]
    simp only [Option.isSome_none, Bool.false_eq_true, false_iff]
    rintro ⟨h1, h2, h3, h4⟩
    exact h ⟨by rw [h1, h2, h3], h4⟩

/-- **C05**: the fields of the header are those of the buffer. The size is the synchsafe value of the four size bytes;
bytes above 0x7F are combined by "or" with the neighbouring digits. -/
theorem header_fields [Platform] (b0 b1 b2 b3 b4 b5 s0 s1 s2 s3 : UInt8) (rest : Bytes) (h : TagHeader)
    (hr : ID3v2_read_tag_header_from_buffer (ofB [b0, b1, b2, b3, b4, b5, s0, s1, s2, s3] ++ rest) = .ok (some h)) :
    h.identifier = ofB [b0, b1, b2] ∧ h.major_version = b3 ∧ h.minor_version = b4 ∧ h.flags = b5 ∧
      (s1.toNat < 128 ∧ s2.toNat < 128 ∧ s3.toNat < 128 →
        h.tag_size = s0.toNat * 128 ^ 3 + s1.toNat * 128 ^ 2 + s2.toNat * 128 + s3.toNat) ∧
      h.tag_size = (s0.toNat * 2 ^ 21 ||| s1.toNat * 2 ^ 14 ||| s2.toNat * 2 ^ 7 ||| s3.toNat) := by
  rw [header_from_buffer] at hr
  split at hr
  · next hc =>
    simp only [Res.ok.injEq, Option.some.injEq] at hr
    subst hr
    refine ⟨by rw [hc.1], rfl, rfl, rfl, fun ⟨h1, h2, h3⟩ => sizeValue_eq _ _ _ _ h1 h2 h3, ?_⟩
    show sizeValue s0 s1 s2 s3 = _
    unfold sizeValue
    ac_rfl
  · simp at hr

/-- **C05**: sizes written by other programs are read back: the header with size bytes `synchsafe n`. -/
theorem header_size_synchsafe [Platform] (version minor flags : UInt8) (n : Nat) (rest : Bytes) (hn : n < 2 ^ 28)
    (hv : version = 3 ∨ version = 4) :
    ∃ h, ID3v2_read_tag_header_from_buffer (ofB (tagHeaderBytes version minor flags n) ++ rest) = .ok (some h) ∧
      h.major_version = version ∧ h.minor_version = minor ∧ h.flags = flags ∧ h.tag_size = n := by
  unfold tagHeaderBytes synchsafe
  have := header_from_buffer 0x49 0x44 0x33 version minor flags (UInt8.ofNat (n / 128 ^ 3 % 128))
    (UInt8.ofNat (n / 128 ^ 2 % 128)) (UInt8.ofNat (n / 128 % 128)) (UInt8.ofNat (n % 128)) rest
  rw [if_pos ⟨rfl, hv⟩] at this
  refine ⟨_, this, rfl, rfl, rfl, ?_⟩
  show sizeValue _ _ _ _ = n
  rw [sizeValue_eq] <;> simp only [UInt8.toNat_ofNat'] <;> omega

/-- **C06**, the claim: every field of a header read from determinate bytes is determinate. -/
def C06_claim : Prop :=
  ∀ [Platform] (buffer : List UInt8) (h : TagHeader),
    ID3v2_read_tag_header_from_buffer (ofB buffer) = .ok (some h) → h.extended_header_size ≠ none

/-- **C06** is false: with the extended header flag set the field is copied from uninitialised memory (the reader is
given ten bytes and the four size bytes of the extended header are not among them). -/
theorem C06_false : ¬ C06_claim := by
  intro h
  have := @header_from_buffer strict 0x49 0x44 0x33 4 0 0x40 0 0 0 20 []
  exact @h strict [0x49, 0x44, 0x33, 4, 0, 0x40, 0, 0, 0, 20] _ this rfl

/-- **C06**: exactly that field, and exactly for headers with the flag. -/
theorem header_determined_partial [Platform] (b0 b1 b2 b3 b4 b5 s0 s1 s2 s3 : UInt8) (rest : Bytes) (h : TagHeader)
    (hr : ID3v2_read_tag_header_from_buffer (ofB [b0, b1, b2, b3, b4, b5, s0, s1, s2, s3] ++ rest) = .ok (some h)) :
    h.extended_header_size = none ↔ b5 &&& 0x40 = 0x40 := by
  rw [header_from_buffer] at hr
  split at hr
  · simp only [Res.ok.injEq, Option.some.injEq] at hr
    subst hr
    by_cases hf : b5 &&& 0x40 = 0x40
    · simp [hf]
    · simp [hf]
  · simp at hr

/-- **C07**: a missing file has no header. -/
theorem read_header_missing [Platform] : ID3v2_read_tag_header none = .ok none := rfl

/-- **C07**: a file shorter than ten bytes has no header. -/
theorem read_header_short [Platform] (contents : Bytes) (h : contents.length < 10) :
    ID3v2_read_tag_header (some contents) = .ok none := by
  unfold ID3v2_read_tag_header
  dsimp only
  rw [if_pos (by simp; omega)]

/-- **C07**: otherwise the file is treated like a buffer holding its contents. -/
theorem read_header_file [Platform] (contents : Bytes) (h : 10 ≤ contents.length) :
    ID3v2_read_tag_header (some contents) = ID3v2_read_tag_header_from_buffer contents := by
  unfold ID3v2_read_tag_header
  dsimp only
  rw [if_neg (by simp; omega)]
  unfold ID3v2_read_tag_header_from_buffer CharStream_from_buffer memcpySrc
  rw [if_neg (by omega), if_neg (by simp; omega), if_neg (by omega), if_neg (by omega)]
  simp [List.take_take]

example : ∃ h, @ID3v2_read_tag_header_from_buffer strict (ofB [0x49, 0x44, 0x33, 3, 0, 0, 0, 0, 2, 1]) = .ok (some h) ∧
    h.tag_size = 257 := ⟨_, rfl, by decide⟩
example : @ID3v2_read_tag_header strict (some (ofB [0x49, 0x44, 0x33, 2, 0, 0, 0, 0, 2, 1])) = .ok none := by decide

end Id3.Props
