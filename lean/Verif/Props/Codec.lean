import Verif.Spec.Api
import Verif.Proof.TagParse

/-!
# C03, C04: the integer codecs
-/

namespace Id3.Props

open Id3 Spec

/-- **C03**: below 2^28 the bytes written are the base-128 digits, most significant first. -/
theorem tag_size_digits (n : Nat) (h : n < 2 ^ 28) :
    ∃ d3 d2 d1 d0 : UInt8, sizeOut n = .ok [d3, d2, d1, d0] ∧
      d3.toNat < 0x80 ∧ d2.toNat < 0x80 ∧ d1.toNat < 0x80 ∧ d0.toNat < 0x80 ∧
      n = d3.toNat * 128 ^ 3 + d2.toNat * 128 ^ 2 + d1.toNat * 128 + d0.toNat := by
  refine ⟨UInt8.ofNat (n / 128 ^ 3 % 128), UInt8.ofNat (n / 128 ^ 2 % 128), UInt8.ofNat (n / 128 % 128),
    UInt8.ofNat (n % 128), ?_, ?_⟩
  · unfold sizeOut
    rw [syncint_encode_eq]
    simp only [Res.bind_ok, encoded_synchsafe n h, synchsafe]
    rfl
  · simp only [UInt8.toNat_ofNat']
    omega

/-- **C03**: reading back what was written, for every size: the size modulo 2^29. -/
theorem tag_size_roundtrip (n : Nat) : (do sizeIn (← sizeOut n)) = .ok (n % 2 ^ 29) := by
  unfold sizeOut sizeIn
  rw [syncint_encode_eq]
  simp only [Res.bind_ok, Res.pure_eq]
  have hb := btoi_ofB' (itob (encoded (BitVec.ofNat 32 n))) 4 (by simp)
  rw [hb]
  simp only [Res.bind_ok, decode_encoded]

/-- **C03**: in particular sizes below 2^29 are read back exactly. -/
theorem tag_size_roundtrip_exact (n : Nat) (h : n < 2 ^ 29) : (do sizeIn (← sizeOut n)) = .ok n := by
  rw [tag_size_roundtrip, Nat.mod_eq_of_lt h]

/-- **C03** in terms of the API: serialise a tag and read the header of the result. -/
theorem tag_size_api [Platform] (t : Tag) (fs : List SFrame)
    (hid : t.header.identifier = ofB [0x49, 0x44, 0x33]) (hfr : t.frames = toFrameList fs)
    (hu : ∀ f ∈ fs, f.Usable) (hs : t.header.tag_size < 2 ^ 28) (hfit : framesSize fs ≤ t.header.tag_size)
    (hv : t.header.major_version = 3 ∨ t.header.major_version = 4) (hflag : t.header.flags &&& 0x40 = 0) :
    ∃ cs h, Tag_to_char_stream t = .ok cs ∧ ID3v2_read_tag_header_from_buffer cs.stream = .ok (some h) ∧
      h.tag_size = t.header.tag_size := by
  refine ⟨_, TagHeader.mk (ofB [0x49, 0x44, 0x33]) t.header.major_version t.header.minor_version t.header.flags
    t.header.tag_size (some 0), tag_out t fs hid hfr hu (by omega) hfit, ?_, ?_⟩
  · unfold ID3v2_read_tag_header_from_buffer
    rw [headerOut_eq _ hs, csOut_stream, ofB_append, List.append_assoc,
      from_buffer_csAt (ofB (tagHeaderBytes _ _ _ _)) _ 10 (by simp [tagHeaderBytes])]
    have := tag_header_parse t.header.major_version t.header.minor_version t.header.flags t.header.tag_size [] hv hflag hs
    rw [List.append_nil] at this
    simp only [Res.bind_ok]
    rw [this]
    rfl
  · rfl

/-- In strict C the loop of `syncint_encode` overflows `int` for every value; the results above assume wraparound
(`-fwrapv`, or a compiler that does not exploit the overflow). -/
theorem syncint_mask_overflows (fuel : Nat) (h : 3 ≤ fuel) : syncint_mask_strict fuel 0x7F = .ub .intOverflow := by
  obtain ⟨k, rfl⟩ : ∃ k, fuel = k + 3 := ⟨fuel - 3, by omega⟩
  simp [syncint_mask_strict, ck]

/-- **C04**: write as four bytes, read back: the same integer. -/
theorem itob_btoi (v : BitVec 32) (rest : Bytes) : btoi (ofB (itob v) ++ rest) 4 = .ok v := by
  have hb := btoi_ofB (itob v) 4 rest (by simp)
  rw [hb]
  have : itob v = be32 v.toNat := by rw [← itob_ofNat]; simp
  rw [this, btoi_loop_be32]; simp

/-- **C04**: read four bytes, write the integer: the same bytes. -/
theorem btoi_itob (b0 b1 b2 b3 : UInt8) (rest : Bytes) :
    (do return itob (← btoi (ofB [b0, b1, b2, b3] ++ rest) 4)) = .ok [b0, b1, b2, b3] := by
  have hb := btoi_ofB [b0, b1, b2, b3] 4 rest rfl
  rw [hb]
  simp only [Res.bind_ok, Res.pure_eq]
  have hv := toBitVec_loop b0 b1 b2 b3
  have : btoi_loop 0 [b0, b1, b2, b3] = BitVec.ofNat 32 (((b0.toNat * 256 + b1.toNat) * 256 + b2.toNat) * 256 + b3.toNat) := by
    rw [← hv]; simp
  rw [this, itob_ofNat, be32]
  have h0 := b0.toNat_lt
  have h1 := b1.toNat_lt
  have h2 := b2.toNat_lt
  have h3 := b3.toNat_lt
  congr 1
  simp only [List.cons.injEq, and_true]
  refine ⟨?_, ?_, ?_, ?_⟩ <;> apply UInt8.toNat_inj.mp <;> rw [UInt8.toNat_ofNat'] <;> omega

/-- **C04**: the bytes are the base-256 digits, most significant first. -/
theorem be_digits (v : BitVec 32) :
    ∃ b3 b2 b1 b0 : UInt8, itob v = [b3, b2, b1, b0] ∧
      v.toNat = b3.toNat * 256 ^ 3 + b2.toNat * 256 ^ 2 + b1.toNat * 256 + b0.toNat := by
  have e : itob v = be32 v.toNat := by rw [← itob_ofNat]; simp
  have := v.isLt
  refine ⟨_, _, _, _, by rw [e, be32], ?_⟩
  simp only [UInt8.toNat_ofNat']
  omega

example : sizeOut 257 = .ok [0, 0, 2, 1] := by decide
example : sizeOut 268435455 = .ok [0x7F, 0x7F, 0x7F, 0x7F] := by decide
example : itob 0x01020304#32 = [1, 2, 3, 4] := by decide

end Id3.Props
