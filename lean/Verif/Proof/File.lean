import Verif.Spec.File
import Verif.Proof.Header
import Verif.Proof.TagOutSmall

/-!
# Files: the existing tag, and what serialising gives for any tag
-/

namespace Id3

open Spec

theorem sizeValue_spec (s0 s1 s2 s3 : UInt8) :
    sizeValue s0 s1 s2 s3 = (s0.toNat * 128 ^ 3 ||| s1.toNat * 128 ^ 2 ||| s2.toNat * 128 ||| s3.toNat) := by
  unfold sizeValue
  rw [show s3.toNat ||| s2.toNat * 2 ^ 7 ||| s1.toNat * 2 ^ 14 ||| s0.toNat * 2 ^ 21 =
    (s0.toNat * 2 ^ 21 ||| s1.toNat * 2 ^ 14 ||| s2.toNat * 2 ^ 7 ||| s3.toNat) from by
      rw [Nat.or_comm, Nat.or_comm (s3.toNat ||| s2.toNat * 2 ^ 7), ← Nat.or_assoc, Nat.or_comm s3.toNat, ← Nat.or_assoc]]

/-- The header of a file whose first ten bytes are given. -/
theorem read_header_ten [Platform] (b0 b1 b2 b3 b4 b5 s0 s1 s2 s3 : UInt8) (rest : Bytes) :
    ∃ r, ID3v2_read_tag_header (some (ofB [b0, b1, b2, b3, b4, b5, s0, s1, s2, s3] ++ rest)) = .ok r ∧
      r.map (fun h => 10 + h.tag_size) =
        if b0 = 0x49 ∧ b1 = 0x44 ∧ b2 = 0x33 ∧ (b3 = 3 ∨ b3 = 4) then some (10 + sizeValue s0 s1 s2 s3) else none := by
  have e : ID3v2_read_tag_header (some (ofB [b0, b1, b2, b3, b4, b5, s0, s1, s2, s3] ++ rest)) =
      ID3v2_read_tag_header_from_buffer (ofB [b0, b1, b2, b3, b4, b5, s0, s1, s2, s3] ++ []) := by
    unfold ID3v2_read_tag_header
    dsimp only
    rw [if_neg (by simp [ofB])]
    simp [ofB]
  rw [e, header_from_buffer]
  refine ⟨_, rfl, ?_⟩
  by_cases h : b0 = 0x49 ∧ b1 = 0x44 ∧ b2 = 0x33 ∧ (b3 = 3 ∨ b3 = 4)
  · rw [if_pos h, if_pos ⟨by rw [h.1, h.2.1, h.2.2.1], h.2.2.2⟩]
    rfl
  · rw [if_neg h, if_neg]
    · rfl
    · rintro ⟨h1, h2⟩
      simp only [List.cons.injEq, and_true] at h1
      exact h ⟨h1.1, h1.2.1, h1.2.2, h2⟩

theorem ten_or_less (contents : List UInt8) :
    contents.length < 10 ∨ ∃ b0 b1 b2 b3 b4 b5 s0 s1 s2 s3 rest,
      contents = [b0, b1, b2, b3, b4, b5, s0, s1, s2, s3] ++ rest := by
  match contents with
  | b0 :: b1 :: b2 :: b3 :: b4 :: b5 :: s0 :: s1 :: s2 :: s3 :: rest =>
    exact .inr ⟨b0, b1, b2, b3, b4, b5, s0, s1, s2, s3, rest, rfl⟩
  | [] | [_] | [_, _] | [_, _, _] | [_, _, _, _] | [_, _, _, _, _] | [_, _, _, _, _, _] | [_, _, _, _, _, _, _]
  | [_, _, _, _, _, _, _, _] | [_, _, _, _, _, _, _, _, _] => exact .inl (by simp)

theorem tagLength_short (contents : List UInt8) (h : contents.length < 10) : tagLength contents = 0 := by
  unfold tagLength
  split
  · simp only [List.length_cons] at h; omega
  · rfl

/-- The header of a file, in terms of the specification. -/
theorem read_header_spec [Platform] (contents : List UInt8) :
    ∃ r, ID3v2_read_tag_header (some (ofB contents)) = .ok r ∧
      (r = none → tagLength contents = 0) ∧
      (∀ h, r = some h → 10 + h.tag_size = tagLength contents ∧ h.tag_size < 2 ^ 29) := by
  rcases ten_or_less contents with h | ⟨b0, b1, b2, b3, b4, b5, s0, s1, s2, s3, rest, rfl⟩
  · refine ⟨none, ?_, fun _ => tagLength_short _ h, by simp⟩
    unfold ID3v2_read_tag_header
    dsimp only
    rw [if_pos (by simp; omega)]
  · obtain ⟨r, h1, h2⟩ := read_header_ten b0 b1 b2 b3 b4 b5 s0 s1 s2 s3 (ofB rest)
    rw [← ofB_append] at h1
    refine ⟨r, h1, ?_, ?_⟩
    · intro hr
      rw [hr] at h2
      show (if _ then _ else _) = 0
      split
      · next hc => rw [if_pos hc] at h2; simp at h2
      · rfl
    · intro h hr
      rw [hr] at h2
      have hlt := sizeValue_lt s0 s1 s2 s3
      split at h2
      · next hc =>
        simp only [Option.map_some, Option.some.injEq] at h2
        refine ⟨?_, by omega⟩
        show _ = (if _ then _ else _)
        rw [if_pos hc, h2, sizeValue_spec]
      · simp at h2

theorem existing_size [Platform] (contents : List UInt8) :
    existingTagSize (some (ofB contents)) = .ok (tagLength contents : Nat) := by
  obtain ⟨r, h1, h2, h3⟩ := read_header_spec contents
  unfold existingTagSize
  rw [h1]
  simp only [Res.bind_ok]
  cases r with
  | none => simp [h2 rfl]
  | some h =>
    obtain ⟨h4, h5⟩ := h3 h rfl
    simp only [Res.pure_eq]
    rw [show (h.tag_size : Int) + 10 = ((10 + h.tag_size : Nat) : Int) from by omega, u32_nat (by omega),
      toInt32_nat (by omega), h4]

/-- The same for a file that begins with a header written by the library; the rest may be anything. -/
theorem existing_size_header [Platform] (major minor flags : UInt8) (n : Nat) (rest : Bytes)
    (hv : major = 3 ∨ major = 4) (hn : n < 2 ^ 28) :
    existingTagSize (some (ofB (tagHeaderBytes major minor flags n) ++ rest)) = .ok (10 + n : Nat) := by
  obtain ⟨r, h1, h2⟩ := read_header_ten 0x49 0x44 0x33 major minor flags (UInt8.ofNat (n / 128 ^ 3 % 128))
    (UInt8.ofNat (n / 128 ^ 2 % 128)) (UInt8.ofNat (n / 128 % 128)) (UInt8.ofNat (n % 128)) rest
  rw [if_pos ⟨rfl, rfl, rfl, hv⟩] at h2
  rw [sizeValue_eq _ _ _ _ (by simp only [UInt8.toNat_ofNat']; omega) (by simp only [UInt8.toNat_ofNat']; omega)
    (by simp only [UInt8.toNat_ofNat']; omega)] at h2
  have e : (10 + ((UInt8.ofNat (n / 128 ^ 3 % 128)).toNat * 128 ^ 3 + (UInt8.ofNat (n / 128 ^ 2 % 128)).toNat * 128 ^ 2 +
      (UInt8.ofNat (n / 128 % 128)).toNat * 128 + (UInt8.ofNat (n % 128)).toNat)) = 10 + n := by
    simp only [UInt8.toNat_ofNat']; omega
  rw [e] at h2
  unfold existingTagSize
  show (ID3v2_read_tag_header (some (ofB [0x49, 0x44, 0x33, major, minor, flags, UInt8.ofNat (n / 128 ^ 3 % 128),
    UInt8.ofNat (n / 128 ^ 2 % 128), UInt8.ofNat (n / 128 % 128), UInt8.ofNat (n % 128)] ++ rest)) >>= _) = _
  rw [h1]
  simp only [Res.bind_ok]
  cases r with
  | none => simp at h2
  | some h =>
    simp only [Option.map_some, Option.some.injEq] at h2
    simp only [Res.pure_eq]
    rw [show (h.tag_size : Int) + 10 = ((10 + n : Nat) : Int) from by omega, u32_nat (by omega), toInt32_nat (by omega)]

/-- The same for every size: the library reads back the size it wrote modulo 2^29. -/
theorem existing_size_headerOut [Platform] (h : TagHeader) (rest : Bytes)
    (hv : h.major_version = 3 ∨ h.major_version = 4) :
    existingTagSize (some (ofB (headerOut h) ++ rest)) = .ok (10 + h.tag_size % 2 ^ 29 : Nat) := by
  have hd := decode_encoded h.tag_size
  unfold headerOut
  rw [encoded_byte] at hd ⊢
  rw [syncint_decode_bytes] at hd
  obtain ⟨r, h1, h2⟩ := read_header_ten 0x49 0x44 0x33 h.major_version h.minor_version h.flags
    (UInt8.ofNat (h.tag_size / 128 ^ 3 % 256)) (UInt8.ofNat (h.tag_size / 128 ^ 2 % 128))
    (UInt8.ofNat (h.tag_size / 128 % 128)) (UInt8.ofNat (h.tag_size % 128)) rest
  rw [if_pos ⟨rfl, rfl, rfl, hv⟩] at h2
  unfold existingTagSize
  show (ID3v2_read_tag_header (some (ofB [0x49, 0x44, 0x33, h.major_version, h.minor_version, h.flags,
    UInt8.ofNat (h.tag_size / 128 ^ 3 % 256), UInt8.ofNat (h.tag_size / 128 ^ 2 % 128),
    UInt8.ofNat (h.tag_size / 128 % 128), UInt8.ofNat (h.tag_size % 128)] ++ rest)) >>= _) = _
  rw [h1]
  simp only [Res.bind_ok]
  cases r with
  | none => simp at h2
  | some g =>
    simp only [Option.map_some, Option.some.injEq] at h2
    unfold sizeValue at h2
    rw [hd] at h2
    simp only [Res.pure_eq]
    rw [show (g.tag_size : Int) + 10 = ((10 + h.tag_size % 2 ^ 29 : Nat) : Int) from by omega, u32_nat (by omega),
      toInt32_nat (by omega)]

/-! ## Serialising any tag -/

/-- A successful write keeps the size of the stream and everything before the cursor, and moves the cursor forward. -/
theorem write_keeps (cs cs' : CharStream) (d : Bytes) (n : Int) (h : CharStream_write cs d n = .ok cs') :
    cs'.size = cs.size ∧ cs'.stream.length = cs.stream.length ∧ cs.cursor ≤ cs'.cursor ∧ 0 ≤ cs.cursor ∧
      cs'.stream.take cs.cursor.toNat = cs.stream.take cs.cursor.toNat ∧
      cs'.stream.take cs'.cursor.toNat = cs.stream.take cs.cursor.toNat ++ d.take n.toNat ∧
      cs'.cursor = cs.cursor + n ∧ n ≤ d.length := by
  unfold CharStream_write CharStream_get_cur at h
  by_cases h0 : 0 ≤ cs.cursor ∧ cs.cursor ≤ cs.stream.length
  · rw [if_pos h0] at h
    simp only [Res.bind_ok] at h
    unfold memcpySrc at h
    split at h
    · simp at h
    · split at h
      · simp at h
      · next hn hl =>
        simp only [Res.bind_ok] at h
        split at h
        · simp at h
        · next hd =>
          obtain ⟨c, hc, h⟩ := Res.bind_eq_ok.mp h
          unfold ck at hc
          split at hc
          · simp only [Res.ok.injEq] at hc
            simp only [Res.pure_eq, Res.ok.injEq] at h
            subst h
            subst hc
            simp only [List.length_drop] at hd
            obtain ⟨c, hc⟩ : ∃ c : Nat, cs.cursor = c := ⟨cs.cursor.toNat, by omega⟩
            obtain ⟨m, hm⟩ : ∃ m : Nat, n = m := ⟨n.toNat, by omega⟩
            rw [hc] at hd h0 ⊢
            rw [hm] at hd hn hl ⊢
            have e : ((c : Int) + (m : Int)).toNat = c + m := by omega
            refine ⟨rfl, ?_, by dsimp only; omega, by omega, ?_, ?_, rfl, by omega⟩
            · simp only [List.length_append, List.length_take, List.length_drop, Int.toNat_natCast] at hd ⊢
              omega
            · simp only [Int.toNat_natCast] at hd ⊢
              rw [List.append_assoc, List.take_append_of_le_length (by simp; omega), List.take_take]
              simp
            · dsimp only
              simp only [e, Int.toNat_natCast] at hd ⊢
              rw [List.take_append_of_le_length (by simp; omega), List.take_of_length_le (by simp; omega)]
          · simp at hc
  · rw [if_neg h0] at h
    simp at h

theorem write_frames_keeps [Platform] (l : FrameList) (cs cs' : CharStream) (h0 : 0 ≤ cs.cursor)
    (h : Tag_write_frames cs l = .ok cs') :
    cs'.size = cs.size ∧ cs'.stream.length = cs.stream.length ∧ cs.cursor ≤ cs'.cursor ∧
      cs'.stream.take cs.cursor.toNat = cs.stream.take cs.cursor.toNat := by
  induction l generalizing cs with
  | nil =>
    simp only [Tag_write_frames, Res.ok.injEq] at h
    subst h
    exact ⟨rfl, rfl, Int.le_refl _, rfl⟩
  | cons x xs ih =>
    cases x with
    | none => simp [Tag_write_frames] at h
    | some f =>
      simp only [Tag_write_frames] at h
      obtain ⟨fc, -, h⟩ := Res.bind_eq_ok.mp h
      obtain ⟨c, hc, h⟩ := Res.bind_eq_ok.mp h
      obtain ⟨w1, w2, w3, w4, w5, -⟩ := write_keeps _ _ _ _ hc
      obtain ⟨i1, i2, i3, i4⟩ := ih c (by omega) h
      refine ⟨by rw [i1, w1], by rw [i2, w2], by omega, ?_⟩
      rw [← w5]
      have := congrArg (List.take cs.cursor.toNat) i4
      rw [List.take_take, List.take_take, Nat.min_eq_left (by omega)] at this
      exact this

/-- Whatever the tag, if it can be serialised at all, then the result has the announced size and begins with the ten
bytes of the header. -/
theorem tag_out_inv [Platform] (t : Tag) (cs : CharStream) (hid : t.header.identifier = ofB [0x49, 0x44, 0x33])
    (h : Tag_to_char_stream t = .ok cs) :
    (cs.stream.length : Int) = cs.size ∧ cs.size = toInt32 (u32 (t.header.tag_size + 10)) ∧
      ∃ rest, cs.stream = ofB (headerOut t.header) ++ rest := by
  unfold Tag_to_char_stream at h
  dsimp only at h
  obtain ⟨c1, e1, h⟩ := Res.bind_eq_ok.mp h
  obtain ⟨c2, e2, h⟩ := Res.bind_eq_ok.mp h
  obtain ⟨c3, e3, h⟩ := Res.bind_eq_ok.mp h
  obtain ⟨c4, e4, h⟩ := Res.bind_eq_ok.mp h
  rw [syncint_encode_eq] at h
  simp only [Res.bind_ok] at h
  obtain ⟨c5, e5, h⟩ := Res.bind_eq_ok.mp h
  obtain ⟨a1, b1, -, -, -, d1, f1, -⟩ := write_keeps _ _ _ _ e1
  obtain ⟨a2, b2, -, -, -, d2, f2, -⟩ := write_keeps _ _ _ _ e2
  obtain ⟨a3, b3, -, -, -, d3, f3, -⟩ := write_keeps _ _ _ _ e3
  obtain ⟨a4, b4, -, -, -, d4, f4, -⟩ := write_keeps _ _ _ _ e4
  obtain ⟨a5, b5, -, -, -, d5, f5, -⟩ := write_keeps _ _ _ _ e5
  have hc5 : c5.cursor = 10 := by
    have : (CharStream_new (toInt32 (u32 ((t.header.tag_size : Int) + 10)))).cursor = 0 := rfl
    omega
  have hd5 : c5.stream.take 10 = ofB (headerOut t.header) := by
    rw [hc5] at d5
    rw [show (10 : Int).toNat = 10 from rfl] at d5
    rw [d5, d4, d3, d2, d1, hid]
    simp [headerOut, CharStream_new, ofB, itob]
  have hfin : cs.size = c5.size ∧ cs.stream.length = c5.stream.length ∧
      cs.stream.take 10 = c5.stream.take 10 := by
    have key : ∀ l, Tag_write_frames c5 l = .ok cs → cs.size = c5.size ∧ cs.stream.length = c5.stream.length ∧
        cs.stream.take 10 = c5.stream.take 10 := by
      intro l hl
      obtain ⟨i1, i2, -, i4⟩ := write_frames_keeps l c5 cs (by omega) hl
      rw [hc5] at i4
      exact ⟨i1, i2, i4⟩
    split at h
    · simp at h
    · simp only [Res.pure_eq, Res.ok.injEq] at h
      subst h
      exact ⟨rfl, rfl, rfl⟩
    · exact key _ h
  obtain ⟨g1, g2, g3⟩ := hfin
  have hsz : cs.size = toInt32 (u32 (t.header.tag_size + 10)) := by
    rw [g1, a5, a4, a3, a2, a1]; rfl
  have hlen : cs.stream.length = (toInt32 (u32 ((t.header.tag_size : Int) + 10))).toNat := by
    rw [g2, b5, b4, b3, b2, b1]
    simp [CharStream_new]
  have h10 : 10 ≤ cs.stream.length := by
    have := congrArg List.length (g3.trans hd5)
    simp only [List.length_take, ofB_length, headerOut_length] at this
    omega
  refine ⟨by rw [hlen, hsz]; omega, hsz, cs.stream.drop 10, ?_⟩
  rw [← hd5, ← g3, List.take_append_drop]

/-- Serialising does not look at the padding. -/
theorem tag_out_padding [Platform] (t : Tag) (p : Int) :
    Tag_to_char_stream { t with padding_size := p } = Tag_to_char_stream t := rfl

/-- The padding that `ID3v2_write_tag` notes in the tag. -/
def notedPadding (p : Int) : Int := p + clamp_int (2048 - p) 0 2048

theorem noted_eq (p : Int) : notedPadding p = if p < 0 then p + 2048 else if p < 2048 then 2048 else p := by
  unfold notedPadding clamp_int
  by_cases h1 : p < 0
  · rw [if_pos h1, if_neg (by omega), if_pos (by omega)]
  · by_cases h2 : p < 2048
    · rw [if_neg h1, if_pos h2, if_neg (by omega), if_neg (by omega)]; omega
    · rw [if_neg h1, if_neg h2]
      split
      · omega
      · rw [if_neg (by omega)]; omega

/-- Everything `ID3v2_write_tag` does, for a file whose existing tag is known. -/
theorem write_tag_eq [Platform] (contents : Bytes) (n : Nat) (t : Tag) (hid : t.header.identifier = ofB [0x49, 0x44, 0x33])
    (hsz : existingTagSize (some contents) = .ok (n : Nat))
    (hp1 : -2147481599 ≤ t.padding_size) (hp2 : t.padding_size ≤ 2147483647) :
    ID3v2_write_tag (some contents) t = (Tag_to_char_stream t >>= fun cs =>
      .ok (some (cs.stream ++ contents.drop n), { t with padding_size := notedPadding t.padding_size })) := by
  have hb : -2147483648 ≤ notedPadding t.padding_size ∧ notedPadding t.padding_size ≤ 2147483647 := by
    rw [noted_eq]; split
    · omega
    · split <;> omega
  unfold ID3v2_write_tag
  rw [hsz]
  simp only [Res.bind_ok]
  rw [show ck (2048 - t.padding_size) = .ok (2048 - t.padding_size) from by unfold ck; rw [if_pos (by omega)]]
  simp only [Res.bind_ok]
  rw [show ck (t.padding_size + clamp_int (2048 - t.padding_size) 0 2048) = .ok (notedPadding t.padding_size) from by
    unfold ck; exact if_pos hb]
  simp only [Res.bind_ok]
  rw [tag_out_padding]
  cases hc : Tag_to_char_stream t with
  | ok cs =>
    simp only [Res.bind_ok]
    obtain ⟨h1, -, -⟩ := tag_out_inv t cs hid hc
    rw [memcpySrc_self _ _ h1.symm]
    simp
  | ub k => simp
  | exit => simp
  | diverge => simp

/-- A write that succeeds has a padding size in range. -/
theorem write_range [Platform] (file : File) (t : Tag) (r : File × Tag) (h : ID3v2_write_tag file t = .ok r) :
    -2147481599 ≤ t.padding_size ∧ t.padding_size ≤ 2147483647 := by
  unfold ID3v2_write_tag at h
  obtain ⟨n, -, h⟩ := Res.bind_eq_ok.mp h
  obtain ⟨a, ha, h⟩ := Res.bind_eq_ok.mp h
  obtain ⟨b, hb, -⟩ := Res.bind_eq_ok.mp h
  unfold ck at ha hb
  split at ha
  · simp only [Res.ok.injEq] at ha
    subst ha
    split at hb
    · next h1 h2 =>
      have e := noted_eq t.padding_size
      unfold notedPadding at e
      rw [e] at h2
      refine ⟨by omega, ?_⟩
      split at h2
      · omega
      · split at h2 <;> omega
    · simp at hb
  · simp at ha

/-- Deleting cuts off the existing tag. -/
theorem delete_eq [Platform] (contents : Bytes) (n : Nat) (h : existingTagSize (some contents) = .ok (n : Nat)) :
    ID3v2_delete_tag (some contents) = .ok (some (contents.drop n)) := by
  unfold existingTagSize at h
  unfold ID3v2_delete_tag
  obtain ⟨r, hr, h⟩ := Res.bind_eq_ok.mp h
  rw [hr]
  simp only [Res.bind_ok]
  cases r with
  | none =>
    simp only [Res.pure_eq, Res.ok.injEq] at h
    have : n = 0 := by omega
    subst this
    simp
  | some hd =>
    simp only [Res.pure_eq, Res.ok.injEq] at h ⊢
    have : u32 ((hd.tag_size : Int) + 10) = n := by
      have h1 : u32 ((hd.tag_size : Int) + 10) < 4294967296 := by unfold u32; omega
      unfold toInt32 at h
      rw [Nat.mod_eq_of_lt h1] at h
      split at h <;> omega
    rw [this]

/-- Reading a file that begins with a header written by the library: only the bytes of the tag count. -/
theorem read_tag_prefix [Platform] (major minor flags : UInt8) (n : Nat) (body rest : Bytes)
    (hv : major = 3 ∨ major = 4) (hn : n < 2 ^ 28) (hb : body.length = n) :
    ID3v2_read_tag (some (ofB (tagHeaderBytes major minor flags n) ++ body ++ rest)) =
      ID3v2_read_tag_from_buffer (ofB (tagHeaderBytes major minor flags n) ++ body) (10 + n : Nat) := by
  have hx := existing_size_header major minor flags n (body ++ rest) hv hn
  rw [← List.append_assoc] at hx
  unfold existingTagSize at hx
  obtain ⟨r, hr, hx⟩ := Res.bind_eq_ok.mp hx
  unfold ID3v2_read_tag
  rw [hr]
  simp only [Res.bind_ok]
  cases r with
  | none =>
    simp only [Res.pure_eq, Res.ok.injEq] at hx
    omega
  | some hd =>
    simp only [Res.pure_eq, Res.ok.injEq] at hx ⊢
    rw [hx]
    have hl : (ofB (tagHeaderBytes major minor flags n)).length = 10 := by simp [tagHeaderBytes, synchsafe, ofB]
    have : intoArray ((10 + n : Nat) : Int)
        (List.take ((10 + n : Nat) : Int).toNat (ofB (tagHeaderBytes major minor flags n) ++ body ++ rest)) =
        ofB (tagHeaderBytes major minor flags n) ++ body := by
      rw [Int.toNat_natCast, List.take_append_of_le_length (by simp [hl]; omega),
        List.take_of_length_le (by simp [hl]; omega)]
      unfold intoArray
      rw [Int.toNat_natCast, show 10 + n - (ofB (tagHeaderBytes major minor flags n) ++ body).length = 0 from by
        rw [List.length_append, hl, hb]; omega]
      simp
    rw [this]

end Id3
