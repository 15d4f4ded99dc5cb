import Verif.Proof.TagOut
import Verif.Proof.SatParse
import Verif.Spec.Body

/-!
# Frames made by the library, from arbitrary input
-/

namespace Id3

open Spec

/-- A frame that one of the constructors returned, or that was read as an unknown one. -/
inductive Made [Platform] : Frame → Prop
  | text {id flags text : Bytes} {f : Frame} : TextFrame_new id flags text = .ok f → Made f
  | comment {flags lang desc text : Bytes} {f : Frame} : CommentFrame_new flags lang desc text = .ok f → Made f
  | apic {flags desc mime data : Bytes} {pt : UInt8} {n : Int} {f : Frame} :
      ApicFrame_new flags desc pt mime n data = .ok f → Made f
  | raw {h : FrameHeader} {d : Bytes} : h.id.length = 4 → h.flags.length = 2 → -2147483648 ≤ h.size →
      h.size ≤ 2147483647 → d.length ≤ h.size.toNat → (∃ b, h.id.head? = some (some b)) →
      h.id ≠ ofB [0, 0, 0, 0] → Made { header := h, data := .raw (intoArray h.size d) }

theorem memcpySrc_inv {p : Bytes} {n : Int} {d : Bytes} (h : memcpySrc p n = .ok d) :
    0 ≤ n ∧ d = p.take n.toNat ∧ (d.length : Int) = n := by
  unfold memcpySrc at h
  split at h
  · cases h
  · split at h
    · cases h
    · cases h
      refine ⟨by omega, rfl, ?_⟩
      rw [List.length_take]
      omega

theorem frameHeader_new_inv {i f : Bytes} {n : Int} {h : FrameHeader} (e : FrameHeader_new i f n = .ok h) :
    h.id.length = 4 ∧ h.flags.length = 2 ∧ h.size = n := by
  unfold FrameHeader_new at e
  obtain ⟨a, ha, e⟩ := Res.bind_eq_ok.mp e
  obtain ⟨b, hb, e⟩ := Res.bind_eq_ok.mp e
  cases e
  have h1 := (memcpySrc_inv ha).2.2
  have h2 := (memcpySrc_inv hb).2.2
  exact ⟨by dsimp only; omega, by dsimp only; omega, rfl⟩

/-- The copy of a string is as long as the string was measured, and measuring the copy gives the same, unless it is a
single byte. -/
theorem copied_string [Platform] {s d : Bytes} {n : Int} (h1 : ID3v2_strlent s = .ok n) (h2 : memcpySrc s n = .ok d) :
    (d.length : Int) = n ∧ d ≠ [] ∧
      (Platform.memcmpLenient = true ∨ d ≠ ofB [0] → ID3v2_strlent d = .ok n) ∧
      (¬ (Platform.memcmpLenient = true ∨ d ≠ ofB [0]) → ID3v2_strlent d = .ub .oobRead) := by
  obtain ⟨str, rest, e, hwf, hn⟩ := strlent_inv s n h1
  have hmax : n ≤ 2147483647 := by
    unfold ID3v2_strlent at h1
    obtain ⟨b, -, h1⟩ := Res.bind_eq_ok.mp h1
    obtain ⟨m, -, h1⟩ := Res.bind_eq_ok.mp h1
    have := ck_inv h1
    omega
  have hd : d = ofB str.bytes := by
    have := (memcpySrc_inv h2).2.1
    rw [this, e, hn]
    simp
  have hne : str.bytes ≠ [] := by
    cases str <;> simp [Str.bytes, Str.terminator]
  subst hd
  refine ⟨by simp [hn], by simpa [ofB] using hne, ?_, ?_⟩
  · intro hc
    have hu : str.Usable := by
      refine ⟨hwf, by omega, ?_⟩
      rcases hc with hc | hc
      · exact .inl hc
      · right
        intro e
        subst e
        exact hc rfl
    have := strlent_usable hu []
    rw [List.append_nil] at this
    rw [this, hn]
  · intro hc
    simp only [not_or, Decidable.not_not] at hc
    rw [hc.2]
    obtain ⟨hl, -⟩ := hc
    unfold ID3v2_strlent string_has_bom memcmpEq
    simp [hl]

/-- What the library gets when it measures a string it has copied. -/
def Measured [Platform] (s : Bytes) : Prop :=
  (Platform.memcmpLenient = true ∨ s ≠ ofB [0] → ID3v2_strlent s = .ok (s.length : Int)) ∧
    (¬ (Platform.memcmpLenient = true ∨ s ≠ ofB [0]) → ID3v2_strlent s = .ub .oobRead)

theorem measured_of_copy [Platform] {s d : Bytes} {n : Int} (h1 : ID3v2_strlent s = .ok n) (h2 : memcpySrc s n = .ok d) :
    (d.length : Int) = n ∧ Measured d := by
  obtain ⟨a, -, b, c⟩ := copied_string h1 h2
  subst a
  exact ⟨rfl, b, c⟩

/-- The fields of a frame made by the library fit together. -/
def Solid [Platform] (f : Frame) : Prop :=
  f.header.id.length = 4 ∧ f.header.flags.length = 2 ∧ -2147483648 ≤ f.header.size ∧ f.header.size ≤ 2147483647 ∧
  match f.data with
  | .text d => f.header.size = 1 + (d.text.length : Int) ∧ d.size = d.text.length
  | .comment d => f.header.size = 1 + 3 + (d.short_description.length : Int) + d.comment.length ∧
      d.size = d.comment.length ∧ d.language.length = 3 ∧ Measured d.short_description
  | .apic d => f.header.size = 1 + (d.mime_type.length : Int) + 1 + d.description.length + d.data.length ∧
      d.picture_size = d.data.length ∧ Measured d.mime_type ∧ Measured d.description
  | .raw d => d.length = f.header.size.toNat ∧ ∃ b, f.header.id.head? = some (some b)

theorem text_new_solid [Platform] {id flags text : Bytes} {f : Frame} (h : TextFrame_new id flags text = .ok f) : Solid f := by
  unfold TextFrame_new at h
  obtain ⟨d, hd, h⟩ := Res.bind_eq_ok.mp h
  obtain ⟨n, hn, h⟩ := Res.bind_eq_ok.mp h
  obtain ⟨hh, e, h⟩ := Res.bind_eq_ok.mp h
  cases h
  unfold TextFrameData_new at hd
  obtain ⟨b, -, hd⟩ := Res.bind_eq_ok.mp hd
  obtain ⟨m, -, hd⟩ := Res.bind_eq_ok.mp hd
  obtain ⟨k, -, hd⟩ := Res.bind_eq_ok.mp hd
  obtain ⟨t, ht, hd⟩ := Res.bind_eq_ok.mp hd
  cases hd
  obtain ⟨h1, h2, h3⟩ := frameHeader_new_inv e
  have h4 := ck_inv hn
  have h5 := (memcpySrc_inv ht).2.2
  dsimp only at h4
  refine ⟨h1, h2, by dsimp only; omega, by dsimp only; omega, ?_⟩
  dsimp only
  exact ⟨by omega, by omega⟩

theorem comment_new_solid [Platform] {flags lang desc text : Bytes} {f : Frame}
    (h : CommentFrame_new flags lang desc text = .ok f) : Solid f := by
  unfold CommentFrame_new at h
  obtain ⟨d, hd, h⟩ := Res.bind_eq_ok.mp h
  obtain ⟨k, hk, h⟩ := Res.bind_eq_ok.mp h
  obtain ⟨n, hn, h⟩ := Res.bind_eq_ok.mp h
  obtain ⟨hh, e, h⟩ := Res.bind_eq_ok.mp h
  cases h
  unfold CommentFrameData_new at hd
  obtain ⟨b, -, hd⟩ := Res.bind_eq_ok.mp hd
  obtain ⟨m, hm, hd⟩ := Res.bind_eq_ok.mp hd
  obtain ⟨k', hk', hd⟩ := Res.bind_eq_ok.mp hd
  obtain ⟨l, hl, hd⟩ := Res.bind_eq_ok.mp hd
  obtain ⟨c, hc, hd⟩ := Res.bind_eq_ok.mp hd
  obtain ⟨s, hs, hd⟩ := Res.bind_eq_ok.mp hd
  cases hd
  rw [hk] at hk'
  cases hk'
  obtain ⟨h1, h2, h3⟩ := frameHeader_new_inv e
  have h4 := ck_inv hn
  have h5 := (memcpySrc_inv hl).2.2
  obtain ⟨h6, -⟩ := measured_of_copy hm hc
  obtain ⟨h7, h8⟩ := measured_of_copy hk hs
  dsimp only at h4
  refine ⟨h1, h2, by dsimp only; omega, by dsimp only; omega, ?_⟩
  dsimp only
  exact ⟨by omega, by omega, by omega, h8⟩

theorem apic_new_solid [Platform] {flags desc mime data : Bytes} {pt : UInt8} {n : Int} {f : Frame}
    (h : ApicFrame_new flags desc pt mime n data = .ok f) : Solid f := by
  unfold ApicFrame_new at h
  obtain ⟨d, hd, h⟩ := Res.bind_eq_ok.mp h
  obtain ⟨k, hk, h⟩ := Res.bind_eq_ok.mp h
  obtain ⟨m, hm, h⟩ := Res.bind_eq_ok.mp h
  obtain ⟨n, hn, h⟩ := Res.bind_eq_ok.mp h
  obtain ⟨hh, e, h⟩ := Res.bind_eq_ok.mp h
  cases h
  unfold ApicFrameData_new at hd
  obtain ⟨b, -, hd⟩ := Res.bind_eq_ok.mp hd
  obtain ⟨k', hk', hd⟩ := Res.bind_eq_ok.mp hd
  obtain ⟨s, hs, hd⟩ := Res.bind_eq_ok.mp hd
  obtain ⟨m', hm', hd⟩ := Res.bind_eq_ok.mp hd
  obtain ⟨c, hc, hd⟩ := Res.bind_eq_ok.mp hd
  obtain ⟨p, hp, hd⟩ := Res.bind_eq_ok.mp hd
  cases hd
  rw [hk] at hk'
  cases hk'
  rw [hm] at hm'
  cases hm'
  obtain ⟨h1, h2, h3⟩ := frameHeader_new_inv e
  have h4 := ck_inv hn
  have h5 := (memcpySrc_inv hp).2.2
  obtain ⟨h6, h6'⟩ := measured_of_copy hm hc
  obtain ⟨h7, h8⟩ := measured_of_copy hk hs
  dsimp only at h4
  refine ⟨h1, h2, by dsimp only; omega, by dsimp only; omega, ?_⟩
  dsimp only
  exact ⟨by omega, by omega, h6', h8⟩

theorem made_solid [Platform] (f : Frame) (h : Made f) : Solid f := by
  cases h with
  | text h => exact text_new_solid h
  | comment h => exact comment_new_solid h
  | apic h => exact apic_new_solid h
  | raw h1 h2 h3 h4 h5 h6 _ =>
    refine ⟨h1, h2, h3, h4, ?_, h6⟩
    dsimp only
    unfold intoArray
    rw [List.length_append, List.length_replicate]
    omega

/-- The size is truthful, or the frame is an unknown one with a negative size. -/
theorem solid_truthful [Platform] (f : Frame) (h : Solid f) :
    Truthful f ∨ (f.header.size < 0 ∧ f.data = .raw []) := by
  obtain ⟨-, -, -, -, h⟩ := h
  unfold Truthful
  cases hd : f.data with
  | text d =>
    rw [hd] at h
    left
    simp only [bodyOf, List.length_cons]
    omega
  | comment d =>
    rw [hd] at h
    left
    obtain ⟨h1, h2, h3, -⟩ := h
    simp only [bodyOf, List.length_append, List.length_cons]
    omega
  | apic d =>
    rw [hd] at h
    left
    obtain ⟨h1, h2, -⟩ := h
    simp only [bodyOf, List.length_append, List.length_cons]
    omega
  | raw d =>
    rw [hd] at h
    by_cases hn : f.header.size < 0
    · right
      refine ⟨hn, ?_⟩
      have : d.length = 0 := by dsimp only at h; omega
      rw [List.length_eq_zero_iff.mp this]
    · left
      simp only [bodyOf]
      dsimp only at h
      omega

/-! ## Writing them -/

theorem frame_header_out_any (h : FrameHeader) (hid : h.id.length = 4) (hfl : h.flags.length = 2) :
    FrameHeader_to_char_stream h = .ok (csOut (h.id ++ ofB (itob (BitVec.ofInt 32 h.size)) ++ h.flags) 0) := by
  unfold FrameHeader_to_char_stream
  rw [CharStream_new_csOut 10 10 rfl]
  dsimp only
  rw [write_csOut' _ _ _ _ (by simp [hid]) (by simp [hid]) (by simp [hid])]
  simp only [Res.bind_ok]
  rw [write_csOut' _ _ _ _ (by simp) (by simp [hid]) (by simp [hid])]
  simp only [Res.bind_ok]
  rw [write_csOut' _ _ _ _ (by simp [hfl]) (by simp [hid, hfl]) (by simp [hid, hfl])]
  simp [hid, hfl]

theorem idStartsWith_head (h : FrameHeader) (c b : UInt8) (hb : h.id.head? = some (some b)) :
    idStartsWith h c = .ok (b == c) := by
  unfold idStartsWith
  cases hi : h.id with
  | nil => rw [hi] at hb; simp at hb
  | cons x xs =>
    rw [hi] at hb
    simp only [List.head?_cons, Option.some.injEq] at hb
    subst hb
    rfl

/-- What the ten bytes of the header look like when the size is not negative. -/
theorem header_bytes_nonneg (n : Int) (h0 : 0 ≤ n) : itob (BitVec.ofInt 32 n) = be32 n.toNat := by
  have e : BitVec.ofInt 32 n = BitVec.ofNat 32 n.toNat := by
    obtain ⟨m, rfl⟩ := Int.eq_ofNat_of_zero_le h0
    simp
  rw [e, itob_ofNat]

theorem frameBytes_length [Platform] (f : Frame) (h : Solid f) (ht : Truthful f) :
    ((frameBytes f).length : Int) = 10 + f.header.size := by
  unfold frameBytes
  have h1 := h.1
  have h2 := h.2.1
  unfold Truthful at ht
  simp only [List.length_append, ofB_length, h1, h2]
  simp only [be32, List.length_cons, List.length_nil]
  omega

theorem solid_text_out [Platform] (f : Frame) (d : TextFrameData) (hd : f.data = .text d) (h : Solid f) (ht : Typed f) :
    Frame_to_char_stream f =
      if f.header.size + 10 ≤ 2147483647 then .ok (csOut (frameBytes f) 0) else .ub .intOverflow := by
  obtain ⟨h1, h2, h3, h4, h⟩ := h
  unfold Typed at ht
  unfold Frame_to_char_stream FrameHeader_isTextFrame
  simp only [hd] at h ht ⊢
  rw [idStartsWith_head _ _ _ ht]
  simp only [Res.bind_ok, BEq.rfl, if_true]
  unfold TextFrame_to_char_stream
  rw [frame_header_out_any _ h1 h2]
  simp only [Res.bind_ok]
  split
  · next hs =>
    rw [ck_ok (by omega) hs]
    simp only [Res.bind_ok]
    rw [CharStream_new_csOut _ (f.header.size.toNat + 10) (by omega)]
    unfold frameBytes
    rw [header_bytes_nonneg _ (by omega), hd]
    generalize hH : f.header.id ++ ofB (be32 f.header.size.toNat) ++ f.header.flags = H
    have hHl : H.length = 10 := by rw [← hH]; simp [h1, h2, be32]
    rw [show (csOut H 0).stream = H by simp [csOut]]
    rw [write_csOut' _ _ _ _ (by simp [csOut]) (by omega) (by simp; omega)]
    simp only [Res.bind_ok]
    rw [write_csOut' _ _ _ _ (by simp) (by simp; omega) (by simp; omega)]
    simp only [Res.bind_ok]
    rw [write_csOut' _ _ _ _ (by omega) (by simp; omega) (by simp; omega)]
    have e : f.header.size.toNat + 10 - H.length - [some d.encoding].length - d.text.length = 0 := by simp; omega
    rw [e]
    simp [bodyOf]
  · next hs =>
    have : ck (f.header.size + 10) = .ub .intOverflow := by unfold ck; rw [if_neg (by omega)]
    rw [this]; rfl

/-- A write of more bytes than a new stream has. -/
theorem new_write_oob (n : Int) (d : Bytes) (m : Int) (hm : m = d.length) (h0 : 0 < d.length) (h : n < d.length) :
    CharStream_write (CharStream_new n) d m = .ub .oobWrite := by
  have hg : CharStream_get_cur (CharStream_new n) = .ok (List.replicate n.toNat (some 0)) := by
    simp [CharStream_get_cur, CharStream_new]
    omega
  unfold CharStream_write
  rw [hg, memcpySrc_self _ _ hm]
  simp only [Res.bind_ok, List.length_replicate]
  rw [if_pos (by omega)]

theorem ck_too_big (n : Int) (_ : 0 ≤ n) (h : ¬ n ≤ 2147483647) : ck n = .ub .intOverflow := by
  unfold ck; rw [if_neg (by omega)]

theorem solid_comment_out [Platform] (f : Frame) (d : CommentFrameData) (hd : f.data = .comment d) (h : Solid f)
    (ht : Typed f) :
    Frame_to_char_stream f =
      if f.header.size + 10 ≤ 2147483647 then
        if Platform.memcmpLenient = true ∨ ¬ BareNul f then .ok (csOut (frameBytes f) 0) else .ub .oobRead
      else .ub .intOverflow := by
  obtain ⟨h1, h2, h3, h4, h⟩ := h
  unfold Typed at ht
  unfold Frame_to_char_stream FrameHeader_isTextFrame FrameHeader_isCommentFrame BareNul
  simp only [hd] at h ht ⊢
  obtain ⟨h5, h6, h7, h8, h9⟩ := h
  rw [idStartsWith_head _ _ _ ht, idStartsWith_head _ _ _ ht]
  have hne : ((0x43 : UInt8) == 0x54) = false := rfl
  simp only [Res.bind_ok, hne, Bool.false_eq_true, if_false, BEq.rfl, if_true]
  unfold CommentFrame_to_char_stream
  rw [frame_header_out_any _ h1 h2]
  simp only [Res.bind_ok]
  split
  · next hs =>
    rw [ck_ok (by omega) hs]
    simp only [Res.bind_ok]
    rw [CharStream_new_csOut _ (f.header.size.toNat + 10) (by omega)]
    unfold frameBytes
    rw [header_bytes_nonneg _ (by omega), hd]
    generalize hH : f.header.id ++ ofB (be32 f.header.size.toNat) ++ f.header.flags = H
    have hHl : H.length = 10 := by rw [← hH]; simp [h1, h2, be32]
    rw [show (csOut H 0).stream = H by simp [csOut]]
    rw [write_csOut' _ _ _ _ (by simp [csOut]) (by omega) (by simp; omega)]
    simp only [Res.bind_ok]
    rw [write_csOut' _ _ _ _ (by simp) (by simp; omega) (by simp; omega)]
    simp only [Res.bind_ok]
    rw [write_csOut' _ _ _ _ (by simp [h7]) (by simp; omega) (by simp; omega)]
    simp only [Res.bind_ok]
    split
    · next hb =>
      rw [h8 hb]
      simp only [Res.bind_ok]
      rw [write_csOut' _ _ _ _ (by omega) (by simp; omega) (by simp; omega)]
      simp only [Res.bind_ok]
      rw [write_csOut' _ _ _ _ (by omega) (by simp; omega) (by simp; omega)]
      have e : f.header.size.toNat + 10 - H.length - [some d.encoding].length - d.language.length -
        d.short_description.length - d.comment.length = 0 := by simp; omega
      rw [e]
      simp [bodyOf]
    · next hb =>
      rw [h9 hb]; rfl
  · next hs => rw [ck_too_big _ (by omega) hs]; rfl

theorem solid_apic_out [Platform] (f : Frame) (d : ApicFrameData) (hd : f.data = .apic d) (h : Solid f)
    (ht : Typed f) :
    Frame_to_char_stream f =
      if f.header.size + 10 ≤ 2147483647 then
        if Platform.memcmpLenient = true ∨ ¬ BareNul f then .ok (csOut (frameBytes f) 0) else .ub .oobRead
      else .ub .intOverflow := by
  obtain ⟨h1, h2, h3, h4, h⟩ := h
  unfold Typed at ht
  unfold Frame_to_char_stream FrameHeader_isTextFrame FrameHeader_isCommentFrame FrameHeader_isApicFrame BareNul
  simp only [hd] at h ht ⊢
  obtain ⟨h5, h6, ⟨h7, h7'⟩, h8, h9⟩ := h
  rw [idStartsWith_head _ _ _ ht, idStartsWith_head _ _ _ ht, idStartsWith_head _ _ _ ht]
  have hne : ((0x41 : UInt8) == 0x54) = false := rfl
  have hne' : ((0x41 : UInt8) == 0x43) = false := rfl
  simp only [Res.bind_ok, hne, hne', Bool.false_eq_true, if_false, BEq.rfl, if_true]
  unfold ApicFrame_to_char_stream
  rw [frame_header_out_any _ h1 h2]
  simp only [Res.bind_ok]
  split
  · next hs =>
    rw [ck_ok (by omega) hs]
    simp only [Res.bind_ok]
    rw [CharStream_new_csOut _ (f.header.size.toNat + 10) (by omega)]
    unfold frameBytes
    rw [header_bytes_nonneg _ (by omega), hd]
    generalize hH : f.header.id ++ ofB (be32 f.header.size.toNat) ++ f.header.flags = H
    have hHl : H.length = 10 := by rw [← hH]; simp [h1, h2, be32]
    rw [show (csOut H 0).stream = H by simp [csOut]]
    rw [write_csOut' _ _ _ _ (by simp [csOut]) (by omega) (by simp; omega)]
    simp only [Res.bind_ok]
    rw [write_csOut' _ _ _ _ (by simp) (by simp; omega) (by simp; omega)]
    simp only [Res.bind_ok]
    by_cases hm : Platform.memcmpLenient = true ∨ d.mime_type ≠ ofB [0]
    · rw [h7 hm]
      simp only [Res.bind_ok]
      rw [write_csOut' _ _ _ _ (by omega) (by simp; omega) (by simp; omega)]
      simp only [Res.bind_ok]
      rw [write_csOut' _ _ _ _ (by simp) (by simp; omega) (by simp; omega)]
      simp only [Res.bind_ok]
      by_cases hb : Platform.memcmpLenient = true ∨ d.description ≠ ofB [0]
      · rw [h8 hb]
        simp only [Res.bind_ok]
        rw [if_pos (by
          rcases hm with hm | hm
          · exact .inl hm
          · rcases hb with hb | hb
            · exact .inl hb
            · exact .inr (by simp only [not_or]; exact ⟨hm, hb⟩))]
        rw [write_csOut' _ _ _ _ (by omega) (by simp; omega) (by simp; omega)]
        simp only [Res.bind_ok]
        rw [write_csOut' _ _ _ _ (by omega) (by simp; omega) (by simp; omega)]
        have e : f.header.size.toNat + 10 - H.length - [some d.encoding].length - d.mime_type.length -
          [some d.picture_type].length - d.description.length - d.data.length = 0 := by simp; omega
        rw [e]
        simp [bodyOf]
      · rw [h9 hb]
        rw [if_neg (by
          simp only [not_or, Decidable.not_not] at hb
          rintro (h | h)
          · exact hb.1 h
          · exact h (.inr hb.2))]
        rfl
    · rw [h7' hm]
      rw [if_neg (by
        simp only [not_or, Decidable.not_not] at hm
        rintro (h | h)
        · exact hm.1 h
        · exact h (.inl hm.2))]
      rfl
  · next hs => rw [ck_too_big _ (by omega) hs]; rfl

theorem solid_raw_out [Platform] (f : Frame) (d : Bytes) (hd : f.data = .raw d) (h : Solid f) (ht : Typed f) :
    Frame_to_char_stream f =
      if f.header.size < 0 then .ub .oobWrite
      else if f.header.size + 10 ≤ 2147483647 then .ok (csOut (frameBytes f) 0) else .ub .intOverflow := by
  obtain ⟨h1, h2, h3, h4, h⟩ := h
  unfold Typed at ht
  unfold Frame_to_char_stream FrameHeader_isTextFrame FrameHeader_isCommentFrame FrameHeader_isApicFrame
  simp only [hd] at h ht ⊢
  obtain ⟨h5, b, hb⟩ := h
  rw [idStartsWith_head _ _ _ hb, idStartsWith_head _ _ _ hb, idStartsWith_head _ _ _ hb]
  obtain ⟨t1, t2, t3⟩ := ht
  have e1 : (b == (0x54 : UInt8)) = false := by
    simp only [beq_eq_false_iff_ne]; rintro rfl; exact t1 hb
  have e2 : (b == (0x43 : UInt8)) = false := by
    simp only [beq_eq_false_iff_ne]; rintro rfl; exact t2 hb
  have e3 : (b == (0x41 : UInt8)) = false := by
    simp only [beq_eq_false_iff_ne]; rintro rfl; exact t3 hb
  simp only [Res.bind_ok, e1, e2, e3, Bool.false_eq_true, if_false]
  by_cases hs : f.header.size + 10 ≤ 2147483647
  · rw [ck_ok (by omega) hs]
    simp only [Res.bind_ok]
    rw [frame_header_out_any _ h1 h2]
    simp only [Res.bind_ok]
    generalize hH : f.header.id ++ ofB (itob (BitVec.ofInt 32 f.header.size)) ++ f.header.flags = H
    have hHl : H.length = 10 := by rw [← hH]; simp [h1, h2]
    rw [show (csOut H 0).stream = H by simp [csOut]]
    split
    · next hn =>
      rw [new_write_oob _ _ _ (by rw [hHl]; rfl) (by omega) (by omega)]
      rfl
    · next hn =>
      rw [CharStream_new_csOut _ (f.header.size.toNat + 10) (by omega)]
      rw [write_csOut' _ _ _ _ (by rw [hHl]; rfl) (by omega) (by simp; omega)]
      simp only [Res.bind_ok]
      rw [write_csOut' _ _ _ _ (by omega) (by omega) (by simp; omega)]
      have e : f.header.size.toNat + 10 - H.length - d.length = 0 := by omega
      rw [e]
      unfold frameBytes
      rw [← header_bytes_nonneg _ (by omega), hd, hH]
      simp [bodyOf]
  · rw [if_neg (by omega), if_neg hs, ck_too_big _ (by omega) hs]; rfl

/-- Writing any frame made by the library: the frame, or undefined behaviour. -/
theorem solid_out [Platform] (f : Frame) (h : Solid f) (ht : Typed f) :
    (WritableFrame f → Frame_to_char_stream f = .ok (csOut (frameBytes f) 0)) ∧
    (¬ WritableFrame f → ∃ e, Frame_to_char_stream f = .ub e) := by
  unfold WritableFrame
  cases hd : f.data with
  | text d =>
    have hb : ¬ BareNul f := by unfold BareNul; rw [hd]; exact id
    have h0 : 0 ≤ f.header.size := by
      have := h.2.2.2.2; rw [hd] at this; dsimp only at this; omega
    rw [solid_text_out f d hd h ht]
    constructor
    · rintro ⟨-, h2, -⟩; rw [if_pos h2]
    · intro hn
      by_cases h2 : f.header.size + 10 ≤ 2147483647
      · exact absurd ⟨h0, h2, .inr hb⟩ hn
      · rw [if_neg h2]; exact ⟨_, rfl⟩
  | comment d =>
    have h0 : 0 ≤ f.header.size := by
      have := h.2.2.2.2; rw [hd] at this; dsimp only at this; omega
    rw [solid_comment_out f d hd h ht]
    constructor
    · rintro ⟨-, h2, h3⟩; rw [if_pos h2, if_pos h3]
    · intro hn
      by_cases h2 : f.header.size + 10 ≤ 2147483647
      · rw [if_pos h2, if_neg (fun h3 => hn ⟨h0, h2, h3⟩)]; exact ⟨_, rfl⟩
      · rw [if_neg h2]; exact ⟨_, rfl⟩
  | apic d =>
    have h0 : 0 ≤ f.header.size := by
      have := h.2.2.2.2; rw [hd] at this; dsimp only at this; omega
    rw [solid_apic_out f d hd h ht]
    constructor
    · rintro ⟨-, h2, h3⟩; rw [if_pos h2, if_pos h3]
    · intro hn
      by_cases h2 : f.header.size + 10 ≤ 2147483647
      · rw [if_pos h2, if_neg (fun h3 => hn ⟨h0, h2, h3⟩)]; exact ⟨_, rfl⟩
      · rw [if_neg h2]; exact ⟨_, rfl⟩
  | raw d =>
    have hb : ¬ BareNul f := by unfold BareNul; rw [hd]; exact id
    rw [solid_raw_out f d hd h ht]
    constructor
    · rintro ⟨h0, h2, -⟩; rw [if_neg (by omega), if_pos h2]
    · intro hn
      by_cases h0 : f.header.size < 0
      · rw [if_pos h0]; exact ⟨_, rfl⟩
      · rw [if_neg h0]
        by_cases h2 : f.header.size + 10 ≤ 2147483647
        · exact absurd ⟨by omega, h2, .inr hb⟩ hn
        · rw [if_neg h2]; exact ⟨_, rfl⟩

theorem writable_truthful [Platform] (f : Frame) (h : Solid f) (hw : WritableFrame f) : Truthful f := by
  rcases solid_truthful f h with ht | ⟨hn, -⟩
  · exact ht
  · exact absurd hw.1 (by omega)

theorem frameBytesTotal_cons (f : Frame) (fs : List Frame) :
    frameBytesTotal (f :: fs) = (frameBytes f).length + frameBytesTotal fs := by simp [frameBytesTotal]

theorem flatMap_frameBytes_length (fs : List Frame) : (fs.flatMap frameBytes).length = frameBytesTotal fs := by
  induction fs with
  | nil => rfl
  | cons f fs ih => rw [frameBytesTotal_cons, List.flatMap_cons, List.length_append, ih]

/-- Writing the frames of any tag made by the library. -/
theorem write_frames_made [Platform] (fs : List Frame) (hs : ∀ f ∈ fs, Solid f ∧ Typed f) (done : Bytes) (room : Nat)
    (hr : done.length + room ≤ 2147483647) :
    ((∀ f ∈ fs, WritableFrame f) ∧ frameBytesTotal fs ≤ room →
      Tag_write_frames (csOut done room) (fs.map some) =
        .ok (csOut (done ++ fs.flatMap frameBytes) (room - frameBytesTotal fs))) ∧
    (¬ ((∀ f ∈ fs, WritableFrame f) ∧ frameBytesTotal fs ≤ room) →
      ∃ e, Tag_write_frames (csOut done room) (fs.map some) = .ub e) := by
  induction fs generalizing done room with
  | nil => simp [Tag_write_frames, frameBytesTotal]
  | cons f fs ih =>
    rw [frameBytesTotal_cons]
    simp only [List.map_cons, Tag_write_frames]
    obtain ⟨o1, o2⟩ := solid_out f (hs f (by simp)).1 (hs f (by simp)).2
    by_cases hw : WritableFrame f
    · rw [o1 hw]
      simp only [Res.bind_ok]
      have hc : (csOut (frameBytes f) 0).stream = frameBytes f := by simp [csOut]
      rw [hc]
      by_cases hl : (frameBytes f).length ≤ room
      · rw [write_csOut' _ _ _ _ (by simp [csOut]) hl (by omega)]
        simp only [Res.bind_ok]
        obtain ⟨i1, i2⟩ := ih (fun g hg => hs g (by simp [hg])) (done ++ frameBytes f) (room - (frameBytes f).length)
          (by simp; omega)
        constructor
        · rintro ⟨h1, h2⟩
          rw [i1 ⟨fun g hg => h1 g (by simp [hg]), by omega⟩]
          simp only [List.flatMap_cons, List.append_assoc]
          rw [Nat.sub_sub]
        · intro hn
          apply i2
          rintro ⟨h1, h2⟩
          apply hn
          refine ⟨?_, by omega⟩
          intro g hg
          rcases List.mem_cons.1 hg with rfl | hg
          · exact hw
          · exact h1 g hg
      · rw [write_csOut_oob _ _ _ _ (by simp [csOut]) (by omega)]
        exact ⟨fun h => absurd h.2 (by omega), fun _ => ⟨_, rfl⟩⟩
    · obtain ⟨e, he⟩ := o2 hw
      rw [he]
      exact ⟨fun h => absurd (h.1 f (by simp)) hw, fun _ => ⟨e, rfl⟩⟩

/-! ## Reading them -/

theorem read_inv {cs cs' : CharStream} {n : Int} {d : Bytes} (h : CharStream_read cs n = .ok (d, cs')) :
    d.length ≤ n.toNat := by
  unfold CharStream_read at h
  obtain ⟨p, -, h⟩ := Res.bind_eq_ok.mp h
  obtain ⟨x, hx, h⟩ := Res.bind_eq_ok.mp h
  cases h
  obtain ⟨h1, -, h3⟩ := memcpySrc_inv hx
  unfold clamp_int at h1 h3
  split at h3
  · omega
  · split at h3 <;> omega

theorem frameHeader_parse_inv [Platform] {cs cs' : CharStream} {v : UInt8} {h : FrameHeader}
    (e : FrameHeader_parse cs v = .ok (some h, cs')) :
    h.id.length = 4 ∧ h.flags.length = 2 ∧ -2147483648 ≤ h.size ∧ h.size ≤ 2147483647 ∧ h.id ≠ ofB [0, 0, 0, 0] := by
  unfold FrameHeader_parse at e
  obtain ⟨⟨d, c⟩, -, e⟩ := Res.bind_eq_ok.mp e
  dsimp only at e
  obtain ⟨b, hb, e⟩ := Res.bind_eq_ok.mp e
  split at e
  · obtain ⟨_, -, e⟩ := Res.bind_eq_ok.mp e
    cases e
  · obtain ⟨⟨p, c1⟩, -, e⟩ := Res.bind_eq_ok.mp e
    dsimp only at e
    obtain ⟨sz, -, e⟩ := Res.bind_eq_ok.mp e
    obtain ⟨⟨p2, c2⟩, -, e⟩ := Res.bind_eq_ok.mp e
    dsimp only at e
    obtain ⟨h', hh, e⟩ := Res.bind_eq_ok.mp e
    cases e
    obtain ⟨h1, h2, h3⟩ := frameHeader_new_inv hh
    refine ⟨h1, h2, ?_, ?_, ?_⟩
    · rw [h3]
      generalize (if v = 4 then syncint_decode sz else sz) = w
      have := BitVec.le_two_mul_toInt (x := w)
      omega
    · rw [h3]
      generalize (if v = 4 then syncint_decode sz else sz) = w
      have := BitVec.two_mul_toInt_lt (x := w)
      omega
    · intro h0
      unfold FrameHeader_new at hh
      obtain ⟨i, hi, hh⟩ := Res.bind_eq_ok.mp hh
      obtain ⟨_, -, hh⟩ := Res.bind_eq_ok.mp hh
      cases hh
      have e2 := (memcpySrc_inv hi).2.1
      have e3 := memcmpEq_ofB [0, 0, 0, 0] [0, 0, 0, 0] ((intoArray 4 d).drop 4) rfl
      rw [← h0, e2, show (4 : Int).toNat = 4 from rfl, List.take_append_drop, hb] at e3
      cases e3
      contradiction

theorem isFrame_head (h : FrameHeader) (c : UInt8) (b : Bool) (e : idStartsWith h c = .ok b) :
    ∃ x, h.id.head? = some (some x) := by
  unfold idStartsWith at e
  cases hi : h.id with
  | nil => rw [hi] at e; cases e
  | cons x xs =>
    rw [hi] at e
    cases x with
    | none => cases e
    | some v => exact ⟨v, rfl⟩

theorem frame_parse_made [Platform] {cs cs' : CharStream} {v : UInt8} {f : Frame}
    (e : Frame_parse cs v = .ok (some f, cs')) : Made f := by
  unfold Frame_parse at e
  obtain ⟨⟨h, c⟩, hh, e⟩ := Res.bind_eq_ok.mp e
  cases h with
  | none => cases e
  | some h =>
    dsimp only at e
    obtain ⟨b, hb, e⟩ := Res.bind_eq_ok.mp e
    split at e
    · obtain ⟨c1, -, e⟩ := Res.bind_eq_ok.mp e
      obtain ⟨⟨g, c2⟩, e1, e⟩ := Res.bind_eq_ok.mp e
      cases e
      unfold TextFrame_parse at e1
      obtain ⟨⟨h', _⟩, -, e1⟩ := Res.bind_eq_ok.mp e1
      dsimp only at e1
      obtain ⟨_, -, e1⟩ := Res.bind_eq_ok.mp e1
      cases h' with
      | none => cases e1
      | some h' =>
        dsimp only at e1
        obtain ⟨_, -, e1⟩ := Res.bind_eq_ok.mp e1
        obtain ⟨_, -, e1⟩ := Res.bind_eq_ok.mp e1
        obtain ⟨⟨_, _⟩, -, e1⟩ := Res.bind_eq_ok.mp e1
        obtain ⟨_, e2, e1⟩ := Res.bind_eq_ok.mp e1
        cases e1
        exact .text e2
    · obtain ⟨b2, hb2, e⟩ := Res.bind_eq_ok.mp e
      split at e
      · obtain ⟨c1, -, e⟩ := Res.bind_eq_ok.mp e
        obtain ⟨⟨g, c2⟩, e1, e⟩ := Res.bind_eq_ok.mp e
        cases e
        unfold CommentFrame_parse at e1
        obtain ⟨⟨h', _⟩, -, e1⟩ := Res.bind_eq_ok.mp e1
        dsimp only at e1
        obtain ⟨_, -, e1⟩ := Res.bind_eq_ok.mp e1
        obtain ⟨⟨_, _⟩, -, e1⟩ := Res.bind_eq_ok.mp e1
        obtain ⟨_, -, e1⟩ := Res.bind_eq_ok.mp e1
        obtain ⟨_, -, e1⟩ := Res.bind_eq_ok.mp e1
        obtain ⟨_, -, e1⟩ := Res.bind_eq_ok.mp e1
        obtain ⟨⟨_, _⟩, -, e1⟩ := Res.bind_eq_ok.mp e1
        obtain ⟨_, -, e1⟩ := Res.bind_eq_ok.mp e1
        obtain ⟨_, -, e1⟩ := Res.bind_eq_ok.mp e1
        obtain ⟨_, -, e1⟩ := Res.bind_eq_ok.mp e1
        obtain ⟨⟨_, _⟩, -, e1⟩ := Res.bind_eq_ok.mp e1
        cases h' with
        | none => cases e1
        | some h' =>
          dsimp only at e1
          obtain ⟨_, e2, e1⟩ := Res.bind_eq_ok.mp e1
          cases e1
          exact .comment e2
      · obtain ⟨b3, hb3, e⟩ := Res.bind_eq_ok.mp e
        split at e
        · obtain ⟨c1, -, e⟩ := Res.bind_eq_ok.mp e
          obtain ⟨⟨g, c2⟩, e1, e⟩ := Res.bind_eq_ok.mp e
          cases e
          unfold ApicFrame_parse at e1
          obtain ⟨⟨h', _⟩, -, e1⟩ := Res.bind_eq_ok.mp e1
          dsimp only at e1
          obtain ⟨_, -, e1⟩ := Res.bind_eq_ok.mp e1
          obtain ⟨_, -, e1⟩ := Res.bind_eq_ok.mp e1
          obtain ⟨_, -, e1⟩ := Res.bind_eq_ok.mp e1
          obtain ⟨_, -, e1⟩ := Res.bind_eq_ok.mp e1
          obtain ⟨⟨_, _⟩, -, e1⟩ := Res.bind_eq_ok.mp e1
          obtain ⟨⟨_, _⟩, -, e1⟩ := Res.bind_eq_ok.mp e1
          obtain ⟨_, -, e1⟩ := Res.bind_eq_ok.mp e1
          obtain ⟨_, -, e1⟩ := Res.bind_eq_ok.mp e1
          obtain ⟨_, -, e1⟩ := Res.bind_eq_ok.mp e1
          obtain ⟨⟨_, _⟩, -, e1⟩ := Res.bind_eq_ok.mp e1
          cases h' with
          | none => cases e1
          | some h' =>
            dsimp only at e1
            obtain ⟨_, -, e1⟩ := Res.bind_eq_ok.mp e1
            obtain ⟨_, -, e1⟩ := Res.bind_eq_ok.mp e1
            obtain ⟨⟨_, _⟩, -, e1⟩ := Res.bind_eq_ok.mp e1
            obtain ⟨_, e2, e1⟩ := Res.bind_eq_ok.mp e1
            cases e1
            exact .apic e2
        · obtain ⟨⟨d, c3⟩, e1, e⟩ := Res.bind_eq_ok.mp e
          cases e
          obtain ⟨h1, h2, h3, h4, h5⟩ := frameHeader_parse_inv hh
          exact .raw h1 h2 h3 h4 (read_inv e1) (isFrame_head _ _ _ hb) h5

end Id3
