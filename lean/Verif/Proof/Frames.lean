import Verif.Proof.Stream

/-!
# Serialising and parsing one frame
-/

namespace Id3

open Spec

/-! ## Serialising -/

theorem frame_header_out (id flags : List UInt8) (n : Nat) (hid : id.length = 4) (hfl : flags.length = 2) :
    FrameHeader_to_char_stream { id := ofB id, size := n, flags := ofB flags } =
      .ok (csOut (ofB (id ++ be32 n ++ flags)) 0) := by
  unfold FrameHeader_to_char_stream
  rw [CharStream_new_csOut 10 10 rfl]
  dsimp only
  rw [write_csOut' _ _ _ _ (by simp [hid]) (by simp [hid]) (by simp [hid])]
  simp only [Res.bind_ok]
  have e : BitVec.ofInt 32 (n : Int) = BitVec.ofNat 32 n := by simp
  rw [e, itob_ofNat]
  rw [write_csOut' _ _ _ _ (by simp) (by simp [hid]) (by simp [hid])]
  simp only [Res.bind_ok]
  rw [write_csOut' _ _ _ _ (by simp [hfl]) (by simp [hid, hfl]) (by simp [hid, hfl])]
  simp [hid, hfl]

theorem idStartsWith_ofB (id flags : List UInt8) (n : Int) (c b : UInt8) (h : id.head? = some b) :
    idStartsWith { id := ofB id, size := n, flags := ofB flags } c = .ok (b == c) := by
  cases id with
  | nil => simp at h
  | cons x xs => simp at h; simp [idStartsWith, h]

theorem SFrame.bytes_length (f : SFrame) (h : f.WF) : f.bytes.length = 10 + f.body.length := by
  cases f <;> simp [SFrame.bytes, SFrame.id, SFrame.flags, SFrame.WF, commId, apicId] at * <;> omega

theorem out_text [Platform] (id flags : List UInt8) (s : Str) (h : (SFrame.text id flags s).Usable) :
    Frame_to_char_stream (SFrame.text id flags s).toFrame = .ok (csOut (ofB (SFrame.text id flags s).bytes) 0) := by
  obtain ⟨hwf, hsz, hu⟩ := h
  obtain ⟨hi, h0, hf, hs⟩ := _root_.id hwf
  have hb : (SFrame.text id flags s).body.length = 1 + s.bytes.length := by simp [SFrame.body]; omega
  have hlen : 10 + (1 + s.bytes.length) ≤ 2147483647 := by
    rw [SFrame.bytes_length _ hwf, hb] at hsz; exact hsz
  clear hsz
  unfold Frame_to_char_stream FrameHeader_isTextFrame
  have hh := frame_header_out id flags (1 + s.bytes.length) hi hf
  have hck : ck (((1 + s.bytes.length : Nat) : Int) + 10) = .ok ((1 + s.bytes.length + 10 : Nat) : Int) := by
    rw [ck_ok (by omega) (by omega)]; rfl
  simp only [SFrame.toFrame, SFrame.id, SFrame.flags, SFrame.bytes, hb]
  rw [idStartsWith_ofB _ _ _ _ _ h0]
  simp only [Res.bind_ok, BEq.rfl, if_true]
  unfold TextFrame_to_char_stream
  rw [hh]
  simp only [Res.bind_ok, hck]
  rw [CharStream_new_csOut _ _ rfl]
  generalize hH : ofB (id ++ be32 (1 + s.bytes.length) ++ flags) = H
  have hHl : H.length = 10 := by rw [← hH]; simp [hi, hf]
  clear hh
  rw [show (csOut H 0).stream = H by simp [csOut]]
  rw [write_csOut' _ _ _ _ (by simp [csOut]) (by omega) (by simp; omega)]
  simp only [Res.bind_ok]
  rw [write_csOut' _ _ _ _ (by simp) (by simp; omega) (by simp; omega)]
  simp only [Res.bind_ok]
  rw [write_csOut' _ _ _ _ (by simp) (by simp; omega) (by simp; omega)]
  have e : 1 + s.bytes.length + 10 - H.length - [some s.encoding].length - (ofB s.bytes).length = 0 := by
    simp; omega
  rw [e, ofB_append, hH]
  simp [SFrame.body]

theorem out_comment [Platform] (flags lang : List UInt8) (desc txt : Str)
    (h : (SFrame.comment flags lang desc txt).Usable) :
    Frame_to_char_stream (SFrame.comment flags lang desc txt).toFrame =
      .ok (csOut (ofB (SFrame.comment flags lang desc txt).bytes) 0) := by
  obtain ⟨hwf, hsz, hu⟩ := h
  obtain ⟨hf, hl, hd, ht⟩ := _root_.id hwf
  have hb : (SFrame.comment flags lang desc txt).body.length = 1 + 3 + desc.bytes.length + txt.bytes.length := by
    simp [SFrame.body, hl]; omega
  have hlen : 10 + (1 + 3 + desc.bytes.length + txt.bytes.length) ≤ 2147483647 := by
    rw [SFrame.bytes_length _ hwf, hb] at hsz; exact hsz
  clear hsz
  unfold Frame_to_char_stream FrameHeader_isTextFrame FrameHeader_isCommentFrame
  have hh := frame_header_out commId flags (1 + 3 + desc.bytes.length + txt.bytes.length) rfl hf
  have hck : ck (((1 + 3 + desc.bytes.length + txt.bytes.length : Nat) : Int) + 10) =
      .ok ((1 + 3 + desc.bytes.length + txt.bytes.length + 10 : Nat) : Int) := by
    rw [ck_ok (by omega) (by omega)]; rfl
  have hs := strlent_usable hu.1 []
  rw [List.append_nil] at hs
  have hne : ((0x43 : UInt8) == 0x54) = false := rfl
  simp only [SFrame.toFrame, SFrame.id, SFrame.flags, SFrame.bytes, hb]
  rw [idStartsWith_ofB _ _ _ _ 0x43 rfl, idStartsWith_ofB _ _ _ _ 0x43 rfl]
  simp only [Res.bind_ok, hne, Bool.false_eq_true, if_false, BEq.rfl, if_true]
  unfold CommentFrame_to_char_stream
  rw [hh]
  simp only [Res.bind_ok, hck, hs]
  rw [CharStream_new_csOut _ _ rfl]
  generalize hH : ofB (commId ++ be32 (1 + 3 + desc.bytes.length + txt.bytes.length) ++ flags) = H
  have hHl : H.length = 10 := by rw [← hH]; simp [commId, hf]
  clear hh
  rw [show (csOut H 0).stream = H by simp [csOut]]
  rw [write_csOut' _ _ _ _ (by simp [csOut]) (by omega) (by simp; omega)]
  simp only [Res.bind_ok]
  rw [write_csOut' _ _ _ _ (by simp) (by simp; omega) (by simp; omega)]
  simp only [Res.bind_ok]
  rw [write_csOut' _ _ _ _ (by simp [hl]) (by simp; omega) (by simp; omega)]
  simp only [Res.bind_ok]
  rw [write_csOut' _ _ _ _ (by simp) (by simp; omega) (by simp; omega)]
  simp only [Res.bind_ok]
  rw [write_csOut' _ _ _ _ (by simp) (by simp; omega) (by simp; omega)]
  have e : 1 + 3 + desc.bytes.length + txt.bytes.length + 10 - H.length - [some txt.encoding].length -
    (ofB lang).length - (ofB desc.bytes).length - (ofB txt.bytes).length = 0 := by simp; omega
  rw [e, ofB_append, hH]
  simp [SFrame.body]

theorem out_apic [Platform] (flags : List UInt8) (mime : Str) (pt : UInt8) (desc : Str) (pic : List UInt8)
    (h : (SFrame.apic flags mime pt desc pic).Usable) :
    Frame_to_char_stream (SFrame.apic flags mime pt desc pic).toFrame =
      .ok (csOut (ofB (SFrame.apic flags mime pt desc pic).bytes) 0) := by
  obtain ⟨hwf, hsz, hu⟩ := h
  obtain ⟨hf, hm, hd⟩ := _root_.id hwf
  have hb : (SFrame.apic flags mime pt desc pic).body.length =
      1 + mime.bytes.length + 1 + desc.bytes.length + pic.length := by
    simp [SFrame.body]; omega
  have hlen : 10 + (1 + mime.bytes.length + 1 + desc.bytes.length + pic.length) ≤ 2147483647 := by
    rw [SFrame.bytes_length _ hwf, hb] at hsz; exact hsz
  clear hsz
  unfold Frame_to_char_stream FrameHeader_isTextFrame FrameHeader_isCommentFrame FrameHeader_isApicFrame
  have hh := frame_header_out apicId flags (1 + mime.bytes.length + 1 + desc.bytes.length + pic.length) rfl hf
  have hck : ck (((1 + mime.bytes.length + 1 + desc.bytes.length + pic.length : Nat) : Int) + 10) =
      .ok ((1 + mime.bytes.length + 1 + desc.bytes.length + pic.length + 10 : Nat) : Int) := by
    rw [ck_ok (by omega) (by omega)]; rfl
  have hs := strlent_usable hu.1 []
  rw [List.append_nil] at hs
  have hs' := strlent_usable hu.2 []
  rw [List.append_nil] at hs'
  have hne : ((0x41 : UInt8) == 0x54) = false := rfl
  have hne' : ((0x41 : UInt8) == 0x43) = false := rfl
  simp only [SFrame.toFrame, SFrame.id, SFrame.flags, SFrame.bytes, hb]
  rw [idStartsWith_ofB _ _ _ _ 0x41 rfl, idStartsWith_ofB _ _ _ _ 0x41 rfl, idStartsWith_ofB _ _ _ _ 0x41 rfl]
  simp only [Res.bind_ok, hne, hne', Bool.false_eq_true, if_false, BEq.rfl, if_true]
  unfold ApicFrame_to_char_stream
  rw [hh]
  simp only [Res.bind_ok, hck, hs, hs']
  rw [CharStream_new_csOut _ _ rfl]
  generalize hH : ofB (apicId ++ be32 (1 + mime.bytes.length + 1 + desc.bytes.length + pic.length) ++ flags) = H
  have hHl : H.length = 10 := by rw [← hH]; simp [apicId, hf]
  clear hh
  rw [show (csOut H 0).stream = H by simp [csOut]]
  rw [write_csOut' _ _ _ _ (by simp [csOut]) (by omega) (by simp; omega)]
  simp only [Res.bind_ok]
  rw [write_csOut' _ _ _ _ (by simp) (by simp; omega) (by simp; omega)]
  simp only [Res.bind_ok]
  rw [write_csOut' _ _ _ _ (by simp) (by simp; omega) (by simp; omega)]
  simp only [Res.bind_ok]
  rw [write_csOut' _ _ _ _ (by simp) (by simp; omega) (by simp; omega)]
  simp only [Res.bind_ok]
  rw [write_csOut' _ _ _ _ (by simp) (by simp; omega) (by simp; omega)]
  simp only [Res.bind_ok]
  rw [write_csOut' _ _ _ _ (by simp) (by simp; omega) (by simp; omega)]
  have e : 1 + mime.bytes.length + 1 + desc.bytes.length + pic.length + 10 - H.length - [some desc.encoding].length -
    (ofB mime.bytes).length - [some pt].length - (ofB desc.bytes).length - (ofB pic).length = 0 := by simp; omega
  rw [e, ofB_append, hH]
  simp [SFrame.body]

theorem out_other [Platform] (id flags data : List UInt8) (h : (SFrame.other id flags data).Usable) :
    Frame_to_char_stream (SFrame.other id flags data).toFrame =
      .ok (csOut (ofB (SFrame.other id flags data).bytes) 0) := by
  obtain ⟨hwf, hsz, -⟩ := h
  obtain ⟨hi, h1, h2, h3, h4, hf⟩ := _root_.id hwf
  have hlen : 10 + data.length ≤ 2147483647 := by
    have : (SFrame.other id flags data).body.length = data.length := rfl
    rw [SFrame.bytes_length _ hwf, this] at hsz; exact hsz
  clear hsz
  obtain ⟨b, hb⟩ : ∃ b, id.head? = some b := by
    cases id with
    | nil => simp at hi
    | cons b _ => exact ⟨b, rfl⟩
  rw [hb] at h1 h2 h3
  have n1 : (b == 0x54) = false := by simpa using h1
  have n2 : (b == 0x43) = false := by simpa using h2
  have n3 : (b == 0x41) = false := by simpa using h3
  unfold Frame_to_char_stream FrameHeader_isTextFrame FrameHeader_isCommentFrame FrameHeader_isApicFrame
  have hh := frame_header_out id flags data.length hi hf
  have hck : ck ((data.length : Int) + 10) = .ok ((data.length + 10 : Nat) : Int) := by
    rw [ck_ok (by omega) (by omega)]; rfl
  simp only [SFrame.toFrame, SFrame.id, SFrame.flags, SFrame.bytes, SFrame.body]
  rw [idStartsWith_ofB _ _ _ _ _ hb, idStartsWith_ofB _ _ _ _ _ hb, idStartsWith_ofB _ _ _ _ _ hb]
  simp only [Res.bind_ok, n1, n2, n3, Bool.false_eq_true, if_false]
  rw [hh]
  simp only [Res.bind_ok, hck]
  rw [CharStream_new_csOut _ _ rfl]
  generalize hH : ofB (id ++ be32 data.length ++ flags) = H
  have hHl : H.length = 10 := by rw [← hH]; simp [hi, hf]
  clear hh
  rw [show (csOut H 0).stream = H by simp [csOut]]
  rw [write_csOut' _ _ _ _ (by omega) (by omega) (by simp; omega)]
  simp only [Res.bind_ok]
  rw [write_csOut' _ _ _ _ (by simp) (by simp; omega) (by simp; omega)]
  have e : data.length + 10 - H.length - (ofB data).length = 0 := by simp; omega
  rw [e, ofB_append, hH]
  simp

/-- The output stream after a frame has been written: full, with the bytes of the layout. -/
theorem frame_out [Platform] (f : SFrame) (h : f.Usable) :
    Frame_to_char_stream f.toFrame = .ok (csOut (ofB f.bytes) 0) := by
  cases f with
  | text id flags s => exact out_text id flags s h
  | comment flags lang desc txt => exact out_comment flags lang desc txt h
  | apic flags mime pt desc pic => exact out_apic flags mime pt desc pic h
  | other id flags data => exact out_other id flags data h

end Id3
