import Verif.Proof.Frames

/-!
# The frame constructors build the specified frame
-/

namespace Id3

open Spec

theorem Str.encoding_cases (s : Str) : (s.encoding = 0 ∧ s.terminator.length = 1) ∨ (s.encoding = 1 ∧ s.terminator.length = 2) := by
  cases s <;> simp [Str.encoding, Str.terminator]

theorem Str.encoding_ite (s : Str) : (if decide (s.encoding = 1) = true then (1 : UInt8) else 0) = s.encoding := by
  rcases Str.encoding_cases s with h | h <;> simp [h.1]

theorem header_new (id flags : List UInt8) (n : Int) (r1 r2 : Bytes) (hi : id.length = 4) (hf : flags.length = 2) :
    FrameHeader_new (ofB id ++ r1) (ofB flags ++ r2) n = .ok { id := ofB id, size := n, flags := ofB flags } := by
  unfold FrameHeader_new
  rw [memcpySrc_append _ _ _ (by simp [hi]), memcpySrc_append _ _ _ (by simp [hf])]
  simp

theorem text_data_new [Platform] {s : Str} (h : s.Usable) (rest : Bytes) :
    TextFrameData_new (ofB s.bytes ++ rest) =
      .ok { size := s.bytes.length, encoding := s.encoding, text := ofB s.bytes } := by
  unfold TextFrameData_new
  rw [has_bom_usable h, strlen_usable h]
  simp only [Res.bind_ok, Str.encoding_ite]
  have e : ((s.content.length : Int) + if s.encoding = 0 then 1 else 2) = ((s.bytes.length : Nat) : Int) := by
    rw [Str.bytes_length]
    rcases Str.encoding_cases s with h | h <;> rw [h.1, h.2] <;> simp
  rw [e, ck_nat h.2.1]
  simp only [Res.bind_ok]
  rw [memcpySrc_append _ _ _ (by simp)]
  simp

theorem text_new [Platform] {id flags : List UInt8} {s : Str} (h : (SFrame.text id flags s).Usable)
    (r1 r2 rest : Bytes) :
    TextFrame_new (ofB id ++ r1) (ofB flags ++ r2) (ofB s.bytes ++ rest) = .ok (SFrame.text id flags s).toFrame := by
  obtain ⟨hwf, hsz, hu⟩ := h
  obtain ⟨hi, h0, hf, hs⟩ := _root_.id hwf
  have hb : (SFrame.text id flags s).body.length = 1 + s.bytes.length := by simp [SFrame.body]; omega
  have hlen : 10 + (1 + s.bytes.length) ≤ 2147483647 := by
    rw [SFrame.bytes_length _ hwf, hb] at hsz; exact hsz
  unfold TextFrame_new
  rw [text_data_new hu]
  simp only [Res.bind_ok]
  rw [ck_ok (by omega) (by omega)]
  simp only [Res.bind_ok]
  rw [header_new _ _ _ _ _ hi hf]
  simp only [Res.bind_ok, SFrame.toFrame, hb, SFrame.id, SFrame.flags, Res.pure_eq]
  simp

theorem comment_new [Platform] {flags lang : List UInt8} {desc txt : Str}
    (h : (SFrame.comment flags lang desc txt).Usable) (r2 r3 r4 r5 : Bytes) :
    CommentFrame_new (ofB flags ++ r2) (ofB lang ++ r3) (ofB desc.bytes ++ r4) (ofB txt.bytes ++ r5) =
      .ok (SFrame.comment flags lang desc txt).toFrame := by
  obtain ⟨hwf, hsz, hu⟩ := h
  obtain ⟨hf, hl, hd, ht⟩ := _root_.id hwf
  have hb : (SFrame.comment flags lang desc txt).body.length = txt.bytes.length + desc.bytes.length + 1 + 3 := by
    simp [SFrame.body, hl]; omega
  have hlen : 10 + (txt.bytes.length + desc.bytes.length + 1 + 3) ≤ 2147483647 := by
    rw [SFrame.bytes_length _ hwf, hb] at hsz; exact hsz
  unfold CommentFrame_new CommentFrameData_new
  rw [has_bom_usable hu.2, strlent_usable hu.1, strlent_usable hu.2]
  simp only [Res.bind_ok, Str.encoding_ite]
  rw [memcpySrc_append _ _ _ (by simp [hl]), memcpySrc_append _ _ _ (by simp), memcpySrc_append _ _ _ (by simp)]
  simp only [Res.bind_ok, Res.pure_eq]
  rw [ck_ok (by omega) (by omega)]
  simp only [Res.bind_ok]
  have := header_new commId flags (↑txt.bytes.length + ↑desc.bytes.length + 1 + 3) [] r2 rfl hf
  simp only [commId, List.append_nil] at this
  rw [this]
  simp only [Res.bind_ok, SFrame.toFrame, hb, SFrame.id, SFrame.flags, commId]
  simp

theorem apic_new [Platform] {flags : List UInt8} {mime : Str} {pt : UInt8} {desc : Str} {pic : List UInt8}
    (h : (SFrame.apic flags mime pt desc pic).Usable) (r2 r3 r4 r5 : Bytes) (n : Int) (hn : n = pic.length) :
    ApicFrame_new (ofB flags ++ r2) (ofB desc.bytes ++ r3) pt (ofB mime.bytes ++ r4) n (ofB pic ++ r5) =
      .ok (SFrame.apic flags mime pt desc pic).toFrame := by
  obtain ⟨hwf, hsz, hu⟩ := h
  obtain ⟨hf, hm, hd⟩ := _root_.id hwf
  have hb : (SFrame.apic flags mime pt desc pic).body.length =
      1 + mime.bytes.length + 1 + desc.bytes.length + pic.length := by
    simp [SFrame.body]; omega
  have hlen : 10 + (1 + mime.bytes.length + 1 + desc.bytes.length + pic.length) ≤ 2147483647 := by
    rw [SFrame.bytes_length _ hwf, hb] at hsz; exact hsz
  subst hn
  unfold ApicFrame_new ApicFrameData_new
  rw [has_bom_usable hu.2, strlent_usable hu.1, strlent_usable hu.2]
  simp only [Res.bind_ok, Str.encoding_ite]
  rw [memcpySrc_append _ _ _ (by simp), memcpySrc_append _ _ _ (by simp), memcpySrc_append _ _ _ (by simp)]
  simp only [Res.bind_ok, Res.pure_eq]
  rw [ck_ok (by omega) (by omega)]
  simp only [Res.bind_ok]
  have := header_new apicId flags (1 + ↑mime.bytes.length + 1 + ↑desc.bytes.length + ↑pic.length) [] r2 rfl hf
  simp only [apicId, List.append_nil] at this
  rw [this]
  simp only [Res.bind_ok, SFrame.toFrame, hb, SFrame.id, SFrame.flags, apicId]
  simp

end Id3
