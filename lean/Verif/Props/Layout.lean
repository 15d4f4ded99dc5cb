import Verif.Proof.NewFrames

/-!
# C08, C09, C10: the bytes of a frame made by the library
-/

namespace Id3.Props

open Id3 Spec

theorem csOut_zero_stream (d : Bytes) : (csOut d 0).stream = d := by simp [csOut]

/-- **C08**: the bytes of a text frame. `s.content` are the bytes of the text (with BOM), `s.encoding` is 1 for UTF-16
text and 0 for ISO text, `s.terminator` is one zero byte or two. `r1`, `r2`, `r3` are whatever follows the arguments in
memory. -/
theorem text_frame_layout [Platform] (id flags : List UInt8) (s : Str) (r1 r2 r3 : Bytes)
    (hid : id.length = 4) (hT : id.head? = some 0x54) (hfl : flags.length = 2) (hs : s.Usable)
    (hsize : s.bytes.length + 11 ≤ 2147483647) :
    ∃ f cs, TextFrame_new (ofB id ++ r1) (ofB flags ++ r2) (s.inMemory r3) = .ok f ∧
      f.header.size = 1 + s.content.length + s.terminator.length ∧
      Frame_to_char_stream f = .ok cs ∧
      cs.stream = ofB (id ++ be32 (1 + s.content.length + s.terminator.length) ++ flags ++
        [s.encoding] ++ s.content ++ s.terminator) := by
  have hwf : (SFrame.text id flags s).WF := ⟨hid, hT, hfl, hs.1⟩
  have hb : (SFrame.text id flags s).body.length = 1 + s.content.length + s.terminator.length := by
    simp [SFrame.body, Str.bytes]; omega
  have hu : (SFrame.text id flags s).Usable := by
    refine ⟨hwf, ?_, hs⟩
    rw [SFrame.bytes_length _ hwf, hb]
    rw [Str.bytes_length] at hsize; omega
  refine ⟨_, _, text_new hu r1 r2 r3, ?_, frame_out _ hu, ?_⟩
  · simp [SFrame.toFrame, hb]
  · rw [csOut_zero_stream, SFrame.bytes, hb]
    simp [SFrame.id, SFrame.flags, SFrame.body, Str.bytes]

/-- **C09**: the bytes of a comment frame, for any mix of encodings. -/
theorem comment_frame_layout [Platform] (flags lang : List UInt8) (desc txt : Str) (r1 r2 r3 r4 : Bytes)
    (hfl : flags.length = 2) (hl : lang.length = 3) (hd : desc.Usable) (ht : txt.Usable)
    (hsize : desc.bytes.length + txt.bytes.length + 14 ≤ 2147483647) :
    ∃ f cs n, CommentFrame_new (ofB flags ++ r1) (ofB lang ++ r2) (desc.inMemory r3) (txt.inMemory r4) = .ok f ∧
      n = ([txt.encoding] ++ lang ++ desc.content ++ desc.terminator ++ txt.content ++ txt.terminator).length ∧
      f.header.size = n ∧
      Frame_to_char_stream f = .ok cs ∧
      cs.stream = ofB ([0x43, 0x4F, 0x4D, 0x4D] ++ be32 n ++ flags ++
        [txt.encoding] ++ lang ++ desc.content ++ desc.terminator ++ txt.content ++ txt.terminator) := by
  have hwf : (SFrame.comment flags lang desc txt).WF := ⟨hfl, hl, hd.1, ht.1⟩
  have hb : (SFrame.comment flags lang desc txt).body =
      [txt.encoding] ++ lang ++ desc.content ++ desc.terminator ++ txt.content ++ txt.terminator := by
    simp [SFrame.body, Str.bytes]
  have hu : (SFrame.comment flags lang desc txt).Usable := by
    refine ⟨hwf, ?_, hd, ht⟩
    rw [SFrame.bytes_length _ hwf, hb]
    rw [Str.bytes_length, Str.bytes_length] at hsize
    simp only [List.length_append, List.length_cons, List.length_nil]
    omega
  refine ⟨_, _, _, comment_new hu r1 r2 r3 r4, rfl, ?_, frame_out _ hu, ?_⟩
  · simp [SFrame.toFrame, hb]
  · rw [csOut_zero_stream, SFrame.bytes, hb]
    simp [SFrame.id, SFrame.flags, commId]

/-- **C10**: the bytes of a picture frame; `picture_size` bytes of `data` are used. -/
theorem apic_frame_layout [Platform] (flags : List UInt8) (mime : Str) (picture_type : UInt8) (desc : Str)
    (pic : List UInt8) (picture_size : Int) (r1 r2 r3 r4 : Bytes)
    (hfl : flags.length = 2) (hm : mime.Usable) (hd : desc.Usable) (hp : picture_size = pic.length)
    (hsize : mime.bytes.length + desc.bytes.length + pic.length + 12 ≤ 2147483647) :
    ∃ f cs n, ApicFrame_new (ofB flags ++ r1) (desc.inMemory r2) picture_type (mime.inMemory r3) picture_size
          (ofB pic ++ r4) = .ok f ∧
      n = ([desc.encoding] ++ mime.content ++ mime.terminator ++ [picture_type] ++ desc.content ++ desc.terminator ++
        pic).length ∧
      f.header.size = n ∧
      Frame_to_char_stream f = .ok cs ∧
      cs.stream = ofB ([0x41, 0x50, 0x49, 0x43] ++ be32 n ++ flags ++
        [desc.encoding] ++ mime.content ++ mime.terminator ++ [picture_type] ++ desc.content ++ desc.terminator ++
        pic) := by
  have hwf : (SFrame.apic flags mime picture_type desc pic).WF := ⟨hfl, hm.1, hd.1⟩
  have hb : (SFrame.apic flags mime picture_type desc pic).body =
      [desc.encoding] ++ mime.content ++ mime.terminator ++ [picture_type] ++ desc.content ++ desc.terminator ++ pic := by
    simp [SFrame.body, Str.bytes]
  have hu : (SFrame.apic flags mime picture_type desc pic).Usable := by
    refine ⟨hwf, ?_, hm, hd⟩
    rw [SFrame.bytes_length _ hwf, hb]
    rw [Str.bytes_length, Str.bytes_length] at hsize
    simp only [List.length_append, List.length_cons, List.length_nil]
    omega
  refine ⟨_, _, _, apic_new hu r1 r2 r3 r4 picture_size hp, rfl, ?_, frame_out _ hu, ?_⟩
  · simp [SFrame.toFrame, hb]
  · rw [csOut_zero_stream, SFrame.bytes, hb]
    simp [SFrame.id, SFrame.flags, apicId]

/-- The hypotheses of C08 with a two-character title, and the bytes that result. -/
example : ∃ f cs, @TextFrame_new strict (ofB [0x54, 0x49, 0x54, 0x32, 0]) (ofB [0, 0, 0]) (ofB [0x48, 0x69, 0, 0x77]) = .ok f ∧
    @Frame_to_char_stream strict f = .ok cs ∧
    cs.stream = ofB [0x54, 0x49, 0x54, 0x32, 0, 0, 0, 4, 0, 0, 0, 0x48, 0x69, 0] := by
  obtain ⟨f, cs, h1, -, h2, h3⟩ := @text_frame_layout strict [0x54, 0x49, 0x54, 0x32] [0, 0] (.latin [0x48, 0x69])
    (ofB [0]) (ofB [0]) (ofB [0x77]) rfl rfl rfl (by decide) (by decide)
  exact ⟨f, cs, h1, h2, by rw [h3]; decide⟩

/-- The hypotheses of C09 with an ISO comment and a UTF-16 description. -/
example : ∃ f cs, @CommentFrame_new strict (ofB [0, 0, 0]) (ofB [0x65, 0x6E, 0x67, 0]) (ofB [0xFF, 0xFE, 0, 0])
      (ofB [0x48, 0x69, 0]) = .ok f ∧ @Frame_to_char_stream strict f = .ok cs ∧
    cs.stream = ofB [0x43, 0x4F, 0x4D, 0x4D, 0, 0, 0, 11, 0, 0, 0, 0x65, 0x6E, 0x67, 0xFF, 0xFE, 0, 0, 0x48, 0x69, 0] := by
  obtain ⟨f, cs, n, h1, hn, -, h2, h3⟩ := @comment_frame_layout strict [0, 0] [0x65, 0x6E, 0x67] (.utf16 true [])
    (.latin [0x48, 0x69]) (ofB [0]) (ofB [0]) [] [] rfl rfl (by decide) (by decide) (by decide)
  exact ⟨f, cs, h1, h2, by rw [h3, hn]; decide⟩

/-- The hypotheses of C10 with a two-byte picture. -/
example : ∃ f cs, @ApicFrame_new strict (ofB [0, 0, 0]) (ofB [0xFF, 0xFE, 0, 0]) 3 (ofB [0x69, 0]) 2 (ofB [0xAA, 0, 9]) = .ok f ∧
    @Frame_to_char_stream strict f = .ok cs ∧
    cs.stream = ofB [0x41, 0x50, 0x49, 0x43, 0, 0, 0, 10, 0, 0, 1, 0x69, 0, 3, 0xFF, 0xFE, 0, 0, 0xAA, 0] := by
  obtain ⟨f, cs, n, h1, hn, -, h2, h3⟩ := @apic_frame_layout strict [0, 0] (.latin [0x69]) 3 (.utf16 true []) [0xAA, 0] 2
    (ofB [0]) [] [] (ofB [9]) rfl (by decide) (by decide) rfl (by decide)
  exact ⟨f, cs, h1, h2, by rw [h3, hn]; decide⟩

end Id3.Props
