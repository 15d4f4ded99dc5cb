import Verif.Proof.NewFrames

/-!
# Parsing one frame
-/

namespace Id3

open Spec

theorem memcmpSeq_ofB (a lit : List UInt8) (rest : Bytes) (h : a.length = lit.length) :
    memcmpSeq (ofB a ++ rest) lit = .ok (decide (a = lit)) := by
  induction lit generalizing a with
  | nil => cases a <;> simp_all [memcmpSeq]
  | cons l ls ih =>
    cases a with
    | nil => simp at h
    | cons x xs =>
      simp at h
      simp only [ofB_cons, List.cons_append, memcmpSeq, load_some, Res.bind_ok]
      by_cases hx : x = l
      · rw [if_pos hx, ih _ h]; simp [hx]
      · rw [if_neg hx]; simp [hx]

theorem memcmpEq_ofB [Platform] (a lit : List UInt8) (rest : Bytes) (h : a.length = lit.length) :
    memcmpEq (ofB a ++ rest) lit = .ok (decide (a = lit)) := by
  unfold memcmpEq
  split
  · exact memcmpSeq_ofB a lit rest h
  · rw [if_neg (by simp [h])]
    have e : (ofB a ++ rest).take lit.length = ofB a := by
      rw [← h, ← ofB_length a]; simp
    rw [e, if_neg (by simp [ofB])]
    by_cases hx : a = lit
    · simp [hx]
    · simp [hx]

/-- The size read from four size bytes. -/
def decSize (version : UInt8) (szb : List UInt8) : Int :=
  (if version = 4 then syncint_decode (btoi_loop 0 szb) else btoi_loop 0 szb).toInt

/-- Reading a frame header whose id is not four zero bytes. -/
theorem header_parse_dec [Platform] (version : UInt8) (id szb flags : List UInt8) (pre post : Bytes)
    (hi : id.length = 4) (h0 : id ≠ [0, 0, 0, 0]) (hf : flags.length = 2) (hz : szb.length = 4)
    (hb : pre.length + 10 ≤ 2147483647) :
    FrameHeader_parse (csAt pre (ofB (id ++ szb ++ flags) ++ post)) version =
      .ok (some { id := ofB id, size := decSize version szb, flags := ofB flags },
           csAt (pre ++ ofB (id ++ szb ++ flags)) post) := by
  unfold FrameHeader_parse
  have e : ofB (id ++ szb ++ flags) ++ post =
      ofB id ++ (ofB szb ++ (ofB flags ++ post)) := by simp
  rw [e, read_csAt _ _ _ _ (by simp [hi])]
  simp only [Res.bind_ok]
  rw [intoArray_full _ _ (by simp [hi])]
  have hm := memcmpEq_ofB id [0, 0, 0, 0] [] hi
  rw [List.append_nil] at hm
  rw [hm, decide_eq_false h0]
  simp only [Res.bind_ok, Bool.false_eq_true, if_false]
  rw [slice_csAt _ _ _ _ (by simp [hz]) (by simp [hi, hz]; omega)]
  simp only [Res.bind_ok]
  have hs := btoi_ofB szb 4 (ofB flags ++ post) hz.symm
  rw [hs]
  simp only [Res.bind_ok]
  rw [read_csAt _ _ _ _ (by simp [hf])]
  simp only [Res.bind_ok]
  rw [intoArray_full _ _ (by simp [hf])]
  have hn' := header_new id flags ((if version = 4 then syncint_decode (btoi_loop 0 szb)
      else btoi_loop 0 szb).toInt) [] [] hi hf
  simp only [List.append_nil] at hn'
  rw [hn']
  simp [decSize]

theorem header_parse [Platform] (version : UInt8) (id szb flags : List UInt8) (n : Nat) (pre post : Bytes)
    (hi : id.length = 4) (h0 : id ≠ [0, 0, 0, 0]) (hf : flags.length = 2) (hz : szb.length = 4)
    (hn : decSize version szb = n) (hb : pre.length + 10 ≤ 2147483647) :
    FrameHeader_parse (csAt pre (ofB (id ++ szb ++ flags) ++ post)) version =
      .ok (some { id := ofB id, size := n, flags := ofB flags }, csAt (pre ++ ofB (id ++ szb ++ flags)) post) := by
  rw [header_parse_dec version id szb flags pre post hi h0 hf hz hb, hn]

/-- Four zero bytes: end of the frames; the cursor does not move. -/
theorem header_parse_zero [Platform] (version : UInt8) (pre post : Bytes) (hb : pre.length + 4 ≤ 2147483647) :
    FrameHeader_parse (csAt pre (ofB [0, 0, 0, 0] ++ post)) version = .ok (none, csAt pre (ofB [0, 0, 0, 0] ++ post)) := by
  unfold FrameHeader_parse
  rw [read_csAt _ _ _ _ (by simp)]
  simp only [Res.bind_ok]
  rw [intoArray_full _ _ (by simp)]
  have hm := memcmpEq_ofB [0, 0, 0, 0] [0, 0, 0, 0] [] rfl
  rw [List.append_nil] at hm
  rw [hm]
  simp only [Res.bind_ok, decide_true, if_true]
  rw [seek_back_csAt _ _ _ _ (by simp) (by simp; omega)]
  simp

theorem vla_ok [Platform] {n : Int} (h0 : 0 < n) (h : n ≤ Platform.stack) : vla n = .ok () := by
  unfold vla; rw [if_neg (by omega), if_neg (by omega)]

theorem toChar_charToInt [Platform] (b : UInt8) : toChar (charToInt b) = b := by
  have := b.toNat_lt
  unfold toChar charToInt
  apply UInt8.toNat_inj.mp
  split
  · rw [UInt8.toNat_ofNat']; omega
  · split <;> (rw [UInt8.toNat_ofNat']; omega)

/-- `CharStream_getc` depends on the platform by the sign of `char` only. -/
theorem getc_sign (b : Bool) (n : Nat) (c : Bool) : @CharStream_getc ⟨b, n, c⟩ = @CharStream_getc ⟨true, 0, c⟩ := rfl

/-- `TagHeader_parse` does not depend on the stack. -/
theorem header_sign (b : Bool) (n : Nat) (c : Bool) (cs : CharStream) :
    @TagHeader_parse ⟨b, n, c⟩ cs = @TagHeader_parse ⟨b, 0, c⟩ cs := by
  unfold TagHeader_parse
  simp only [getc_sign]
  rfl

theorem header_buffer_sign (b : Bool) (n : Nat) (c : Bool) (buffer : Bytes) :
    @ID3v2_read_tag_header_from_buffer ⟨b, n, c⟩ buffer = @ID3v2_read_tag_header_from_buffer ⟨b, 0, c⟩ buffer := by
  unfold ID3v2_read_tag_header_from_buffer
  simp only [header_sign]

theorem Str.bytes_pos (s : Str) : 0 < s.bytes.length := by
  rw [Str.bytes_length]; rcases Str.encoding_cases s with h | h <;> omega

theorem seek_one [Platform] (pre post : Bytes) (b : UInt8) (hb : pre.length + 1 ≤ 2147483647) :
    CharStream_seek (csAt pre (some b :: post)) 1 .cur = .ok (csAt (pre ++ [some b]) post) :=
  seek_fwd_csAt pre [some b] post 1 rfl hb

theorem intoArray_ofB (n : Int) (d : List UInt8) (h : n = d.length) : intoArray n (ofB d) = ofB d :=
  intoArray_full _ _ (by simp [h])

/-- `Frame_parse` on a frame of kind text, comment or apic: the header is read twice. -/
theorem rewind [Platform] (pre post : Bytes) (H : List UInt8) (hl : H.length = 10) (hb : pre.length + 10 ≤ 2147483647) :
    CharStream_seek (csAt (pre ++ ofB H) post) (-10) .cur = .ok (csAt pre (ofB H ++ post)) :=
  seek_back_csAt _ _ _ _ (by simp [hl]) (by simp [hl]; omega)

theorem parse_text [Platform] (version : UInt8) (id flags : List UInt8) (enc : UInt8) (s : Str) (junk : List UInt8)
    (pre post : Bytes) (h : (Wire.text id flags enc s junk).Keepable) (szb : List UInt8) (hz : szb.length = 4)
    (hsz : decSize version szb = (Wire.text id flags enc s junk).sizeField)
    (hb : pre.length + ((Wire.text id flags enc s junk).bytesWith szb).length ≤ 2147483647) :
    Frame_parse (csAt pre (ofB ((Wire.text id flags enc s junk).bytesWith szb) ++ post)) version =
      .ok (some (SFrame.text id flags s).toFrame,
           csAt (pre ++ ofB ((Wire.text id flags enc s junk).bytesWith szb)) post) := by
  obtain ⟨hw, hu, hst⟩ := h
  obtain ⟨hi, h0, hf, hs⟩ := hw
  have hne : id ≠ [0, 0, 0, 0] := by intro e; rw [e] at h0; simp at h0
  simp only [Wire.FitsStack] at hst
  simp only [Wire.kept] at hu
  simp only [Wire.bytesWith, Wire.id, Wire.flags, Wire.body, Wire.sizeField] at hb hsz ⊢
  have hp := Str.bytes_pos s
  have e0 : (enc :: s.bytes ++ junk).length = 1 + s.bytes.length + junk.length := by simp; omega
  rw [e0] at hsz
  rw [List.length_append, e0] at hb
  generalize hN : 1 + s.bytes.length + junk.length = N at *
  have hb' : pre.length + (10 + N) ≤ 2147483647 := by
    rw [← hN] at hb ⊢
    simp [hi, hf, hz] at hb; omega
  have e1 : ofB (id ++ szb ++ flags ++ (enc :: s.bytes ++ junk)) ++ post =
      ofB (id ++ szb ++ flags) ++ (some enc :: (ofB (s.bytes ++ junk) ++ post)) := by simp
  rw [e1]
  have hp1 := fun post => header_parse version id szb flags N pre post hi hne hf hz hsz (by omega)
  generalize hH : id ++ szb ++ flags = H at *
  have hHl : H.length = 10 := by rw [← hH]; simp [hi, hf, hz]
  unfold Frame_parse FrameHeader_isTextFrame
  rw [hp1]
  simp only [Res.bind_ok]
  rw [idStartsWith_ofB _ _ _ _ _ h0]
  simp only [Res.bind_ok, BEq.rfl, if_true]
  rw [rewind _ _ _ hHl (by omega)]
  simp only [Res.bind_ok]
  unfold TextFrame_parse
  rw [hp1]
  simp only [Res.bind_ok]
  rw [seek_one _ _ _ (by simp [hHl]; omega)]
  simp only [Res.bind_ok]
  rw [ck_ok (by omega) (by omega)]
  simp only [Res.bind_ok]
  rw [vla_ok (by omega) (by omega)]
  simp only [Res.bind_ok]
  rw [read_csAt _ _ _ _ (by simp; omega)]
  simp only [Res.bind_ok]
  rw [intoArray_ofB _ _ (by simp; omega)]
  have ht := text_new hu [] [] (ofB junk)
  simp only [List.append_nil] at ht
  rw [ofB_append s.bytes, ht]
  simp

theorem parse_comment [Platform] (version : UInt8) (id flags : List UInt8) (size : Nat) (enc : UInt8)
    (lang : List UInt8) (desc txt : Str) (pre post : Bytes)
    (h : (Wire.comment id flags size enc lang desc txt).Keepable) (szb : List UInt8) (hz : szb.length = 4)
    (hsz : decSize version szb = (Wire.comment id flags size enc lang desc txt).sizeField)
    (hb : pre.length + ((Wire.comment id flags size enc lang desc txt).bytesWith szb).length ≤ 2147483647) :
    Frame_parse (csAt pre (ofB ((Wire.comment id flags size enc lang desc txt).bytesWith szb) ++ post)) version =
      .ok (some (SFrame.comment flags lang desc txt).toFrame,
           csAt (pre ++ ofB ((Wire.comment id flags size enc lang desc txt).bytesWith szb)) post) := by
  obtain ⟨hw, hu, hst⟩ := h
  obtain ⟨hi, h0, hf, hl, hd, ht⟩ := hw
  have hne : id ≠ [0, 0, 0, 0] := by intro e; rw [e] at h0; simp at h0
  simp only [Wire.FitsStack] at hst
  simp only [Wire.kept] at hu
  simp only [Wire.bytesWith, Wire.id, Wire.flags, Wire.body, Wire.sizeField] at hb hsz ⊢
  have hp := Str.bytes_pos desc
  have hp' := Str.bytes_pos txt
  have hb' : pre.length + (10 + 4 + desc.bytes.length + txt.bytes.length) ≤ 2147483647 := by
    simp [hi, hf, hl, hz] at hb; omega
  have e1 : ofB (id ++ szb ++ flags ++ (enc :: lang ++ desc.bytes ++ txt.bytes)) ++ post =
      ofB (id ++ szb ++ flags) ++ (some enc :: (ofB lang ++ (ofB desc.bytes ++ (ofB txt.bytes ++ post)))) := by
    simp
  rw [e1]
  have hp1 := fun post => header_parse version id szb flags size pre post hi hne hf hz hsz (by omega)
  generalize hH : id ++ szb ++ flags = H at *
  have hHl : H.length = 10 := by rw [← hH]; simp [hi, hf, hz]
  unfold Frame_parse FrameHeader_isTextFrame FrameHeader_isCommentFrame
  rw [hp1]
  simp only [Res.bind_ok]
  rw [idStartsWith_ofB _ _ _ _ _ h0, idStartsWith_ofB _ _ _ _ _ h0]
  have n1 : ((0x43 : UInt8) == 0x54) = false := rfl
  simp only [Res.bind_ok, n1, Bool.false_eq_true, if_false, BEq.rfl, if_true]
  rw [rewind _ _ _ hHl (by omega)]
  simp only [Res.bind_ok]
  unfold CommentFrame_parse
  rw [hp1]
  simp only [Res.bind_ok]
  rw [seek_one _ _ _ (by simp [hHl]; omega)]
  simp only [Res.bind_ok]
  rw [read_csAt _ _ _ _ (by simp [hl])]
  simp only [Res.bind_ok]
  rw [get_cur_csAt]
  simp only [Res.bind_ok]
  rw [strlent_usable hu.2.2.1]
  simp only [Res.bind_ok]
  rw [vla_ok (by omega) (by omega)]
  simp only [Res.bind_ok]
  rw [read_csAt _ _ _ _ (by simp)]
  simp only [Res.bind_ok]
  rw [get_cur_csAt]
  simp only [Res.bind_ok]
  rw [strlent_usable hu.2.2.2]
  simp only [Res.bind_ok]
  rw [vla_ok (by omega) (by omega)]
  simp only [Res.bind_ok]
  rw [read_csAt _ _ _ _ (by simp)]
  simp only [Res.bind_ok]
  rw [intoArray_ofB 3 lang (by simp [hl]), intoArray_ofB _ desc.bytes rfl, intoArray_ofB _ txt.bytes rfl]
  have ht := comment_new hu [] [] [] []
  simp only [List.append_nil] at ht
  rw [ht]
  simp

theorem parse_apic [Platform] (version : UInt8) (id flags : List UInt8) (enc : UInt8) (mime : Str) (pt : UInt8)
    (desc : Str) (pic : List UInt8) (pre post : Bytes)
    (h : (Wire.apic id flags enc mime pt desc pic).Keepable) (szb : List UInt8) (hz : szb.length = 4)
    (hsz : decSize version szb = (Wire.apic id flags enc mime pt desc pic).sizeField)
    (hb : pre.length + ((Wire.apic id flags enc mime pt desc pic).bytesWith szb).length ≤ 2147483647) :
    Frame_parse (csAt pre (ofB ((Wire.apic id flags enc mime pt desc pic).bytesWith szb) ++ post)) version =
      .ok (some (SFrame.apic flags mime pt desc pic).toFrame,
           csAt (pre ++ ofB ((Wire.apic id flags enc mime pt desc pic).bytesWith szb)) post) := by
  obtain ⟨hw, hu, hst⟩ := h
  obtain ⟨hi, h0, hf, hm, hd⟩ := hw
  have hne : id ≠ [0, 0, 0, 0] := by intro e; rw [e] at h0; simp at h0
  simp only [Wire.FitsStack] at hst
  obtain ⟨st1, st2, st3, st4⟩ := hst
  have st5 : 0 < pic.length := List.length_pos_iff.mpr st4
  simp only [Wire.kept] at hu
  simp only [Wire.bytesWith, Wire.id, Wire.flags, Wire.body, Wire.sizeField] at hb hsz ⊢
  have hp := Str.bytes_pos desc
  have hp' := Str.bytes_pos mime
  have e0 : (enc :: mime.bytes ++ pt :: desc.bytes ++ pic).length =
      1 + mime.bytes.length + 1 + desc.bytes.length + pic.length := by simp; omega
  rw [e0] at hsz
  rw [List.length_append, e0] at hb
  generalize hN : 1 + mime.bytes.length + 1 + desc.bytes.length + pic.length = N at *
  have hb' : pre.length + (10 + N) ≤ 2147483647 := by
    rw [← hN] at hb ⊢
    simp [hi, hf, hz] at hb; omega
  have e1 : ofB (id ++ szb ++ flags ++ (enc :: mime.bytes ++ pt :: desc.bytes ++ pic)) ++ post =
      ofB (id ++ szb ++ flags) ++
        (some enc :: (ofB mime.bytes ++ (some pt :: (ofB desc.bytes ++ (ofB pic ++ post))))) := by
    simp
  rw [e1]
  have hp1 := fun post => header_parse version id szb flags N pre post hi hne hf hz hsz (by omega)
  generalize hH : id ++ szb ++ flags = H at *
  have hHl : H.length = 10 := by rw [← hH]; simp [hi, hf, hz]
  unfold Frame_parse FrameHeader_isTextFrame FrameHeader_isCommentFrame FrameHeader_isApicFrame
  rw [hp1]
  simp only [Res.bind_ok]
  rw [idStartsWith_ofB _ _ _ _ _ h0, idStartsWith_ofB _ _ _ _ _ h0, idStartsWith_ofB _ _ _ _ _ h0]
  have n1 : ((0x41 : UInt8) == 0x54) = false := rfl
  have n2 : ((0x41 : UInt8) == 0x43) = false := rfl
  simp only [Res.bind_ok, n1, n2, Bool.false_eq_true, if_false, BEq.rfl, if_true]
  rw [rewind _ _ _ hHl (by omega)]
  simp only [Res.bind_ok]
  unfold ApicFrame_parse
  rw [hp1]
  simp only [Res.bind_ok]
  rw [seek_one _ _ _ (by simp [hHl]; omega)]
  simp only [Res.bind_ok]
  rw [get_cur_csAt]
  simp only [Res.bind_ok]
  rw [strlent_usable hu.2.2.1]
  simp only [Res.bind_ok]
  rw [vla_ok (by omega) (by omega)]
  simp only [Res.bind_ok]
  rw [read_csAt _ _ _ _ (by simp)]
  simp only [Res.bind_ok]
  rw [getc_csAt]
  simp only [Res.bind_ok]
  rw [get_cur_csAt]
  simp only [Res.bind_ok]
  rw [strlent_usable hu.2.2.2]
  simp only [Res.bind_ok]
  rw [vla_ok (by omega) (by omega)]
  simp only [Res.bind_ok]
  rw [read_csAt _ _ _ _ (by simp)]
  simp only [Res.bind_ok]
  have e2 : (N : Int) - 1 - ↑mime.bytes.length - 1 - ↑desc.bytes.length = ((pic.length : Nat) : Int) := by omega
  rw [e2, ck_ok (by omega) (by omega)]
  simp only [Res.bind_ok]
  rw [vla_ok (by omega) (by omega)]
  simp only [Res.bind_ok]
  rw [read_csAt _ _ _ _ (by simp)]
  simp only [Res.bind_ok]
  rw [intoArray_ofB _ _ (by simp), intoArray_ofB _ _ (by simp), intoArray_ofB _ _ (by simp)]
  have ht := apic_new hu [] [] [] [] pic.length rfl
  simp only [List.append_nil] at ht
  rw [toChar_charToInt, ht]
  simp

theorem parse_other [Platform] (version : UInt8) (id flags data : List UInt8) (pre post : Bytes)
    (h : (Wire.other id flags data).Keepable) (szb : List UInt8) (hz : szb.length = 4)
    (hsz : decSize version szb = (Wire.other id flags data).sizeField)
    (hb : pre.length + ((Wire.other id flags data).bytesWith szb).length ≤ 2147483647) :
    Frame_parse (csAt pre (ofB ((Wire.other id flags data).bytesWith szb) ++ post)) version =
      .ok (some (SFrame.other id flags data).toFrame,
           csAt (pre ++ ofB ((Wire.other id flags data).bytesWith szb)) post) := by
  obtain ⟨hw, hu, hst⟩ := h
  obtain ⟨hi, h1, h2, h3, hne, hf⟩ := hw
  simp only [Wire.bytesWith, Wire.id, Wire.flags, Wire.body, Wire.sizeField] at hb hsz ⊢
  have hb' : pre.length + (10 + data.length) ≤ 2147483647 := by
    simp [hi, hf, hz] at hb; omega
  obtain ⟨b, hbb⟩ : ∃ b, id.head? = some b := by
    cases id with
    | nil => simp at hi
    | cons b _ => exact ⟨b, rfl⟩
  rw [hbb] at h1 h2 h3
  have n1 : (b == 0x54) = false := by simpa using h1
  have n2 : (b == 0x43) = false := by simpa using h2
  have n3 : (b == 0x41) = false := by simpa using h3
  have e1 : ofB (id ++ szb ++ flags ++ data) ++ post =
      ofB (id ++ szb ++ flags) ++ (ofB data ++ post) := by
    simp
  rw [e1]
  have hp1 := fun post => header_parse version id szb flags data.length pre post hi hne hf hz hsz (by omega)
  generalize hH : id ++ szb ++ flags = H at *
  unfold Frame_parse FrameHeader_isTextFrame FrameHeader_isCommentFrame FrameHeader_isApicFrame
  rw [hp1]
  simp only [Res.bind_ok]
  rw [idStartsWith_ofB _ _ _ _ _ hbb, idStartsWith_ofB _ _ _ _ _ hbb, idStartsWith_ofB _ _ _ _ _ hbb]
  simp only [Res.bind_ok, n1, n2, n3, Bool.false_eq_true, if_false]
  rw [read_csAt _ _ _ _ (by simp)]
  simp only [Res.bind_ok]
  rw [intoArray_ofB _ _ (by simp)]
  simp [SFrame.toFrame, SFrame.body, SFrame.id, SFrame.flags]

/-- Parsing a frame with any four size bytes that are read as the right size. -/
theorem frame_parse_with [Platform] (version : UInt8) (w : Wire) (szb : List UInt8) (pre post : Bytes)
    (h : w.Keepable) (hz : szb.length = 4) (hsz : decSize version szb = w.sizeField)
    (hb : pre.length + (w.bytesWith szb).length ≤ 2147483647) :
    Frame_parse (csAt pre (ofB (w.bytesWith szb) ++ post)) version =
      .ok (some w.kept.toFrame, csAt (pre ++ ofB (w.bytesWith szb)) post) := by
  cases w with
  | text id flags enc s junk => exact parse_text version id flags enc s junk pre post h szb hz hsz hb
  | comment id flags size enc lang desc txt =>
    exact parse_comment version id flags size enc lang desc txt pre post h szb hz hsz hb
  | apic id flags enc mime pt desc pic =>
    exact parse_apic version id flags enc mime pt desc pic pre post h szb hz hsz hb
  | other id flags data => exact parse_other version id flags data pre post h szb hz hsz hb

/-- Parsing a frame the library can read gives what the library keeps of it, and the cursor is right after it. -/
theorem frame_parse [Platform] (version : UInt8) (w : Wire) (pre post : Bytes) (h : w.Readable version)
    (hb : pre.length + (w.bytes version).length ≤ 2147483647) :
    Frame_parse (csAt pre (ofB (w.bytes version) ++ post)) version =
      .ok (some w.kept.toFrame, csAt (pre ++ ofB (w.bytes version)) post) :=
  frame_parse_with version w (sizeBytes version w.sizeField) pre post h.1 (by simp) (sizeBytes_read _ _ h.2) hb

theorem frame_parse_zero [Platform] (version : UInt8) (pre post : Bytes) (hb : pre.length + 4 ≤ 2147483647) :
    Frame_parse (csAt pre (ofB [0, 0, 0, 0] ++ post)) version = .ok (none, csAt pre (ofB [0, 0, 0, 0] ++ post)) := by
  unfold Frame_parse
  rw [header_parse_zero _ _ _ hb]
  simp

end Id3
