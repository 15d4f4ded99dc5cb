import Verif.Props.Foreign
import Verif.Props.Cut
import Verif.Props.Any

/-!
# C101: strings without a terminator
-/

namespace Id3.Props

open Spec

theorem text_one_byte [Platform] (b : UInt8) (hb : b ≠ 0) : TextFrameData_new [some b] = .ub .oobRead := by
  have hc : c_strlen [some b] = .ub .oobRead := by simp [c_strlen, load, hb]
  unfold TextFrameData_new
  cases hl : Platform.memcmpLenient with
  | false => simp [string_has_bom, memcmpEq, hl]
  | true =>
    by_cases h1 : b = 0xFF
    · simp [string_has_bom, memcmpEq, hl, memcmpSeq, load, h1]
    · by_cases h2 : b = 0xFE
      · simp [string_has_bom, memcmpEq, hl, memcmpSeq, load, h2]
      · have : string_has_bom [some b] = .ok false := by
          simp [string_has_bom, memcmpEq, hl, memcmpSeq, load, h1, h2]
        simp [ID3v2_strlen, this, hc]

theorem text_cut [Platform] (s : Str) (k : Nat) (hs : s.WF) (h1 : 1 ≤ k) (hk : k < s.bytes.length) :
    TextFrameData_new (ofB (s.bytes.take k)) = .ub .oobRead := by
  by_cases h2 : 2 ≤ k
  · obtain ⟨⟨b, hbom⟩, hcut⟩ := strlen_cut s k hs h2 hk
    unfold TextFrameData_new
    rw [hbom, hcut]
    simp
  · obtain rfl : k = 1 := by omega
    have : ∃ b t, s.bytes = b :: t ∧ b ≠ 0 := by
      cases s with
      | latin cs =>
        cases cs with
        | nil => simp [Str.bytes, Str.content, Str.terminator] at hk
        | cons c cs => exact ⟨c, cs ++ [0], rfl, fun e => hs.1 (by simp [e])⟩
      | utf16 le us => cases le <;> exact ⟨_, _, rfl, by decide⟩
    obtain ⟨b, t, e, hb⟩ := this
    rw [e]
    exact text_one_byte b hb

/-- The parser looks for the terminator behind the end of the array that holds the text. -/
theorem parse_text_bare [Platform] (version : UInt8) (id flags : List UInt8) (enc : UInt8) (s : Str)
    (pre post : Bytes) (k : Nat) (hi : id.length = 4) (h0 : id.head? = some 0x54)
    (hf : flags.length = 2) (hs : s.WF) (hmax : 1 + k ≤ maxFrameSize version)
    (hk' : k < s.bytes.length) (hb : pre.length + 11 + k ≤ 2147483647) :
    Frame_parse (csAt pre (ofB (bareText version id flags enc s k) ++ post)) version =
      .ub (if k = 0 then .vlaSize else if Platform.stack < k then .stackOverflow else .oobRead) := by
  have hne : id ≠ [0, 0, 0, 0] := by intro e; rw [e] at h0; simp at h0
  have hz : (sizeBytes version (1 + k)).length = 4 := by simp
  have hsz : decSize version (sizeBytes version (1 + k)) = ((1 + k : Nat) : Int) := sizeBytes_read version _ hmax
  have hp1 := fun post => header_parse version id _ flags (1 + k) pre post hi hne hf hz hsz (by omega)
  have e1 : ofB (bareText version id flags enc s k) ++ post =
      ofB (id ++ sizeBytes version (1 + k) ++ flags) ++ (some enc :: (ofB (s.bytes.take k) ++ post)) := by
    simp [bareText]
  rw [e1]
  generalize hH : id ++ sizeBytes version (1 + k) ++ flags = H at *
  have hHl : H.length = 10 := by rw [← hH]; simp [hi, hf]
  unfold Frame_parse FrameHeader_isTextFrame
  rw [hp1]
  simp only [Res.bind_ok]
  rw [idStartsWith_ofB _ _ _ _ _ h0]
  simp only [Res.bind_ok, BEq.rfl, if_true]
  rw [rewind _ _ _ hHl (by omega)]
  simp only [Res.bind_ok]
  unfold TextFrame_parse
  rw [hp1]
  simp only [Res.bind_ok]
  rw [seek_one _ _ _ (by simp [hHl]; omega)]
  simp only [Res.bind_ok]
  rw [ck_ok (by omega) (by omega)]
  simp only [Res.bind_ok]
  by_cases hk0 : k = 0
  · rw [if_pos hk0, hk0, show (((1 + 0 : Nat) : Int) - 1) = 0 from rfl, vla_zero]
    rfl
  rw [if_neg hk0]
  by_cases hst : Platform.stack < k
  · rw [vla_over (by omega) (by omega), if_pos hst]
    rfl
  rw [vla_ok (by omega) (by omega), if_neg hst]
  simp only [Res.bind_ok]
  have hl : (((1 + k : Nat) : Int) - 1) = ((ofB (s.bytes.take k)).length : Nat) := by
    simp only [ofB_length, List.length_take]; omega
  rw [read_csAt _ _ _ _ hl]
  simp only [Res.bind_ok]
  rw [intoArray_full _ _ hl]
  unfold TextFrame_new
  rw [text_cut s k hs (by omega) hk']
  simp

/-- Whatever precedes it and whatever follows it, a text frame without a terminator makes reading the file undefined. -/
theorem bare_text_undefined [Platform] (version minor flags : UInt8) (ws : List Wire) (id fl : List UInt8) (enc : UInt8) (s : Str)
    (k : Nat) (more rest : List UInt8) (hv : version = 3 ∨ version = 4) (hflag : flags &&& 0x40 = 0)
    (hR : ∀ w ∈ ws, w.Sane version) (hi : id.length = 4) (h0 : id.head? = some 0x54) (hf : fl.length = 2) (hs : s.WF)
    (hk' : k < s.bytes.length)
    (hn : (ws.flatMap (Wire.bytes version) ++ bareText version id fl enc s k ++ more).length < 2 ^ 28) :
    ∃ u, ID3v2_read_tag (some (ofB
      (tagHeaderBytes version minor flags
          (ws.flatMap (Wire.bytes version) ++ bareText version id fl enc s k ++ more).length ++
        (ws.flatMap (Wire.bytes version) ++ bareText version id fl enc s k ++ more) ++ rest))) = .ub u := by
  generalize hN : (ws.flatMap (Wire.bytes version) ++ bareText version id fl enc s k ++ more).length = N at *
  have hbl : (bareText version id fl enc s k).length = 11 + k := by
    simp [bareText, hi, hf]; omega
  have hR' : ∀ w ∈ ws, w.Coded version (fun w => sizeBytes version w.sizeField) := fun w hw => sane_coded version w (hR w hw)
  have hfm : ws.flatMap (Wire.bytes version) = ws.flatMap (encBytes (fun w => sizeBytes version w.sizeField)) := rfl
  have hsize : (ws.flatMap (Wire.bytes version)).length + (11 + k) + more.length = N := by
    rw [← hN, List.length_append, List.length_append, hbl]
  have hws : ws.length ≤ (ws.flatMap (Wire.bytes version)).length := by
    rw [hfm, flat_size hR']; exact wireSize_ge _
  rw [ofB_append, ofB_append, read_tag_prefix version minor flags N _ _ hv hn (by rw [ofB_length, hN])]
  have hHl : (tagHeaderBytes version minor flags N).length = 10 := by simp [tagHeaderBytes, synchsafe]
  have hbuf : ID3v2_read_tag_from_buffer
      (ofB (tagHeaderBytes version minor flags N) ++ ofB (ws.flatMap (Wire.bytes version) ++ bareText version id fl enc s k ++ more))
      (10 + N : Nat) = Tag_parse (csAt [] (ofB (tagHeaderBytes version minor flags N) ++
        ofB (ws.flatMap (Wire.bytes version) ++ bareText version id fl enc s k ++ more))) := by
    rw [← ofB_append, buffer_stream _ _ (by rw [List.length_append, hHl, hN]; omega),
      List.take_of_length_le (by rw [List.length_append, hHl, hN]; omega)]
  rw [hbuf, tag_parse_start _ _ _ _ _ hv hflag hn]
  have hfuel : 11 + (ofB (ws.flatMap (Wire.bytes version) ++ bareText version id fl enc s k ++ more)).length =
      (11 + N - ws.length - 1) + 1 + ws.length := by
    rw [ofB_length, hN]; omega
  rw [hfuel, ofB_append, ofB_append, List.append_assoc, hfm, loop_init version _ ws _ _ N _ _ hR'
    (by rw [ofB_length, hHl, ← hfm]; omega)
    (by
      intro a w b e
      have : (ws.flatMap (encBytes (fun w => sizeBytes version w.sizeField))).length =
        (a.flatMap (encBytes (fun w => sizeBytes version w.sizeField))).length +
          ((w :: b).flatMap (encBytes (fun w => sizeBytes version w.sizeField))).length := by
        rw [e, List.flatMap_append, List.length_append]
      rw [← hfm] at this
      rw [ofB_length, hHl]
      omega)]
  split
  · rename_i u _; exact ⟨u, rfl⟩
  · refine ⟨if k = 0 then .vlaSize else if Platform.stack < k then .stackOverflow else .oobRead, ?_⟩
    conv => lhs; unfold Tag_parse_loop
    have hc : u32 (csAt (ofB (tagHeaderBytes version minor flags N) ++
        ofB (ws.flatMap (encBytes (fun w => sizeBytes version w.sizeField))))
        (ofB (bareText version id fl enc s k) ++ ofB more)).cursor =
        (ofB (tagHeaderBytes version minor flags N) ++
          ofB (ws.flatMap (encBytes (fun w => sizeBytes version w.sizeField)))).length :=
      u32_cursor (by simp only [List.length_append, ofB_length, hHl, ← hfm]; omega)
    rw [hc, if_pos (by simp only [List.length_append, ofB_length, hHl, ← hfm]; omega),
      parse_text_bare version id fl enc s _ _ k hi h0 hf hs (by
        unfold maxFrameSize; split <;> omega) hk' (by simp only [List.length_append, ofB_length, hHl, ← hfm]; omega)]
    rfl

/-- The compatibility API does not load such a file either. -/
theorem bare_text_load [Platform] (version minor flags : UInt8) (ws : List Wire) (id fl : List UInt8) (enc : UInt8) (s : Str)
    (k : Nat) (more rest : List UInt8) (hv : version = 3 ∨ version = 4) (hflag : flags &&& 0x40 = 0)
    (hR : ∀ w ∈ ws, w.Sane version) (hi : id.length = 4) (h0 : id.head? = some 0x54) (hf : fl.length = 2) (hs : s.WF)
    (hk' : k < s.bytes.length)
    (hn : (ws.flatMap (Wire.bytes version) ++ bareText version id fl enc s k ++ more).length < 2 ^ 28) (ct : CTag) :
    load_tag (some (ofB
      (tagHeaderBytes version minor flags
          (ws.flatMap (Wire.bytes version) ++ bareText version id fl enc s k ++ more).length ++
        (ws.flatMap (Wire.bytes version) ++ bareText version id fl enc s k ++ more) ++ rest))) ≠ .ok ct := by
  intro h
  obtain ⟨t, h1, -⟩ := (load_agrees _ _).mp h
  obtain ⟨u, h2⟩ := bare_text_undefined version minor flags ws id fl enc s k more rest hv hflag hR hi h0 hf hs hk' hn
  rw [h2] at h1
  cases h1

theorem stdLatin_bare (cs : List UInt8) (h : 0 ∉ cs) : stdLatin false cs = some (cs, []) := by
  induction cs with
  | nil => rfl
  | cons c cs ih =>
    have h1 : ¬ c = 0 := fun e => h (by simp [e])
    rw [stdLatin, if_neg h1, ih (fun e => h (by simp [e]))]
    rfl

theorem stdUnits_bare (us : List (UInt8 × UInt8)) (h : (0, 0) ∉ us) :
    stdUnits false (us.flatMap (fun u => [u.1, u.2])) = some (us, []) := by
  induction us with
  | nil => rfl
  | cons u us ih =>
    obtain ⟨a, b⟩ := u
    have h1 : ¬ (a = 0 ∧ b = 0) := fun e => h (by simp [e.1, e.2])
    simp only [List.flatMap_cons, List.cons_append, List.nil_append]
    rw [stdUnits, if_neg h1, ih (fun e => h (by simp [e]))]
    rfl

theorem stdString_bare (s : Str) (h : s.WF) : stdString false s.encoding s.content = some (s, []) := by
  cases s with
  | latin cs =>
    simp only [Str.content, Str.encoding, stdString, if_true]
    rw [stdLatin_bare cs h.1]
    rfl
  | utf16 le us =>
    cases le
    · simp [Str.content, Str.encoding, stdString, Str.bom, stdUnits_bare us h]
    · simp [Str.content, Str.encoding, stdString, Str.bom, stdUnits_bare us h]

/-- Every text, stored without its terminator in the only frame of a tag: a program that keeps to the
documents reads it; what the library does is undefined. -/
theorem bare_text_std [Platform] (version minor : UInt8) (id fl : List UInt8) (s : Str) (rest : List UInt8)
    (hv : version = 3 ∨ version = 4) (hm : minor ≠ 0xFF) (hi : id.length = 4) (hl : ∀ c ∈ id, stdLetter c = true)
    (h0 : id.head? = some 0x54) (hx : id ≠ txxxId) (hf : fl.length = 2) (hs : s.WF)
    (hn : 11 + s.content.length < 2 ^ 28) :
    let file := tagHeaderBytes version minor 0 (11 + s.content.length) ++
      (id ++ sizeBytes version (1 + s.content.length) ++ fl ++ s.encoding :: s.content) ++ rest
    stdTag false file = some ([.text id fl s], rest) ∧ ∃ u, ID3v2_read_tag (some (ofB file)) = .ub u := by
  have htake : s.bytes.take s.content.length = s.content := by simp [Str.bytes]
  have hlt : s.content.length < s.bytes.length := by
    cases s <;> simp [Str.bytes, Str.terminator]
  have hbl : (id ++ sizeBytes version (1 + s.content.length) ++ fl ++ s.encoding :: s.content).length = 11 + s.content.length := by
    simp [hi, hf]; omega
  refine ⟨?_, ?_⟩
  · have hframe : stdFrame false id fl (s.encoding :: s.content) = some (.text id fl s) := by
      have hc : id ≠ commId := by intro e; rw [e] at h0; simp [commId] at h0
      have ha : id ≠ apicId := by intro e; rw [e] at h0; simp [apicId] at h0
      unfold stdFrame
      rw [if_neg hc, if_neg ha, if_pos ⟨h0, hx⟩]
      simp [stdString_bare s hs]
    have hframes := stdFrames_step false version id (sizeBytes version (1 + s.content.length)) fl (s.encoding :: s.content) []
      _ [] hi (by simp) hf hl (by simp) (by
        rw [stdSize_sizeBytes _ _ (by omega)]; simp; omega) hframe (by rw [stdFrames]; simp)
    have hss := stdSynchsafe_synchsafe (11 + s.content.length) hn
    simp only [tagHeaderBytes, synchsafe, List.cons_append, List.nil_append] at hss ⊢
    rw [stdTag, if_pos ⟨hv, hm, rfl⟩, hss]
    simp only
    rw [if_pos (by rw [List.length_append, hbl]; omega), ← hbl, List.take_left, List.drop_left]
    simp only [List.append_nil] at hframes
    simp only [List.append_assoc]
    rw [hframes]
    rfl
  · have := bare_text_undefined version minor 0 [] id fl s.encoding s s.content.length [] rest hv (by decide) (by simp) hi h0 hf hs
      hlt (by simp only [bareText, htake, List.flatMap_nil, List.nil_append, List.append_nil]; rw [hbl]; exact hn)
    simp only [bareText, htake, List.flatMap_nil, List.nil_append, List.append_nil] at this
    rw [hbl] at this
    exact this

/-- `bareTitle` is such a file, and so is one with a title in UTF-16. -/
theorem bare_example : bareTitle =
    tagHeaderBytes 3 0 0 13 ++ bareText 3 [0x54, 0x49, 0x54, 0x32] [0, 0] 0 (.latin [0x48, 0x69]) 2 ∧
    ∃ u, @ID3v2_read_tag strict (some (ofB (tagHeaderBytes 4 0 0 15 ++
      ([0x54, 0x49, 0x54, 0x32] ++ sizeBytes 4 5 ++ [0, 0] ++ 1 :: [0xFF, 0xFE, 0x48, 0]) ++ [0xFF, 0xFB]))) = .ub u :=
  ⟨by decide, (@bare_text_std strict 4 0 [0x54, 0x49, 0x54, 0x32] [0, 0] (.utf16 true [(0x48, 0)]) [0xFF, 0xFB] (Or.inr rfl)
    (by decide) rfl (by decide) rfl (by decide) rfl (by decide) (by decide)).2⟩

/-- Frames are only ever added at the end. -/
theorem loop_extends [Platform] (fuel : Nat) (cs : CharStream) (size : Nat) (version : UInt8) (f : Frame)
    (rest : FrameList) (l : FrameList) (cs' : CharStream)
    (h : Tag_parse_loop fuel cs size version (some f :: rest) = .ok (l, cs')) : ∃ r, l = some f :: rest ++ r := by
  induction fuel generalizing cs rest with
  | zero => simp [Tag_parse_loop] at h
  | succ fuel ih =>
    unfold Tag_parse_loop at h
    split at h
    · rw [Res.bind_eq_ok] at h
      obtain ⟨⟨o, cs1⟩, h1, h2⟩ := h
      cases o with
      | none =>
        simp only [Res.pure_eq, Res.ok.injEq, Prod.mk.injEq] at h2
        exact ⟨[], by rw [← h2.1, List.append_nil]⟩
      | some g =>
        simp only [FrameList_add_frame] at h2
        obtain ⟨r, hr⟩ := ih _ _ h2
        exact ⟨some g :: r, by rw [hr]; simp⟩
    · simp only [Res.ok.injEq, Prod.mk.injEq] at h
      exact ⟨[], by rw [← h.1, List.append_nil]⟩

/-- The size of a frame that is not too large begins with the bytes of a terminator. -/
theorem size_terminates (version : UInt8) (n : Nat) (s : Str) (hn : n < if s.encoding = 0 then 2 ^ 21 else 2 ^ 14) :
    ∃ z, sizeBytes version n = s.terminator ++ z := by
  cases s with
  | latin cs =>
    simp only [Str.encoding, if_true] at hn
    have : (sizeBytes version n).head? = some 0 := by
      unfold sizeBytes
      split
      · simp only [synchsafe, List.head?_cons]
        rw [show n / 128 ^ 3 % 128 = 0 by omega]
        rfl
      · simp only [be32, List.head?_cons]
        rw [show n / 2 ^ 24 = 0 by omega]
        rfl
    exact List.head?_eq_some_iff.mp this
  | utf16 le us =>
    rw [if_neg (by simp [Str.encoding])] at hn
    refine ⟨(sizeBytes version n).drop 2, ?_⟩
    have : (sizeBytes version n).take 2 = [0, 0] := by
      unfold sizeBytes
      split
      · simp only [synchsafe, List.take_succ_cons, List.take_zero]
        rw [show n / 128 ^ 3 % 128 = 0 by omega, show n / 128 ^ 2 % 128 = 0 by omega]
        rfl
      · simp only [be32, List.take_succ_cons, List.take_zero]
        rw [show n / 2 ^ 24 = 0 by omega, show n / 2 ^ 16 = 0 by omega]
        rfl
    rw [show (Str.utf16 le us).terminator = [0, 0] from rfl, ← this, List.take_append_drop]

/-- A comment without a terminator is not undefined: the id of the next frame is taken for the end of the comment, and that
frame is lost. What precedes them is read as usual. (The size of the next frame is not too large, so that the bytes behind its
id are zero: less than 2^21, or less than 2^14 for a comment in UTF-16.) -/
theorem bare_comment_swallows [Platform] (version minor flags enc : UInt8) (ws : List Wire) (fl lang : List UInt8)
    (desc txt txt' : Str) (id : List UInt8) (n : Nat) (more rest : List UInt8) (hv : version = 3 ∨ version = 4)
    (hflag : flags &&& 0x40 = 0) (hR : ∀ w ∈ ws, w.Sane version) (htxt' : txt'.content = txt.content ++ id)
    (hu : (SFrame.comment fl lang desc txt').Usable) (hn : n < if txt'.encoding = 0 then 2 ^ 21 else 2 ^ 14)
    (body : List UInt8)
    (hb : body = ws.flatMap (Wire.bytes version) ++
      (commId ++ sizeBytes version (4 + desc.bytes.length + txt.content.length) ++ fl ++ enc :: lang ++ desc.bytes ++ txt.content) ++
      (id ++ sizeBytes version n ++ more)) (hlen : body.length < 2 ^ 28) (t : Tag)
    (h : ID3v2_read_tag (some (ofB (tagHeaderBytes version minor flags body.length ++ body ++ rest))) = .ok (some t)) :
    ∃ r, t.frames = toFrameList (ws.map Wire.kept ++ [.comment fl lang desc txt']) ++ r := by
  have hHl : (tagHeaderBytes version minor flags body.length).length = 10 := by simp [tagHeaderBytes, synchsafe]
  rw [ofB_append, ofB_append, read_tag_prefix version minor flags body.length _ _ hv hlen (by rw [ofB_length]), ← ofB_append,
    buffer_stream _ _ (by rw [List.length_append, hHl]; omega), List.take_of_length_le (by rw [List.length_append, hHl]; omega),
    ofB_append, tag_parse_start _ _ _ _ _ hv hflag hlen] at h
  obtain ⟨z, hz⟩ := size_terminates version n txt' hn
  obtain ⟨⟨hfl, hlang, hdesc, htxt⟩, hbl, hdu, htu⟩ := hu
  generalize hw : Wire.comment commId fl (4 + desc.bytes.length + txt.content.length) enc lang desc txt' = w at *
  have hbody : body = (ws ++ [w]).flatMap (encBytes (fun w => sizeBytes version w.sizeField)) ++ (z ++ more) := by
    have hfm : ws.flatMap (Wire.bytes version) = ws.flatMap (encBytes (fun w => sizeBytes version w.sizeField)) := rfl
    rw [hb, hz, List.flatMap_append, hfm]
    generalize ws.flatMap (encBytes (fun w => sizeBytes version w.sizeField)) = W
    rw [← hw]
    simp [encBytes, Wire.bytesWith, Wire.id, Wire.flags, Wire.body, Wire.sizeField, Str.bytes, htxt']
  have hcoded : w.Coded version (fun w => sizeBytes version w.sizeField) := by
    rw [← hw]
    refine ⟨⟨rfl, rfl, hfl, hlang, hdesc, htxt⟩, ⟨⟨hfl, hlang, hdesc, htxt⟩, hbl, hdu, htu⟩, by simp, sizeBytes_read version _ ?_⟩
    have : 4 + desc.bytes.length + txt.content.length < 2 ^ 28 := by
      have := congrArg List.length hb
      simp only [List.length_append, List.length_cons, hlang] at this
      omega
    simp only [Wire.sizeField]
    unfold maxFrameSize
    split <;> omega
  have hall : ∀ x ∈ ws ++ [w], x.Coded version (fun w => sizeBytes version w.sizeField) := by
    intro x hx
    rcases List.mem_append.mp hx with hx | hx
    · exact sane_coded version x (hR x hx)
    · rw [List.mem_singleton.mp hx]; exact hcoded
  have hl1 := congrArg List.length hbody
  rw [List.length_append] at hl1
  have hge : (ws ++ [w]).length ≤ ((ws ++ [w]).flatMap (encBytes (fun w => sizeBytes version w.sizeField))).length := by
    rw [flat_size hall]; exact wireSize_ge _
  have hl3 : 0 < w.body.length := by rw [← hw]; simp [Wire.body]
  have hpos : ∀ a x b, ws ++ [w] = a ++ x :: b →
      10 + (a.flatMap (encBytes (fun w => sizeBytes version w.sizeField))).length < body.length := by
    intro a x b e
    have he : ((ws ++ [w]).flatMap (encBytes (fun w => sizeBytes version w.sizeField))).length =
        (a.flatMap (encBytes (fun w => sizeBytes version w.sizeField))).length +
          ((encBytes (fun w => sizeBytes version w.sizeField) x).length +
            (b.flatMap (encBytes (fun w => sizeBytes version w.sizeField))).length) := by
      rw [e, List.flatMap_append, List.flatMap_cons, List.length_append, List.length_append]
    have hx : x ∈ ws ++ [w] := by rw [e]; simp
    have hxl := encBytes_length version _ x (hall x hx)
    by_cases hb0 : b = []
    · have : x = w := by
        rw [hb0] at e
        have := congrArg List.getLast? e
        simpa using this.symm
      rw [this] at hxl he
      omega
    · obtain ⟨y, b', rfl⟩ := List.exists_cons_of_ne_nil hb0
      have hy := encBytes_length version _ y (hall y (by rw [e]; simp))
      rw [List.flatMap_cons, List.length_append] at he
      omega
  rw [Res.bind_eq_ok] at h
  obtain ⟨⟨l, cs'⟩, h1, h2⟩ := h
  rw [ofB_length, show 11 + body.length = (11 + body.length - (ws ++ [w]).length) + (ws ++ [w]).length by omega] at h1
  generalize hN : body.length = N at *
  rw [hbody, ofB_append, loop_init version _ (ws ++ [w]) _ _ N _ _ hall (by rw [ofB_length, hHl]; omega)
    (by rw [ofB_length, hHl]; exact hpos)] at h1
  split at h1
  · cases h1
  · have hacc : ((ws ++ [w]).map (fun w => w.kept.toFrame)).foldl FrameList_add_frame FrameList_new =
        toFrameList (ws.map Wire.kept ++ [.comment fl lang desc txt']) := by
      have e : (ws ++ [w]).map (fun w => w.kept.toFrame) =
          (ws.map Wire.kept ++ [SFrame.comment fl lang desc txt']).map SFrame.toFrame := by
        rw [← hw]; simp [Wire.kept]
      rw [e]
      exact add_frames_new _
    rw [hacc] at h1
    obtain ⟨p, -, h2⟩ := Res.bind_eq_ok.mp h2
    cases h2
    generalize hfs : ws.map Wire.kept ++ [SFrame.comment fl lang desc txt'] = fs at *
    cases fs with
    | nil => simp at hfs
    | cons f fs => exact loop_extends _ _ _ _ _ _ _ _ h1

/-- In front of padding a comment without a terminator is read right: the padding is taken for the terminator. -/
theorem bare_comment_padded [Platform] (version minor flags enc : UInt8) (ws : List Wire) (fl lang : List UInt8)
    (desc txt : Str) (padding : Nat) (rest : List UInt8) (hv : version = 3 ∨ version = 4)
    (hflag : flags &&& 0x40 = 0) (hR : ∀ w ∈ ws, w.Readable version)
    (hu : (SFrame.comment fl lang desc txt).Usable)
    (hst : desc.bytes.length ≤ Platform.stack ∧ txt.bytes.length ≤ Platform.stack) (hp : txt.terminator.length ≤ padding)
    (body : List UInt8)
    (hb : body = ws.flatMap (Wire.bytes version) ++
      (commId ++ sizeBytes version (4 + desc.bytes.length + txt.content.length) ++ fl ++ enc :: lang ++ desc.bytes ++ txt.content) ++
      List.replicate padding 0) (hlen : body.length < 2 ^ 28) :
    ∃ t, ID3v2_read_tag (some (ofB (tagHeaderBytes version minor flags body.length ++ body ++ rest))) = .ok (some t) ∧
      t.frames = toFrameList (ws.map Wire.kept ++ [.comment fl lang desc txt]) := by
  generalize hw : Wire.comment commId fl (4 + desc.bytes.length + txt.content.length) enc lang desc txt = w
  have hpad : List.replicate padding (0 : UInt8) = txt.terminator ++ List.replicate (padding - txt.terminator.length) 0 := by
    have h1 : txt.terminator = List.replicate txt.terminator.length 0 := by cases txt <;> rfl
    conv => rhs; rw [h1]
    rw [List.replicate_append_replicate]
    simp only [List.length_replicate]
    congr 1
    omega
  have hbody : body = (ws ++ [w]).flatMap (Wire.bytes version) ++ List.replicate (padding - txt.terminator.length) 0 := by
    rw [hb, hpad, List.flatMap_append]
    generalize ws.flatMap (Wire.bytes version) = W
    rw [← hw]
    simp [Wire.bytes, Wire.bytesWith, Wire.id, Wire.flags, Wire.body, Wire.sizeField, Str.bytes]
  have hl := congrArg List.length hbody
  rw [List.length_append, List.length_replicate] at hl
  have hall : ∀ x ∈ ws ++ [w], x.Readable version := by
    intro x hx
    rcases List.mem_append.mp hx with hx | hx
    · exact hR x hx
    · rw [List.mem_singleton.mp hx, ← hw]
      refine ⟨⟨⟨rfl, rfl, hu.1.1, hu.1.2.1, hu.1.2.2.1, hu.1.2.2.2⟩, hu, hst⟩, ?_⟩
      have : 4 + desc.bytes.length + txt.content.length < 2 ^ 28 := by
        have := congrArg List.length hb
        have hlang : lang.length = 3 := hu.1.2.1
        simp only [List.length_append, List.length_cons, hlang] at this
        omega
      simp only [Wire.sizeField]
      unfold maxFrameSize
      split <;> omega
  have hr := read_file_wire version minor flags (ws ++ [w]) (padding - txt.terminator.length) rest hv hflag hall (by omega)
    (Or.inr (by
      intro x hx
      simp only [List.getLast?_append, List.getLast?_singleton, Option.some_or, Option.some.injEq] at hx
      rw [← hx, ← hw]
      simp [Wire.body]))
  have e : tagHeaderBytes version minor flags body.length ++ body ++ rest =
      wireTagBytes version minor flags (ws ++ [w]) (padding - txt.terminator.length) ++ rest := by
    unfold wireTagBytes
    rw [hl]
    dsimp only
    conv => lhs; rw [hbody]
    simp only [List.append_assoc]
  refine ⟨_, e ▸ hr, ?_⟩
  rw [← hw]
  simp [toTag, Wire.kept]

/-- The comment "Hi" without a terminator, and the title "Yo". -/
def bareComment : List UInt8 :=
  [0x49, 0x44, 0x33, 3, 0, 0, 0, 0, 0, 33, 0x43, 0x4F, 0x4D, 0x4D, 0, 0, 0, 9, 0, 0, 0, 0x65, 0x6E, 0x67, 0x64, 0x65, 0, 0x48,
   0x69, 0x54, 0x49, 0x54, 0x32, 0, 0, 0, 4, 0, 0, 0, 0x59, 0x6F, 0]

/-- A program that keeps to the documents reads both. The library reads the comment "HiTIT2", and no title. -/
theorem bareComment_read :
    stdTag false bareComment = some ([.comment [0, 0] [0x65, 0x6E, 0x67] (.latin [0x64, 0x65]) (.latin [0x48, 0x69]),
      .text [0x54, 0x49, 0x54, 0x32] [0, 0] (.latin [0x59, 0x6F])], []) ∧
    ∃ t, @ID3v2_read_tag strict (some (ofB bareComment)) = .ok (some t) ∧
      t.frames = toFrameList [.comment [0, 0] [0x65, 0x6E, 0x67] (.latin [0x64, 0x65])
        (.latin [0x48, 0x69, 0x54, 0x49, 0x54, 0x32])] ∧
      ID3v2_Tag_get_title_frame t = .ok none := by
  refine ⟨?_, ?_⟩
  · have h1 : stdFrames false 3 [0x54, 0x49, 0x54, 0x32, 0, 0, 0, 4, 0, 0, 0, 0x59, 0x6F, 0] =
        some [.text [0x54, 0x49, 0x54, 0x32] [0, 0] (.latin [0x59, 0x6F])] :=
      stdFrames_step false 3 [0x54, 0x49, 0x54, 0x32] [0, 0, 0, 4] [0, 0] [0, 0x59, 0x6F, 0] [] _ [] rfl rfl rfl (by decide)
        (by decide) (by decide) (by decide) (by rw [stdFrames]; simp)
    have h2 := stdFrames_step false 3 commId [0, 0, 0, 9] [0, 0] [0, 0x65, 0x6E, 0x67, 0x64, 0x65, 0, 0x48, 0x69] _
      (.comment [0, 0] [0x65, 0x6E, 0x67] (.latin [0x64, 0x65]) (.latin [0x48, 0x69])) _ rfl rfl rfl (by decide)
      (by decide) (by decide) (by decide) h1
    have e : stdTag false bareComment = (stdFrames false 3 (bareComment.drop 10)).map (fun fs => (fs, [])) := by
      simp [stdTag, bareComment, stdSynchsafe]
    rw [e]
    exact congrArg (Option.map (fun fs => (fs, []))) h2
  · exact ⟨toTag 3 0 0 33 [.comment [0, 0] [0x65, 0x6E, 0x67] (.latin [0x64, 0x65])
      (.latin [0x48, 0x69, 0x54, 0x49, 0x54, 0x32])] 9, by decide +kernel⟩

/-- The hypotheses of `bare_comment_swallows` hold for it, and there is such a text in UTF-16 too. -/
theorem bareComment_swallows :
    (@SFrame.Usable strict (.comment [0, 0] [0x65, 0x6E, 0x67] (.latin [0x64, 0x65])
      (.latin ([0x48, 0x69] ++ [0x54, 0x49, 0x54, 0x32])))) ∧
    bareComment.drop 10 = ([] : List Wire).flatMap (Wire.bytes 3) ++ (commId ++
      sizeBytes 3 (4 + (Str.latin [0x64, 0x65]).bytes.length + (Str.latin [0x48, 0x69]).content.length) ++ [0, 0] ++
      0 :: [0x65, 0x6E, 0x67] ++ (Str.latin [0x64, 0x65]).bytes ++ (Str.latin [0x48, 0x69]).content) ++
      ([0x54, 0x49, 0x54, 0x32] ++ sizeBytes 3 4 ++ [0, 0, 0, 0x59, 0x6F, 0]) ∧
    bareComment = tagHeaderBytes 3 0 0 (bareComment.drop 10).length ++ bareComment.drop 10 ++ [] ∧
    (Str.utf16 true [(0x48, 0), (0x54, 0x49), (0x54, 0x32)]).content =
      (Str.utf16 true [(0x48, 0)]).content ++ [0x54, 0x49, 0x54, 0x32] :=
  ⟨by decide, by decide, by decide, by decide⟩

/-- The same comment with two bytes of padding behind it, and then the audio. -/
def paddedComment : List UInt8 :=
  [0x49, 0x44, 0x33, 3, 0, 0, 0, 0, 0, 21, 0x43, 0x4F, 0x4D, 0x4D, 0, 0, 0, 9, 0, 0, 0, 0x65, 0x6E, 0x67, 0x64, 0x65, 0, 0x48,
   0x69, 0, 0, 0xFF, 0xFB]

theorem paddedComment_read : ∃ t, @ID3v2_read_tag strict (some (ofB paddedComment)) = .ok (some t) ∧
    t.frames = toFrameList [.comment [0, 0] [0x65, 0x6E, 0x67] (.latin [0x64, 0x65]) (.latin [0x48, 0x69])] := by
  have h := @bare_comment_padded strict 3 0 0 0 [] [0, 0] [0x65, 0x6E, 0x67] (.latin [0x64, 0x65]) (.latin [0x48, 0x69]) 2
    [0xFF, 0xFB] (Or.inl rfl) (by decide) (by simp) (by decide) (by decide) (by decide) ((paddedComment.drop 10).take 21)
    (by decide) (by decide)
  have e : tagHeaderBytes 3 0 0 ((paddedComment.drop 10).take 21).length ++ (paddedComment.drop 10).take 21 ++ [0xFF, 0xFB] =
      paddedComment := by decide
  rw [e] at h
  exact h

end Id3.Props
