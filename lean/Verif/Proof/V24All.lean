import Verif.Proof.Defect
import Verif.Proof.V24

/-!
# Frames of a version 2.4 tag whose size is misread
-/

namespace Id3

open Spec

/-- A text frame with a size larger than the stack. -/
theorem parse_text_over [Platform] (version : UInt8) (id flags : List UInt8) (enc : UInt8) (pre post : Bytes)
    (szb : List UInt8) (m : Nat) (hi : id.length = 4) (h0 : id.head? = some 0x54) (hf : flags.length = 2)
    (hz : szb.length = 4) (hsz : decSize version szb = m) (hm : m ≤ 2147483647) (hst : Platform.stack + 1 < m)
    (hb : pre.length + 11 ≤ 2147483647) :
    Frame_parse (csAt pre (ofB (id ++ szb ++ flags ++ [enc]) ++ post)) version = .ub .stackOverflow := by
  have hne : id ≠ [0, 0, 0, 0] := by intro e; rw [e] at h0; simp at h0
  have e1 : ofB (id ++ szb ++ flags ++ [enc]) ++ post = ofB (id ++ szb ++ flags) ++ (some enc :: post) := by simp
  rw [e1]
  have hp1 := fun post => header_parse version id szb flags m pre post hi hne hf hz hsz (by omega)
  generalize hH : id ++ szb ++ flags = H at *
  have hHl : H.length = 10 := by rw [← hH]; simp [hi, hf, hz]
  unfold Frame_parse FrameHeader_isTextFrame
  rw [hp1]
  simp only [Res.bind_ok]
  rw [idStartsWith_ofB _ _ _ _ _ h0]
  simp only [Res.bind_ok, BEq.rfl, if_true]
  rw [rewind _ _ _ hHl (by omega)]
  simp only [Res.bind_ok]
  unfold TextFrame_parse
  rw [hp1]
  simp only [Res.bind_ok]
  rw [seek_one _ _ _ (by simp [hHl]; omega)]
  simp only [Res.bind_ok]
  rw [ck_ok (by omega) (by omega)]
  simp only [Res.bind_ok]
  rw [vla_over (by omega) (by omega)]
  rfl

theorem vla_nonpos [Platform] {n : Int} (h : n ≤ 0) : vla n = .ub .vlaSize := by
  unfold vla; rw [if_pos (by omega)]

/-- A picture frame whose size does not even cover its strings. -/
theorem parse_apic_cut [Platform] (version : UInt8) (id flags : List UInt8) (enc : UInt8) (mime : Str) (pt : UInt8)
    (desc : Str) (pre post : Bytes) (hi : id.length = 4) (h0 : id.head? = some 0x41) (hf : flags.length = 2)
    (hm : mime.Usable) (hd : desc.Usable) (szb : List UInt8) (N : Nat) (hz : szb.length = 4)
    (hsz : decSize version szb = N) (hN : N ≤ 2 + mime.bytes.length + desc.bytes.length)
    (hb : pre.length + (12 + mime.bytes.length + desc.bytes.length) ≤ 2147483647) :
    Frame_parse (csAt pre (ofB (id ++ szb ++ flags ++ (enc :: mime.bytes ++ pt :: desc.bytes)) ++ post)) version =
      .ub .stackOverflow ∨
    Frame_parse (csAt pre (ofB (id ++ szb ++ flags ++ (enc :: mime.bytes ++ pt :: desc.bytes)) ++ post)) version =
      .ub .vlaSize := by
  have hne : id ≠ [0, 0, 0, 0] := by intro e; rw [e] at h0; simp at h0
  have hp := Str.bytes_pos desc
  have hp' := Str.bytes_pos mime
  have e1 : ofB (id ++ szb ++ flags ++ (enc :: mime.bytes ++ pt :: desc.bytes)) ++ post =
      ofB (id ++ szb ++ flags) ++
        (some enc :: (ofB mime.bytes ++ (some pt :: (ofB desc.bytes ++ post)))) := by
    simp
  rw [e1]
  have hp1 := fun post => header_parse version id szb flags N pre post hi hne hf hz hsz (by omega)
  generalize hH : id ++ szb ++ flags = H at *
  have hHl : H.length = 10 := by rw [← hH]; simp [hi, hf, hz]
  unfold Frame_parse FrameHeader_isTextFrame FrameHeader_isCommentFrame FrameHeader_isApicFrame
  rw [hp1]
  simp only [Res.bind_ok]
  rw [idStartsWith_ofB _ _ _ _ _ h0, idStartsWith_ofB _ _ _ _ _ h0, idStartsWith_ofB _ _ _ _ _ h0]
  have n1 : ((0x41 : UInt8) == 0x54) = false := rfl
  have n2 : ((0x41 : UInt8) == 0x43) = false := rfl
  simp only [Res.bind_ok, n1, n2, Bool.false_eq_true, if_false, BEq.rfl, if_true]
  rw [rewind _ _ _ hHl (by omega)]
  simp only [Res.bind_ok]
  unfold ApicFrame_parse
  rw [hp1]
  simp only [Res.bind_ok]
  rw [seek_one _ _ _ (by simp [hHl]; omega)]
  simp only [Res.bind_ok]
  rw [get_cur_csAt]
  simp only [Res.bind_ok]
  rw [strlent_usable hm]
  simp only [Res.bind_ok]
  by_cases h1 : Platform.stack < mime.bytes.length
  · left; rw [vla_over (by omega) (by omega)]; rfl
  rw [vla_ok (by omega) (by omega)]
  simp only [Res.bind_ok]
  rw [read_csAt _ _ _ _ (by simp)]
  simp only [Res.bind_ok]
  rw [getc_csAt]
  simp only [Res.bind_ok]
  rw [get_cur_csAt]
  simp only [Res.bind_ok]
  rw [strlent_usable hd]
  simp only [Res.bind_ok]
  by_cases h2 : Platform.stack < desc.bytes.length
  · left; rw [vla_over (by omega) (by omega)]; rfl
  rw [vla_ok (by omega) (by omega)]
  simp only [Res.bind_ok]
  rw [read_csAt _ _ _ _ (by simp)]
  simp only [Res.bind_ok]
  right
  rw [ck_ok (by omega) (by omega)]
  simp only [Res.bind_ok]
  rw [vla_nonpos (by omega)]
  rfl

/-- A frame of 256 bytes or more that is not a comment is never read back as it was. -/
theorem parse_big [Platform] (f : SFrame) (pre post : Bytes) (hu : f.Usable) (hbig : 256 ≤ f.body.length)
    (hc : ∀ a b c d, f ≠ .comment a b c d) (hb : pre.length + f.bytes.length ≤ 2147483647)
    (r : Option Frame × CharStream) (h : Frame_parse (csAt pre (ofB f.bytes ++ post)) 4 = .ok r) :
    ∃ g, r.1 = some g ∧ g ≠ f.toFrame := by
  have hlen := hu.2.1
  have hbl := SFrame.bytes_length _ hu.1
  rw [hbl] at hlen hb
  obtain ⟨m, hm, hm1, hm2⟩ := decSize_be32_large f.body.length hbig (by omega)
  have hwf := ofSFrame_WF f hu.1
  have key : ∀ (w : Wire) (tl : List UInt8), w.WF → w.kept.Usable → w.sizeField = m → w.body.length ≤ m →
      f.bytes = w.bytesWith (be32 f.body.length) ++ tl → w.kept.body.length ≤ m → ∃ g, r.1 = some g ∧ g ≠ f.toFrame := by
    intro w tl hw hku hsf hbl hbytes hkl
    have hcd : w.Coded 4 (fun _ => be32 f.body.length) := ⟨hw, hku, rfl, by rw [hm, hsf]⟩
    have hl := encBytes_length 4 (fun _ => be32 f.body.length) w hcd
    have e : ofB f.bytes ++ post = ofB (encBytes (fun _ => be32 f.body.length) w) ++ (ofB tl ++ post) := by
      rw [hbytes]; simp [encBytes]
    rw [e] at h
    cases hd : w.defect with
    | some k =>
      rw [frame_parse_defect 4 _ w _ _ hcd (by omega) k hd] at h
      simp at h
    | none =>
      rw [frame_parse_coded 4 _ w _ _ hcd hd (by omega)] at h
      simp only [Res.ok.injEq] at h
      refine ⟨_, by rw [← h], ?_⟩
      intro e2
      have := congrArg (fun f : Frame => f.header.size) e2
      simp only [SFrame.toFrame, Int.ofNat_inj] at this
      omega
  cases f with
  | comment a b c d => exact absurd rfl (hc a b c d)
  | text id fl s =>
    exfalso
    obtain ⟨hi, hT, hf, hs⟩ := hu.1
    have hbody : (SFrame.text id fl s).body = s.encoding :: s.bytes := rfl
    have ebytes : (SFrame.text id fl s).bytes = id ++ be32 (SFrame.text id fl s).body.length ++ fl ++ s.encoding :: s.bytes :=
      rfl
    rw [hbody] at hlen hm2 hbig
    simp only [List.length_cons] at hlen hm2 hbig
    rw [hbody, List.length_cons] at hb
    by_cases hst : m - 1 ≤ Platform.stack
    · rw [ebytes, parse_text_cut 4 id fl s.encoding s pre post _ m hi hT hf hs rfl hm (by omega) (by omega) hst (by omega)] at h
      simp at h
    · have e1 : ofB (SFrame.text id fl s).bytes ++ post =
          ofB (id ++ be32 (SFrame.text id fl s).body.length ++ fl ++ [s.encoding]) ++ (ofB s.bytes ++ post) := by
        rw [ebytes]; simp
      rw [e1, parse_text_over 4 id fl s.encoding pre _ _ m hi hT hf rfl hm (by omega) (by omega) (by omega)] at h
      simp at h
  | apic fl mime pt desc pic =>
    obtain ⟨hf, hmw, hdw⟩ := hu.1
    have hbody : (SFrame.apic fl mime pt desc pic).body = desc.encoding :: mime.bytes ++ pt :: desc.bytes ++ pic := by
      simp [SFrame.body]
    have hbl : (SFrame.apic fl mime pt desc pic).body.length = 2 + mime.bytes.length + desc.bytes.length + pic.length := by
      rw [hbody]; simp; omega
    by_cases hL : m ≤ 2 + mime.bytes.length + desc.bytes.length
    · have e1 : ofB (SFrame.apic fl mime pt desc pic).bytes ++ post =
          ofB (apicId ++ be32 (SFrame.apic fl mime pt desc pic).body.length ++ fl ++
            (desc.encoding :: mime.bytes ++ pt :: desc.bytes)) ++ (ofB pic ++ post) := by
        simp [SFrame.bytes, SFrame.id, SFrame.flags, SFrame.body]
      rw [e1] at h
      rcases parse_apic_cut 4 apicId fl desc.encoding mime pt desc pre (ofB pic ++ post) rfl rfl hf hu.2.2.1 hu.2.2.2 _ m rfl
        hm hL (by omega) with h' | h' <;> rw [h'] at h <;> simp at h
    · have hk : (pic.take (m - (2 + mime.bytes.length + desc.bytes.length))).length =
          m - (2 + mime.bytes.length + desc.bytes.length) := by
        rw [List.length_take]; omega
      refine key (.apic apicId fl desc.encoding mime pt desc (pic.take (m - (2 + mime.bytes.length + desc.bytes.length))))
        (pic.drop (m - (2 + mime.bytes.length + desc.bytes.length))) ?_ ?_ ?_ ?_ ?_ ?_
      · exact hwf
      · refine ⟨hu.1, ?_, hu.2.2⟩
        rw [SFrame.bytes_length _ (by exact hu.1)]
        simp only [Wire.kept, SFrame.body, List.length_append, List.length_cons, hk]
        omega
      · simp only [Wire.sizeField, Wire.body, List.length_append, List.length_cons, hk]; omega
      · simp only [Wire.body, List.length_append, List.length_cons, hk]; omega
      · simp [SFrame.bytes, SFrame.id, SFrame.flags, SFrame.body, Wire.bytesWith, Wire.id, Wire.flags, Wire.body]
      · simp only [Wire.kept, SFrame.body, List.length_append, List.length_cons, hk]; omega
  | other id fl data =>
    have hbl : (SFrame.other id fl data).body.length = data.length := rfl
    have hk : (data.take m).length = m := by rw [List.length_take]; omega
    refine key (.other id fl (data.take m)) (data.drop m) hwf ?_ ?_ ?_ ?_ ?_
    · refine ⟨hu.1, ?_, trivial⟩
      rw [SFrame.bytes_length _ (by exact hu.1)]
      simp only [Wire.kept, SFrame.body, hk]; omega
    · simp only [Wire.sizeField, Wire.body, hk]
    · simp only [Wire.body, hk]; omega
    · simp [SFrame.bytes, SFrame.id, SFrame.flags, SFrame.body, Wire.bytesWith, Wire.id, Wire.flags, Wire.body]
    · simp only [Wire.kept, SFrame.body, hk]; omega

/-- The parser only ever adds frames. -/
theorem loop_adds [Platform] (fuel : Nat) (cs : CharStream) (tagSize : Nat) (version : UInt8) (acc : FrameList)
    (r : FrameList × CharStream) (h : Tag_parse_loop fuel cs tagSize version acc = .ok r) :
    ∃ gs : List Frame, r.1 = gs.foldl FrameList_add_frame acc := by
  induction fuel generalizing cs acc with
  | zero => simp [Tag_parse_loop] at h
  | succ fuel ih =>
    unfold Tag_parse_loop at h
    split at h
    · obtain ⟨⟨f, cs'⟩, h1, h2⟩ := Res.bind_eq_ok.mp h
      cases f with
      | none => cases h2; exact ⟨[], rfl⟩
      | some f =>
        obtain ⟨gs, hg⟩ := ih _ _ h2
        exact ⟨f :: gs, hg⟩
    · cases h; exact ⟨[], rfl⟩

/-- The parser loop on frames of which one is misread. -/
theorem loop_big [Platform] (enc : Wire → List UInt8) (ws : List Wire) (f : SFrame) (pre post : Bytes) (tagSize : Nat)
    (acc : FrameList) (fuel : Nat) (hR : ∀ w ∈ ws, w.Coded 4 enc)
    (hu : f.Usable) (hbig : 256 ≤ f.body.length) (hc : ∀ a b c d, f ≠ .comment a b c d)
    (hlen : pre.length + (ws.flatMap (encBytes enc)).length + f.bytes.length ≤ 2147483647)
    (hpos : pre.length + (ws.flatMap (encBytes enc)).length < tagSize)
    (r : FrameList × CharStream)
    (h : Tag_parse_loop fuel (csAt pre (ofB (ws.flatMap (encBytes enc)) ++ (ofB f.bytes ++ post))) tagSize 4 acc = .ok r) :
    ∃ g gs, g ≠ f.toFrame ∧ r.1 = (ws.map (fun w => w.kept.toFrame) ++ g :: gs).foldl FrameList_add_frame acc := by
  induction ws generalizing pre acc fuel with
  | nil =>
    cases fuel with
    | zero => simp [Tag_parse_loop] at h
    | succ fuel =>
    simp only [List.flatMap_nil, List.length_nil, ofB_nil, List.nil_append, Nat.add_zero] at hlen hpos h
    unfold Tag_parse_loop at h
    have hcu : u32 (csAt pre (ofB f.bytes ++ post)).cursor = pre.length := u32_cursor (by omega)
    rw [hcu, if_pos hpos] at h
    obtain ⟨⟨g, cs'⟩, h1, h2⟩ := Res.bind_eq_ok.mp h
    obtain ⟨g', hg, hne⟩ := parse_big f pre post hu hbig hc hlen _ h1
    dsimp only at hg
    subst hg
    obtain ⟨gs, hgs⟩ := loop_adds _ _ _ _ _ _ h2
    exact ⟨g', gs, hne, hgs⟩
  | cons w ws ih =>
    cases fuel with
    | zero => simp [Tag_parse_loop] at h
    | succ fuel =>
    simp only [List.flatMap_cons, ofB_append, List.length_append, List.append_assoc] at hlen hpos h
    unfold Tag_parse_loop at h
    have hcu : u32 (csAt pre (ofB (encBytes enc w) ++ (ofB (ws.flatMap (encBytes enc)) ++ (ofB f.bytes ++ post)))).cursor =
        pre.length := u32_cursor (by omega)
    rw [hcu, if_pos (by omega)] at h
    cases hd : w.defect with
    | some k =>
      rw [frame_parse_defect 4 enc w _ _ (hR w (by simp)) (by omega) k hd] at h
      simp at h
    | none =>
      rw [frame_parse_coded 4 enc w _ _ (hR w (by simp)) hd (by omega)] at h
      simp only [Res.bind_ok] at h
      obtain ⟨g, gs, h1, h2⟩ := ih (pre := pre ++ ofB (encBytes enc w)) _ _ (fun x hx => hR x (by simp [hx]))
        (by simp only [List.length_append, ofB_length]; omega)
        (by simp only [List.length_append, ofB_length]; omega) h
      exact ⟨g, gs, h1, h2⟩

/-- Nodes of a list of frames. -/
theorem add_frames_any (fs : List Frame) (h : fs ≠ []) : fs.foldl FrameList_add_frame FrameList_new = fs.map some := by
  cases fs with
  | nil => exact absurd rfl h
  | cons f fs =>
    simp only [List.foldl_cons, FrameList_new, FrameList_add_frame]
    rw [add_frame_foldl]
    simp

end Id3
