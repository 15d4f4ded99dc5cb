import Verif.Spec.Read
import Verif.Proof.Wire

/-!
# Frames that the parser cannot handle
-/

namespace Id3

open Spec

theorem vla_over [Platform] {n : Int} (h0 : 0 < n) (h : Platform.stack < n) : vla n = .ub .stackOverflow := by
  unfold vla; rw [if_neg (by omega), if_pos h]

theorem vla_zero [Platform] : vla 0 = .ub .vlaSize := by
  unfold vla; rw [if_pos (by omega)]

theorem defect_none [Platform] (w : Wire) : w.defect = none ↔ w.FitsStack := by
  cases w with
  | text => simp only [Wire.defect, Wire.FitsStack]; split <;> simp <;> omega
  | comment => simp only [Wire.defect, Wire.FitsStack]; split <;> simp <;> omega
  | apic id flags enc mime pt desc pic =>
    simp only [Wire.defect, Wire.FitsStack]
    split
    · simp; omega
    · split
      · next h => simp [h]
      · next h => split <;> simp [h] <;> omega
  | other => simp [Wire.defect, Wire.FitsStack]

theorem defect_text [Platform] (version : UInt8) (id flags : List UInt8) (enc : UInt8) (s : Str) (junk : List UInt8)
    (pre post : Bytes) (h : (Wire.text id flags enc s junk).WF) (szb : List UInt8) (hz : szb.length = 4)
    (hsz : decSize version szb = (Wire.text id flags enc s junk).sizeField)
    (hb : pre.length + ((Wire.text id flags enc s junk).bytesWith szb).length ≤ 2147483647) (k : UB)
    (hk : (Wire.text id flags enc s junk).defect = some k) :
    Frame_parse (csAt pre (ofB ((Wire.text id flags enc s junk).bytesWith szb) ++ post)) version = .ub k := by
  obtain ⟨hi, h0, hf, hs⟩ := h
  have hne : id ≠ [0, 0, 0, 0] := by intro e; rw [e] at h0; simp at h0
  simp only [Wire.defect] at hk
  split at hk
  rotate_left
  · simp at hk
  next hst =>
  cases hk
  simp only [Wire.bytesWith, Wire.id, Wire.flags, Wire.body, Wire.sizeField] at hb hsz ⊢
  have hp := Str.bytes_pos s
  have e0 : (enc :: s.bytes ++ junk).length = 1 + s.bytes.length + junk.length := by simp; omega
  rw [e0] at hsz
  rw [List.length_append, e0] at hb
  generalize hN : 1 + s.bytes.length + junk.length = N at *
  have hb' : pre.length + (10 + N) ≤ 2147483647 := by
    rw [← hN] at hb ⊢
    simp [hi, hf, hz] at hb; omega
  have e1 : ofB (id ++ szb ++ flags ++ (enc :: s.bytes ++ junk)) ++ post =
      ofB (id ++ szb ++ flags) ++ (some enc :: (ofB (s.bytes ++ junk) ++ post)) := by simp
  rw [e1]
  have hp1 := fun post => header_parse version id szb flags N pre post hi hne hf hz hsz (by omega)
  generalize hH : id ++ szb ++ flags = H at *
  have hHl : H.length = 10 := by rw [← hH]; simp [hi, hf, hz]
  unfold Frame_parse FrameHeader_isTextFrame
  rw [hp1]
  simp only [Res.bind_ok]
  rw [idStartsWith_ofB _ _ _ _ _ h0]
  simp only [Res.bind_ok, BEq.rfl, if_true]
  rw [rewind _ _ _ hHl (by omega)]
  simp only [Res.bind_ok]
  unfold TextFrame_parse
  rw [hp1]
  simp only [Res.bind_ok]
  rw [seek_one _ _ _ (by simp [hHl]; omega)]
  simp only [Res.bind_ok]
  rw [ck_ok (by omega) (by omega)]
  simp only [Res.bind_ok]
  rw [vla_over (by omega) (by omega)]
  rfl

theorem defect_comment [Platform] (version : UInt8) (id flags : List UInt8) (size : Nat) (enc : UInt8)
    (lang : List UInt8) (desc txt : Str) (pre post : Bytes)
    (hw : (Wire.comment id flags size enc lang desc txt).WF)
    (hu : (Wire.comment id flags size enc lang desc txt).kept.Usable) (szb : List UInt8) (hz : szb.length = 4)
    (hsz : decSize version szb = (Wire.comment id flags size enc lang desc txt).sizeField)
    (hb : pre.length + ((Wire.comment id flags size enc lang desc txt).bytesWith szb).length ≤ 2147483647) (k : UB)
    (hk : (Wire.comment id flags size enc lang desc txt).defect = some k) :
    Frame_parse (csAt pre (ofB ((Wire.comment id flags size enc lang desc txt).bytesWith szb) ++ post)) version =
      .ub k := by
  obtain ⟨hi, h0, hf, hl, hd, ht⟩ := hw
  have hne : id ≠ [0, 0, 0, 0] := by intro e; rw [e] at h0; simp at h0
  simp only [Wire.defect] at hk
  split at hk
  rotate_left
  · simp at hk
  next hst =>
  cases hk
  simp only [Wire.kept] at hu
  simp only [Wire.bytesWith, Wire.id, Wire.flags, Wire.body, Wire.sizeField] at hb hsz ⊢
  have hp := Str.bytes_pos desc
  have hp' := Str.bytes_pos txt
  have hb' : pre.length + (10 + 4 + desc.bytes.length + txt.bytes.length) ≤ 2147483647 := by
    simp [hi, hf, hl, hz] at hb; omega
  have e1 : ofB (id ++ szb ++ flags ++ (enc :: lang ++ desc.bytes ++ txt.bytes)) ++ post =
      ofB (id ++ szb ++ flags) ++ (some enc :: (ofB lang ++ (ofB desc.bytes ++ (ofB txt.bytes ++ post)))) := by
    simp
  rw [e1]
  have hp1 := fun post => header_parse version id szb flags size pre post hi hne hf hz hsz (by omega)
  generalize hH : id ++ szb ++ flags = H at *
  have hHl : H.length = 10 := by rw [← hH]; simp [hi, hf, hz]
  unfold Frame_parse FrameHeader_isTextFrame FrameHeader_isCommentFrame
  rw [hp1]
  simp only [Res.bind_ok]
  rw [idStartsWith_ofB _ _ _ _ _ h0, idStartsWith_ofB _ _ _ _ _ h0]
  have n1 : ((0x43 : UInt8) == 0x54) = false := rfl
  simp only [Res.bind_ok, n1, Bool.false_eq_true, if_false, BEq.rfl, if_true]
  rw [rewind _ _ _ hHl (by omega)]
  simp only [Res.bind_ok]
  unfold CommentFrame_parse
  rw [hp1]
  simp only [Res.bind_ok]
  rw [seek_one _ _ _ (by simp [hHl]; omega)]
  simp only [Res.bind_ok]
  rw [read_csAt _ _ _ _ (by simp [hl])]
  simp only [Res.bind_ok]
  rw [get_cur_csAt]
  simp only [Res.bind_ok]
  rw [strlent_usable hu.2.2.1]
  simp only [Res.bind_ok]
  by_cases h1 : Platform.stack < desc.bytes.length
  · rw [vla_over (by omega) (by omega)]; rfl
  rw [vla_ok (by omega) (by omega)]
  simp only [Res.bind_ok]
  rw [read_csAt _ _ _ _ (by simp)]
  simp only [Res.bind_ok]
  rw [get_cur_csAt]
  simp only [Res.bind_ok]
  rw [strlent_usable hu.2.2.2]
  simp only [Res.bind_ok]
  rw [vla_over (by omega) (by omega)]
  rfl

theorem defect_apic [Platform] (version : UInt8) (id flags : List UInt8) (enc : UInt8) (mime : Str) (pt : UInt8)
    (desc : Str) (pic : List UInt8) (pre post : Bytes)
    (hw : (Wire.apic id flags enc mime pt desc pic).WF)
    (hu : (Wire.apic id flags enc mime pt desc pic).kept.Usable) (szb : List UInt8) (hz : szb.length = 4)
    (hsz : decSize version szb = (Wire.apic id flags enc mime pt desc pic).sizeField)
    (hb : pre.length + ((Wire.apic id flags enc mime pt desc pic).bytesWith szb).length ≤ 2147483647) (k : UB)
    (hk : (Wire.apic id flags enc mime pt desc pic).defect = some k) :
    Frame_parse (csAt pre (ofB ((Wire.apic id flags enc mime pt desc pic).bytesWith szb) ++ post)) version = .ub k := by
  obtain ⟨hi, h0, hf, hm, hd⟩ := hw
  have hne : id ≠ [0, 0, 0, 0] := by intro e; rw [e] at h0; simp at h0
  simp only [Wire.defect] at hk
  simp only [Wire.kept] at hu
  simp only [Wire.bytesWith, Wire.id, Wire.flags, Wire.body, Wire.sizeField] at hb hsz ⊢
  have hp := Str.bytes_pos desc
  have hp' := Str.bytes_pos mime
  have e0 : (enc :: mime.bytes ++ pt :: desc.bytes ++ pic).length =
      1 + mime.bytes.length + 1 + desc.bytes.length + pic.length := by simp; omega
  rw [e0] at hsz
  rw [List.length_append, e0] at hb
  generalize hN : 1 + mime.bytes.length + 1 + desc.bytes.length + pic.length = N at *
  have hb' : pre.length + (10 + N) ≤ 2147483647 := by
    rw [← hN] at hb ⊢
    simp [hi, hf, hz] at hb; omega
  have e1 : ofB (id ++ szb ++ flags ++ (enc :: mime.bytes ++ pt :: desc.bytes ++ pic)) ++ post =
      ofB (id ++ szb ++ flags) ++
        (some enc :: (ofB mime.bytes ++ (some pt :: (ofB desc.bytes ++ (ofB pic ++ post))))) := by
    simp
  rw [e1]
  have hp1 := fun post => header_parse version id szb flags N pre post hi hne hf hz hsz (by omega)
  generalize hH : id ++ szb ++ flags = H at *
  have hHl : H.length = 10 := by rw [← hH]; simp [hi, hf, hz]
  unfold Frame_parse FrameHeader_isTextFrame FrameHeader_isCommentFrame FrameHeader_isApicFrame
  rw [hp1]
  simp only [Res.bind_ok]
  rw [idStartsWith_ofB _ _ _ _ _ h0, idStartsWith_ofB _ _ _ _ _ h0, idStartsWith_ofB _ _ _ _ _ h0]
  have n1 : ((0x41 : UInt8) == 0x54) = false := rfl
  have n2 : ((0x41 : UInt8) == 0x43) = false := rfl
  simp only [Res.bind_ok, n1, n2, Bool.false_eq_true, if_false, BEq.rfl, if_true]
  rw [rewind _ _ _ hHl (by omega)]
  simp only [Res.bind_ok]
  unfold ApicFrame_parse
  rw [hp1]
  simp only [Res.bind_ok]
  rw [seek_one _ _ _ (by simp [hHl]; omega)]
  simp only [Res.bind_ok]
  rw [get_cur_csAt]
  simp only [Res.bind_ok]
  rw [strlent_usable hu.2.2.1]
  simp only [Res.bind_ok]
  by_cases h1 : Platform.stack < mime.bytes.length
  · rw [if_pos (Or.inl h1)] at hk; cases hk
    rw [vla_over (by omega) (by omega)]; rfl
  rw [vla_ok (by omega) (by omega)]
  simp only [Res.bind_ok]
  rw [read_csAt _ _ _ _ (by simp)]
  simp only [Res.bind_ok]
  rw [getc_csAt]
  simp only [Res.bind_ok]
  rw [get_cur_csAt]
  simp only [Res.bind_ok]
  rw [strlent_usable hu.2.2.2]
  simp only [Res.bind_ok]
  by_cases h2 : Platform.stack < desc.bytes.length
  · rw [if_pos (Or.inr h2)] at hk; cases hk
    rw [vla_over (by omega) (by omega)]; rfl
  rw [vla_ok (by omega) (by omega)]
  simp only [Res.bind_ok]
  rw [read_csAt _ _ _ _ (by simp)]
  simp only [Res.bind_ok]
  have e2 : (N : Int) - 1 - ↑mime.bytes.length - 1 - ↑desc.bytes.length = ((pic.length : Nat) : Int) := by omega
  rw [e2, ck_ok (by omega) (by omega)]
  simp only [Res.bind_ok]
  rw [if_neg (by omega)] at hk
  by_cases h3 : pic = []
  · rw [if_pos h3] at hk; cases hk
    subst h3
    rw [show (((([] : List UInt8).length : Nat)) : Int) = 0 from rfl, vla_zero]; rfl
  · rw [if_neg h3] at hk
    have := List.length_pos_iff.mpr h3
    split at hk
    · cases hk; rw [vla_over (by omega) (by omega)]; rfl
    · simp at hk

/-- A frame whose size is coded by `enc` in a way that the parser understands. -/
def Spec.Wire.Coded [Platform] (version : UInt8) (enc : Wire → List UInt8) (w : Wire) : Prop :=
  w.WF ∧ w.kept.Usable ∧ (enc w).length = 4 ∧ decSize version (enc w) = w.sizeField

def encBytes (enc : Wire → List UInt8) (w : Wire) : List UInt8 := w.bytesWith (enc w)

theorem encBytes_length [Platform] (version : UInt8) (enc : Wire → List UInt8) (w : Wire) (h : w.Coded version enc) :
    (encBytes enc w).length = 10 + w.body.length := Wire.bytesWith_length _ _ h.1 h.2.2.1

def encTagBytes (version minor flags : UInt8) (enc : Wire → List UInt8) (ws : List Wire) (padding : Nat) : List UInt8 :=
  tagHeaderBytes version minor flags ((ws.flatMap (encBytes enc)).length + padding) ++ ws.flatMap (encBytes enc) ++
    List.replicate padding 0

/-- A frame with a defect makes the parser fail, wherever it is. -/
theorem frame_parse_defect [Platform] (version : UInt8) (enc : Wire → List UInt8) (w : Wire) (pre post : Bytes) (h : w.Coded version enc)
    (hb : pre.length + (encBytes enc w).length ≤ 2147483647) (k : UB) (hk : w.defect = some k) :
    Frame_parse (csAt pre (ofB (encBytes enc w) ++ post)) version = .ub k := by
  obtain ⟨hw, hu, hz, hsz⟩ := h
  cases w with
  | text id flags e s junk => exact defect_text version id flags e s junk pre post hw _ hz hsz hb k hk
  | comment id flags size e lang desc txt =>
    exact defect_comment version id flags size e lang desc txt pre post hw hu _ hz hsz hb k hk
  | apic id flags e mime pt desc pic =>
    exact defect_apic version id flags e mime pt desc pic pre post hw hu _ hz hsz hb k hk
  | other => simp [Wire.defect] at hk

theorem frame_parse_coded [Platform] (version : UInt8) (enc : Wire → List UInt8) (w : Wire) (pre post : Bytes)
    (h : w.Coded version enc) (hd : w.defect = none) (hb : pre.length + (encBytes enc w).length ≤ 2147483647) :
    Frame_parse (csAt pre (ofB (encBytes enc w) ++ post)) version =
      .ok (some w.kept.toFrame, csAt (pre ++ ofB (encBytes enc w)) post) :=
  frame_parse_with version w (enc w) pre post ⟨h.1, h.2.1, (defect_none w).mp hd⟩ h.2.2.1 h.2.2.2 hb

/-- The parser loop over any list of frames: it stops at the first frame with a defect. -/
theorem loop_exact [Platform] (version : UInt8) (enc : Wire → List UInt8) (ws : List Wire) (pre post : Bytes) (tagSize : Nat)
    (acc : FrameList) (fuel : Nat) (hR : ∀ w ∈ ws, w.Coded version enc)
    (hlen : pre.length + (ws.flatMap (encBytes enc)).length + 4 ≤ 2147483647)
    (hpos : ∀ a w b, ws = a ++ w :: b → pre.length + (a.flatMap (encBytes enc)).length < tagSize)
    (hstop : tagSize ≤ pre.length + (ws.flatMap (encBytes enc)).length ∨
      ∃ post', post = ofB [0, 0, 0, 0] ++ post')
    (hfuel : ws.length < fuel) :
    Tag_parse_loop fuel (csAt pre (ofB (ws.flatMap (encBytes enc)) ++ post)) tagSize version acc =
      match ws.findSome? Wire.defect with
      | some k => .ub k
      | none => .ok ((ws.map (fun w => w.kept.toFrame)).foldl FrameList_add_frame acc,
          csAt (pre ++ ofB (ws.flatMap (encBytes enc))) post) := by
  induction ws generalizing pre acc fuel with
  | nil =>
    have := parse_loop version [] pre post tagSize acc fuel (by simp) (by simpa using hlen) (by simp) (by simpa using hstop)
      hfuel
    simpa using this
  | cons w ws ih =>
    obtain ⟨fuel, rfl⟩ : ∃ k, fuel = k + 1 := ⟨fuel - 1, by omega⟩
    simp only [List.flatMap_cons, ofB_append, List.length_append, List.append_assoc] at *
    unfold Tag_parse_loop
    have hc : u32 (csAt pre (ofB (encBytes enc w) ++ (ofB (ws.flatMap (encBytes enc)) ++ post))).cursor = pre.length :=
      u32_cursor (by omega)
    have h0 := hpos [] w ws rfl
    simp only [List.flatMap_nil, List.length_nil, Nat.add_zero] at h0
    rw [hc, if_pos h0]
    cases hd : w.defect with
    | some k =>
      rw [frame_parse_defect version enc w _ _ (hR w (by simp)) (by omega) k hd]
      simp only [List.findSome?_cons, hd]
      rfl
    | none =>
      rw [frame_parse_coded version enc w _ _ (hR w (by simp)) hd (by omega)]
      simp only [Res.bind_ok, List.findSome?_cons, hd]
      rw [ih (pre := pre ++ ofB (encBytes enc w)) _ _ (fun x hx => hR x (by simp [hx]))
        (by simp only [List.length_append, ofB_length]; omega)]
      · simp
      · intro a x b hx
        have := hpos (w :: a) x b (by rw [hx]; rfl)
        simp at this ⊢; omega
      · rcases hstop with h | h
        · left; simp only [List.length_append, ofB_length]; omega
        · right; exact h
      · simp at hfuel; omega

/-- The frames that the parser does not look at. -/
def lostFrames (ws : List Wire) (padding : Nat) : List Wire :=
  match ws.getLast? with
  | some w => if padding = 0 ∧ w.body = [] then [w] else []
  | none => []

theorem seen_lost (ws : List Wire) (padding : Nat) : ws = seenFrames ws padding ++ lostFrames ws padding := by
  unfold seenFrames lostFrames
  cases h : ws.getLast? with
  | none => simp
  | some w =>
    dsimp only
    split
    · have h' := h
      rw [List.getLast?_eq_some_iff] at h'
      obtain ⟨ys, rfl⟩ := h'
      simp
    · simp

theorem seen_padding [Platform] (version : UInt8) (enc : Wire → List UInt8) (ws : List Wire) (padding : Nat)
    (h : ∀ w ∈ ws, w.Coded version enc) :
    seenPadding ws padding = ((lostFrames ws padding).flatMap (encBytes enc)).length + padding := by
  unfold seenPadding lostFrames
  cases hl : ws.getLast? with
  | none => simp
  | some w =>
    dsimp only
    split
    · next hp =>
      rw [List.flatMap_cons, List.flatMap_nil, List.append_nil,
        encBytes_length version enc w (h w (List.mem_of_getLast? hl)), hp.1, hp.2]
      rfl
    · simp

/-- Parsing any list of frames, followed in the stream by anything. -/
theorem tag_parse_exact [Platform] (version minor flags : UInt8) (enc : Wire → List UInt8) (ws : List Wire) (padding : Nat)
    (hv : version = 3 ∨ version = 4) (hflag : flags &&& 0x40 = 0)
    (hR : ∀ w ∈ ws, w.Coded version enc)
    (hs : (ws.flatMap (encBytes enc)).length + padding < 2 ^ 28) :
    Tag_parse (csAt [] (ofB (encTagBytes version minor flags enc ws padding))) =
      outcome version minor flags ((ws.flatMap (encBytes enc)).length + padding) ws padding := by
  unfold Tag_parse
  have hsl := seen_lost ws padding
  have hsp := seen_padding version enc ws padding hR
  have hlen : (ws.flatMap (encBytes enc)).length =
      ((seenFrames ws padding).flatMap (encBytes enc)).length +
        ((lostFrames ws padding).flatMap (encBytes enc)).length := by
    conv => lhs; rw [hsl, List.flatMap_append, List.length_append]
  have e : ofB (encTagBytes version minor flags enc ws padding) =
      ofB (tagHeaderBytes version minor flags ((ws.flatMap (encBytes enc)).length + padding)) ++
        (ofB ((seenFrames ws padding).flatMap (encBytes enc)) ++
          ofB ((lostFrames ws padding).flatMap (encBytes enc) ++ List.replicate padding 0)) := by
    have hfm : ws.flatMap (encBytes enc) = (seenFrames ws padding).flatMap (encBytes enc) ++
        (lostFrames ws padding).flatMap (encBytes enc) := by
      conv => lhs; rw [hsl, List.flatMap_append]
    unfold encTagBytes
    rw [hfm]
    simp
  rw [e, tag_header_parse _ _ _ _ _ hv hflag hs]
  simp only [Res.bind_ok, ID3v2_Tag_new]
  rw [if_neg (by simp)]
  have hH : (ofB (tagHeaderBytes version minor flags ((ws.flatMap (encBytes enc)).length + padding))).length = 10 := by
    simp [tagHeaderBytes]
  generalize hgH : ofB (tagHeaderBytes version minor flags ((ws.flatMap (encBytes enc)).length + padding)) = H at *
  have hR' : ∀ w ∈ seenFrames ws padding, w.Coded version enc := fun w hw => hR w (by rw [hsl]; simp [hw])
  have h10 : ∀ l : List Wire, (∀ w ∈ l, w.Coded version enc) → 10 * l.length ≤ (l.flatMap (encBytes enc)).length := by
    intro l hl
    induction l with
    | nil => simp
    | cons w l ih =>
      have h1 := encBytes_length version enc w (hl w (by simp))
      have h2 := ih (fun x hx => hl x (by simp [hx]))
      simp only [List.flatMap_cons, List.length_append, List.length_cons]
      omega
  have hfr := h10 _ hR'
  have hstop : (ws.flatMap (encBytes enc)).length + padding ≤
      H.length + ((seenFrames ws padding).flatMap (encBytes enc)).length ∨
      ∃ post', ofB ((lostFrames ws padding).flatMap (encBytes enc) ++ List.replicate padding 0) =
        ofB [0, 0, 0, 0] ++ post' := by
    by_cases hp : padding ≤ 10
    · by_cases h0 : padding = 0
      · left
        rw [hlen, hH, h0]
        rw [h0] at hsp
        unfold seenPadding at hsp
        split at hsp
        · split at hsp <;> omega
        · omega
      · left
        have : lostFrames ws padding = [] := by unfold lostFrames; split <;> simp [h0]
        rw [hlen, hH, this]; simp; omega
    · right
      have hl : lostFrames ws padding = [] := by
        unfold lostFrames; split <;> simp; omega
      rw [hl]
      refine ⟨ofB (List.replicate (padding - 4) 0), ?_⟩
      have : List.replicate padding (0 : UInt8) = [0, 0, 0, 0] ++ List.replicate (padding - 4) 0 := by
        have : padding = 4 + (padding - 4) := by omega
        conv => lhs; rw [this, ← List.replicate_append_replicate]
        rfl
      rw [this]; simp
  have hloop := loop_exact version enc (seenFrames ws padding) H
    (ofB ((lostFrames ws padding).flatMap (encBytes enc) ++ List.replicate padding 0))
    ((ws.flatMap (encBytes enc)).length + padding) FrameList_new
    ((csAt H (ofB ((seenFrames ws padding).flatMap (encBytes enc)) ++
      ofB ((lostFrames ws padding).flatMap (encBytes enc) ++ List.replicate padding 0))).stream.length + 1) hR'
    (by omega)
    (by
      intro a w b hw
      have hl : ((seenFrames ws padding).flatMap (encBytes enc)).length =
          (a.flatMap (encBytes enc)).length + (encBytes enc w).length + (b.flatMap (encBytes enc)).length := by
        rw [hw]; simp; omega
      have hw1 := encBytes_length version enc w (hR' w (by rw [hw]; simp))
      have hb := h10 b (fun x hx => hR' x (by rw [hw]; simp [hx]))
      by_cases hp : 0 < padding
      · omega
      · by_cases hl0 : lostFrames ws padding = []
        · -- the last frame has a body
          rw [hl0, List.append_nil] at hsl
          cases b with
          | cons x xs => simp only [List.length_cons] at hb; omega
          | nil =>
            have hlast : ws.getLast? = some w := by rw [hsl, hw]; simp
            have hbody : w.body ≠ [] := by
              intro hbd
              unfold lostFrames at hl0
              rw [hlast] at hl0
              simp [hbd] at hl0
              omega
            have := List.length_pos_iff.mpr hbody
            omega
        · have : 1 ≤ (lostFrames ws padding).length := List.length_pos_iff.mpr hl0
          have h2 := h10 (lostFrames ws padding) (fun x hx => hR x (by rw [hsl]; simp [hx]))
          omega)
    hstop
    (by simp only [csAt, List.length_append, ofB_length]; omega)
  rw [hloop]
  unfold outcome
  cases hd : (seenFrames ws padding).findSome? Wire.defect with
  | some k => rfl
  | none =>
    simp only [Res.bind_ok]
    have hc : (csAt (H ++ ofB ((seenFrames ws padding).flatMap (encBytes enc)))
        (ofB ((lostFrames ws padding).flatMap (encBytes enc) ++ List.replicate padding 0))).size -
        (csAt (H ++ ofB ((seenFrames ws padding).flatMap (encBytes enc)))
        (ofB ((lostFrames ws padding).flatMap (encBytes enc) ++ List.replicate padding 0))).cursor =
        ((seenPadding ws padding : Nat) : Int) := by
      rw [hsp]; simp [csAt]; omega
    rw [hc, ck_nat (by omega)]
    have := parsedTag_toTag version minor flags ((ws.flatMap (encBytes enc)).length + padding)
      ((seenFrames ws padding).map Wire.kept) (seenPadding ws padding)
    rw [← this]
    simp [parsedTag, Function.comp_def]

end Id3
