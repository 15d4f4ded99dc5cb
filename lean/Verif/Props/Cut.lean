import Verif.Proof.Cut
import Verif.Props.Any
import Verif.Props.Stable
import Verif.Props.ReadExact
import Verif.Props.Concurrent

/-!
# Reading a file that has been cut off (C79)
-/

namespace Id3.Props

open Id3 Spec

theorem flat_size [Platform] {version : UInt8} {enc : Wire → List UInt8} {ws : List Wire} (h : ∀ w ∈ ws, w.Coded version enc) :
    (ws.flatMap (encBytes enc)).length = wireSize ws := by
  induction ws with
  | nil => rfl
  | cons w ws ih =>
    rw [List.flatMap_cons, List.length_append, encBytes_length version enc w (h w (by simp)),
      ih (fun x hx => h x (by simp [hx]))]
    simp [wireSize]

theorem wireSize_ge (l : List Wire) : l.length ≤ wireSize l := by
  unfold wireSize
  induction l with
  | nil => simp
  | cons x xs ih => simp at ih ⊢; omega

/-- The buffer that a shortened file is read into. -/
theorem cut_buffer (H B rest : List UInt8) (n : Nat) (hH : H.length = 10) (hn : 10 ≤ n) :
    padTo (10 + B.length) (ofB ((H ++ B ++ rest).take n)) =
      ofB H ++ cutBytes B (min (n - 10) B.length) (B.length - min (n - 10) B.length) := by
  unfold padTo cutBytes
  have e : (H ++ B ++ rest).take n = H ++ (B ++ rest).take (n - 10) := by
    rw [List.append_assoc, List.take_append, List.take_of_length_le (by omega), hH]
  rw [e, ofB_append, List.take_append, List.take_of_length_le (by simp; omega), List.append_assoc, ofB_length, hH,
    Nat.add_sub_cancel_left, ofB_take, List.take_take, Nat.min_comm,
    List.take_append_of_le_length (by omega)]
  congr 3
  simp only [List.length_append, ofB_length, hH, List.length_take]
  omega

theorem not_ok_ub [Platform] {version minor flags : UInt8} {size : Nat} {post : Bytes} {c : List UInt8}
    (hv : version = 3 ∨ version = 4) (hflag : flags &&& 0x40 = 0) (hs : size < 2 ^ 28) (ht : tagLength c ≠ 0)
    (he : padTo (tagLength c) (ofB c) = ofB (tagHeaderBytes version minor flags size) ++ post)
    (h : ∀ r, Tag_parse_loop (11 + post.length) (csAt (ofB (tagHeaderBytes version minor flags size)) post) size version
      FrameList_new ≠ .ok r) : ∃ k, ID3v2_read_tag (some (ofB c)) = .ub k := by
  rw [C67_file_undefined]
  refine ⟨ht, fun t ht' => ?_⟩
  rw [← tag_parse_iff (tail_padTo _ _) (by rw [padTo_length]; exact tagLength_lt c), he,
    tag_parse_start _ _ _ _ _ hv hflag hs] at ht'
  obtain ⟨r, hr, -⟩ := Res.bind_eq_ok.mp ht'
  exact h r hr

/-- Reading any part of a file, whatever way the sizes of the frames are coded. -/
theorem read_cut_coded [Platform] (version minor flags : UInt8) (enc : Wire → List UInt8) (ws : List Wire) (padding : Nat)
    (rest : List UInt8) (n : Nat) (hv : version = 3 ∨ version = 4) (hflag : flags &&& 0x40 = 0)
    (hR : ∀ w ∈ ws, w.Coded version enc) (hs : wireSize ws + padding < 2 ^ 28) :
    Does (ID3v2_read_tag (some (ofB ((encTagBytes version minor flags enc ws padding ++ rest).take n))))
      (readCut version minor flags ws padding n) := by
  unfold readCut
  dsimp only
  by_cases hn : n < 10
  · rw [if_pos hn]
    exact read_short _ (by simp; omega)
  rw [if_neg hn]
  have hfl := flat_size hR
  have hsl := seen_lost ws padding
  have hR' : ∀ w ∈ seenFrames ws padding, w.Coded version enc := fun w hw => hR w (by rw [hsl]; simp [hw])
  have hfs := flat_size hR'
  have hsp := seen_padding version enc ws padding hR
  have hlen : (ws.flatMap (encBytes enc)).length =
      ((seenFrames ws padding).flatMap (encBytes enc)).length +
        ((lostFrames ws padding).flatMap (encBytes enc)).length := by
    conv => lhs; rw [hsl, List.flatMap_append, List.length_append]
  have hfm : ws.flatMap (encBytes enc) = (seenFrames ws padding).flatMap (encBytes enc) ++
      (lostFrames ws padding).flatMap (encBytes enc) := by
    conv => lhs; rw [hsl, List.flatMap_append]
  have hpos := fun a w b hw => seen_pos (padding := padding) hR a w b hw
  have hlost : 10 < padding → lostFrames ws padding = [] := by
    intro hp
    unfold lostFrames; split <;> simp; omega
  generalize hB : ws.flatMap (encBytes enc) ++ List.replicate padding 0 = B
  have hBl : B.length = wireSize ws + padding := by rw [← hB]; simp [← hfl]
  generalize hH : tagHeaderBytes version minor flags (wireSize ws + padding) = H
  have hHl : H.length = 10 := by rw [← hH]; simp [tagHeaderBytes, synchsafe]
  have hF : encTagBytes version minor flags enc ws padding = H ++ B := by
    unfold encTagBytes; rw [hfl, hH, ← hB, List.append_assoc]
  rw [hF]
  generalize hc : (H ++ B ++ rest).take n = c
  have htl : tagLength c = 10 + B.length := by
    have : c = H ++ (B ++ rest).take (n - 10) := by
      rw [← hc, List.append_assoc, List.take_append, List.take_of_length_le (by omega), hHl]
    rw [this, ← hH, tagLength_header _ _ _ _ _ hv hs, hBl]
  have hbuf := cut_buffer H B rest n hHl (by omega)
  rw [hc, ← htl] at hbuf
  generalize hm : min (n - 10) B.length = m at hbuf
  have hml : m ≤ B.length := by omega
  have hpl : (cutBytes B m (B.length - m)).length = B.length := by simp [cutBytes]; omega
  have hread : ID3v2_read_tag (some (ofB c)) = Tag_parse (csAt [] (ofB H ++ cutBytes B m (B.length - m))) := by
    rw [file_buffer c (by omega), hbuf]
  have hub : (∀ r, Tag_parse_loop (11 + B.length) (csAt (ofB H) (cutBytes B m (B.length - m)))
      (wireSize ws + padding) version FrameList_new ≠ .ok r) → ∃ k, ID3v2_read_tag (some (ofB c)) = .ub k := by
    intro h
    refine not_ok_ub (minor := minor) hv hflag hs (by omega) (by rw [hH]; exact hbuf) ?_
    rw [hH, hpl]; exact h
  -- some frames that are complete, and then what is left
  have hinit : ∀ (a b : List Wire) (post : Bytes), seenFrames ws padding = a ++ b →
      cutBytes B m (B.length - m) = ofB (a.flatMap (encBytes enc)) ++ post →
      Tag_parse_loop (11 + B.length) (csAt (ofB H) (cutBytes B m (B.length - m))) (wireSize ws + padding) version FrameList_new =
        match a.findSome? Wire.defect with
        | some k => .ub k
        | none => Tag_parse_loop (11 + B.length - a.length) (csAt (ofB (H ++ a.flatMap (encBytes enc))) post)
            (wireSize ws + padding) version ((a.map (fun w => w.kept.toFrame)).foldl FrameList_add_frame FrameList_new) := by
    intro a b post hab hpost
    have hRa : ∀ w ∈ a, w.Coded version enc := fun w hw => hR' w (by rw [hab]; simp [hw])
    have hal : a.length ≤ (a.flatMap (encBytes enc)).length := by
      have : ∀ l : List Wire, (∀ w ∈ l, w.Coded version enc) → l.length ≤ (l.flatMap (encBytes enc)).length := by
        intro l hl
        induction l with
        | nil => simp
        | cons w l ih =>
          have h1 := encBytes_length version enc w (hl w (by simp))
          have h2 := ih (fun x hx => hl x (by simp [hx]))
          simp only [List.flatMap_cons, List.length_append, List.length_cons]
          omega
      exact this a hRa
    have hle : (a.flatMap (encBytes enc)).length ≤ B.length := by
      have := congrArg List.length hpost
      rw [hpl, List.length_append, ofB_length] at this
      omega
    have := loop_init version enc a (ofB H) post (wireSize ws + padding) FrameList_new (11 + B.length - a.length) hRa
      (by simp [hHl]; simp at hle; omega)
      (by
        intro x w y hxy
        have := hpos x w (y ++ b) (by rw [hab, hxy]; simp)
        rw [ofB_length, hHl]; omega)
    rw [show 11 + B.length - a.length + a.length = 11 + B.length from by omega, ← hpost] at this
    rw [this]
    cases a.findSome? Wire.defect <;> simp [ofB_append]
  by_cases hcomp : 10 + wireSize (seenFrames ws padding) + (if 10 < padding then 4 else 0) ≤ n
  · rw [if_pos hcomp]
    have hge : wireSize (seenFrames ws padding) + (if 10 < padding then 4 else 0) ≤ m := by
      have : wireSize (seenFrames ws padding) + (if 10 < padding then 4 else 0) ≤ B.length := by
        rw [hBl, ← hfl, hlen, hfs]; split <;> omega
      omega
    generalize hL : (lostFrames ws padding).flatMap (encBytes enc) ++ List.replicate padding 0 = L at *
    have hBs : B = (seenFrames ws padding).flatMap (encBytes enc) ++ L := by
      rw [← hB, hfm, ← hL, List.append_assoc]
    have hpost : cutBytes B m (B.length - m) = ofB ((seenFrames ws padding).flatMap (encBytes enc)) ++
        cutBytes L (m - wireSize (seenFrames ws padding)) (B.length - m) := by
      conv => lhs; rw [hBs]
      rw [cut_split _ _ _ _ (by omega), hfs, ← hBs]
    have hloop := loop_exact version enc (seenFrames ws padding) (ofB H)
      (cutBytes L (m - wireSize (seenFrames ws padding)) (B.length - m))
      (wireSize ws + padding) FrameList_new (11 + B.length) hR'
      (by rw [ofB_length, hHl]; omega)
      (by intro a w b hw; have := hpos a w b hw; rw [ofB_length, hHl]; omega)
      (by
        by_cases hp : 10 < padding
        · right
          rw [if_pos hp] at hge
          have hl := hlost hp
          refine ⟨cutBytes (List.replicate (padding - 4) 0) (m - wireSize (seenFrames ws padding) - 4) (B.length - m), ?_⟩
          have hL' : L = [0, 0, 0, 0] ++ List.replicate (padding - 4) 0 := by
            rw [← hL, hl]
            have : padding = 4 + (padding - 4) := by omega
            conv => lhs; rw [this, ← List.replicate_append_replicate]
            rfl
          rw [hL', cut_split _ _ _ _ (by simp; omega)]
          rfl
        · left
          rw [ofB_length, hHl, ← hfl, hlen]
          by_cases h0 : padding = 0
          · unfold seenPadding at hsp
            rw [h0] at hsp ⊢
            split at hsp
            · split at hsp <;> omega
            · omega
          · have : lostFrames ws padding = [] := by unfold lostFrames; split <;> simp [h0]
            rw [this]; simp; omega)
      (by
        have : (seenFrames ws padding).length ≤ ((seenFrames ws padding).flatMap (encBytes enc)).length := by
          rw [hfs]; exact wireSize_ge _
        omega)
    rw [hread, ← hH, tag_parse_start _ _ _ _ _ hv hflag hs, hH, hpl, hpost, hloop]
    cases hd : (seenFrames ws padding).findSome? Wire.defect with
    | some k => rw [if_neg (by simp)]; exact ⟨k, rfl⟩
    | none =>
      rw [if_pos rfl]
      simp only [Res.bind_ok, Does]
      have hck : (csAt (ofB H ++ ofB ((seenFrames ws padding).flatMap (encBytes enc)))
          (cutBytes L (m - wireSize (seenFrames ws padding)) (B.length - m))).size -
          (csAt (ofB H ++ ofB ((seenFrames ws padding).flatMap (encBytes enc)))
          (cutBytes L (m - wireSize (seenFrames ws padding)) (B.length - m))).cursor =
          ((seenPadding ws padding : Nat) : Int) := by
        have := congrArg List.length hpost
        rw [hpl, List.length_append, ofB_length] at this
        have hx : (cutBytes L (m - wireSize (seenFrames ws padding)) (B.length - m)).length = seenPadding ws padding := by
          rw [hsp]; omega
        rw [← hx]
        simp only [csAt, List.length_append]
        omega
      rw [hck, ck_nat (by omega)]
      have := parsedTag_toTag version minor flags (wireSize ws + padding)
        ((seenFrames ws padding).map Wire.kept) (seenPadding ws padding)
      rw [← this]
      simp [parsedTag, Function.comp_def, toTag]
  rw [if_neg hcomp]
  by_cases hp : 10 < padding
  · rw [if_pos hp]
    rw [if_pos hp] at hcomp
    refine hub fun r => ?_
    have hl := hlost hp
    rw [hl, List.append_nil] at hsl
    have hm' : m = n - 10 := by
      have : wireSize (seenFrames ws padding) = wireSize ws := by rw [← hsl]
      omega
    rw [← hsl] at hinit hcomp
    by_cases hL : wireSize ws ≤ m
    · have hpost : cutBytes B m (B.length - m) = ofB (ws.flatMap (encBytes enc)) ++
          cutBytes ((List.replicate padding 0).take (m - wireSize ws)) (m - wireSize ws) (B.length - m) := by
        conv => lhs; rw [← hB]
        rw [cut_split _ _ _ _ (by omega), hfl, hB]
        unfold cutBytes
        rw [List.take_take, Nat.min_self]
      rw [hinit ws [] _ (by simp) hpost]
      split
      · intro e; cases e
      · have hxl : ((List.replicate padding (0 : UInt8)).take (m - wireSize ws)).length = m - wireSize ws := by
          simp; omega
        have := loop_nothing (version := version) (size := wireSize ws + padding) (11 + B.length - ws.length)
          (pre := ofB (H ++ ws.flatMap (encBytes enc))) (x := (List.replicate padding 0).take (m - wireSize ws))
          (k := B.length - m) (l := (ws.map (fun w => w.kept.toFrame)).foldl FrameList_add_frame FrameList_new)
          (tail_known _ _ _ _) (by omega) (by simp [hHl]) (by rw [hxl, ofB_length, List.length_append]; omega)
          (by rw [ofB_length, List.length_append]; omega) r
        rw [hxl] at this
        exact this
    · obtain ⟨a, w, b, hab, h1, h2, h3⟩ := flat_cut enc ws (List.replicate padding 0) m (by omega)
      rw [hB] at h3
      rw [hinit a (w :: b) _ hab (h3 _)]
      have hle : (a.flatMap (encBytes enc)).length + (encBytes enc w).length ≤ wireSize ws := by
        rw [← hfl, hab]; simp
      split
      · intro e; cases e
      · exact loop_cut (hR w (by rw [hab]; simp)) h2 (by omega) (by simp [hHl]) (by rw [List.length_append]; omega)
          (by rw [List.length_append]; omega) r
  · rw [if_neg hp]
    rw [if_neg hp, Nat.add_zero] at hcomp
    have hm' : m = n - 10 := by omega
    obtain ⟨a, w, b, hab, h1, h2, h3⟩ := flat_cut enc (seenFrames ws padding)
      ((lostFrames ws padding).flatMap (encBytes enc) ++ List.replicate padding 0) m (by omega)
    rw [← List.append_assoc, ← hfm, hB] at h3
    have hRa : ∀ x ∈ a, x.Coded version enc := fun x hx => hR' x (by rw [hab]; simp [hx])
    have hal := flat_size hRa
    have hwR := hR' w (by rw [hab]; simp)
    have hle : (a.flatMap (encBytes enc)).length + (encBytes enc w).length + (b.flatMap (encBytes enc)).length =
        wireSize (seenFrames ws padding) := by
      rw [← hfs, hab]; simp; omega
    have hi := hinit a (w :: b) _ hab (h3 _)
    have hposw := hpos a w b hab
    cases b with
    | cons x b =>
      -- another frame is looked for after this one
      have hRb : ∀ y ∈ (x :: b), y.Coded version enc := fun y hy => hR' y (by rw [hab]; simp at hy ⊢; simp [hy])
      have hnext := hpos (a ++ [w]) x b (by rw [hab]; simp)
      have hnone : ∃ k, ID3v2_read_tag (some (ofB c)) = .ub k := by
        refine hub fun r => ?_
        rw [hi]
        split
        · intro e; cases e
        · refine loop_cut hwR h2 ?_ (by simp [hHl]) (by rw [List.length_append]; omega) ?_ r
          · omega
          · rw [List.flatMap_append, List.length_append, List.flatMap_cons, List.flatMap_nil, List.append_nil] at hnext
            rw [List.length_append]; omega
      obtain ⟨last, init, hlast⟩ : ∃ last init, x :: b = init ++ [last] :=
        ⟨(x :: b).getLast (by simp), (x :: b).dropLast, (List.dropLast_concat_getLast (by simp)).symm⟩
      rw [hab, hlast, show a ++ w :: (init ++ [last]) = (a ++ w :: init) ++ [last] from by simp,
        List.getLast?_concat]
      dsimp only
      rw [List.dropLast_concat]
      have hst : n < 10 + wireSize (a ++ w :: init) := by
        rw [← flat_size (version := version) (enc := enc) (ws := a ++ w :: init)]
        · rw [List.flatMap_append, List.flatMap_cons, List.length_append, List.length_append]
          omega
        · intro y hy
          refine hR' y ?_
          rw [hab, hlast]
          simp at hy ⊢
          rcases hy with h | h | h <;> simp [h]
      rw [if_pos hst]
      exact hnone
    | nil =>
      rw [hab, List.getLast?_concat]
      dsimp only
      rw [List.dropLast_concat, if_neg (by omega)]
      cases hd : a.findSome? Wire.defect with
      | some k =>
        rw [if_pos (by simp)]
        refine hub fun r => ?_
        rw [hi, hd]
        intro e; cases e
      | none =>
        rw [if_neg (by simp)]
        rw [hd] at hi
        dsimp only at hi
        have hst : n - (10 + wireSize a) = m - (a.flatMap (encBytes enc)).length := by omega
        rw [hst]
        cases hcut : w.readCut (m - (a.flatMap (encBytes enc)).length) with
        | none =>
          refine hub fun r => ?_
          rw [hi]
          exact loop_cut_none hwR h2 (by simp [hHl]) (by rw [List.length_append]; omega) (by omega)
            (by rw [List.length_append]; omega) hcut r
        | some f =>
          have hal2 := wireSize_ge a
          have hfuel : 11 + B.length - a.length = (10 + B.length - a.length) + 1 := by omega
          obtain ⟨p, hpl', -, hloop⟩ := loop_cut_some (fuel := 10 + B.length - a.length)
            (l := (a.map (fun w => w.kept.toFrame)).foldl FrameList_add_frame FrameList_new)
            (pre := H ++ a.flatMap (encBytes enc)) (size := wireSize ws + padding) (k := B.length - m) hwR h2 (by omega)
            (by rw [List.length_append]; omega) (by rw [List.length_append]; omega) hcut
          rw [hfuel, hloop] at hi
          have hfuel2 : ∃ q, 10 + B.length - a.length = q + 1 := ⟨9 + B.length - a.length, by omega⟩
          obtain ⟨q, hq⟩ := hfuel2
          generalize hnon : m - (a.flatMap (encBytes enc)).length + (B.length - m) - (encBytes enc w).length = z at hi
          have hz : z = seenPadding ws padding := by
            rw [hsp]; simp only [List.flatMap_nil, List.length_nil] at hle; omega
          have hcur : u32 (csAt p (List.replicate z none)).cursor = p.length := u32_cursor (by
            rw [hpl', List.length_append]; omega)
          have hstop : wireSize ws + padding ≤ p.length := by
            rw [hpl', List.length_append, hHl]
            simp only [List.flatMap_nil, List.length_nil] at hle
            by_cases h0 : padding = 0
            · subst h0
              clear hz hnon
              unfold seenPadding at hsp
              split at hsp
              · split at hsp <;> omega
              · omega
            · have : lostFrames ws padding = [] := by unfold lostFrames; split <;> simp [h0]
              rw [this] at hlen; simp only [List.flatMap_nil, List.length_nil] at hlen; omega
          rw [hq] at hi
          conv at hi => rhs; unfold Tag_parse_loop
          rw [hcur, if_neg (by omega)] at hi
          rw [hread, ← hH, tag_parse_start _ _ _ _ _ hv hflag hs, hH, hpl, hi]
          simp only [Res.bind_ok, Does]
          have hck : (csAt p (List.replicate z none)).size - (csAt p (List.replicate z none)).cursor =
              ((seenPadding ws padding : Nat) : Int) := by
            simp only [csAt, List.length_append, List.length_replicate]; omega
          rw [hck, ck_nat (by omega), ← foldl_frames_nodes, List.foldl_append]
          rfl

/-- **C79**: reading the first `n` bytes of any file that begins with a tag of well-formed frames, for every `n`. -/
theorem read_cut_exact [Platform] (version minor flags : UInt8) (ws : List Wire) (padding : Nat) (rest : List UInt8) (n : Nat)
    (hv : version = 3 ∨ version = 4) (hflag : flags &&& 0x40 = 0) (hR : ∀ w ∈ ws, w.Sane version)
    (hs : wireSize ws + padding < 2 ^ 28) :
    Does (ID3v2_read_tag (some (ofB ((wireTagBytes version minor flags ws padding ++ rest).take n))))
      (readCut version minor flags ws padding n) :=
  read_cut_coded version minor flags (fun w => sizeBytes version w.sizeField) ws padding rest n hv hflag
    (fun w hw => sane_coded version w (hR w hw)) hs

theorem seenFrames_map {g : SFrame → Wire} (hb : ∀ f, (g f).body = f.body) (fs : List SFrame) (padding : Nat) :
    seenFrames (fs.map g) padding = (seenBack fs padding).map g ∧
    seenPadding (fs.map g) padding = if LastLost fs padding then 10 else padding := by
  unfold seenFrames seenPadding seenBack
  rw [List.getLast?_map]
  by_cases hl : LastLost fs padding
  · rw [if_pos hl, if_pos hl]
    obtain ⟨h0, f, hf, hf'⟩ := hl
    rw [hf]
    simp only [Option.map_some]
    rw [if_pos ⟨h0, by rw [hb]; exact hf'⟩, if_pos ⟨h0, by rw [hb]; exact hf'⟩, List.map_dropLast]
    exact ⟨rfl, rfl⟩
  · rw [if_neg hl, if_neg hl]
    cases h : fs.getLast? with
    | none => exact ⟨rfl, rfl⟩
    | some f =>
      simp only [Option.map_some]
      have hn : ¬ (padding = 0 ∧ (g f).body = []) := fun hh => hl ⟨hh.1, f, h, by rw [← hb]; exact hh.2⟩
      rw [if_neg hn, if_neg hn]
      exact ⟨rfl, rfl⟩

theorem wireSize_map {g : SFrame → Wire} (hb : ∀ f, (g f).body = f.body) (l : List SFrame) :
    wireSize (l.map g) = (l.map (fun f => 10 + f.body.length)).sum := by
  unfold wireSize
  rw [List.map_map]
  congr 2
  funext f
  simp [hb]

theorem defects_map [Platform] {g : SFrame → Wire} (hd : ∀ f, (g f).defect = f.defect) (l : List SFrame) :
    (l.map g).findSome? Wire.defect = l.findSome? SFrame.defect := by
  induction l with
  | nil => rfl
  | cons f l ih => simp only [List.map_cons, List.findSome?_cons, hd, ih]

theorem kept_map {g : SFrame → Wire} (hk : ∀ f, (g f).kept = f) (l : List SFrame) : (l.map g).map Wire.kept = l := by
  induction l with
  | nil => rfl
  | cons f l ih => simp only [List.map_cons, hk]; rw [ih]

theorem framesSize_bodies {l : List SFrame} (h : ∀ f ∈ l, f.WF) :
    (l.map (fun f => 10 + f.body.length)).sum = framesSize l := by
  unfold framesSize
  induction l with
  | nil => rfl
  | cons f l ih =>
    rw [List.map_cons, List.map_cons, List.sum_cons, List.sum_cons, ih (fun x hx => h x (by simp [hx])),
      SFrame.bytes_length f (h f (by simp))]

/-- What is done with the first `n` bytes of a file that the library has written. -/
theorem readCut_map [Platform] {g : SFrame → Wire} (hb : ∀ f, (g f).body = f.body) (hd : ∀ f, (g f).defect = f.defect)
    (hk : ∀ f, (g f).kept = f) (hc : ∀ f m, (g f).readCut m = (Wire.ofSFrame f).readCut m) (version minor flags : UInt8)
    (fs : List SFrame) (padding n : Nat) :
    readCut version minor flags (fs.map g) padding n = readCut version minor flags (fs.map Wire.ofSFrame) padding n := by
  unfold readCut
  obtain ⟨a1, a2⟩ := seenFrames_map hb fs padding
  obtain ⟨b1, b2⟩ := seenFrames_map ofSFrame_body fs padding
  have hk' : ∀ l : List SFrame, (l.map g).map (fun w => w.kept.toFrame) =
      (l.map Wire.ofSFrame).map (fun w => w.kept.toFrame) := by
    intro l
    rw [List.map_map, List.map_map]
    congr 1
    funext f
    simp only [Function.comp, hk]
    cases f <;> rfl
  have hk2 : ∀ f, (Wire.ofSFrame f).kept = f := by intro f; cases f <;> rfl
  rw [a1, a2, b1, b2]
  dsimp only
  generalize seenBack fs padding = l
  rw [wireSize_map hb, wireSize_map ofSFrame_body, wireSize_map hb, wireSize_map ofSFrame_body, defects_map hd, defects_map defect_ofSFrame,
    kept_map hk, kept_map hk2, List.getLast?_map, List.getLast?_map]
  cases l.getLast? with
  | none => rfl
  | some f =>
    simp only [Option.map_some]
    rw [← List.map_dropLast, ← List.map_dropLast, wireSize_map hb, wireSize_map ofSFrame_body, defects_map hd, defects_map defect_ofSFrame, hc, hk']

/-- **C79** for files that the library has written. -/
theorem read_cut_written [Platform] (version minor flags : UInt8) (fs : List SFrame) (padding : Nat) (rest : List UInt8) (n : Nat)
    (hv : version = 3 ∨ version = 4) (hflag : flags &&& 0x40 = 0) (hu : ∀ f ∈ fs, f.Usable)
    (hsm : ∀ f ∈ fs, SmallIn version f) (hs : framesSize fs + padding < 2 ^ 28) :
    Does (ID3v2_read_tag (some (ofB ((outBytes version minor flags fs padding ++ rest).take n))))
      (readCut version minor flags (fs.map Wire.ofSFrame) padding n) := by
  have hflat : (fs.map (asWritten version)).flatMap (encBytes (fun w => be32 w.body.length)) = fs.flatMap SFrame.bytes := by
    rw [List.flatMap_map]
    congr 1
    funext f
    exact asWritten_bytes version f
  have hR : ∀ w ∈ fs.map (asWritten version), w.Coded version (fun w => be32 w.body.length) := by
    intro w hw
    obtain ⟨f, hf, rfl⟩ := List.mem_map.mp hw
    exact asWritten_coded version f hv (hu f hf) (hsm f hf)
  have hsz : wireSize (fs.map (asWritten version)) = framesSize fs := by
    rw [wireSize_map (asWritten_body version), framesSize_bodies (fun f hf => (hu f hf).1)]
  have e : outBytes version minor flags fs padding =
      encTagBytes version minor flags (fun w => be32 w.body.length) (fs.map (asWritten version)) padding := by
    unfold outBytes encTagBytes
    rw [flat_size hR, hsz, hflat]
  have h := read_cut_coded version minor flags (fun w => be32 w.body.length) (fs.map (asWritten version)) padding rest n hv hflag
    hR (by rw [hsz]; exact hs)
  rw [← e, readCut_map (asWritten_body version) (asWritten_defect version) (asWritten_kept version) (by
    intro f m; cases f <;> rfl)] at h
  exact h

theorem none_not_ofB {a : List UInt8} {n : Nat} (h : a.length < n) (b : List UInt8) : padTo n (ofB a) ≠ ofB b := by
  intro e
  have hm : (none : MByte) ∈ padTo n (ofB a) := by
    unfold padTo
    simp [ofB]
    right; omega
  rw [e] at hm
  simp [ofB] at hm

/-- A frame that the library has written and that is not complete is not returned as it was. -/
theorem cut_frame_ne [Platform] {f : SFrame} (hw : f.WF) {m : Nat} (hm : m < 10 + f.body.length) {g : Frame}
    (h : (Wire.ofSFrame f).readCut m = some g) : g ≠ f.toFrame := by
  intro e
  subst e
  cases f with
  | text id flags s =>
    simp only [Wire.ofSFrame, Wire.readCut] at h
    split at h
    · next hc => simp only [SFrame.body, List.length_cons] at hm; omega
    · cases h
  | comment => cases h
  | apic flags mime pt desc pic =>
    simp only [Wire.ofSFrame, Wire.readCut] at h
    split at h
    · next hc =>
      simp only [SFrame.toFrame, Option.some.injEq, Frame.mk.injEq, Payload.apic.injEq, ApicFrameData.mk.injEq, true_and, and_true] at h
      refine none_not_ofB ?_ pic h
      simp only [SFrame.body, List.length_cons, List.length_append, List.cons_append] at hm
      rw [List.length_take]; omega
    · cases h
  | other id flags data =>
    simp only [Wire.ofSFrame, Wire.readCut] at h
    split at h
    · next hc =>
      simp only [SFrame.toFrame, SFrame.id, SFrame.flags, SFrame.body, Option.some.injEq, Frame.mk.injEq, Payload.raw.injEq, FrameHeader.mk.injEq, true_and] at h
      simp only [SFrame.body] at hm
      by_cases hd : m < 10
      · refine none_not_ofB ?_ flags h.1
        rw [List.length_take]; omega
      · refine none_not_ofB ?_ data h.2
        rw [List.length_take]; omega
    · cases h

theorem does_ok {α : Type} {x : Res α} {a : α} (h : Does x (some a)) : x = .ok a := h

/-- **C79, C58**: a file that the library has written is still read as the complete file exactly if `needed` bytes of it are
there. With fewer bytes it is not a tag (fewer than ten), the behaviour is undefined, or the last frame comes back with
indeterminate bytes. -/
theorem read_cut_same_iff [Platform] (version minor flags : UInt8) (fs : List SFrame) (padding : Nat) (rest : List UInt8) (n : Nat)
    (hv : version = 3 ∨ version = 4) (hflag : flags &&& 0x40 = 0) (hu : ∀ f ∈ fs, f.Usable)
    (hsm : ∀ f ∈ fs, SmallIn version f) (hs : framesSize fs + padding < 2 ^ 28)
    (hd : ∀ f ∈ fs, f.defect = none) :
    ID3v2_read_tag (some (ofB ((outBytes version minor flags fs padding ++ rest).take n))) =
        ID3v2_read_tag (some (ofB (outBytes version minor flags fs padding ++ rest))) ↔ needed fs padding ≤ n := by
  have hcut := fun n => read_cut_written version minor flags fs padding rest n hv hflag hu hsm hs
  have hseen : ∀ f ∈ seenBack fs padding, f ∈ fs := by
    intro f hf
    unfold seenBack at hf
    split at hf
    · exact List.dropLast_subset _ hf
    · exact hf
  obtain ⟨a1, a2⟩ := seenFrames_map ofSFrame_body fs padding
  have hk2 : ∀ f, (Wire.ofSFrame f).kept = f := by intro f; cases f <;> rfl
  have hsz : wireSize ((seenBack fs padding).map Wire.ofSFrame) = framesSize (seenBack fs padding) := by
    rw [wireSize_map ofSFrame_body, framesSize_bodies (fun f hf => (hu f (hseen f hf)).1)]
  have hdef : (seenBack fs padding).findSome? SFrame.defect = none :=
    List.findSome?_eq_none_iff.mpr (fun f hf => hd f (hseen f hf))
  have key : ∀ n, needed fs padding ≤ n → readCut version minor flags (fs.map Wire.ofSFrame) padding n =
      some (some (toTag version minor flags (wireSize (fs.map Wire.ofSFrame) + padding) (seenBack fs padding)
        (seenPadding (fs.map Wire.ofSFrame) padding))) := by
    intro n hn
    unfold needed at hn
    unfold readCut
    dsimp only
    rw [if_neg (by omega), a1, if_pos (by rw [hsz]; exact hn), defects_map defect_ofSFrame, if_pos hdef, kept_map hk2]
  have hwhole : ID3v2_read_tag (some (ofB (outBytes version minor flags fs padding ++ rest))) =
      .ok (some (toTag version minor flags (wireSize (fs.map Wire.ofSFrame) + padding) (seenBack fs padding)
        (seenPadding (fs.map Wire.ofSFrame) padding))) := by
    have h := hcut (max (needed fs padding) (outBytes version minor flags fs padding ++ rest).length)
    rw [key _ (Nat.le_max_left _ _), List.take_of_length_le (Nat.le_max_right _ _)] at h
    exact h
  constructor
  · intro e
    rw [hwhole] at e
    have h := hcut n
    rcases Nat.lt_or_ge n (needed fs padding) with hn | hn
    · exfalso
      rw [e] at h
      unfold needed at hn
      unfold readCut at h
      dsimp only at h
      rw [a1] at h
      by_cases h10 : n < 10
      · rw [if_pos h10] at h; cases h
      rw [if_neg h10, if_neg (by rw [hsz]; omega)] at h
      by_cases hp : 10 < padding
      · rw [if_pos hp] at h; obtain ⟨k, h⟩ := h; cases h
      rw [if_neg hp] at h
      cases hl : (seenBack fs padding).getLast? with
      | none =>
        rw [List.getLast?_map, hl] at h
        obtain ⟨k, h⟩ := h; cases h
      | some f =>
        obtain ⟨init, hl'⟩ := List.getLast?_eq_some_iff.mp hl
        rw [hl', List.map_append, List.map_cons, List.map_nil, List.getLast?_concat] at h
        dsimp only at h
        rw [List.dropLast_concat] at h
        split at h
        · obtain ⟨k, h⟩ := h; cases h
        · next hst =>
          split at h
          · obtain ⟨k, h⟩ := h; cases h
          · cases hg : (Wire.ofSFrame f).readCut (n - (10 + wireSize (init.map Wire.ofSFrame))) with
            | none => rw [hg] at h; obtain ⟨k, h⟩ := h; cases h
            | some g =>
              rw [hg] at h
              have h := Res.ok.inj (does_ok h)
              have hfr := congrArg (fun t => (t.map Tag.frames)) h
              simp only [Option.map_some, Option.some.injEq, toTag] at hfr
              have hwf := (hu f (hseen f (by rw [hl']; simp))).1
              have hin : wireSize (init.map Wire.ofSFrame) = framesSize init := by
                rw [wireSize_map ofSFrame_body, framesSize_bodies (fun x hx => (hu x (hseen x (by rw [hl']; simp [hx]))).1)]
              refine cut_frame_ne hwf (m := n - (10 + wireSize (init.map Wire.ofSFrame))) ?_ hg ?_
              · have : framesSize (seenBack fs padding) = framesSize init + (10 + f.body.length) := by
                  rw [hl', ← SFrame.bytes_length f hwf]; simp [framesSize]
                rw [if_neg hp] at hn
                omega
              · have e1 : toFrameList (init ++ [f]) = (init ++ [f]).map (fun f => some f.toFrame) := by
                  cases init <;> rfl
                have e2 : ∀ l : List Frame, Spec.nodes (l ++ [g]) = (l ++ [g]).map some := by
                  intro l; cases l <;> rfl
                rw [e1, e2, List.map_append, List.map_append] at hfr
                have := (List.append_inj' hfr rfl).2
                simp at this
                exact this.symm
    · exact hn
  · intro hn
    have h := hcut n
    rw [key n hn] at h
    rw [hwhole]; exact h

/-- **C58**, exactly: the process dies while `ID3v2_write_tag` writes a tag. What is left is the old file or the first bytes of
the new one, every number of bytes is possible, and this is what reading does with them. -/
theorem crash_read_exact [Platform] (contents : List UInt8) (version minor flags : UInt8) (fs : List SFrame) (padding : Nat)
    (p : Int) (hv : version = 3 ∨ version = 4) (hflag : flags &&& 0x40 = 0) (hu : ∀ f ∈ fs, f.Usable)
    (hsm : ∀ f ∈ fs, SmallIn version f) (hs : framesSize fs + padding < 2 ^ 28) (hp : 0 ≤ p) (hp2 : p ≤ 2147483647) :
    ∃ cs, Tag_to_char_stream (toTag version minor flags (framesSize fs + padding) fs p) = .ok cs ∧
      (∀ left, (∃ s, IOSteps false (writeStart (ofB contents) cs.stream (tagLength contents)) s ∧ s.dest = left) ↔
        left = ofB contents ∨ ∃ n, left = ofB ((outBytes version minor flags fs padding ++ audio contents).take n)) ∧
      ∀ n, Does (ID3v2_read_tag (some (ofB ((outBytes version minor flags fs padding ++ audio contents).take n))))
        (readCut version minor flags (fs.map Wire.ofSFrame) padding n) := by
  obtain ⟨cs, h1, -, -⟩ := toTag_out version minor flags (framesSize fs + padding) fs p hu hs (by omega)
  obtain ⟨tag', hw, -⟩ := write_read_exact contents version minor flags fs padding p hv hflag hu hsm hs hp hp2
  refine ⟨cs, h1, fun left => ?_, fun n => read_cut_written version minor flags fs padding _ n hv hflag hu hsm hs⟩
  rw [write_crash_exact (ofB contents) _ tag' _ (tagLength contents) cs rfl (existing_size contents) h1 hw]
  constructor
  · rintro (h | h)
    · exact .inl h
    · refine .inr ⟨left.length, ?_⟩
      rw [← ofB_take]
      exact (List.prefix_iff_eq_take.mp h)
  · rintro (h | ⟨n, rfl⟩)
    · exact .inl h
    · refine .inr ?_
      rw [← ofB_take]
      exact List.take_prefix _ _

/-! ## Concrete files -/

/-- Two frames and 20 bytes of padding: 10 + 14 + 12 + 20 bytes. -/
def cutFrames : List SFrame :=
  [.text [0x54, 0x49, 0x54, 0x32] [0, 0] (.latin [0x41, 0x42]), .other [0x58, 0x59, 0x5A, 0x57] [0, 0] [7, 8]]

/-- The hypotheses of `read_cut_written` and `read_cut_same_iff` hold for it: everything is read as long as 40 bytes are there … -/
example (n : Nat) : @ID3v2_read_tag strict (some (ofB ((outBytes 3 0 0 cutFrames 20 ++ [0xFF, 0xFB]).take n))) =
    @ID3v2_read_tag strict (some (ofB (outBytes 3 0 0 cutFrames 20 ++ [0xFF, 0xFB]))) ↔ 40 ≤ n :=
  @read_cut_same_iff strict 3 0 0 cutFrames 20 [0xFF, 0xFB] n (.inl rfl) (by decide) (by decide)
    (fun _ _ h => absurd h (by decide)) (by decide) (by decide)

/-- … between the tag header and that point the behaviour is undefined … -/
example (n : Nat) (h : 10 ≤ n) (h' : n < 40) :
    ∃ k, @ID3v2_read_tag strict (some (ofB ((outBytes 3 0 0 cutFrames 20 ++ [0xFF, 0xFB]).take n))) = .ub k := by
  have := @read_cut_written strict 3 0 0 cutFrames 20 [0xFF, 0xFB] n (.inl rfl) (by decide) (by decide)
    (fun _ _ h => absurd h (by decide)) (by decide)
  have e : @readCut strict 3 0 0 (cutFrames.map Wire.ofSFrame) 20 n = none := by
    unfold readCut
    dsimp only
    have h1 : wireSize (seenFrames (cutFrames.map Wire.ofSFrame) 20) = 26 := by decide
    rw [if_neg (by omega), h1, if_neg (by simp; omega), if_pos (by omega)]
  rw [e] at this
  exact this

/-- … and without padding a file that ends in the data of the last frame is read with a byte that nobody has written. -/
example : @ID3v2_read_tag strict (some (ofB ((outBytes 3 0 0 cutFrames 0).take 35))) =
    .ok (some { toTag 3 0 0 26 [] 0 with frames :=
      [some (SFrame.text [0x54, 0x49, 0x54, 0x32] [0, 0] (.latin [0x41, 0x42])).toFrame,
       some { header := { id := ofB [0x58, 0x59, 0x5A, 0x57], size := 2, flags := ofB [0, 0] }, data := .raw [some 7, none] }] }) := by
  have := @read_cut_written strict 3 0 0 cutFrames 0 [] 35 (.inl rfl) (by decide) (by decide)
    (fun _ _ h => absurd h (by decide)) (by decide)
  rw [List.append_nil] at this
  exact this

end Id3.Props
