import Verif.Props.More
import Verif.Proof.V24All

/-!
# C52: unsynchronised texts in UTF-16
-/

namespace Id3

open Spec

/-- The parser loop over readable chunks, followed by anything. -/
theorem loop_prefix [Platform] (version : UInt8) (cs : List (List UInt8 × Frame)) (pre post : Bytes) (tagSize : Nat)
    (acc : FrameList) (fuel : Nat) (hR : ∀ c ∈ cs, Parses version c.1 c.2)
    (hlen : pre.length + (chunksFlat cs).length ≤ 2147483647)
    (hpos : ∀ cs1 c cs2, cs = cs1 ++ c :: cs2 → pre.length + (chunksFlat cs1).length < tagSize)
    (r : FrameList × CharStream)
    (h : Tag_parse_loop fuel (csAt pre (ofB (chunksFlat cs) ++ post)) tagSize version acc = .ok r) :
    ∃ gs : List Frame, r.1 = (cs.map (fun c => c.2) ++ gs).foldl FrameList_add_frame acc := by
  induction cs generalizing pre acc fuel with
  | nil => exact loop_adds _ _ _ _ _ _ h
  | cons c cs ih =>
    cases fuel with
    | zero => cases h
    | succ fuel =>
      simp only [chunksFlat_cons, ofB_append, List.length_append, List.append_assoc] at *
      unfold Tag_parse_loop at h
      have hc : u32 (csAt pre (ofB c.1 ++ (ofB (chunksFlat cs) ++ post))).cursor = pre.length := u32_cursor (by omega)
      have h0 := hpos [] c cs rfl
      simp only [chunksFlat_nil, List.length_nil, Nat.add_zero] at h0
      rw [hc, if_pos h0, (hR c (by simp)).2 _ _ (by omega)] at h
      simp only [Res.bind_ok] at h
      obtain ⟨gs, hg⟩ := ih (pre := pre ++ ofB c.1) _ _ (fun x hx => hR x (by simp [hx]))
        (by simp only [List.length_append, ofB_length]; omega) (by
          intro cs1 x cs2 hx
          have := hpos (c :: cs1) x cs2 (by rw [hx]; rfl)
          simp at this ⊢; omega) h
      exact ⟨gs, by rw [hg]; rfl⟩

theorem unsync_split (a : List UInt8) (x : UInt8) (b : List UInt8) (hx : x ≠ 0xFF) :
    unsync (a ++ x :: b) = unsync (a ++ [x]) ++ unsync b := by
  induction a with
  | nil =>
    cases b with
    | nil => rfl
    | cons y b =>
      simp only [List.nil_append, unsync]
      rw [if_neg (fun h => hx h.1)]
      rfl
  | cons c a ih =>
    cases a with
    | nil =>
      simp only [List.cons_append, List.nil_append, unsync] at ih ⊢
      split <;> simp [ih]
    | cons d a =>
      simp only [List.cons_append, unsync] at ih ⊢
      split <;> simp [ih]

theorem unsync_length (a : List UInt8) : a.length ≤ (unsync a).length := by
  induction a with
  | nil => simp
  | cons c a ih =>
    cases a with
    | nil => simp [unsync]
    | cons d a =>
      simp only [unsync]
      split <;> simp only [List.length_cons] at ih ⊢ <;> omega

theorem units_length (units : List (UInt8 × UInt8)) : (units.flatMap (fun u => [u.1, u.2])).length = 2 * units.length := by
  induction units with
  | nil => rfl
  | cons u us ih => simp only [List.flatMap_cons, List.length_append, ih, List.length_cons, List.length_nil]; omega

theorem utf16_body_length (id fl : List UInt8) (units : List (UInt8 × UInt8)) :
    (SFrame.text id fl (.utf16 true units)).body.length = 5 + 2 * units.length := by
  have := units_length units
  simp only [SFrame.body, Str.bytes, Str.content, Str.bom, Str.terminator, List.length_cons, List.length_append, this,
    if_true, List.length_nil]
  omega

/-- What unsynchronisation makes of a text in UTF-16: a text of one character, and something after it. -/
theorem unsync_utf16 (F : List UInt8) (id fl : List UInt8) (units : List (UInt8 × UInt8)) (tail : List UInt8)
    (hid : id.length = 4) (hfl : fl.length = 2)
    (hu : unsync (F ++ (SFrame.text id fl (.utf16 true units)).bytes.take 11) =
      F ++ (SFrame.text id fl (.utf16 true units)).bytes.take 11) :
    ∃ junk rest, junk.length = 2 + 2 * units.length ∧
      unsync (F ++ (SFrame.text id fl (.utf16 true units)).bytes ++ tail) =
        F ++ (Wire.text id fl 1 (.latin [0xFF]) junk).bytes 3 ++ rest := by
  have hb := utf16_body_length id fl units
  generalize hB : be32 (SFrame.text id fl (.utf16 true units)).body.length = B at *
  have hBl : B.length = 4 := by rw [← hB]; rfl
  have e1 : (SFrame.text id fl (.utf16 true units)).bytes.take 11 = id ++ B ++ fl ++ [1] := by
    unfold SFrame.bytes
    rw [hB]
    simp only [SFrame.id, SFrame.flags, SFrame.body, Str.encoding]
    rw [show id ++ B ++ fl ++ (1 :: (Str.utf16 true units).bytes) = (id ++ B ++ fl ++ [1]) ++ (Str.utf16 true units).bytes
      from by simp, List.take_left' (by simp [hid, hfl, hBl])]
  have e2 : (SFrame.text id fl (.utf16 true units)).bytes = id ++ B ++ fl ++ [1] ++ (0xFF :: 0xFE ::
      (units.flatMap (fun u => [u.1, u.2]) ++ [0, 0])) := by
    unfold SFrame.bytes
    rw [hB]
    simp [SFrame.id, SFrame.flags, SFrame.body, Str.encoding, Str.bytes, Str.content, Str.bom, Str.terminator]
  generalize hU : units.flatMap (fun u => [u.1, u.2]) ++ [0, 0] = U at *
  have hUl : U.length = 2 + 2 * units.length := by
    rw [← hU, List.length_append, units_length]; simp; omega
  have hlen := unsync_length (0xFE :: (U ++ tail))
  refine ⟨(unsync (0xFE :: (U ++ tail))).take (2 + 2 * units.length),
    (unsync (0xFE :: (U ++ tail))).drop (2 + 2 * units.length), ?_, ?_⟩
  · rw [List.length_take]
    simp only [List.length_cons, List.length_append] at hlen
    omega
  · rw [e1] at hu
    rw [e2]
    have e3 : F ++ (id ++ B ++ fl ++ [1] ++ 0xFF :: 0xFE :: U) ++ tail =
        (F ++ (id ++ B ++ fl)) ++ 1 :: (0xFF :: 0xFE :: (U ++ tail)) := by simp
    have e4 : F ++ (id ++ B ++ fl) ++ [1] = F ++ (id ++ B ++ fl ++ [1]) := by simp
    rw [e3, unsync_split _ _ _ (by decide), e4, hu]
    have e5 : unsync (0xFF :: 0xFE :: (U ++ tail)) = 0xFF :: 0 :: unsync (0xFE :: (U ++ tail)) := by
      rw [unsync, if_pos (by decide)]
    rw [e5]
    generalize unsync (0xFE :: (U ++ tail)) = V at *
    have e6 : (Wire.text id fl 1 (.latin [0xFF]) (V.take (2 + 2 * units.length))).bytes 3 =
        id ++ B ++ fl ++ [1] ++ (0xFF :: 0 :: V.take (2 + 2 * units.length)) := by
      have : (Wire.text id fl 1 (.latin [0xFF]) (V.take (2 + 2 * units.length))).body.length =
          (SFrame.text id fl (.utf16 true units)).body.length := by
        rw [hb]
        simp only [List.length_cons, List.length_append] at hlen
        simp [Wire.body, Str.bytes, Str.content, Str.terminator]
        omega
      unfold Wire.bytes Wire.bytesWith
      rw [Wire.sizeField, this, sizeBytes, if_neg (by decide), hB]
      · simp [Wire.id, Wire.flags, Wire.body, Str.bytes, Str.content, Str.terminator]
      · simp
    rw [e6]
    simp

/-- A tag whose contents start with readable chunks. -/
theorem tag_parse_prefix [Platform] (version minor flags : UInt8) (size : Nat) (cs : List (List UInt8 × Frame))
    (post : Bytes) (hv : version = 3 ∨ version = 4) (hflag : flags &&& 0x40 = 0) (hs : size < 2 ^ 28)
    (hR : ∀ c ∈ cs, Parses version c.1 c.2) (hle : (chunksFlat cs).length ≤ size) (hne : cs ≠ [])
    (hlast : ∀ c, cs.getLast? = some c → 10 < c.1.length) (t : Option Tag)
    (ht : Tag_parse (csAt [] (ofB (tagHeaderBytes version minor flags size) ++ (ofB (chunksFlat cs) ++ post))) = .ok t) :
    ∃ tag r, t = some tag ∧ tag.frames = cs.map (fun c => some c.2) ++ r := by
  unfold Tag_parse at ht
  rw [tag_header_parse _ _ _ _ _ hv hflag hs] at ht
  simp only [Res.bind_ok, ID3v2_Tag_new] at ht
  rw [if_neg (by simp)] at ht
  have hH : (ofB (tagHeaderBytes version minor flags size)).length = 10 := by
    simp [tagHeaderBytes]
  obtain ⟨r, hl, ht⟩ := Res.bind_eq_ok.mp ht
  obtain ⟨gs, hg⟩ := loop_prefix version cs _ post size _ _ hR (by omega) (by
    intro cs1 c cs2 hw
    have hl : (chunksFlat cs).length = (chunksFlat cs1).length + c.1.length + (chunksFlat cs2).length := by
      rw [hw]; simp; omega
    have hw1 := (hR c (by rw [hw]; simp)).1
    cases cs2 with
    | nil =>
      have := hlast c (by rw [hw]; simp)
      omega
    | cons x xs =>
      have hx := (hR x (by rw [hw]; simp)).1
      simp only [chunksFlat_cons, List.length_append] at hl
      omega) r hl
  obtain ⟨p, -, ht⟩ := Res.bind_eq_ok.mp ht
  cases ht
  refine ⟨_, gs.map some, rfl, ?_⟩
  dsimp only
  rw [hg, add_frames_any _ (by simp [hne]), List.map_append, List.map_map]
  rfl

namespace Props

/-- **C52** fails for every tag with a text in little-endian UTF-16 (if it is the first place that unsynchronisation
changes): whatever comes before and after it, if a tag is returned at all, the text is returned as the single Latin-1
character 0xFF. -/
theorem unsync_utf16_misread [Platform] (minor flags : UInt8) (before after : List SFrame) (id fl : List UInt8)
    (units : List (UInt8 × UInt8)) (padding : Nat) (n : Int)
    (hflag : (flags ||| unsyncFlag) &&& 0x40 = 0) (hR : ∀ f ∈ before, f.Readable)
    (hW : (SFrame.text id fl (.utf16 true units)).Readable)
    (hs : (unsyncTagBytes minor flags (before ++ .text id fl (.utf16 true units) :: after) padding).length < 2 ^ 28)
    (hu : unsync (before.flatMap SFrame.bytes ++ (SFrame.text id fl (.utf16 true units)).bytes.take 11) =
      before.flatMap SFrame.bytes ++ (SFrame.text id fl (.utf16 true units)).bytes.take 11)
    (hn : n = ((unsyncTagBytes minor flags (before ++ .text id fl (.utf16 true units) :: after) padding).length : Nat))
    (t : Option Tag)
    (ht : ID3v2_read_tag_from_buffer
      (ofB (unsyncTagBytes minor flags (before ++ .text id fl (.utf16 true units) :: after) padding)) n = .ok t) :
    ∃ tag r, t = some tag ∧
      tag.frames = (before ++ [SFrame.text id fl (.latin [0xFF])]).map (fun f => some f.toFrame) ++ r := by
  obtain ⟨junk, rest, hj, he⟩ := unsync_utf16 (before.flatMap SFrame.bytes) id fl units
    (after.flatMap SFrame.bytes ++ List.replicate padding 0) hW.1.1.1 hW.1.1.2.2.1 hu
  have hb := utf16_body_length id fl units
  have hl := hW.1.2.1
  rw [SFrame.bytes_length _ hW.1.1, hb] at hl
  have hfit := hW.2
  have hw : (SFrame.text id fl (.latin [0xFF])).WF := ⟨hW.1.1.1, hW.1.1.2.1, hW.1.1.2.2.1, by decide⟩
  have hr : (Wire.text id fl 1 (.latin [0xFF]) junk).Readable 3 := by
    refine ⟨⟨hw, ⟨hw, ?_, ?_⟩, ?_⟩, ?_⟩
    · simp only [Wire.kept]
      rw [SFrame.bytes_length _ hw]
      show 10 + 3 ≤ 2147483647
      omega
    · exact ⟨hw.2.2.2, by decide, .inr (by decide)⟩
    · simp only [Wire.ofSFrame, Wire.FitsStack, Str.bytes, Str.content, Str.bom, Str.terminator, List.length_cons,
        List.length_append, units_length, if_true, List.length_nil] at hfit ⊢
      omega
    · simp only [Wire.sizeField, Wire.body, Str.bytes, Str.content, Str.terminator, List.length_cons, List.length_append,
        List.length_nil, hj, maxFrameSize]
      rw [if_neg (by decide)]
      omega
  have hbytes : unsyncTagBytes minor flags (before ++ .text id fl (.utf16 true units) :: after) padding =
      tagHeaderBytes 3 minor (flags ||| unsyncFlag) (before.flatMap SFrame.bytes ++
        (Wire.text id fl 1 (.latin [0xFF]) junk).bytes 3 ++ rest).length ++ (before.flatMap SFrame.bytes ++
        (Wire.text id fl 1 (.latin [0xFF]) junk).bytes 3 ++ rest) := by
    unfold unsyncTagBytes
    dsimp only
    rw [← he]
    simp
  let cs : List (List UInt8 × Frame) := before.map (fun f => (f.bytes, f.toFrame)) ++
    [((Wire.text id fl 1 (.latin [0xFF]) junk).bytes 3, (SFrame.text id fl (.latin [0xFF])).toFrame)]
  have hflat : chunksFlat cs = before.flatMap SFrame.bytes ++ (Wire.text id fl 1 (.latin [0xFF]) junk).bytes 3 := by
    simp only [cs, chunksFlat, List.flatMap_append, List.flatMap_map, List.flatMap_cons, List.flatMap_nil,
      List.append_nil]
  unfold ID3v2_read_tag_from_buffer at ht
  have := from_buffer_csAt (ofB (unsyncTagBytes minor flags (before ++ .text id fl (.utf16 true units) :: after) padding))
    [] n (by rw [hn, ofB_length])
  rw [List.append_nil] at this
  rw [this] at ht
  simp only [Res.bind_ok] at ht
  rw [hbytes, ← hflat] at ht hs
  rw [ofB_append, ofB_append] at ht
  obtain ⟨tag, r, h1, h2⟩ := tag_parse_prefix 3 minor _ _ cs (ofB rest) (.inl rfl) hflag (by
    simp only [List.length_append] at hs ⊢; omega) (by
    intro c hc
    simp only [cs, List.mem_append, List.mem_map, List.mem_singleton] at hc
    rcases hc with ⟨f, hf, rfl⟩ | rfl
    · have := parses_readable 3 _ (ofSFrame_readable f (hR f hf))
      rwa [ofSFrame_bytes _ _ (by decide), ofSFrame_kept] at this
    · exact parses_readable 3 _ hr) (by simp) (by simp [cs]) (by
    intro c hc
    simp only [cs, List.getLast?_append, List.getLast?_singleton, Option.some_or, Option.some.injEq] at hc
    subst hc
    dsimp only
    unfold Wire.bytes
    rw [Wire.bytesWith_length _ _ hr.1.1 (by simp)]
    simp [Wire.body]) t ht
  exact ⟨tag, r, h1, by rw [h2]; simp [cs]⟩

/-- A title, an artist in UTF-16 and another frame meet the conditions. -/
example : let before := [SFrame.text [0x54, 0x49, 0x54, 0x32] [0, 0] (.latin [0x48, 0x69])]
    let w := SFrame.text [0x54, 0x50, 0x45, 0x31] [0, 0] (.utf16 true [(0x41, 0)])
    (∀ f ∈ before, @SFrame.Readable strict f) ∧ @SFrame.Readable strict w ∧
    (unsyncTagBytes 0 0 (before ++ w :: [.other [0x58, 0x41, 0x42, 0x43] [0, 0] [1, 2]]) 5).length < 2 ^ 28 ∧
    unsync (before.flatMap SFrame.bytes ++ w.bytes.take 11) = before.flatMap SFrame.bytes ++ w.bytes.take 11 := by
  decide

end Props
end Id3
