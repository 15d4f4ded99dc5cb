import Verif.Proof.TagOut

/-!
# Parsing a tag
-/

namespace Id3

open Spec

theorem charToInt_eq_three [Platform] (b : UInt8) : charToInt b = 3 ↔ b = 3 := by
  constructor
  · intro h
    have := toChar_charToInt b
    rw [h] at this
    rw [← this]; decide
  · intro h; subst h; rfl

theorem charToInt_eq_four [Platform] (b : UInt8) : charToInt b = 4 ↔ b = 4 := by
  constructor
  · intro h
    have := toChar_charToInt b
    rw [h] at this
    rw [← this]; decide
  · intro h; subst h; rfl

/-- A well-formed header without the extended header flag. -/
theorem tag_header_parse [Platform] (version minor flags : UInt8) (size : Nat) (post : Bytes)
    (hv : version = 3 ∨ version = 4) (hflag : flags &&& 0x40 = 0) (hs : size < 2 ^ 28) :
    TagHeader_parse (csAt [] (ofB (tagHeaderBytes version minor flags size) ++ post)) =
      .ok (some { identifier := ofB [0x49, 0x44, 0x33], major_version := version, minor_version := minor,
                  flags := flags, tag_size := size, extended_header_size := some 0 },
           csAt (ofB (tagHeaderBytes version minor flags size)) post) := by
  unfold TagHeader_parse tagHeaderBytes
  have e : ofB ([0x49, 0x44, 0x33, version, minor, flags] ++ synchsafe size) ++ post =
      ofB [0x49, 0x44, 0x33] ++ (some version :: some minor :: some flags :: (ofB (synchsafe size) ++ post)) := by simp
  rw [e]
  have e2 : (csAt [] (ofB [0x49, 0x44, 0x33] ++ (some version :: some minor :: some flags ::
      (ofB (synchsafe size) ++ post)))).stream = ofB [0x49, 0x44, 0x33] ++ (some version :: some minor :: some flags ::
      (ofB (synchsafe size) ++ post)) := rfl
  rw [e2, memcmpEq_ofB _ _ _ rfl]
  simp only [Res.bind_ok, decide_true, Bool.not_true, Bool.false_eq_true, if_false]
  rw [read_csAt _ _ _ _ (by simp)]
  simp only [Res.bind_ok]
  rw [getc_csAt]
  simp only [Res.bind_ok]
  rw [getc_csAt]
  simp only [Res.bind_ok]
  have hv' : ¬ (charToInt version ≠ 3 ∧ charToInt version ≠ 4) := by
    rw [Ne, Ne, charToInt_eq_three, charToInt_eq_four]
    rcases hv with h | h <;> simp [h]
  rw [if_neg hv', getc_csAt]
  simp only [Res.bind_ok]
  rw [read_csAt _ _ _ _ (by simp)]
  simp only [Res.bind_ok]
  rw [intoArray_ofB _ _ (by simp)]
  have hb := btoi_ofB' (synchsafe size) 4 (by simp)
  rw [hb]
  simp only [Res.bind_ok]
  have hx : hasExtendedHeader (charToInt flags) = false := by
    unfold hasExtendedHeader
    rw [toChar_charToInt, hflag]; decide
  rw [hx, decode_synchsafe _ hs]
  simp [TagHeader_new, toChar_charToInt]

theorem Wire.bytesWith_length (szb : List UInt8) (w : Wire) (h : w.WF) (hz : szb.length = 4) :
    (w.bytesWith szb).length = 10 + w.body.length := by
  cases w <;> simp [Wire.bytesWith, Wire.id, Wire.flags, Wire.WF] at * <;> omega

theorem Wire.bytes_length (version : UInt8) (w : Wire) (h : w.WF) :
    (w.bytes version).length = 10 + w.body.length :=
  Wire.bytesWith_length _ _ h (by simp)

theorem add_frame_foldl (f : Frame) (fs : List Frame) (l : FrameList) :
    fs.foldl FrameList_add_frame (some f :: l) = some f :: l ++ fs.map some := by
  induction fs generalizing l with
  | nil => simp
  | cons g gs ih =>
    simp only [List.foldl_cons, FrameList_add_frame]
    have := ih (l ++ [some g])
    simp only [List.cons_append] at this ⊢
    rw [this]; simp

theorem add_frames_new (fs : List SFrame) :
    (fs.map SFrame.toFrame).foldl FrameList_add_frame FrameList_new = toFrameList fs := by
  cases fs with
  | nil => rfl
  | cons f fs =>
    simp only [List.map_cons, List.foldl_cons, FrameList_new, FrameList_add_frame]
    rw [add_frame_foldl]
    simp [toFrameList]

theorem u32_cursor {n : Nat} (h : n ≤ 2147483647) : u32 (n : Int) = n := u32_nat (by omega)

/-- The bytes `chunk` are read as the frame `f`, wherever they are. -/
def Parses [Platform] (version : UInt8) (chunk : List UInt8) (f : Frame) : Prop :=
  10 ≤ chunk.length ∧ ∀ pre post : Bytes, pre.length + chunk.length ≤ 2147483647 →
    Frame_parse (csAt pre (ofB chunk ++ post)) version = .ok (some f, csAt (pre ++ ofB chunk) post)

theorem parses_with [Platform] (version : UInt8) (w : Wire) (szb : List UInt8)
    (h : w.Keepable) (hz : szb.length = 4) (hsz : decSize version szb = w.sizeField) :
    Parses version (w.bytesWith szb) w.kept.toFrame := by
  refine ⟨?_, fun pre post hb => frame_parse_with version w szb pre post h hz hsz hb⟩
  rw [Wire.bytesWith_length _ _ h.1 hz]; omega

theorem parses_readable [Platform] (version : UInt8) (w : Wire) (h : w.Readable version) :
    Parses version (w.bytes version) w.kept.toFrame :=
  parses_with version w _ h.1 (by simp) (sizeBytes_read _ _ h.2)

/-- The chunks of a list, concatenated. -/
def chunksFlat (cs : List (List UInt8 × Frame)) : List UInt8 := cs.flatMap (fun c => c.1)

@[simp] theorem chunksFlat_nil : chunksFlat [] = [] := rfl
@[simp] theorem chunksFlat_cons (c : List UInt8 × Frame) (cs : List (List UInt8 × Frame)) :
    chunksFlat (c :: cs) = c.1 ++ chunksFlat cs := by simp [chunksFlat]
@[simp] theorem chunksFlat_append (a b : List (List UInt8 × Frame)) :
    chunksFlat (a ++ b) = chunksFlat a ++ chunksFlat b := by simp [chunksFlat]

/-- The parser loop over a list of readable chunks. -/
theorem parse_loop [Platform] (version : UInt8) (cs : List (List UInt8 × Frame)) (pre post : Bytes) (tagSize : Nat)
    (acc : FrameList) (fuel : Nat) (hR : ∀ c ∈ cs, Parses version c.1 c.2)
    (hlen : pre.length + (chunksFlat cs).length + 4 ≤ 2147483647)
    (hpos : ∀ cs1 c cs2, cs = cs1 ++ c :: cs2 → pre.length + (chunksFlat cs1).length < tagSize)
    (hstop : tagSize ≤ pre.length + (chunksFlat cs).length ∨ ∃ post', post = ofB [0, 0, 0, 0] ++ post')
    (hfuel : cs.length < fuel) :
    Tag_parse_loop fuel (csAt pre (ofB (chunksFlat cs) ++ post)) tagSize version acc =
      .ok ((cs.map (fun c => c.2)).foldl FrameList_add_frame acc, csAt (pre ++ ofB (chunksFlat cs)) post) := by
  induction cs generalizing pre acc fuel with
  | nil =>
    obtain ⟨fuel, rfl⟩ : ∃ k, fuel = k + 1 := ⟨fuel - 1, by omega⟩
    simp only [chunksFlat_nil, ofB_nil, List.nil_append, List.length_nil, Nat.add_zero] at *
    unfold Tag_parse_loop
    have hc : u32 (csAt pre post).cursor = pre.length := u32_cursor (by omega)
    rw [hc]
    by_cases h : pre.length < tagSize
    · rw [if_pos h]
      rcases hstop with h' | ⟨post', rfl⟩
      · omega
      · rw [frame_parse_zero _ _ _ (by omega)]
        simp
    · rw [if_neg h]; simp
  | cons c cs ih =>
    obtain ⟨fuel, rfl⟩ : ∃ k, fuel = k + 1 := ⟨fuel - 1, by omega⟩
    simp only [chunksFlat_cons, ofB_append, List.length_append, List.append_assoc] at *
    unfold Tag_parse_loop
    have hc : u32 (csAt pre (ofB c.1 ++ (ofB (chunksFlat cs) ++ post))).cursor = pre.length := u32_cursor (by omega)
    have h0 := hpos [] c cs rfl
    simp only [chunksFlat_nil, List.length_nil, Nat.add_zero] at h0
    rw [hc, if_pos h0, (hR c (by simp)).2 _ _ (by omega)]
    simp only [Res.bind_ok]
    rw [ih (pre := pre ++ ofB c.1) _ _ (fun x hx => hR x (by simp [hx]))
      (by simp only [List.length_append, ofB_length]; omega)]
    · simp
    · intro cs1 x cs2 hx
      have := hpos (c :: cs1) x cs2 (by rw [hx]; rfl)
      simp at this ⊢; omega
    · rcases hstop with h | h
      · left; simp only [List.length_append, ofB_length]; omega
      · right; exact h
    · simp at hfuel; omega

theorem chunksFlat_length_ge [Platform] (version : UInt8) (cs : List (List UInt8 × Frame))
    (h : ∀ c ∈ cs, Parses version c.1 c.2) : 10 * cs.length ≤ (chunksFlat cs).length := by
  induction cs with
  | nil => simp
  | cons c cs ih =>
    have h1 := (h c (by simp)).1
    have h2 := ih (fun x hx => h x (by simp [hx]))
    simp only [chunksFlat_cons, List.length_append, List.length_cons]
    omega

/-- The tag a successful parse gives. -/
def parsedTag (version minor flags : UInt8) (tagSize : Nat) (fs : List Frame) (padding : Nat) : Tag :=
  { header := { identifier := ofB [0x49, 0x44, 0x33], major_version := version, minor_version := minor, flags := flags,
                tag_size := tagSize, extended_header_size := some 0 }
    frames := fs.foldl FrameList_add_frame FrameList_new
    padding_size := padding }

/-- Parsing a tag of readable chunks, followed in the stream by anything. -/
theorem tag_parse_chunks [Platform] (version minor flags : UInt8) (cs : List (List UInt8 × Frame)) (padding : Nat)
    (trail : Bytes) (hv : version = 3 ∨ version = 4) (hflag : flags &&& 0x40 = 0)
    (hR : ∀ c ∈ cs, Parses version c.1 c.2)
    (hs : (chunksFlat cs).length + padding < 2 ^ 28)
    (htrail : (chunksFlat cs).length + padding + trail.length + 10 ≤ 2147483647)
    (hlast : 0 < padding ∨ ∀ c, cs.getLast? = some c → 10 < c.1.length) :
    Tag_parse (csAt [] (ofB (tagHeaderBytes version minor flags ((chunksFlat cs).length + padding) ++ chunksFlat cs ++
        List.replicate padding 0) ++ trail)) =
      .ok (some (parsedTag version minor flags ((chunksFlat cs).length + padding) (cs.map (fun c => c.2))
        (padding + trail.length))) := by
  unfold Tag_parse
  generalize hF : chunksFlat cs = F at *
  have e : ofB (tagHeaderBytes version minor flags (F.length + padding) ++ F ++ List.replicate padding 0) ++ trail =
      ofB (tagHeaderBytes version minor flags (F.length + padding)) ++
        (ofB F ++ (ofB (List.replicate padding 0) ++ trail)) := by simp
  rw [e, tag_header_parse _ _ _ _ _ hv hflag hs]
  simp only [Res.bind_ok, ID3v2_Tag_new]
  rw [if_neg (by simp)]
  have hH : (ofB (tagHeaderBytes version minor flags (F.length + padding))).length = 10 := by
    simp [tagHeaderBytes]
  generalize ofB (tagHeaderBytes version minor flags (F.length + padding)) = H at *
  have hstop : F.length + padding ≤ H.length + F.length ∨
      ∃ post', ofB (List.replicate padding 0) ++ trail = ofB [0, 0, 0, 0] ++ post' := by
    by_cases hp : padding ≤ 10
    · left; omega
    · right
      refine ⟨ofB (List.replicate (padding - 4) 0) ++ trail, ?_⟩
      have : List.replicate padding (0 : UInt8) = [0, 0, 0, 0] ++ List.replicate (padding - 4) 0 := by
        have : padding = 4 + (padding - 4) := by omega
        conv => lhs; rw [this, ← List.replicate_append_replicate]
        rfl
      rw [this]; simp
  have hge : 10 * cs.length ≤ F.length := by
    rw [← hF]; exact chunksFlat_length_ge version _ hR
  have hloop := parse_loop version cs H (ofB (List.replicate padding 0) ++ trail) (F.length + padding) FrameList_new
    ((csAt H (ofB F ++ (ofB (List.replicate padding 0) ++ trail))).stream.length + 1) hR (by rw [hF]; omega)
    (by
      intro cs1 c cs2 hw
      have hl : F.length = (chunksFlat cs1).length + c.1.length + (chunksFlat cs2).length := by
        rw [← hF, hw]; simp; omega
      have hw1 := (hR c (by rw [hw]; simp)).1
      rcases hlast with hp | hp
      · omega
      · cases cs2 with
        | nil =>
          have := hp c (by rw [hw]; simp)
          omega
        | cons x xs =>
          have hx := (hR x (by rw [hw]; simp)).1
          simp only [chunksFlat_cons, List.length_append] at hl
          omega)
    (by rw [hF]; exact hstop)
    (by simp only [csAt, List.length_append, ofB_length]; omega)
  rw [hF] at hloop
  rw [hloop]
  simp only [Res.bind_ok]
  have hc : (csAt (H ++ ofB F) (ofB (List.replicate padding 0) ++ trail)).size -
      (csAt (H ++ ofB F) (ofB (List.replicate padding 0) ++ trail)).cursor = ((padding + trail.length : Nat) : Int) := by
    simp [csAt]; omega
  rw [hc, ck_nat (by omega)]
  simp [parsedTag]

theorem parsedTag_toTag (version minor flags : UInt8) (tagSize : Nat) (fs : List SFrame) (padding : Nat) :
    parsedTag version minor flags tagSize (fs.map SFrame.toFrame) padding =
      toTag version minor flags tagSize fs padding := by
  unfold parsedTag toTag; rw [add_frames_new]

/-- A readable frame with its bytes, as a chunk. -/
def wireChunk (version : UInt8) (w : Wire) : List UInt8 × Frame := (w.bytes version, w.kept.toFrame)

theorem wireChunks_flat (version : UInt8) (ws : List Wire) :
    chunksFlat (ws.map (wireChunk version)) = ws.flatMap (Wire.bytes version) := by
  induction ws with
  | nil => rfl
  | cons w ws ih => simp [ih, wireChunk]

/-- Parsing a tag of readable frames, followed in the stream by anything. -/
theorem tag_parse [Platform] (version minor flags : UInt8) (ws : List Wire) (padding : Nat) (trail : Bytes)
    (hv : version = 3 ∨ version = 4) (hflag : flags &&& 0x40 = 0)
    (hR : ∀ w ∈ ws, w.Readable version)
    (hs : (ws.flatMap (Wire.bytes version)).length + padding < 2 ^ 28)
    (htrail : (ws.flatMap (Wire.bytes version)).length + padding + trail.length + 10 ≤ 2147483647)
    (hlast : lastSeen ws padding) :
    Tag_parse (csAt [] (ofB (wireTagBytes version minor flags ws padding) ++ trail)) =
      .ok (some (toTag version minor flags ((ws.flatMap (Wire.bytes version)).length + padding) (ws.map Wire.kept)
        (padding + trail.length : Nat))) := by
  have h := tag_parse_chunks version minor flags (ws.map (wireChunk version)) padding trail hv hflag
    (by
      intro c hc
      obtain ⟨w, hw, rfl⟩ := List.mem_map.mp hc
      exact parses_readable version w (hR w hw))
    (by rw [wireChunks_flat]; exact hs) (by rw [wireChunks_flat]; exact htrail)
    (by
      rcases hlast with h | h
      · exact Or.inl h
      · right
        intro c hc
        rw [List.getLast?_map] at hc
        cases hl : ws.getLast? with
        | none => rw [hl] at hc; simp at hc
        | some w =>
          rw [hl] at hc
          simp at hc
          subst hc
          have h1 := h w hl
          have h2 : w ∈ ws := List.mem_of_getLast? hl
          show 10 < (w.bytes version).length
          rw [Wire.bytes_length version w (hR w h2).1.1]
          have := List.length_pos_iff.mpr h1
          omega)
  rw [wireChunks_flat] at h
  have e : (ws.map (wireChunk version)).map (fun c => c.2) = (ws.map Wire.kept).map SFrame.toFrame := by
    simp [wireChunk]
  rw [e, parsedTag_toTag] at h
  exact h

end Id3
