import Verif.Props.V24
import Verif.Props.Compat

/-!
# C41, C49: exactly what sessions of the compatibility API do
-/

namespace Id3.Props

open Id3 Spec

/-- **C41, C42**, exactly: any setters, in any order, on a loaded tag. They all return if the tag has all the frames, and
otherwise the first one for a frame that the tag does not have dereferences NULL. -/
theorem compat_calls_exact [Platform] (ct : CTag) (st : State) (ops : List COp) (rest : Bytes)
    (hstart : CStart ct st) (hops : ∀ o ∈ ops, o.Valid) :
    ((∀ o ∈ ops, st.has o.frame.id = true) →
      ∃ ct', crunAll rest ops ct = .ok ct' ∧ ShowsAll ct'.frames (capplyAll ops st).frames ∧
        ct'.tag.frames = toFrameList (capplyAll ops st).frames) ∧
    ((∃ o ∈ ops, st.has o.frame.id = false) → crunAll rest ops ct = .ub .nullDeref) := by
  obtain ⟨major, minor, flags, hi, -⟩ := cstart_inStep ct st hstart
  constructor
  · intro h
    obtain ⟨ct', r1, i1, -⟩ := history_present rest ops ct st major minor flags _ hi (fun o ho => ⟨hops o ho, h o ho⟩)
    refine ⟨ct', r1, ?_, ?_⟩
    · rw [i1.frames]; exact compatList_shows _ (fun f hf => (i1.usable f hf).1)
    · rw [i1.tag]; rfl
  · generalize ct.tag.padding_size = p at hi
    clear hstart
    induction ops generalizing ct st with
    | nil => rintro ⟨o, ho, -⟩; simp at ho
    | cons op ops ih =>
      rintro ⟨o, ho, hh⟩
      simp only [crunAll]
      by_cases hop : st.has op.frame.id = true
      · obtain ⟨ct1, r1, i1⟩ := setter_present rest op ct st major minor flags p hi (hops op (by simp)) hop
        obtain ⟨-, -, k3⟩ := set_keeps st op.frame hop
        rw [r1]
        simp only [Res.bind_ok]
        refine ih ct1 (st.set op.frame) (fun x hx => hops x (by simp [hx])) i1 ⟨o, ?_, by rw [k3]; exact hh⟩
        rcases List.mem_cons.mp ho with rfl | ho
        · rw [hop] at hh; simp at hh
        · exact ho
      · rw [setter_absent rest op ct (st.frames.map SFrame.toFrame) st.frames (hops op (by simp))
          (by rw [hi.tag]; exact tagOf_holds major minor flags st p hi.usable) (Or.inl hi.frames) (by
            intro f hf
            exact ⟨(hi.usable f hf).1, fun e => hop ((has_iff _ _).mpr ⟨f, hf, e⟩)⟩)]
        rfl

/-- `load_tag` of a file that starts with a tag that the library has written. -/
theorem load_out [Platform] (version minor flags : UInt8) (fs : List SFrame) (padding : Nat) (after : List UInt8)
    (hv : version = 3 ∨ version = 4) (hs : framesSize fs + padding < 2 ^ 28) :
    load_tag (some (ofB (outBytes version minor flags fs padding ++ after))) =
      load_tag_with_buffer (ofB (outBytes version minor flags fs padding)) (10 + framesSize fs + padding : Nat) := by
  have hl : (outBytes version minor flags fs padding).length = 10 + framesSize fs + padding := by
    rw [outBytes, List.length_append, List.length_append, flatMap_bytes_length, List.length_replicate]
    simp [tagHeaderBytes, synchsafe]
  have hx := existing_size_header version minor flags (framesSize fs + padding)
    (ofB (fs.flatMap SFrame.bytes ++ List.replicate padding 0) ++ ofB after) hv hs
  rw [← List.append_assoc, ← ofB_append, ← List.append_assoc] at hx
  change existingTagSize (some (ofB (outBytes version minor flags fs padding) ++ ofB after)) = _ at hx
  rw [ofB_append]
  unfold existingTagSize at hx
  obtain ⟨r, hr, hx⟩ := Res.bind_eq_ok.mp hx
  unfold load_tag
  rw [hr]
  simp only [Res.bind_ok]
  cases r with
  | none => have := Res.ok.inj hx; omega
  | some h =>
    have := Res.ok.inj hx
    dsimp only
    rw [this]
    rw [show ((10 + (framesSize fs + padding) : Nat) : Int).toNat =
      (ofB (outBytes version minor flags fs padding)).length from by rw [ofB_length, hl]; omega, List.take_left,
      intoArray_full _ _ (by rw [ofB_length, hl]; omega)]
    rw [← Nat.add_assoc]

/-- **C40, C49**, exactly: `load_tag` of a file that starts with a tag that the library has written. -/
theorem load_back_exact [Platform] (version minor flags : UInt8) (fs : List SFrame) (padding : Nat) (after : List UInt8)
    (hv : version = 3 ∨ version = 4) (hflag : flags &&& 0x40 = 0) (hu : ∀ f ∈ fs, f.Usable)
    (hsm : ∀ f ∈ fs, SmallIn version f) (hs : framesSize fs + padding < 2 ^ 28) :
    match (seenBack fs padding).findSome? SFrame.defect with
    | some k => load_tag (some (ofB (outBytes version minor flags fs padding ++ after))) = .ub k
    | none =>
      if seenBack fs padding = [] then
        load_tag (some (ofB (outBytes version minor flags fs padding ++ after))) = .ub .nullDeref
      else ∃ ct, load_tag (some (ofB (outBytes version minor flags fs padding ++ after))) = .ok ct ∧
        ShowsAll ct.frames (seenBack fs padding) ∧
        ct.tag = toTag version minor flags (framesSize fs + padding) (seenBack fs padding)
          (if LastLost fs padding then 10 else padding : Nat) ∧
        ct.tag_header = { tag := ofB [0x49, 0x44, 0x33], major_version := some version, minor_version := some minor,
                          flags := some flags, tag_size := some (framesSize fs + padding : Nat),
                          extended_header_size := some 0 } := by
  rw [load_out version minor flags fs padding after hv hs]
  have hl : (ofB (outBytes version minor flags fs padding)).length = 10 + framesSize fs + padding := by
    rw [ofB_length, outBytes, List.length_append, List.length_append, flatMap_bytes_length, List.length_replicate]
    simp [tagHeaderBytes, synchsafe]
  have hr := read_back_exact version minor flags fs padding [] hv hflag hu hsm hs
  rw [List.append_nil] at hr
  have husb : ∀ f ∈ seenBack fs padding, f.Usable := by
    intro f hf
    unfold seenBack at hf
    split at hf
    · exact hu f ((List.dropLast_subset _) hf)
    · exact hu f hf
  unfold load_tag_with_buffer
  rw [hr, memcpySrc_self _ _ (by rw [hl])]
  unfold readBack
  dsimp only
  cases hd : (seenBack fs padding).findSome? SFrame.defect with
  | some k => rfl
  | none =>
    simp only [Res.bind_ok]
    split
    · next h0 =>
      rw [toTag_frames]
      change (do
        let frames ← load_frames new_frame_list (toFrameList (seenBack fs padding))
        _) = _
      rw [h0]
      rfl
    · next h0 =>
      rw [toTag_frames]
      refine ⟨_, by
        rw [load_frames_new _ h0 husb]
        rfl, compatList_shows _ (fun f hf => (husb f hf).1), rfl, ?_⟩
      simp only [toTag]
      rw [toInt32_nat (by omega)]
      rfl

/-- **C49**, exactly: load a tag, call any setters for frames that it has, write it to any file, load that file. The file
is the tag and the audio it had; loading it fails if a frame is too large for the parser, or if no frame is read, and
otherwise gives entries that show the frames. (For version 2.4 the frames must be small, see C12.) -/
theorem compat_session_exact_partial [Platform] (ct : CTag) (st : State) (ops : List COp) (rest : Bytes)
    (contents : List UInt8) (hstart : CStart ct st) (hops : ∀ o ∈ ops, o.Valid ∧ st.has o.frame.id = true)
    (hsz : (capplyAll ops st).size < 2 ^ 28)
    (hsm : ∀ f ∈ (capplyAll ops st).frames, SmallIn ct.tag.header.major_version f) :
    ∃ ct' ct'' file, crunAll rest ops ct = .ok ct' ∧ set_tag (some (ofB contents)) ct' = .ok (file, ct'') ∧
      file = some (ofB (outBytes ct.tag.header.major_version ct.tag.header.minor_version ct.tag.header.flags
        (capplyAll ops st).frames st.room.toNat ++ audio contents)) ∧
      match (seenBack (capplyAll ops st).frames st.room.toNat).findSome? SFrame.defect with
      | some k => load_tag file = .ub k
      | none =>
        if seenBack (capplyAll ops st).frames st.room.toNat = [] then load_tag file = .ub .nullDeref
        else ∃ final, load_tag file = .ok final ∧
          ShowsAll final.frames (seenBack (capplyAll ops st).frames st.room.toNat) := by
  obtain ⟨major, minor, flags, hi, hv, hfl, hroom, hp, hp2⟩ := cstart_inStep ct st hstart
  obtain ⟨ct', r1, i1, e2, -⟩ := history_present rest ops ct st major minor flags _ hi hops
  have hh : ct.tag.header.major_version = major ∧ ct.tag.header.minor_version = minor ∧ ct.tag.header.flags = flags := by
    rw [hi.tag]; exact ⟨rfl, rfl, rfl⟩
  rw [hh.1, hh.2.1, hh.2.2]
  rw [hh.1] at hsm
  obtain ⟨n, hn⟩ : ∃ n : Nat, st.room = n := ⟨st.room.toNat, by omega⟩
  have hn' : st.room.toNat = n := by omega
  have hsize : (capplyAll ops st).size = ((framesSize (capplyAll ops st).frames + n : Nat) : Int) := by
    unfold State.size; rw [e2, hn]; rfl
  have hs : framesSize (capplyAll ops st).frames + n < 2 ^ 28 := by omega
  have e : ct'.tag = toTag major minor flags (framesSize (capplyAll ops st).frames + n) (capplyAll ops st).frames
      ct.tag.padding_size := by
    rw [i1.tag]
    unfold tagOf
    rw [hsize, u32_nat (by omega)]
  obtain ⟨cs, h1, h2, h3⟩ := toTag_out major minor flags (framesSize (capplyAll ops st).frames + n) (capplyAll ops st).frames
    ct.tag.padding_size i1.usable hs (by omega)
  obtain ⟨tag'', hw⟩ := write_succeeds contents ct'.tag cs (by rw [e]; rfl) (by rw [e]; exact h1) (by rw [e]; exact hp)
    (by rw [e]; show ct.tag.padding_size ≤ _; omega)
  have hfile : cs.stream ++ ofB (audio contents) =
      ofB (outBytes major minor flags (capplyAll ops st).frames n ++ audio contents) := by
    rw [h2, ← ofB_append, Nat.add_sub_cancel_left]
    rfl
  refine ⟨ct', { ct' with tag := tag'' }, _, r1, ?_, rfl, ?_⟩
  · unfold set_tag
    rw [hw, hfile, hn']
    rfl
  · rw [hn']
    have := load_back_exact major minor flags (capplyAll ops st).frames n (audio contents) hv hfl i1.usable hsm hs
    cases hd : (seenBack (capplyAll ops st).frames n).findSome? SFrame.defect with
    | some k => rw [hd] at this; exact this
    | none =>
      rw [hd] at this
      simp only at this ⊢
      split
      · next h0 => rw [if_pos h0] at this; exact this
      · next h0 =>
        rw [if_neg h0] at this
        obtain ⟨final, f1, f2, -⟩ := this
        exact ⟨final, f1, f2⟩

/-- A cover without data is written but cannot be loaded; other setters on the same tag can. -/
example : ∃ ct st, @CStart lenient ct st ∧
    (∀ o ∈ [COp.cover (.latin [0x69]) []], @COp.Valid lenient o ∧ st.has o.frame.id = true) ∧
    (@List.findSome? _ _ (@SFrame.defect lenient) (seenBack (capplyAll [COp.cover (.latin [0x69]) []] st).frames
      st.room.toNat) = some .vlaSize) ∧
    (∀ o ∈ sampleCOps, @COp.Valid lenient o ∧ st.has o.frame.id = true) ∧
    (@List.findSome? _ _ (@SFrame.defect lenient) (seenBack (capplyAll sampleCOps st).frames st.room.toNat) = none) ∧
    seenBack (capplyAll sampleCOps st).frames st.room.toNat ≠ [] ∧
    (∃ op, @COp.Valid lenient op ∧ st.has op.frame.id = false) := by
  obtain ⟨ct, -, -, h⟩ := @load_succeeds_partial lenient 3 0 0 (sampleFrames.map Wire.ofSFrame) 100 [] (Or.inl rfl)
    (by decide) (by decide) (by decide) (by decide) (by decide)
  exact ⟨ct, _, h, by decide, by decide, by decide, by decide, by decide, .text .artist (.latin [0x61]) 0, by decide⟩

end Id3.Props
