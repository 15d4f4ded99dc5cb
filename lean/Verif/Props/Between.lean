import Verif.Props.CutCompat
import Verif.Props.AnyCompat
import Verif.Props.Tests

/-!
# C99: what one API writes, the other reads
-/

namespace Id3.Props

open Spec

theorem entry_compat (f : SFrame) (h : f.WF) : entryOf f.toFrame = compatOf f := by
  obtain ⟨-, h2⟩ := SFrame.wf_lengths f h
  have e1 : bodyOf f.toFrame.data = ofB f.body := by
    cases f <;> simp [SFrame.toFrame, SFrame.body, bodyOf]
  have e2 : (ofB f.flags).take 1 ++ [none] = intoArray 2 ((ofB f.flags).take 1) := by
    match hf : f.flags, h2 with
    | [a, b], _ => rfl
  unfold entryOf compatOf
  rw [e1]
  simp only [SFrame.toFrame]
  rw [e2]

theorem entries_compat (fs : List SFrame) (hne : fs ≠ []) (h : ∀ f ∈ fs, f.WF) :
    (toFrameList fs).map (Option.map entryOf) = compatList fs := by
  cases fs with
  | nil => exact absurd rfl hne
  | cons f fs =>
    unfold toFrameList compatList
    rw [List.map_map]
    apply List.map_congr_left
    intro g hg
    simp [entry_compat g (h g hg)]

/-- A file whose frames `ID3v2_read_tag` gives, as the compatibility API sees it. -/
theorem load_read [Platform] (fs : List SFrame) (t : Tag) (file : List UInt8)
    (h1 : ID3v2_read_tag (some (ofB file)) = .ok (some t)) (h2 : t.frames = toFrameList fs) (hne : fs ≠ [])
    (hu : ∀ f ∈ fs, f.Usable) :
    ∃ ct, load_tag (some (ofB file)) = .ok ct ∧ ct.tag.frames = toFrameList fs ∧
        ShowsAll ct.frames fs ∧ ∀ k, ValidId k → Answers (get_from_list ct.frames (lit k)) (first SFrame.id k fs) := by
  have hshow : Showable t := by
    intro x hx
    rw [h2] at hx
    cases fs with
    | nil => exact absurd rfl hne
    | cons f fs =>
      obtain ⟨g, hg, rfl⟩ := List.mem_map.mp hx
      exact ⟨_, rfl, usable_writable g (hu g hg)⟩
  have hc : t.frames.map (Option.map entryOf) = compatList fs := by
    rw [h2]
    exact entries_compat fs hne (fun f hf => (hu f hf).1)
  refine ⟨_, (load_agrees _ _).mpr ⟨t, h1, hshow, rfl⟩, h2, ?_, fun k hk => ?_⟩
  · show ShowsAll (t.frames.map (Option.map entryOf)) fs
    rw [hc]
    exact compatList_shows fs (fun f hf => (hu f hf).1)
  · show Answers (get_from_list (t.frames.map (Option.map entryOf)) _) _
    rw [hc, lit_eq, get_compat fs k (ofB [0]) hk (fun g hg => (SFrame.wf_lengths g (hu g hg).1).1)]
    cases h : first SFrame.id k fs with
    | none => rfl
    | some f => exact ⟨_, rfl, compatOf_shows f (hu f (List.mem_of_find?_eq_some h)).1⟩

/-- A file with a tag that the library has written, as the compatibility API sees it. -/
theorem load_written_iff [Platform] (version minor flags : UInt8) (fs : List SFrame) (padding : Nat) (rest : List UInt8)
    (hv : version = 3 ∨ version = 4) (hflag : flags &&& 0x40 = 0) (hu : ∀ f ∈ fs, f.Usable)
    (hs : framesSize fs + padding < 2 ^ 28) :
    (∃ ct, load_tag (some (ofB (outBytes version minor flags fs padding ++ rest))) = .ok ct ∧ ct.tag.frames = toFrameList fs ∧
        ShowsAll ct.frames fs ∧ ∀ k, ValidId k → Answers (get_from_list ct.frames (lit k)) (first SFrame.id k fs)) ↔
      fs ≠ [] ∧ (∀ f ∈ fs, f.defect = none) ∧ ¬ LastLost fs padding ∧
      (version = 4 → ∀ f ∈ fs, (∃ fl lang desc txt, f = .comment fl lang desc txt) ∨ f.body.length < 256) := by
  have hr := read_file_iff version minor flags fs padding rest hv hflag hu hs
  constructor
  · rintro ⟨ct, h1, h2, -⟩
    obtain ⟨t, h3, h4, rfl⟩ := (load_agrees _ _).mp h1
    refine ⟨?_, hr.mp ⟨t, h3, h2⟩⟩
    rintro rfl
    obtain ⟨f, hf, -⟩ := h4 none (by
      have : t.frames = toFrameList [] := h2
      rw [this]
      simp [toFrameList])
    cases hf
  · rintro ⟨hne, h⟩
    obtain ⟨t, h1, h2⟩ := hr.mpr h
    exact load_read fs t _ h1 h2 hne hu

/-- **C99**: any calls of the API on a new tag or one that was read, then `ID3v2_write_tag` to any file. `load_tag` of the file
shows the frames that could be seen in the tag, and the lookups find them, if and only if there is one and `ID3v2_read_tag`
would find them all (C72). -/
theorem written_then_loaded [Platform] (contents : List UInt8) (tag : Tag) (st : State) (ops : List Op) (rest : Bytes)
    (st' : Full) (b : List UInt8) (hstart : Start tag st) (hvalid : ∀ op ∈ ops, op.Valid)
    (he : effectAll ops st.full = some st') (hser : Full.serialise st' = .bytes b) (hsz : st'.size < 2 ^ 28) :
    ∃ tag' tag'' file, runAll rest ops tag = .ok tag' ∧
      ID3v2_write_tag (some (ofB contents)) tag' = .ok (file, tag'') ∧
      ((∃ ct, load_tag file = .ok ct ∧ ct.tag.frames = toFrameList st'.seen ∧ ShowsAll ct.frames st'.seen ∧
          ∀ k, ValidId k → Answers (get_from_list ct.frames (lit k)) (first SFrame.id k st'.seen)) ↔
        st'.seen ≠ [] ∧ ∃ t, ID3v2_read_tag file = .ok (some t) ∧ t.frames = toFrameList st'.seen) := by
  obtain ⟨tag', tag'', file, h1, h2, h3, h4, h5, h6, h7⟩ :=
    session_file contents tag st ops rest st' b hstart hvalid he hser hsz
  refine ⟨tag', tag'', file, h1, h2, ?_⟩
  rw [h3, load_written_iff _ _ _ _ _ _ h5 h6 h4 h7, read_file_iff _ _ _ _ _ _ h5 h6 h4 h7]

/-- **C99**, the other way round: any setters of the compatibility API for frames that the loaded tag has, then `set_tag` to any
file. `ID3v2_read_tag` finds the frames, and the getters give them, if and only if every frame fits the arrays of the parser,
the last one is not an empty one at the very end, and in version 2.4 every frame that is not a comment has less than 256
bytes. -/
theorem set_then_read [Platform] (ct : CTag) (st : State) (ops : List COp) (rest : Bytes)
    (contents : List UInt8) (hstart : CStart ct st) (hops : ∀ o ∈ ops, o.Valid ∧ st.has o.frame.id = true)
    (hsz : (capplyAll ops st).size < 2 ^ 28) :
    ∃ ct' ct'' file, crunAll rest ops ct = .ok ct' ∧ set_tag (some (ofB contents)) ct' = .ok (file, ct'') ∧
      ((∃ t, ID3v2_read_tag file = .ok (some t) ∧ t.frames = toFrameList (capplyAll ops st).frames ∧
          ∀ k r, ValidId k → ID3v2_Tag_get_frame t (ofB k ++ r) =
            .ok ((first SFrame.id k (capplyAll ops st).frames).map SFrame.toFrame)) ↔
        (∀ f ∈ (capplyAll ops st).frames, f.defect = none) ∧ ¬ LastLost (capplyAll ops st).frames st.room.toNat ∧
        (ct.tag.header.major_version = 4 → ∀ f ∈ (capplyAll ops st).frames,
          (∃ fl lang desc txt, f = .comment fl lang desc txt) ∨ f.body.length < 256)) := by
  obtain ⟨ct', ct'', file, h1, h2, h3, -, -⟩ := compat_session_exact ct st ops rest contents hstart hops hsz
  obtain ⟨major, minor, flags, hi, hv, hfl, hroom, -, -⟩ := cstart_inStep ct st hstart
  obtain ⟨_, -, i1, e2, -⟩ := history_present rest ops ct st major minor flags _ hi hops
  have hh : ct.tag.header.major_version = major ∧ ct.tag.header.minor_version = minor ∧ ct.tag.header.flags = flags := by
    rw [hi.tag]; exact ⟨rfl, rfl, rfl⟩
  have hs : framesSize (capplyAll ops st).frames + st.room.toNat < 2 ^ 28 := by
    have : (capplyAll ops st).size = framesSize (capplyAll ops st).frames + st.room := by
      unfold State.size; rw [e2]
    omega
  refine ⟨ct', ct'', file, h1, h2, ?_⟩
  rw [h3, hh.1, hh.2.1, hh.2.2, ← read_file_iff major minor flags _ _ (audio contents) hv hfl i1.usable hs]
  constructor
  · rintro ⟨t, a, b, -⟩
    exact ⟨t, a, b⟩
  · rintro ⟨t, a, b⟩
    refine ⟨t, a, b, fun k r hk => ?_⟩
    have := toTag_first major minor flags 0 _ 0 k r i1.usable hk
    unfold ID3v2_Tag_get_frame at this ⊢
    rw [b]
    exact this

/-- A tag that was read, a new title, the artist deleted: the file can be loaded. -/
example : ∃ tag st, @Start strict tag st ∧ ∃ st' b,
    effectAll [.setText [0x54, 0x49, 0x54, 0x32] [0, 0] (.latin [0x48]), .delete [0x54, 0x50, 0x45, 0x31]] st.full = some st' ∧
      Full.serialise st' = .bytes b ∧ st'.size < 2 ^ 28 ∧ st'.seen ≠ [] ∧ (∀ f ∈ st'.seen, @SFrame.defect strict f = none) ∧
      (st'.seen.map fun f => f.body.length) = [3, 5] :=
  ⟨_, _, @start_read strict 4 0 0 [.text [0x54, 0x50, 0x45, 0x31] [0, 0] 0 (.latin [0x48, 0x69]) [],
      .text [0x54, 0x49, 0x54, 0x32] [0, 0] 0 (.latin [0x48, 0x69]) [],
      .text [0x54, 0x41, 0x4C, 0x42] [0, 0] 0 (.latin [0x48, 0x69, 0x21]) []] 20 (Or.inr rfl)
    (by decide) (by decide) (by decide) (by decide), _, _, rfl, rfl, by decide, by decide, by decide, by decide⟩

/-- A session of the compatibility API whose file `ID3v2_read_tag` reads. -/
example : ∃ ct st, @CStart lenient ct st ∧ (∀ o ∈ sampleCOps, @COp.Valid lenient o ∧ st.has o.frame.id = true) ∧
    (capplyAll sampleCOps st).size < 2 ^ 28 ∧ (∀ f ∈ (capplyAll sampleCOps st).frames, @SFrame.defect lenient f = none) ∧
    ¬ LastLost (capplyAll sampleCOps st).frames st.room.toNat := by
  obtain ⟨ct, -, -, h⟩ := @load_succeeds_partial lenient 3 0 0 (sampleFrames.map Wire.ofSFrame) 100 [] (Or.inl rfl)
    (by decide) (by decide) (by decide) (by decide) (by decide)
  exact ⟨ct, _, h, by decide, by decide, by decide, fun h => absurd h.1 (by decide)⟩

end Id3.Props
