import Verif.Proof.V24All
import Verif.Props.ReadExact

/-!
# C12: exactly which version 2.4 tags survive being written and read
-/

namespace Id3.Props

open Id3 Spec

theorem frames_seen (fs : List SFrame) (hne : fs ≠ []) (gs : List Frame)
    (h : (gs.map some : FrameList) = toFrameList fs) : gs = fs.map SFrame.toFrame := by
  have e : toFrameList fs = (fs.map SFrame.toFrame).map some := by
    cases fs with
    | nil => exact absurd rfl hne
    | cons f fs => simp [toFrameList]
  rw [e] at h
  exact (List.map_inj_right (fun _ _ h => Option.some.inj h)).mp h

/-- A version 2.4 tag with a frame of 256 bytes or more that is not a comment is not read back. -/
theorem v24_big_lost [Platform] (minor flags : UInt8) (fs : List SFrame) (padding : Nat) (after : Bytes)
    (hflag : flags &&& 0x40 = 0) (hu : ∀ f ∈ fs, f.Usable) (hs : framesSize fs + padding < 2 ^ 28)
    (hbig : ¬ ∀ f ∈ fs, SmallIn 4 f) (t : Tag)
    (h : ID3v2_read_tag_from_buffer (ofB (outBytes 4 minor flags fs padding) ++ after)
      (10 + framesSize fs + padding : Nat) = .ok (some t)) : t.frames ≠ toFrameList fs := by
  -- the first frame that is misread
  obtain ⟨a, f, b, rfl, ha, hf⟩ : ∃ a f b, fs = a ++ f :: b ∧ (∀ x ∈ a, SmallIn 4 x) ∧ ¬ SmallIn 4 f := by
    clear h hs hu
    induction fs with
    | nil => exact absurd (by simp) hbig
    | cons x xs ih =>
      by_cases hx : SmallIn 4 x
      · obtain ⟨a, f, b, h1, h2, h3⟩ := ih (fun h => hbig (by
          intro y hy
          rcases List.mem_cons.mp hy with rfl | hy
          · exact hx
          · exact h y hy))
        refine ⟨x :: a, f, b, by rw [h1]; rfl, ?_, h3⟩
        intro y hy
        rcases List.mem_cons.mp hy with rfl | hy
        · exact hx
        · exact h2 y hy
      · exact ⟨[], x, xs, rfl, by simp, hx⟩
  have hf' : (∀ w x y z, f ≠ .comment w x y z) ∧ 256 ≤ f.body.length := by
    constructor
    · intro w x y z e; exact hf (fun _ => Or.inl ⟨w, x, y, z, e⟩)
    · apply Nat.le_of_not_lt
      intro hlt
      exact hf (fun _ => Or.inr hlt)
  have huf := hu f (by simp)
  have hl := flatMap_bytes_length (a ++ f :: b)
  have hla := flatMap_bytes_length a
  have hsplit : framesSize (a ++ f :: b) = framesSize a + f.bytes.length + framesSize b := by
    rw [← hl, List.flatMap_append, List.length_append, hla, List.flatMap_cons, List.length_append, flatMap_bytes_length b]
    omega
  have hfl := SFrame.bytes_length f huf.1
  unfold ID3v2_read_tag_from_buffer at h
  rw [from_buffer_csAt _ after _ (by
    rw [ofB_length, outBytes, List.length_append, List.length_append, hl, List.length_replicate]
    simp [tagHeaderBytes, synchsafe])] at h
  simp only [Res.bind_ok] at h
  unfold Tag_parse at h
  have hfa : (a.map (asWritten 4)).flatMap (encBytes (fun w => be32 w.body.length)) = a.flatMap SFrame.bytes := by
    rw [List.flatMap_map]
    congr 1
    funext x
    exact asWritten_bytes 4 x
  have e : ofB (outBytes 4 minor flags (a ++ f :: b) padding) =
      ofB (tagHeaderBytes 4 minor flags (framesSize (a ++ f :: b) + padding)) ++
        (ofB ((a.map (asWritten 4)).flatMap (encBytes (fun w => be32 w.body.length))) ++
          (ofB f.bytes ++ ofB (b.flatMap SFrame.bytes ++ List.replicate padding 0))) := by
    rw [hfa]; simp [outBytes]
  rw [e, tag_header_parse _ _ _ _ _ (Or.inr rfl) hflag hs] at h
  simp only [Res.bind_ok, ID3v2_Tag_new] at h
  rw [if_neg (by simp)] at h
  have hH : (ofB (tagHeaderBytes 4 minor flags (framesSize (a ++ f :: b) + padding))).length = 10 := by
    simp [tagHeaderBytes]
  obtain ⟨r, h1, h2⟩ := Res.bind_eq_ok.mp h
  obtain ⟨g, gs, hg, hr⟩ := loop_big (fun w => be32 w.body.length) (a.map (asWritten 4)) f _ _ _ _ _ (by
      intro w hw
      obtain ⟨x, hx, rfl⟩ := List.mem_map.mp hw
      exact asWritten_coded 4 x (Or.inr rfl) (hu x (by simp [hx])) (ha x hx)) huf hf'.2 hf'.1
    (by rw [hH, hfa, hla]; omega) (by rw [hH, hfa, hla]; omega) r h1
  obtain ⟨p, -, h3⟩ := Res.bind_eq_ok.mp h2
  cases h3
  show r.1 ≠ _
  rw [hr, add_frames_any _ (by simp)]
  intro hh
  have h4 := frames_seen _ (by simp) _ hh
  have e2 : (a.map (asWritten 4)).map (fun w => w.kept.toFrame) = a.map SFrame.toFrame := by
    rw [List.map_map]
    congr 1
    funext x
    show (asWritten 4 x).kept.toFrame = _
    rw [asWritten_kept]
  rw [e2, List.map_append] at h4
  have h5 := List.append_cancel_left h4
  rw [List.map_cons] at h5
  exact hg (List.cons.inj h5).1

theorem lastLost_length (fs : List SFrame) (padding : Nat) (h : LastLost fs padding) :
    toFrameList fs.dropLast ≠ toFrameList fs := by
  obtain ⟨-, f, hf, -⟩ := h
  rw [List.getLast?_eq_some_iff] at hf
  obtain ⟨ys, rfl⟩ := hf
  rw [List.dropLast_concat]
  intro e
  cases ys with
  | nil => simp [toFrameList] at e
  | cons y ys =>
    have := congrArg List.length e
    simp [toFrameList] at this

/-- **C11, C12**, exactly: a tag that the library has written is read with the same frames if and only if every frame fits
the parser's arrays, the last frame is not an empty frame at the very end, and, for version 2.4, every frame that is not a
comment has less than 256 bytes. -/
theorem read_back_iff [Platform] (version minor flags : UInt8) (fs : List SFrame) (padding : Nat) (after : Bytes)
    (hv : version = 3 ∨ version = 4) (hflag : flags &&& 0x40 = 0) (hu : ∀ f ∈ fs, f.Usable)
    (hs : framesSize fs + padding < 2 ^ 28) :
    (∃ t, ID3v2_read_tag_from_buffer (ofB (outBytes version minor flags fs padding) ++ after)
        (10 + framesSize fs + padding : Nat) = .ok (some t) ∧ t.frames = toFrameList fs) ↔
      (∀ f ∈ fs, f.defect = none) ∧ ¬ LastLost fs padding ∧
      (version = 4 → ∀ f ∈ fs, (∃ fl lang desc txt, f = .comment fl lang desc txt) ∨ f.body.length < 256) := by
  by_cases hsm : ∀ f ∈ fs, SmallIn version f
  · rw [read_back_exact version minor flags fs padding after hv hflag hu hsm hs]
    unfold readBack
    dsimp only
    constructor
    · rintro ⟨t, h1, h2⟩
      split at h1
      · simp at h1
      next hd =>
      simp only [Res.ok.injEq, Option.some.injEq] at h1
      rw [← h1, toTag_frames] at h2
      by_cases hl : LastLost fs padding
      · rw [if_pos hl] at h2
        exact absurd h2 (lastLost_length fs padding hl)
      · rw [if_neg hl, List.findSome?_eq_none_iff] at hd
        exact ⟨hd, hl, fun hv4 f hf => hsm f hf hv4⟩
    · rintro ⟨h1, h2, -⟩
      rw [if_neg h2, List.findSome?_eq_none_iff.mpr h1]
      exact ⟨_, rfl, rfl⟩
  · have hv4 : version = 4 := by
      rcases hv with h | h
      · exact absurd (fun f _ h4 => absurd (h.symm.trans h4) (by decide)) hsm
      · exact h
    subst hv4
    constructor
    · rintro ⟨t, h1, h2⟩
      exact absurd h2 (v24_big_lost minor flags fs padding after hflag hu hs hsm t h1)
    · rintro ⟨-, -, h⟩
      exact absurd (fun f hf _ => h rfl f hf) hsm

/-- **C20**, exactly: the same for a file that starts with a tag that the library has written. -/
theorem read_file_iff [Platform] (version minor flags : UInt8) (fs : List SFrame) (padding : Nat) (rest : List UInt8)
    (hv : version = 3 ∨ version = 4) (hflag : flags &&& 0x40 = 0) (hu : ∀ f ∈ fs, f.Usable)
    (hs : framesSize fs + padding < 2 ^ 28) :
    (∃ t, ID3v2_read_tag (some (ofB (outBytes version minor flags fs padding ++ rest))) = .ok (some t) ∧
        t.frames = toFrameList fs) ↔
      (∀ f ∈ fs, f.defect = none) ∧ ¬ LastLost fs padding ∧
      (version = 4 → ∀ f ∈ fs, (∃ fl lang desc txt, f = .comment fl lang desc txt) ∨ f.body.length < 256) := by
  have e : ofB (outBytes version minor flags fs padding ++ rest) =
      ofB (tagHeaderBytes version minor flags (framesSize fs + padding)) ++
        ofB (fs.flatMap SFrame.bytes ++ List.replicate padding 0) ++ ofB rest := by
    simp [outBytes]
  have e2 : ofB (outBytes version minor flags fs padding) =
      ofB (tagHeaderBytes version minor flags (framesSize fs + padding)) ++
        ofB (fs.flatMap SFrame.bytes ++ List.replicate padding 0) := by
    simp [outBytes]
  rw [e, read_tag_prefix version minor flags _ _ _ hv hs
    (by rw [ofB_length, List.length_append, flatMap_bytes_length, List.length_replicate]), ← e2]
  have := read_back_iff version minor flags fs padding [] hv hflag hu hs
  rw [List.append_nil, Nat.add_assoc] at this
  exact this

/-- **C20** for every session and both versions, exactly: after any calls on a new tag or one read from a file, a tag that
can be written at all (`Full.serialise`) is found in the file with the frames that could be seen in it if and only if every
frame fits the parser's arrays, the last frame is not an empty frame at the very end, and, for version 2.4, every frame that
is not a comment has less than 256 bytes. -/
theorem session_iff [Platform] (contents : List UInt8) (tag : Tag) (st : State) (ops : List Op) (rest : Bytes)
    (st' : Full) (b : List UInt8) (hstart : Start tag st) (hvalid : ∀ op ∈ ops, op.Valid)
    (he : effectAll ops st.full = some st') (hser : Full.serialise st' = .bytes b) (hsz : st'.size < 2 ^ 28) :
    ∃ tag' tag'' file, runAll rest ops tag = .ok tag' ∧
      ID3v2_write_tag (some (ofB contents)) tag' = .ok (file, tag'') ∧
      file = some (ofB (outBytes tag.header.major_version tag.header.minor_version tag.header.flags st'.seen
        (st'.size - framesSize st'.seen).toNat ++ audio contents)) ∧
      ((∃ t, ID3v2_read_tag file = .ok (some t) ∧ t.frames = toFrameList st'.seen) ↔
        (∀ f ∈ st'.seen, f.defect = none) ∧ ¬ LastLost st'.seen (st'.size - framesSize st'.seen).toNat ∧
        (tag.header.major_version = 4 →
          ∀ f ∈ st'.seen, (∃ fl lang desc txt, f = .comment fl lang desc txt) ∨ f.body.length < 256)) := by
  obtain ⟨tag', tag'', file, h1, h2, h3, h4, h5, h6, h7⟩ :=
    session_file contents tag st ops rest st' b hstart hvalid he hser hsz
  refine ⟨tag', tag'', file, h1, h2, h3, ?_⟩
  rw [h3]
  exact read_file_iff _ _ _ _ _ _ h5 h6 h4 h7

/-- **C12**, exactly: a version 2.4 tag that the library has read and written back is read again with the same frames if
and only if every frame that is not a comment has less than 256 bytes. -/
theorem v24_roundtrip_iff [Platform] (minor flags : UInt8) (ws : List Wire) (padding : Nat)
    (hflag : flags &&& 0x40 = 0) (hR : ∀ w ∈ ws, w.Readable 4)
    (hs : (ws.flatMap (Wire.bytes 4)).length + padding < 2 ^ 28) (hlast : lastSeen ws padding) :
    ∃ t cs, ID3v2_read_tag_from_buffer (ofB (wireTagBytes 4 minor flags ws padding))
        (10 + (ws.flatMap (Wire.bytes 4)).length + padding : Nat) = .ok (some t) ∧
      t.frames = toFrameList (ws.map Wire.kept) ∧
      Tag_to_char_stream t = .ok cs ∧
      ((∃ t', ID3v2_read_tag_from_buffer cs.stream cs.size = .ok (some t') ∧ t'.frames = t.frames) ↔
        ∀ w ∈ ws, (∃ fl lang desc txt, w.kept = .comment fl lang desc txt) ∨ w.kept.body.length < 256) := by
  have h1 := beyond_length_ignored 4 minor flags ws padding [] (Or.inr rfl) hflag hR hs hlast
  rw [List.append_nil] at h1
  have hle := kept_framesSize 4 ws (fun w hw => (hR w hw).1.1)
  have hu : ∀ f ∈ ws.map Wire.kept, f.Usable := by
    intro f hf
    obtain ⟨w, hw, rfl⟩ := List.mem_map.mp hf
    exact (hR w hw).1.2.1
  obtain ⟨cs, h2, h3, h4⟩ := toTag_out 4 minor flags ((ws.flatMap (Wire.bytes 4)).length + padding)
    (ws.map Wire.kept) padding hu hs (by omega)
  refine ⟨_, cs, h1, rfl, h2, ?_⟩
  generalize hN : (ws.flatMap (Wire.bytes 4)).length + padding = N at *
  have hpad : framesSize (ws.map Wire.kept) + (N - framesSize (ws.map Wire.kept)) = N := by omega
  have h5 := read_back_iff 4 minor flags (ws.map Wire.kept) (N - framesSize (ws.map Wire.kept)) [] (Or.inr rfl) hflag hu
    (by omega)
  rw [List.append_nil] at h5
  have e1 : ofB (outBytes 4 minor flags (ws.map Wire.kept) (N - framesSize (ws.map Wire.kept))) = cs.stream := by
    rw [h3, outBytes, hpad]
  have e2 : ((10 + framesSize (ws.map Wire.kept) + (N - framesSize (ws.map Wire.kept)) : Nat) : Int) = cs.size := by
    rw [h4, Nat.add_assoc, hpad]
  rw [e1, e2] at h5
  show (∃ t' : Tag, _ ∧ t'.frames = toFrameList (ws.map Wire.kept)) ↔ _
  rw [h5]
  constructor
  · rintro ⟨-, -, h⟩ w hw
    exact h rfl _ (List.mem_map.mpr ⟨w, hw, rfl⟩)
  · intro h
    refine ⟨?_, ?_, ?_⟩
    · intro f hf
      obtain ⟨w, hw, rfl⟩ := List.mem_map.mp hf
      have hst := (hR w hw).1.2.2
      rw [← defect_ofSFrame, defect_none]
      cases w with
      | text => simp only [Wire.FitsStack, Wire.kept, Wire.ofSFrame, List.length_nil] at hst ⊢; omega
      | comment => exact hst
      | apic => exact hst
      | other => trivial
    · rintro ⟨h0, f, hf, hb⟩
      rw [List.getLast?_map] at hf
      cases hl : ws.getLast? with
      | none => rw [hl] at hf; simp at hf
      | some w =>
        rw [hl] at hf
        simp only [Option.map_some, Option.some.injEq] at hf
        subst hf
        rcases hlast with hp | hp
        · omega
        · have := hp w hl
          cases w with
          | other => exact this hb
          | text => simp [Wire.kept, SFrame.body] at hb
          | comment => simp [Wire.kept, SFrame.body] at hb
          | apic => simp [Wire.kept, SFrame.body] at hb
    · intro _ f hf
      obtain ⟨w, hw, rfl⟩ := List.mem_map.mp hf
      exact h w hw

/-- Both cases occur: a short title and a title of 300 letters. -/
example : (∀ w ∈ [longTitle 20], @Wire.Readable strict 4 w) ∧ (∀ w ∈ [longTitle 300], @Wire.Readable strict 4 w) ∧
    lastSeen [longTitle 20] 0 ∧ lastSeen [longTitle 300] 0 ∧
    (longTitle 20).kept.body.length < 256 ∧ ¬ (longTitle 300).kept.body.length < 256 := by
  refine ⟨?_, ?_, by decide, by decide, by decide, ?_⟩
  · intro w hw; rw [List.mem_singleton] at hw; rw [hw]; exact longTitle_readable 20 (by omega) (by omega)
  · intro w hw; rw [List.mem_singleton] at hw; rw [hw]; exact longTitle_readable 300 (by omega) (by omega)
  · generalize h : 300 = n
    simp [longTitle, Wire.kept, SFrame.body, Str.bytes, Str.content, Str.terminator]
    omega

end Id3.Props
