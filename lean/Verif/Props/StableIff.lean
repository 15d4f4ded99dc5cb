import Verif.Props.Again
import Verif.Props.Injective

/-!
# C62: exactly which tags stay as they are when they are read and written back again and again
-/

namespace Id3.Props

open Id3 Spec

/-- What reading a tag and writing it back makes of a file the first time: the frames that are read are written anew. -/
theorem first_rewrite [Platform] (version minor flags : UInt8) (ws : List Wire) (padding : Nat) (rest : List UInt8)
    (hv : version = 3 ∨ version = 4) (hflag : flags &&& 0x40 = 0) (hR : ∀ w ∈ ws, w.Sane version)
    (hs : (ws.flatMap (Wire.bytes version)).length + padding < 2 ^ 28)
    (hd : ∀ w ∈ seenFrames ws padding, w.defect = none) :
    let fs := (seenFrames ws padding).map Wire.kept
    (∀ f ∈ fs, f.Usable) ∧ (∀ f ∈ fs, f.defect = none) ∧
    ∃ padding', framesSize fs + padding' = (ws.flatMap (Wire.bytes version)).length + padding ∧ ¬ LastLost fs padding' ∧
      readWrite (some (ofB (wireTagBytes version minor flags ws padding ++ rest))) =
        .ok (some (ofB (outBytes version minor flags fs padding' ++ rest))) := by
  intro fs
  have hsl := seen_lost ws padding
  have hsub : ∀ w ∈ seenFrames ws padding, w ∈ ws := by
    intro w hw
    rw [hsl]
    exact List.mem_append_left _ hw
  have hu : ∀ f ∈ fs, f.Usable := by
    intro f hf
    obtain ⟨w, hw, rfl⟩ := List.mem_map.mp hf
    exact (hR w (hsub w hw)).2.1
  have hdf : ∀ f ∈ fs, f.defect = none := by
    intro f hf
    obtain ⟨w, hw, rfl⟩ := List.mem_map.mp hf
    exact kept_defect w (hd w hw)
  have hle := kept_framesSize version (seenFrames ws padding) (fun w hw => (hR w (hsub w hw)).1)
  have hflat : (ws.flatMap (Wire.bytes version)).length =
      ((seenFrames ws padding).flatMap (Wire.bytes version)).length +
        ((lostFrames ws padding).flatMap (Wire.bytes version)).length := by
    conv => lhs; rw [hsl]
    rw [List.flatMap_append, List.length_append]
  have hll : ¬ LastLost fs ((ws.flatMap (Wire.bytes version)).length + padding - framesSize fs) := by
    rintro ⟨h0, f, hf, hb⟩
    have hz : padding = 0 ∧ ((lostFrames ws padding).flatMap (Wire.bytes version)).length = 0 := by
      have : framesSize fs ≤ ((seenFrames ws padding).flatMap (Wire.bytes version)).length := hle
      omega
    have hlost : lostFrames ws padding = [] := by
      cases h : lostFrames ws padding with
      | nil => rfl
      | cons w l =>
        have h1 := hz.2
        rw [h, List.flatMap_cons, List.length_append] at h1
        have hw : w ∈ ws := by rw [hsl, h]; simp
        have := encBytes_length version _ w (sane_coded version w (hR w hw))
        rw [← bytes_enc] at this
        omega
    rw [hlost, List.append_nil] at hsl
    have hfs : fs = ws.map Wire.kept := by show (seenFrames ws padding).map Wire.kept = _; rw [← hsl]
    rw [hfs, List.getLast?_map] at hf
    cases hl : ws.getLast? with
    | none => rw [hl] at hf; simp at hf
    | some w =>
      rw [hl] at hf
      simp only [Option.map_some, Option.some.injEq] at hf
      subst hf
      refine kept_body_ne w ?_ hb
      intro hwb
      unfold lostFrames at hlost
      rw [hl] at hlost
      simp [hz.1, hwb] at hlost
  generalize hN : (ws.flatMap (Wire.bytes version)).length + padding = N at *
  have hfit : framesSize fs ≤ N := by
    have : framesSize fs ≤ ((seenFrames ws padding).flatMap (Wire.bytes version)).length := hle
    omega
  have hpad : framesSize fs + (N - framesSize fs) = N := by omega
  have hread : ID3v2_read_tag (some (ofB (wireTagBytes version minor flags ws padding ++ rest))) =
      .ok (some (toTag version minor flags N fs (seenPadding ws padding))) := by
    have h1 := read_exact version minor flags ws padding [] hv hflag hR (by omega)
    rw [List.append_nil, Nat.add_assoc, hN] at h1
    have e : ofB (wireTagBytes version minor flags ws padding ++ rest) =
        ofB (tagHeaderBytes version minor flags N) ++
          ofB (ws.flatMap (Wire.bytes version) ++ List.replicate padding 0) ++ ofB rest := by
      simp only [wireTagBytes, hN, List.append_assoc, ofB_append]
    have e2 : ofB (wireTagBytes version minor flags ws padding) =
        ofB (tagHeaderBytes version minor flags N) ++
          ofB (ws.flatMap (Wire.bytes version) ++ List.replicate padding 0) := by
      simp only [wireTagBytes, hN, List.append_assoc, ofB_append]
    rw [e, read_tag_prefix version minor flags _ _ _ hv hs (by rw [ofB_length, List.length_append, List.length_replicate, hN]), ← e2, h1]
    unfold outcome
    rw [List.findSome?_eq_none_iff.mpr hd]
  have hspad : seenPadding ws padding ≤ 10 + padding := by
    unfold seenPadding
    split
    · split <;> omega
    · omega
  have hfirst : readWrite (some (ofB (wireTagBytes version minor flags ws padding ++ rest))) =
      .ok (some (ofB (outBytes version minor flags fs (N - framesSize fs) ++ rest))) := by
    obtain ⟨cs, c1, c2, -⟩ := toTag_out version minor flags N fs (seenPadding ws padding) hu hs hfit
    obtain ⟨t', h2⟩ := write_succeeds (wireTagBytes version minor flags ws padding ++ rest) _ cs rfl c1
      (show (0 : Int) ≤ (seenPadding ws padding : Nat) by omega)
      (show ((seenPadding ws padding : Nat) : Int) ≤ 2147483647 by omega)
    have ha : audio (wireTagBytes version minor flags ws padding ++ rest) = rest := by
      have := audio_behind version minor flags N (ws.flatMap (Wire.bytes version) ++ List.replicate padding 0) rest hv hs
        (by rw [← hN, List.length_append, List.length_replicate])
      simpa only [wireTagBytes, hN, List.append_assoc] using this
    rw [ha, c2, ← ofB_append] at h2
    unfold readWrite
    rw [hread]
    simp only [Res.bind_ok]
    rw [h2]
    simp only [Res.bind_ok, outBytes, hpad]
  exact ⟨hu, hdf, N - framesSize fs, by omega, hll, hfirst⟩

/-- A tag of version 2.4 with a large frame, as the library has written it, is not written again as it is. -/
theorem readWrite_big_changes [Platform] (minor flags : UInt8) (fs : List SFrame) (padding : Nat) (rest : List UInt8)
    (hflag : flags &&& 0x40 = 0) (hu : ∀ f ∈ fs, f.Usable) (hs : framesSize fs + padding < 2 ^ 28)
    (hbig : ¬ ∀ f ∈ fs, ¬ f.Big) :
    readWrite (some (ofB (outBytes 4 minor flags fs padding ++ rest))) ≠
      .ok (some (ofB (outBytes 4 minor flags fs padding ++ rest))) := by
  intro h
  have hall := read_file_all 4 minor flags fs padding rest (Or.inr rfl) hflag hu hs
  unfold readWrite at h
  cases hr : ID3v2_read_tag (some (ofB (outBytes 4 minor flags fs padding ++ rest))) with
  | ub k => rw [hr] at h; cases h
  | exit => rw [hr] at h; cases h
  | diverge => rw [hr] at h; cases h
  | ok o =>
    cases o with
    | none =>
      obtain ⟨k, hk⟩ := hall.2.mpr fun t ht => by
        have := (hall.1 t).mpr ht
        rw [hr] at this
        cases this
      rw [hr] at hk
      cases hk
    | some t =>
      have hra := (hall.1 t).mp hr
      have hreach : Reached UsualStart t := .start (.readFile hr)
      rw [hr] at h
      simp only [Res.bind_ok] at h
      obtain ⟨⟨file, t'⟩, hw, hf⟩ := Res.bind_eq_ok.mp h
      cases hf
      obtain ⟨header, zeros, e1, e2, e3, e4⟩ := written_exactly t hreach _ _ t' hw
      cases hra with
      | same hsm => exact hbig (hsm rfl)
      | misread before f after g left gs stop _ hfs hb hm hi =>
        have hlen := (hu f (by rw [hfs]; simp)).2.1
        rw [SFrame.bytes_length f (hu f (by rw [hfs]; simp)).1] at hlen
        have hml := misreadSize_lt f.body.length (misread_big hm).2 (by omega)
        have hwr : writtenFrames ((before.map SFrame.toFrame ++ g.toFrame :: gs).map some) =
            before.map SFrame.toFrame ++ g.toFrame :: gs := by
          cases before with
          | nil => show (List.map some (g.toFrame :: gs)).filterMap id = _; simp
          | cons b bs => show (List.map some (b.toFrame :: (bs.map SFrame.toFrame ++ g.toFrame :: gs))).filterMap id = _; simp
        have hbf : ∀ l : List SFrame, (l.map SFrame.toFrame).flatMap frameBytes = ofB (l.flatMap SFrame.bytes) := by
          intro l
          induction l with
          | nil => rfl
          | cons x xs ih => simp only [List.map_cons, List.flatMap_cons, ih, toFrame_bytes, ofB_append]
        simp only [Option.some.injEq] at e1
        rw [hwr, outBytes, hfs] at e1
        simp only [List.flatMap_append, List.flatMap_cons, hbf, toFrame_bytes, List.append_assoc, ofB_append] at e1
        obtain ⟨-, e1⟩ := List.append_inj e1 (by simp [tagHeaderBytes, synchsafe, e2])
        have e1 := List.append_cancel_left e1
        have hsz : g.body.length = misreadSize f.body.length ∧ g.id.length = f.id.length := by
          cases hm with
          | apic fl mime pt desc pic k hbig' hk hst hk' =>
            refine ⟨?_, rfl⟩
            have : k ≤ pic.length := by
              rw [hk] at hml
              simp only [SFrame.body, List.length_append, List.length_cons] at hml
              omega
            rw [hk]
            simp only [SFrame.body, List.length_append, List.length_cons, List.length_take]
            omega
          | other id fl data hbig' =>
            refine ⟨?_, rfl⟩
            simp only [SFrame.body, List.length_take] at hml ⊢
            omega
        simp only [SFrame.bytes, ofB_append, List.append_assoc] at e1
        obtain ⟨-, e1⟩ := List.append_inj e1 (by simp [hsz.2])
        obtain ⟨e1, -⟩ := List.append_inj e1 (by simp [be32])
        have e1 := be32_inj _ _ (by omega) (by omega) (ofB_inj.mp e1)
        omega

/-- **C62**, exactly: read the tag of a file and write it back, as often as one likes. The first time the frames are written
anew. From then on nothing changes if and only if the version is 2.3 or there is no large frame (of 256 bytes or more, not a
comment). -/
theorem rewrites_stable_iff [Platform] (version minor flags : UInt8) (ws : List Wire) (padding : Nat) (rest : List UInt8)
    (hv : version = 3 ∨ version = 4) (hflag : flags &&& 0x40 = 0) (hR : ∀ w ∈ ws, w.Sane version)
    (hs : (ws.flatMap (Wire.bytes version)).length + padding < 2 ^ 28)
    (hd : ∀ w ∈ seenFrames ws padding, w.defect = none) :
    let fs := (seenFrames ws padding).map Wire.kept
    ∃ padding', framesSize fs + padding' = (ws.flatMap (Wire.bytes version)).length + padding ∧
      readWrites 1 (some (ofB (wireTagBytes version minor flags ws padding ++ rest))) =
        .ok (some (ofB (outBytes version minor flags fs padding' ++ rest))) ∧
      ((∀ n, readWrites (n + 1) (some (ofB (wireTagBytes version minor flags ws padding ++ rest))) =
        .ok (some (ofB (outBytes version minor flags fs padding' ++ rest)))) ↔ (version = 4 → ∀ f ∈ fs, ¬ f.Big)) := by
  intro fs
  obtain ⟨hu, hdf, padding', hp, hll, h1⟩ := first_rewrite version minor flags ws padding rest hv hflag hR hs hd
  have hp' : framesSize fs + padding' < 2 ^ 28 := by
    change framesSize fs + padding' = _ at hp
    omega
  refine ⟨padding', hp, ?_, ?_, ?_⟩
  · show (readWrite _).bind _ = _
    rw [h1]
    rfl
  · rintro h rfl f hf hbig
    have h2 := h 1
    change (readWrite _).bind _ = _ at h2
    rw [h1] at h2
    change (readWrite _).bind _ = _ at h2
    refine readWrite_big_changes minor flags fs padding' rest hflag hu hp' (fun h => h f hf hbig) ?_
    cases h3 : readWrite (some (ofB (outBytes 4 minor flags fs padding' ++ rest))) with
    | ok o => rw [h3] at h2; exact h2
    | ub k => rw [h3] at h2; cases h2
    | exit => rw [h3] at h2; cases h2
    | diverge => rw [h3] at h2; cases h2
  · intro hsm n
    have hfix := readWrite_fixed version minor flags fs padding' rest hv hflag hu
      (fun f hf h4 => (not_big_small f).mp (hsm h4 f hf) rfl) hdf hll hp'
    have hall : ∀ n, readWrites n (some (ofB (outBytes version minor flags fs padding' ++ rest))) =
        .ok (some (ofB (outBytes version minor flags fs padding' ++ rest))) := by
      intro n
      induction n with
      | zero => rfl
      | succ n ih =>
        show (readWrite _).bind _ = _
        rw [hfix]
        exact ih
    show (readWrite _).bind _ = _
    rw [h1]
    exact hall n

/-- Version 2.4 tags with a frame of an unknown kind, of 200 and of 300 bytes: the first stays as it is, the second does not. -/
example : ∀ n ∈ [200, 300],
    @Wire.Sane strict 4 (.other [0x50, 0x52, 0x49, 0x56] [0, 0] (List.replicate n 0x41)) ∧
      @Wire.defect strict (.other [0x50, 0x52, 0x49, 0x56] [0, 0] (List.replicate n 0x41)) = none ∧
      ((SFrame.other [0x50, 0x52, 0x49, 0x56] [0, 0] (List.replicate n 0x41)).body.length < 256 ↔ n = 200) := by
  decide +kernel

end Id3.Props
