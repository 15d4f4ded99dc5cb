import Verif.Spec.Copy
import Verif.Props.V24
import Verif.Props.Truthful

/-!
# C62: reading a tag and writing it back, again and again
-/

namespace Id3.Props

open Id3 Spec

theorem tagLength_header [Platform] (version minor flags : UInt8) (n : Nat) (rest : List UInt8)
    (hv : version = 3 ∨ version = 4) (hn : n < 2 ^ 28) :
    tagLength (tagHeaderBytes version minor flags n ++ rest) = 10 + n := by
  have h1 := existing_size_header version minor flags n (ofB rest) hv hn
  have h2 := existing_size (tagHeaderBytes version minor flags n ++ rest)
  rw [ofB_append] at h2
  have := Res.ok.inj (h1.symm.trans h2)
  omega

theorem audio_behind [Platform] (version minor flags : UInt8) (n : Nat) (body rest : List UInt8)
    (hv : version = 3 ∨ version = 4) (hn : n < 2 ^ 28) (hb : body.length = n) :
    audio (tagHeaderBytes version minor flags n ++ body ++ rest) = rest := by
  unfold audio
  rw [List.append_assoc, tagLength_header version minor flags n _ hv hn, ← List.append_assoc]
  have hl : (tagHeaderBytes version minor flags n ++ body).length = 10 + n := by
    simp [tagHeaderBytes, synchsafe, hb]; omega
  rw [← hl, List.drop_left]

/-- A tag that the library has written is written again as it is. -/
theorem readWrite_fixed [Platform] (version minor flags : UInt8) (fs : List SFrame) (padding : Nat) (rest : List UInt8)
    (hv : version = 3 ∨ version = 4) (hflag : flags &&& 0x40 = 0) (hu : ∀ f ∈ fs, f.Usable)
    (hsm : ∀ f ∈ fs, SmallIn version f) (hd : ∀ f ∈ fs, f.defect = none) (hl : ¬ LastLost fs padding)
    (hs : framesSize fs + padding < 2 ^ 28) :
    readWrite (some (ofB (outBytes version minor flags fs padding ++ rest))) =
      .ok (some (ofB (outBytes version minor flags fs padding ++ rest))) := by
  have h1 := read_file_exact version minor flags fs padding rest hv hflag hu hsm hs
  have hd' : fs.findSome? SFrame.defect = none := List.findSome?_eq_none_iff.mpr hd
  unfold readBack at h1
  rw [if_neg hl, if_neg hl] at h1
  dsimp only at h1
  rw [hd'] at h1
  obtain ⟨t', h2, -⟩ := write_read_exact (outBytes version minor flags fs padding ++ rest) version minor flags fs padding
    padding hv hflag hu hsm hs (by omega) (by omega)
  have ha : audio (outBytes version minor flags fs padding ++ rest) = rest := by
    have := audio_behind version minor flags (framesSize fs + padding)
      (fs.flatMap SFrame.bytes ++ List.replicate padding 0) rest hv hs
      (by rw [List.length_append, flatMap_bytes_length, List.length_replicate])
    simpa only [outBytes, List.append_assoc] using this
  rw [ha] at h2
  unfold readWrite
  rw [h1]
  simp only [Res.bind_ok]
  rw [h2]
  rfl

theorem kept_defect [Platform] (w : Wire) (h : w.defect = none) : w.kept.defect = none := by
  have hst := (defect_none w).mp h
  rw [← defect_ofSFrame, defect_none]
  cases w with
  | text => simp only [Wire.FitsStack, Wire.kept, Wire.ofSFrame, List.length_nil] at hst ⊢; omega
  | comment => exact hst
  | apic => exact hst
  | other => trivial

theorem kept_body_ne (w : Wire) (h : w.body ≠ []) : w.kept.body ≠ [] := by
  cases w with
  | other => exact h
  | text => simp [Wire.kept, SFrame.body]
  | comment => simp [Wire.kept, SFrame.body]
  | apic => simp [Wire.kept, SFrame.body]

/-- **C62**: read the tag of a file and write it back, as often as one likes. The first time the frames are written anew:
what the library does not keep (the rest of text frames, the size fields of comments, their encodings, an empty frame at the
very end) is gone and the padding is what is left of the tag. From then on nothing changes, and the audio is never
touched. For version 2.4 only if the frames are small (C12). -/
theorem rewrites_stable [Platform] (version minor flags : UInt8) (ws : List Wire) (padding : Nat) (rest : List UInt8)
    (hv : version = 3 ∨ version = 4) (hflag : flags &&& 0x40 = 0) (hR : ∀ w ∈ ws, w.Sane version)
    (hs : (ws.flatMap (Wire.bytes version)).length + padding < 2 ^ 28)
    (hd : ∀ w ∈ seenFrames ws padding, w.defect = none)
    (hsm : version = 4 → ∀ w ∈ seenFrames ws padding, (∃ a b c d, w.kept = .comment a b c d) ∨ w.kept.body.length < 256) :
    let fs := (seenFrames ws padding).map Wire.kept
    ∃ padding', framesSize fs + padding' = (ws.flatMap (Wire.bytes version)).length + padding ∧
      ∀ n, readWrites (n + 1) (some (ofB (wireTagBytes version minor flags ws padding ++ rest))) =
        .ok (some (ofB (outBytes version minor flags fs padding' ++ rest))) := by
  intro fs
  have hsl := seen_lost ws padding
  have hsub : ∀ w ∈ seenFrames ws padding, w ∈ ws := by
    intro w hw
    rw [hsl]
    exact List.mem_append_left _ hw
  have hu : ∀ f ∈ fs, f.Usable := by
    intro f hf
    obtain ⟨w, hw, rfl⟩ := List.mem_map.mp hf
    exact (hR w (hsub w hw)).2.1
  have hsm' : ∀ f ∈ fs, SmallIn version f := by
    intro f hf h4
    obtain ⟨w, hw, rfl⟩ := List.mem_map.mp hf
    exact hsm h4 w hw
  have hdf : ∀ f ∈ fs, f.defect = none := by
    intro f hf
    obtain ⟨w, hw, rfl⟩ := List.mem_map.mp hf
    exact kept_defect w (hd w hw)
  have hle := kept_framesSize version (seenFrames ws padding) (fun w hw => (hR w (hsub w hw)).1)
  have hflat : (ws.flatMap (Wire.bytes version)).length =
      ((seenFrames ws padding).flatMap (Wire.bytes version)).length +
        ((lostFrames ws padding).flatMap (Wire.bytes version)).length := by
    conv => lhs; rw [hsl]
    rw [List.flatMap_append, List.length_append]
  have hll : ¬ LastLost fs ((ws.flatMap (Wire.bytes version)).length + padding - framesSize fs) := by
    rintro ⟨h0, f, hf, hb⟩
    have hz : padding = 0 ∧ ((lostFrames ws padding).flatMap (Wire.bytes version)).length = 0 := by
      have : framesSize fs ≤ ((seenFrames ws padding).flatMap (Wire.bytes version)).length := hle
      omega
    have hlost : lostFrames ws padding = [] := by
      cases h : lostFrames ws padding with
      | nil => rfl
      | cons w l =>
        have h1 := hz.2
        rw [h, List.flatMap_cons, List.length_append] at h1
        have hw : w ∈ ws := by rw [hsl, h]; simp
        have := encBytes_length version _ w (sane_coded version w (hR w hw))
        rw [← bytes_enc] at this
        omega
    rw [hlost, List.append_nil] at hsl
    have hfs : fs = ws.map Wire.kept := by show (seenFrames ws padding).map Wire.kept = _; rw [← hsl]
    rw [hfs, List.getLast?_map] at hf
    cases hl : ws.getLast? with
    | none => rw [hl] at hf; simp at hf
    | some w =>
      rw [hl] at hf
      simp only [Option.map_some, Option.some.injEq] at hf
      subst hf
      refine kept_body_ne w ?_ hb
      intro hwb
      unfold lostFrames at hlost
      rw [hl] at hlost
      simp [hz.1, hwb] at hlost
  generalize hN : (ws.flatMap (Wire.bytes version)).length + padding = N at *
  have hfit : framesSize fs ≤ N := by
    have : framesSize fs ≤ ((seenFrames ws padding).flatMap (Wire.bytes version)).length := hle
    omega
  refine ⟨N - framesSize fs, by omega, ?_⟩
  have hpad : framesSize fs + (N - framesSize fs) = N := by omega
  have hread : ID3v2_read_tag (some (ofB (wireTagBytes version minor flags ws padding ++ rest))) =
      .ok (some (toTag version minor flags N fs (seenPadding ws padding))) := by
    have h1 := read_exact version minor flags ws padding [] hv hflag hR (by omega)
    rw [List.append_nil, Nat.add_assoc, hN] at h1
    have e : ofB (wireTagBytes version minor flags ws padding ++ rest) =
        ofB (tagHeaderBytes version minor flags N) ++
          ofB (ws.flatMap (Wire.bytes version) ++ List.replicate padding 0) ++ ofB rest := by
      simp only [wireTagBytes, hN, List.append_assoc, ofB_append]
    have e2 : ofB (wireTagBytes version minor flags ws padding) =
        ofB (tagHeaderBytes version minor flags N) ++
          ofB (ws.flatMap (Wire.bytes version) ++ List.replicate padding 0) := by
      simp only [wireTagBytes, hN, List.append_assoc, ofB_append]
    rw [e, read_tag_prefix version minor flags _ _ _ hv hs (by rw [ofB_length, List.length_append, List.length_replicate, hN]), ← e2, h1]
    unfold outcome
    rw [List.findSome?_eq_none_iff.mpr hd]
  have hspad : seenPadding ws padding ≤ 10 + padding := by
    unfold seenPadding
    split
    · split <;> omega
    · omega
  have hfirst : readWrite (some (ofB (wireTagBytes version minor flags ws padding ++ rest))) =
      .ok (some (ofB (outBytes version minor flags fs (N - framesSize fs) ++ rest))) := by
    obtain ⟨t', h2, -⟩ := write_read_exact (wireTagBytes version minor flags ws padding ++ rest) version minor flags fs
      (N - framesSize fs) (seenPadding ws padding) hv hflag hu hsm' (by omega) (by omega) (by omega)
    have ha : audio (wireTagBytes version minor flags ws padding ++ rest) = rest := by
      have := audio_behind version minor flags N (ws.flatMap (Wire.bytes version) ++ List.replicate padding 0) rest hv hs
        (by rw [← hN, List.length_append, List.length_replicate])
      simpa only [wireTagBytes, hN, List.append_assoc] using this
    rw [ha, hpad] at h2
    unfold readWrite
    rw [hread]
    simp only [Res.bind_ok]
    rw [h2]
    rfl
  have hfix := readWrite_fixed version minor flags fs (N - framesSize fs) rest hv hflag hu hsm' hdf hll (by omega)
  have hall : ∀ n, readWrites n (some (ofB (outBytes version minor flags fs (N - framesSize fs) ++ rest))) =
      .ok (some (ofB (outBytes version minor flags fs (N - framesSize fs) ++ rest))) := by
    intro n
    induction n with
    | zero => rfl
    | succ n ih =>
      show (readWrite _).bind _ = _
      rw [hfix]
      exact ih
  intro n
  show (readWrite _).bind _ = _
  rw [hfirst]
  exact hall n

/-- A tag with a text frame and its rest, a comment with the id of another frame, an empty frame at the very end: version 2.3
and version 2.4. -/
example : (∀ w ∈ sampleWire ++ [.other [0x58, 0x59, 0x5A, 0x31] [0, 0] []], @Wire.Sane strict 3 w ∧ @Wire.Sane strict 4 w) ∧
    (∀ w ∈ seenFrames (sampleWire ++ [.other [0x58, 0x59, 0x5A, 0x31] [0, 0] []]) 0,
      @Wire.defect strict w = none ∧ w.kept.body.length < 256) ∧
    (seenFrames (sampleWire ++ [.other [0x58, 0x59, 0x5A, 0x31] [0, 0] []]) 0).length = 3 := by decide

/-- **C62** fails for every version 2.4 tag whose first frame is a text of 256 bytes or more: the program crashes the second
time. -/
theorem second_rewrite_crashes [Platform] (id fl : List UInt8) (enc : UInt8) (s : Str) (ws : List Wire) (padding : Nat)
    (rest : List UInt8) (hR : ∀ w ∈ Wire.text id fl enc s [] :: ws, w.Readable 4) (hlong : 256 ≤ 1 + s.bytes.length)
    (hs : ((Wire.text id fl enc s [] :: ws).flatMap (Wire.bytes 4)).length + padding < 2 ^ 28)
    (hlast : lastSeen (Wire.text id fl enc s [] :: ws) padding) :
    (∃ file, readWrites 1 (some (ofB (wireTagBytes 4 0 0 (Wire.text id fl enc s [] :: ws) padding ++ rest))) = .ok file) ∧
    readWrites 2 (some (ofB (wireTagBytes 4 0 0 (Wire.text id fl enc s [] :: ws) padding ++ rest))) = .ub .oobRead := by
  obtain ⟨t, cs, h1, h2, h3⟩ := v24_long_text_oob id fl enc s ws padding hR hlong hs hlast
  generalize hws : Wire.text id fl enc s [] :: ws = l at *
  have h4 := beyond_length_ignored 4 0 0 l padding [] (Or.inr rfl) (by decide) hR hs hlast
  rw [List.append_nil, h1] at h4
  have ht := Option.some.inj (Res.ok.inj h4)
  have h5 := read_file_wire 4 0 0 l padding rest (Or.inr rfl) (by decide) hR hs hlast
  rw [← ht] at h5
  have hle := kept_framesSize 4 l (fun w hw => (hR w hw).1.1)
  obtain ⟨cs', h6, h7, h8⟩ := toTag_out 4 0 0 ((l.flatMap (Wire.bytes 4)).length + padding) (l.map Wire.kept) padding
    (by
      intro f hf
      obtain ⟨w, hw, rfl⟩ := List.mem_map.mp hf
      exact (hR w hw).1.2.1) hs (by omega)
  rw [← ht, h2] at h6
  have hcs := Res.ok.inj h6
  subst hcs
  obtain ⟨t', h9⟩ := write_succeeds (wireTagBytes 4 0 0 l padding ++ rest) t cs (by rw [ht]; rfl) h2
    (by rw [ht]; show (0 : Int) ≤ padding; omega) (by rw [ht]; show (padding : Int) ≤ _; omega)
  have e1 : readWrite (some (ofB (wireTagBytes 4 0 0 l padding ++ rest))) =
      .ok (some (cs.stream ++ ofB (audio (wireTagBytes 4 0 0 l padding ++ rest)))) := by
    unfold readWrite
    rw [h5]
    simp only [Res.bind_ok]
    rw [h9]
    rfl
  refine ⟨⟨_, by show (readWrite _).bind _ = _; rw [e1]; rfl⟩, ?_⟩
  show (readWrite _).bind _ = _
  rw [e1]
  show (readWrite _).bind _ = _
  have e2 : ID3v2_read_tag (some (cs.stream ++ ofB (audio (wireTagBytes 4 0 0 l padding ++ rest)))) = .ub .oobRead := by
    rw [h7, List.append_assoc, ofB_append, read_tag_prefix 4 0 0 _ _ _ (Or.inr rfl) hs
      (by rw [ofB_length, List.length_append, flatMap_bytes_length, List.length_replicate]; omega),
      ← ofB_append, ← List.append_assoc, ← h7, ← h8]
    exact h3
  unfold readWrite
  rw [e2]
  rfl

/-- **C62**: reading a tag and writing it back a second time changes nothing. -/
def C62_claim : Prop :=
  ∀ [Platform] (version minor flags : UInt8) (ws : List Wire) (padding : Nat) (rest : List UInt8),
    (version = 3 ∨ version = 4) → flags &&& 0x40 = 0 → (∀ w ∈ ws, w.Readable version) →
    (ws.flatMap (Wire.bytes version)).length + padding < 2 ^ 28 → lastSeen ws padding →
    readWrites 2 (some (ofB (wireTagBytes version minor flags ws padding ++ rest))) =
      readWrites 1 (some (ofB (wireTagBytes version minor flags ws padding ++ rest)))

/-- **C62** is false. -/
theorem C62_false : ¬ C62_claim := by
  intro h
  obtain ⟨n, hn1, hn2⟩ : ∃ n, 255 ≤ n ∧ n ≤ 1000 := ⟨300, by omega, by omega⟩
  have hr := longTitle_readable n (by omega) hn2
  have hR : ∀ w ∈ [longTitle n], @Wire.Readable strict 4 w := by
    intro w hw; rw [List.mem_singleton] at hw; rw [hw]; exact hr
  have hs : ([longTitle n].flatMap (Wire.bytes 4)).length + 0 < 2 ^ 28 := by
    rw [List.flatMap_cons, List.flatMap_nil, List.append_nil, Wire.bytes_length 4 _ hr.1.1]
    simp [longTitle, Wire.body, Str.bytes, Str.content, Str.terminator]
    omega
  have hl : lastSeen [longTitle n] 0 := Or.inr (by intro w hw; simp at hw; subst hw; simp [longTitle, Wire.body])
  obtain ⟨⟨file, h1⟩, h2⟩ := @second_rewrite_crashes strict _ _ _ _ [] 0 [] hR (by
    simp [Str.bytes, Str.content, Str.terminator]; omega) hs hl
  have h3 := @h strict 4 0 0 [longTitle n] 0 [] (Or.inr rfl) (by decide) hR hs hl
  have h4 := (h2.symm.trans h3).trans h1
  cases h4

end Id3.Props
