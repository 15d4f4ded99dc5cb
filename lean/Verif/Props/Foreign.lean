import Verif.Props.Standard
import Verif.Props.Between

/-!
# C101: what other programs write, as the library sees it
-/

namespace Id3.Props

open Spec

theorem stdLatin_closed (bs cs t : List UInt8) (h : stdLatin true bs = some (cs, t)) : bs = cs ++ 0 :: t := by
  induction bs generalizing cs t with
  | nil => cases h
  | cons b bs ih =>
    unfold stdLatin at h
    split at h
    · rename_i hb
      cases h
      simp [hb]
    · obtain ⟨⟨cs', t'⟩, h1, h2⟩ := Option.map_eq_some_iff.mp h
      cases h2
      simp [ih _ _ h1]

theorem stdUnits_closed (bs : List UInt8) (us : List (UInt8 × UInt8)) (t : List UInt8) (h : stdUnits true bs = some (us, t)) :
    bs = us.flatMap (fun u => [u.1, u.2]) ++ 0 :: 0 :: t := by
  fun_induction stdUnits true bs generalizing us t with
  | case1 => cases h
  | case2 h0 => exact absurd rfl h0
  | case3 => cases h
  | case4 a b t' h0 => cases h; simp [h0.1, h0.2]
  | case5 a b t' _ ih =>
    obtain ⟨⟨us', t''⟩, h1, h2⟩ := Option.map_eq_some_iff.mp h
    cases h2
    simp [ih _ _ h1]

theorem stdString_closed (e : UInt8) (bs : List UInt8) (s : Str) (t : List UInt8) (h : stdString true e bs = some (s, t)) :
    bs = s.bytes ++ t := by
  unfold stdString at h
  split at h
  · obtain ⟨⟨cs, t'⟩, h1, h⟩ := Option.map_eq_some_iff.mp h
    cases h
    rw [stdLatin_closed _ _ _ h1]
    simp [Str.bytes, Str.content, Str.terminator]
  · split at h
    · split at h
      · obtain ⟨⟨us, t'⟩, h1, h⟩ := Option.map_eq_some_iff.mp h
        cases h
        rw [stdUnits_closed _ _ _ h1]
        simp [Str.bytes, Str.content, Str.terminator, Str.bom]
      · obtain ⟨⟨us, t'⟩, h1, h⟩ := Option.map_eq_some_iff.mp h
        cases h
        rw [stdUnits_closed _ _ _ h1]
        simp [Str.bytes, Str.content, Str.terminator, Str.bom]
      · cases h
    · cases h

/-- A frame that the strict reader understands is a frame of the grammar. -/
theorem stdFrame_wire (id flags body : List UInt8) (f : SFrame) (h : stdFrame true id flags body = some f) :
    f.id = id ∧ f.flags = flags ∧ ∃ w : Wire, w.kept = f ∧ w.id = id ∧ w.flags = flags ∧ w.body = body ∧
      w.sizeField = body.length ∧ (f.WF → w.WF) := by
  unfold stdFrame at h
  split at h
  · rename_i hid
    split at h
    · rename_i e l1 l2 l3 t
      split at h
      · rename_i desc t' hd
        split at h
        · rename_i txt t'' ht
          split at h
          · cases h
          · rename_i hc
            cases h
            have h1 := stdString_closed _ _ _ _ hd
            have h2 := stdString_closed _ _ _ _ ht
            have h3 : t'' = [] := by
              cases t'' with
              | nil => rfl
              | cons => exact absurd ⟨rfl, by simp⟩ hc
            subst h1 h2 h3 hid
            refine ⟨rfl, rfl, .comment commId flags (e :: l1 :: l2 :: l3 :: (desc.bytes ++ (txt.bytes ++ []))).length e
              [l1, l2, l3] desc txt, rfl, rfl, rfl, by simp [Wire.body], rfl, fun hw => ⟨rfl, rfl, hw⟩⟩
        · cases h
      · cases h
    · cases h
  · split at h
    · rename_i hid
      split at h
      · rename_i e t
        split at h
        · rename_i mime pt t' hd
          obtain ⟨⟨desc, pic⟩, h1, h⟩ := Option.map_eq_some_iff.mp h
          cases h
          have h1 := stdString_closed _ _ _ _ h1
          have h2 := stdString_closed _ _ _ _ hd
          subst h1 h2 hid
          refine ⟨rfl, rfl, .apic apicId flags e mime pt desc pic, rfl, rfl, rfl, by simp [Wire.body],
            by simp [Wire.sizeField, Wire.body], fun hw => ⟨rfl, rfl, hw⟩⟩
        · cases h
      · cases h
    · split at h
      · rename_i hT
        split at h
        · rename_i e t
          obtain ⟨⟨s, junk⟩, h1, h⟩ := Option.map_eq_some_iff.mp h
          cases h
          have h1 := stdString_closed _ _ _ _ h1
          subst h1
          exact ⟨rfl, rfl, .text id flags e s junk, rfl, rfl, rfl, by simp [Wire.body],
            by simp [Wire.sizeField, Wire.body], fun hw => hw⟩
        · cases h
      · cases h
        exact ⟨rfl, rfl, .other id flags body, rfl, rfl, rfl, rfl, rfl, fun hw => hw⟩

theorem ofNat_toNat_digit (a : UInt8) (n : Nat) (h : n % 256 = a.toNat) : UInt8.ofNat n = a := by
  apply UInt8.toNat.inj
  rw [UInt8.toNat_ofNat']
  exact h

theorem stdPlain_inv (z : List UInt8) (n : Nat) (h : stdPlain z = some n) : z = be32 n := by
  unfold stdPlain at h
  split at h
  · rename_i a b c d
    cases h
    have := a.toNat_lt; have := b.toNat_lt; have := c.toNat_lt; have := d.toNat_lt
    unfold be32
    rw [ofNat_toNat_digit a, ofNat_toNat_digit b, ofNat_toNat_digit c, ofNat_toNat_digit d] <;> omega
  · cases h

theorem stdSynchsafe_inv (z : List UInt8) (n : Nat) (h : stdSynchsafe z = some n) : z = synchsafe n ∧ n < 2 ^ 28 := by
  unfold stdSynchsafe at h
  split at h
  · rename_i a b c d
    split at h
    · rename_i hc
      cases h
      have e : (128 : UInt8).toNat = 128 := rfl
      simp only [UInt8.lt_iff_toNat_lt, e] at hc
      refine ⟨?_, by omega⟩
      unfold synchsafe
      rw [ofNat_toNat_digit a, ofNat_toNat_digit b, ofNat_toNat_digit c, ofNat_toNat_digit d] <;> omega
    · cases h
  · cases h

theorem stdSize_inv (version : UInt8) (z : List UInt8) (n : Nat) (h : stdSize version z = some n) : z = sizeBytes version n := by
  unfold stdSize at h
  unfold sizeBytes
  split at h
  · rename_i hv
    rw [if_pos hv]
    exact (stdSynchsafe_inv z n h).1
  · rename_i hv
    rw [if_neg hv]
    exact stdPlain_inv z n h

/-- The bytes of a tag that the strict reader understands are frames of the grammar and padding. -/
theorem stdFrames_wire (version : UInt8) (bs : List UInt8) (fs : List SFrame) (h : stdFrames true version bs = some fs) :
    ∃ (ws : List Wire) (padding : Nat), bs = ws.flatMap (Wire.bytes version) ++ List.replicate padding 0 ∧
      ws.map Wire.kept = fs ∧ ∀ w ∈ ws, w.body ≠ [] ∧ w.sizeField = w.body.length ∧ (w.kept.WF → w.WF) := by
  fun_induction stdFrames true version bs generalizing fs with
  | case1 => cases h; exact ⟨[], 0, rfl, rfl, by simp⟩
  | case2 bs _ _ h2 =>
    cases h
    refine ⟨[], bs.length, ?_, rfl, by simp⟩
    rw [List.flatMap_nil, List.nil_append]
    exact List.eq_replicate_iff.mpr ⟨rfl, by simpa using h2⟩
  | case3 => cases h
  | case4 => cases h
  | case5 bs _ _ n hn hc f fs' hfs hf ih =>
    cases h
    obtain ⟨ws, padding, h1, h2, h3⟩ := ih _ hfs
    obtain ⟨-, -, w, w1, w2, w3, w4, w5, w6⟩ := stdFrame_wire _ _ _ _ hf
    have hz := stdSize_inv _ _ _ hn
    have hl : ((bs.drop 10).take n).length = n := by rw [List.length_take, List.length_drop]; omega
    refine ⟨w :: ws, padding, ?_, by rw [List.map_cons, w1, h2], ?_⟩
    · have e : Wire.bytes version w = bs.take 4 ++ ((bs.drop 4).take 4 ++ ((bs.drop 8).take 2 ++ (bs.drop 10).take n)) := by
        unfold Wire.bytes Wire.bytesWith
        rw [w2, w3, w4, w5, hl, ← hz]
        simp only [List.append_assoc]
      rw [List.flatMap_cons, List.append_assoc, ← h1, e]
      simp only [List.append_assoc]
      have e1 : bs.drop (10 + n) = (bs.drop 10).drop n := by rw [List.drop_drop]
      have e2 : bs.drop 10 = (bs.drop 8).drop 2 := by rw [List.drop_drop]
      have e3 : bs.drop 8 = (bs.drop 4).drop 4 := by rw [List.drop_drop]
      rw [e1, List.take_append_drop, e2, List.take_append_drop, e3, List.take_append_drop, List.take_append_drop]
    · intro x hx
      rcases List.mem_cons.mp hx with rfl | hx
      · refine ⟨?_, by rw [w5, w4], by rw [w1]; exact w6⟩
        rw [w4]
        exact List.length_pos_iff.mp (by rw [hl]; exact hc.2.1)
      · exact h3 x hx
  | case6 => cases h
  | case7 => cases h

/-- A file that the strict reader understands: a tag of the grammar, then the rest. -/
theorem stdTag_wire (c : List UInt8) (fs : List SFrame) (rest : List UInt8) (h : stdTag true c = some (fs, rest)) :
    ∃ (version minor : UInt8) (ws : List Wire) (padding : Nat), (version = 3 ∨ version = 4) ∧
      c = wireTagBytes version minor 0 ws padding ++ rest ∧ (ws.flatMap (Wire.bytes version)).length + padding < 2 ^ 28 ∧
      ws.map Wire.kept = fs ∧ ∀ w ∈ ws, w.body ≠ [] ∧ w.sizeField = w.body.length ∧ (w.kept.WF → w.WF) := by
  unfold stdTag at h
  split at h
  · rename_i version revision flags a b c d t
    split at h
    · rename_i hc
      split at h
      · cases h
      · rename_i n hn
        split at h
        · rename_i hlen
          obtain ⟨fs', h1, h2⟩ := Option.map_eq_some_iff.mp h
          cases h2
          obtain ⟨ws, padding, k1, k2, k3⟩ := stdFrames_wire _ _ _ h1
          obtain ⟨z1, z2⟩ := stdSynchsafe_inv _ _ hn
          have hl : (ws.flatMap (Wire.bytes version)).length + padding = n := by
            have := congrArg List.length k1
            rw [List.length_take, List.length_append, List.length_replicate] at this
            omega
          refine ⟨version, revision, ws, padding, hc.1, ?_, by omega, k2, k3⟩
          simp only [wireTagBytes]
          rw [hl, List.append_assoc, List.append_assoc, ← List.append_assoc (ws.flatMap _), ← k1, List.take_append_drop,
            hc.2.2]
          simp only [tagHeaderBytes, ← z1, List.cons_append, List.nil_append]
        · cases h
    · cases h
  · cases h

theorem standard_wire [Platform] (c : List UInt8) (fs : List SFrame) (rest : List UInt8) (h : stdTag true c = some (fs, rest))
    (hu : ∀ f ∈ fs, f.Usable) (hp : ∀ fl mime pt desc, SFrame.apic fl mime pt desc [] ∉ fs)
    (hstack : c.length ≤ rest.length + Platform.stack) :
    ∃ (version minor : UInt8) (ws : List Wire) (padding : Nat), (version = 3 ∨ version = 4) ∧
      c = wireTagBytes version minor 0 ws padding ++ rest ∧ (ws.flatMap (Wire.bytes version)).length + padding < 2 ^ 28 ∧
      ws.map Wire.kept = fs ∧ (∀ w ∈ ws, w.body ≠ [] ∧ w.sizeField = w.body.length ∧ (w.kept.WF → w.WF)) ∧
      (∀ w ∈ ws, w.Readable version) ∧ lastSeen ws padding := by
  obtain ⟨version, minor, ws, padding, hv, rfl, hs, rfl, hw⟩ := stdTag_wire c fs rest h
  have hb : (ws.flatMap (Wire.bytes version)).length ≤ Platform.stack := by
    have : (wireTagBytes version minor 0 ws padding ++ rest).length =
        10 + (ws.flatMap (Wire.bytes version)).length + padding + rest.length := by
      simp [wireTagBytes, tagHeaderBytes, synchsafe]; omega
    omega
  have hR : ∀ w ∈ ws, w.Readable version := by
    intro w hm
    obtain ⟨b1, b2, b3⟩ := hw w hm
    have hk := hu _ (List.mem_map.mpr ⟨w, hm, rfl⟩)
    have hwf := b3 hk.1
    have hle : (Wire.bytes version w).length ≤ (ws.flatMap (Wire.bytes version)).length := by
      obtain ⟨l1, l2, rfl⟩ := List.append_of_mem hm
      simp
      omega
    rw [Wire.bytes_length version w hwf] at hle
    have hle2 := Nat.le_trans hle hb
    refine ⟨⟨hwf, hk, ?_⟩, ?_⟩
    · cases w with
      | text id fl e s junk => simp only [Wire.FitsStack, Wire.body] at *; simp at hle2; omega
      | comment id fl n e lang desc txt => simp only [Wire.FitsStack, Wire.body] at *; simp at hle2; omega
      | apic id fl e mime pt desc pic =>
        simp only [Wire.FitsStack, Wire.body] at *
        simp at hle2
        refine ⟨by omega, by omega, by omega, ?_⟩
        rintro rfl
        exact hp fl mime pt desc (List.mem_map.mpr ⟨_, hm, rfl⟩)
      | other => trivial
    · rw [b2]
      unfold maxFrameSize
      split <;> omega
  have hlast : lastSeen ws padding := Or.inr fun w hl => (hw w (List.mem_of_getLast? hl)).1
  exact ⟨version, minor, ws, padding, hv, rfl, hs, rfl, hw, hR, hlast⟩

/-- **C101**: any file that the strict reader understands. If the library can handle the frames and the tag fits the stack, then
`ID3v2_read_tag` gives the same frames. -/
theorem standard_read [Platform] (c : List UInt8) (fs : List SFrame) (rest : List UInt8) (h : stdTag true c = some (fs, rest))
    (hu : ∀ f ∈ fs, f.Usable) (hp : ∀ fl mime pt desc, SFrame.apic fl mime pt desc [] ∉ fs)
    (hstack : c.length ≤ rest.length + Platform.stack) :
    ∃ t, ID3v2_read_tag (some (ofB c)) = .ok (some t) ∧ t.frames = toFrameList fs := by
  obtain ⟨version, minor, ws, padding, hv, rfl, hs, rfl, -, hR, hlast⟩ := standard_wire c fs rest h hu hp hstack
  exact ⟨_, read_file_wire version minor 0 ws padding rest hv (by decide) hR hs hlast, rfl⟩

theorem stdFrame_shape (closed : Bool) (id flags body : List UInt8) (f : SFrame) (h : stdFrame closed id flags body = some f)
    (hb : body ≠ []) :
    f.id = id ∧ f.body ≠ [] ∧
      match f with
      | .text id _ _ => id ≠ txxxId
      | .comment _ _ desc txt => desc.encoding = txt.encoding
      | .apic _ mime _ _ _ => mime.encoding = 0
      | .other _ _ _ => True := by
  unfold stdFrame at h
  split at h
  · rename_i hid
    split at h
    · split at h
      · rename_i hd
        split at h
        · rename_i ht
          split at h
          · cases h
          · cases h
            exact ⟨hid.symm, by simp [SFrame.body],
              (stdString_encoding _ _ _ _ _ hd).trans (stdString_encoding _ _ _ _ _ ht).symm⟩
        · cases h
      · cases h
    · cases h
  · split at h
    · rename_i hid
      split at h
      · split at h
        · rename_i hd
          obtain ⟨⟨desc, pic⟩, h1, h⟩ := Option.map_eq_some_iff.mp h
          cases h
          exact ⟨hid.symm, by simp [SFrame.body], stdString_encoding _ _ _ _ _ hd⟩
        · cases h
      · cases h
    · split at h
      · rename_i hT
        split at h
        · obtain ⟨⟨s, junk⟩, h1, h⟩ := Option.map_eq_some_iff.mp h
          cases h
          exact ⟨rfl, by simp [SFrame.body], hT.2⟩
        · cases h
      · cases h
        exact ⟨rfl, hb, trivial⟩

/-- What such a reader finds is standard, but for the sizes. -/
theorem stdFrames_standard (closed : Bool) (version : UInt8) (bs : List UInt8) (fs : List SFrame)
    (h : stdFrames closed version bs = some fs) : ∀ f ∈ fs, f.Standard 3 := by
  fun_induction stdFrames closed version bs generalizing fs with
  | case1 => cases h; simp
  | case2 => cases h; simp
  | case3 => cases h
  | case4 => cases h
  | case5 bs _ _ n hn hc f fs' hfs hf ih =>
    cases h
    intro x hx
    rcases List.mem_cons.mp hx with rfl | hx
    · have hl : ((bs.drop 10).take n).length = n := by rw [List.length_take, List.length_drop]; omega
      obtain ⟨h1, h2, h3⟩ := stdFrame_shape _ _ _ _ _ hf (List.length_pos_iff.mp (by rw [hl]; exact hc.2.1))
      refine ⟨?_, h2, fun h => absurd h (by decide), by cases x <;> exact h3⟩
      rw [h1]
      exact List.all_eq_true.mp hc.1
    · exact ih _ hfs x hx
  | case6 => cases h
  | case7 => cases h

theorem stdTag_standard (closed : Bool) (c : List UInt8) (fs : List SFrame) (rest : List UInt8)
    (h : stdTag closed c = some (fs, rest)) : (∀ f ∈ fs, f.Standard 3) ∧ c[4]? ≠ some 0xFF := by
  unfold stdTag at h
  split at h
  · split at h
    · rename_i hc
      split at h
      · cases h
      · split at h
        · obtain ⟨fs', h1, h2⟩ := Option.map_eq_some_iff.mp h
          cases h2
          refine ⟨stdFrames_standard _ _ _ _ h1, ?_⟩
          show ¬ some _ = some _
          intro h0
          exact hc.2.1 (Option.some.inj h0)
        · cases h
    · cases h
  · cases h

/-- **C101**: such a file after `ID3v2_read_tag` and `ID3v2_write_tag`. Other programs find the same frames and the same audio if
and only if the version is 2.3 or all frames have less than 128 bytes. -/
theorem standard_rewrite [Platform] (c : List UInt8) (fs : List SFrame) (rest : List UInt8)
    (h : stdTag true c = some (fs, rest)) (hu : ∀ f ∈ fs, f.Usable)
    (hp : ∀ fl mime pt desc, SFrame.apic fl mime pt desc [] ∉ fs) (hstack : c.length ≤ rest.length + Platform.stack) :
    ∃ file, readWrite (some (ofB c)) = .ok (some (ofB file)) ∧
      ∀ closed, stdTag closed file = some (fs, rest) ↔ (c[3]? = some 4 → ∀ f ∈ fs, f.body.length < 128) := by
  obtain ⟨hst, hmin⟩ := stdTag_standard true c fs rest h
  obtain ⟨version, minor, ws, padding, hv, rfl, hs, rfl, hw, hR, hlast⟩ := standard_wire c fs rest h hu hp hstack
  have hm : minor ≠ 0xFF := fun e => hmin (by simp [wireTagBytes, tagHeaderBytes, e])
  have hver : (wireTagBytes version minor 0 ws padding ++ rest)[3]? = some version := by
    simp [wireTagBytes, tagHeaderBytes]
  have hseen : seenFrames ws padding = ws := by
    unfold seenFrames
    split
    · rename_i w hl
      rw [if_neg (fun h0 => (hw w (List.mem_of_getLast? hl)).1 h0.2)]
    · rfl
  have hc := copy_exact version minor 0 ws padding rest hv (by decide) (fun w hm => ⟨(hR w hm).1.1, (hR w hm).1.2.1, (hR w hm).2⟩)
    hs (by rw [hseen]; intro w hm; exact (defect_none w).mpr (hR w hm).1.2.2)
  dsimp only at hc
  rw [hseen] at hc
  obtain ⟨padding', hp', hc⟩ := hc
  have h1 := (hc (wireTagBytes version minor 0 ws padding ++ rest)).1
  have ha : audio (wireTagBytes version minor 0 ws padding ++ rest) = rest := by
    have := audio_behind version minor 0 ((ws.flatMap (Wire.bytes version)).length + padding)
      (ws.flatMap (Wire.bytes version) ++ List.replicate padding 0) rest hv hs
      (by rw [List.length_append, List.length_replicate])
    simpa only [wireTagBytes, List.append_assoc] using this
  rw [ha] at h1
  refine ⟨_, h1, fun closed => ?_⟩
  rw [std_reads_iff closed version minor 0 _ padding' rest hv (fun f hf => (hu f hf).1) (by omega), hver, Option.some.injEq]
  constructor
  · rintro ⟨-, -, h2⟩ hv4 f hf
    exact (h2 f hf).2.2.1 hv4
  · intro h2
    refine ⟨hm, rfl, fun f hf => ?_⟩
    obtain ⟨b1, b2, -, b4⟩ := hst f hf
    exact ⟨b1, b2, fun hv4 => h2 hv4 f hf, b4⟩

/-- **C101**, the compatibility API: `load_tag` shows the same frames, if there is one. -/
theorem standard_load [Platform] (c : List UInt8) (fs : List SFrame) (rest : List UInt8) (h : stdTag true c = some (fs, rest))
    (hne : fs ≠ []) (hu : ∀ f ∈ fs, f.Usable) (hp : ∀ fl mime pt desc, SFrame.apic fl mime pt desc [] ∉ fs)
    (hstack : c.length ≤ rest.length + Platform.stack) :
    ∃ ct, load_tag (some (ofB c)) = .ok ct ∧ ShowsAll ct.frames fs ∧
      ∀ k, ValidId k → Answers (get_from_list ct.frames (lit k)) (first SFrame.id k fs) := by
  obtain ⟨t, h1, h2⟩ := standard_read c fs rest h hu hp hstack
  obtain ⟨ct, h3, -, h4, h5⟩ := load_read fs t _ h1 h2 hne hu
  exact ⟨ct, h3, h4, h5⟩

/-- A file with the title "Hi" that has no terminator, as many programs write it. -/
def bareTitle : List UInt8 :=
  [0x49, 0x44, 0x33, 3, 0, 0, 0, 0, 0, 13, 0x54, 0x49, 0x54, 0x32, 0, 0, 0, 3, 0, 0, 0, 0x48, 0x69]

theorem bareTitle_std : stdTag false bareTitle = some ([.text [0x54, 0x49, 0x54, 0x32] [0, 0] (.latin [0x48, 0x69])], []) := by
  have h : stdFrames false 3 [0x54, 0x49, 0x54, 0x32, 0, 0, 0, 3, 0, 0, 0, 0x48, 0x69] =
      some [.text [0x54, 0x49, 0x54, 0x32] [0, 0] (.latin [0x48, 0x69])] :=
    stdFrames_step false 3 [0x54, 0x49, 0x54, 0x32] [0, 0, 0, 3] [0, 0] [0, 0x48, 0x69] [] _ [] rfl rfl rfl (by decide)
      (by decide) (by decide) (by decide) (by rw [stdFrames]; simp)
  have e : stdTag false bareTitle = (stdFrames false 3 [0x54, 0x49, 0x54, 0x32, 0, 0, 0, 3, 0, 0, 0, 0x48, 0x69]).map
      (fun fs => (fs, [])) := by
    simp [stdTag, bareTitle, stdSynchsafe]
  rw [e, h]
  rfl

/-- The full claim: a file that a program which keeps to the documents understands, with a terminator behind the last string of
a frame or not, is read the same by the library. -/
def C101_claim : Prop :=
  ∀ (p : Platform) (c : List UInt8) (fs : List SFrame) (rest : List UInt8), stdTag false c = some (fs, rest) →
    (∀ f ∈ fs, @SFrame.Usable p f) → (∀ fl mime pt desc, SFrame.apic fl mime pt desc [] ∉ fs) →
    c.length ≤ rest.length + p.stack →
    ∃ t, @ID3v2_read_tag p (some (ofB c)) = .ok (some t) ∧ t.frames = toFrameList fs

/-- It is false: the parser looks for the terminator behind the end of the array that holds the text. -/
theorem C101_false : ¬ C101_claim := by
  intro h
  obtain ⟨t, h1, -⟩ := h strict bareTitle _ _ bareTitle_std (by decide) (by simp) (by decide)
  have h2 : @ID3v2_read_tag strict (some (ofB bareTitle)) = .ub .oobRead := by decide +kernel
  rw [h2] at h1
  cases h1

/-- What holds: `standard_read` and `standard_rewrite` together. Missing: strings without a terminator. -/
theorem C101_partial [Platform] (c : List UInt8) (fs : List SFrame) (rest : List UInt8)
    (h : stdTag true c = some (fs, rest)) (hu : ∀ f ∈ fs, f.Usable)
    (hp : ∀ fl mime pt desc, SFrame.apic fl mime pt desc [] ∉ fs) (hstack : c.length ≤ rest.length + Platform.stack) :
    (∃ t, ID3v2_read_tag (some (ofB c)) = .ok (some t) ∧ t.frames = toFrameList fs) ∧
    ∃ file, readWrite (some (ofB c)) = .ok (some (ofB file)) ∧
      ∀ closed, stdTag closed file = some (fs, rest) ↔ (c[3]? = some 4 → ∀ f ∈ fs, f.body.length < 128) :=
  ⟨standard_read c fs rest h hu hp hstack, standard_rewrite c fs rest h hu hp hstack⟩

theorem stdLatin_open (bs : List UInt8) (r : List UInt8 × List UInt8) (h : stdLatin true bs = some r) :
    stdLatin false bs = some r := by
  obtain ⟨cs, t⟩ := r
  induction bs generalizing cs t with
  | nil => cases h
  | cons b bs ih =>
    unfold stdLatin at h ⊢
    split at h
    · rename_i hb
      rw [if_pos hb]
      exact h
    · rename_i hb
      obtain ⟨⟨cs', t'⟩, h1, h2⟩ := Option.map_eq_some_iff.mp h
      rw [if_neg hb, ih _ _ h1]
      exact congrArg some h2

theorem stdUnits_open (bs : List UInt8) (r : List (UInt8 × UInt8) × List UInt8) (h : stdUnits true bs = some r) :
    stdUnits false bs = some r := by
  obtain ⟨us, t⟩ := r
  fun_induction stdUnits true bs generalizing us t with
  | case1 => cases h
  | case2 h0 => exact absurd rfl h0
  | case3 => cases h
  | case4 a b t' h0 => rw [stdUnits, if_pos h0]; exact h
  | case5 a b t' h0 ih =>
    obtain ⟨⟨us', t''⟩, h1, h2⟩ := Option.map_eq_some_iff.mp h
    rw [stdUnits, if_neg h0, ih _ _ h1]
    exact congrArg some h2

theorem stdString_open (e : UInt8) (bs : List UInt8) (r : Str × List UInt8) (h : stdString true e bs = some r) :
    stdString false e bs = some r := by
  unfold stdString at h ⊢
  split at h
  · rename_i he
    obtain ⟨x, h1, h2⟩ := Option.map_eq_some_iff.mp h
    rw [if_pos he, stdLatin_open _ _ h1]
    exact congrArg some h2
  · rename_i he
    rw [if_neg he]
    split at h
    · rename_i he1
      rw [if_pos he1]
      split at h
      · obtain ⟨x, h1, h2⟩ := Option.map_eq_some_iff.mp h
        rw [stdUnits_open _ _ h1]
        exact congrArg some h2
      · obtain ⟨x, h1, h2⟩ := Option.map_eq_some_iff.mp h
        rw [stdUnits_open _ _ h1]
        exact congrArg some h2
      · cases h
    · cases h

theorem stdFrame_open (id flags body : List UInt8) (f : SFrame) (h : stdFrame true id flags body = some f) :
    stdFrame false id flags body = some f := by
  unfold stdFrame at h ⊢
  split at h
  · rename_i hid
    rw [if_pos hid]
    split at h
    · split at h
      · rename_i hd
        rw [stdString_open _ _ _ hd]
        dsimp only
        split at h
        · rename_i ht
          rw [stdString_open _ _ _ ht]
          dsimp only
          split at h
          · cases h
          · rw [if_neg (fun h0 => (by cases h0.1))]
            exact h
        · cases h
      · cases h
    · cases h
  · rename_i hid
    rw [if_neg hid]
    split at h
    · rename_i hid
      rw [if_pos hid]
      split at h
      · split at h
        · rename_i hd
          obtain ⟨x, h1, h2⟩ := Option.map_eq_some_iff.mp h
          rw [stdString_open _ _ _ hd]
          dsimp only
          rw [stdString_open _ _ _ h1]
          exact congrArg some h2
        · cases h
      · cases h
    · rename_i hid
      rw [if_neg hid]
      split at h
      · rename_i hT
        rw [if_pos hT]
        split at h
        · obtain ⟨x, h1, h2⟩ := Option.map_eq_some_iff.mp h
          rw [stdString_open _ _ _ h1]
          exact congrArg some h2
        · cases h
      · rename_i hT
        rw [if_neg hT]
        exact h

theorem stdFrames_open (version : UInt8) (bs : List UInt8) (fs : List SFrame) (h : stdFrames true version bs = some fs) :
    stdFrames false version bs = some fs := by
  fun_induction stdFrames true version bs generalizing fs with
  | case1 => rw [stdFrames, dif_pos rfl]; exact h
  | case2 bs h0 h1 h2 => rw [stdFrames, dif_neg h0, if_pos h1, if_pos h2]; exact h
  | case3 => cases h
  | case4 => cases h
  | case5 bs h0 h1 n hn hc f fs' hfs hf ih =>
    rw [stdFrames, dif_neg h0, if_neg h1, hn]
    dsimp only
    rw [if_pos hc, stdFrame_open _ _ _ _ hf, ih _ hfs]
    exact h
  | case6 => cases h
  | case7 => cases h

/-- What the strict reader understands, the other understands in the same way. -/
theorem closed_open (c : List UInt8) (fs : List SFrame) (rest : List UInt8) (h : stdTag true c = some (fs, rest)) :
    stdTag false c = some (fs, rest) := by
  unfold stdTag at h ⊢
  split at h
  · split at h
    · rename_i hc
      rw [if_pos hc]
      split at h
      · cases h
      · split at h
        · rename_i hl
          rw [if_pos hl]
          obtain ⟨x, h1, h2⟩ := Option.map_eq_some_iff.mp h
          rw [stdFrames_open _ _ _ h1]
          exact congrArg some h2
        · cases h
    · cases h
  · cases h

/-- A file with a title and a comment meets the hypotheses. -/
example : ∃ c fs, stdTag true c = some (fs, [1, 2, 3]) ∧ fs.length = 2 ∧ (∀ f ∈ fs, @SFrame.Usable strict f) ∧
    (∀ fl mime pt desc, SFrame.apic fl mime pt desc [] ∉ fs) ∧ c.length ≤ 3 + strict.stack :=
  ⟨_, [.text [0x54, 0x49, 0x54, 0x32] [0, 0] (.utf16 true [(0x61, 0)]),
      .comment [0, 0] [0x65, 0x6E, 0x67] (.latin [0x61]) (.latin [0x62])],
    std_reads_others true 4 0 _ 10 [1, 2, 3] (Or.inr rfl) (by decide) (by decide) (by decide) (by decide), rfl, by decide,
    by simp, by decide⟩

end Id3.Props
