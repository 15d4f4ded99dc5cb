import Verif.Spec.Copy
import Verif.Props.StableIff
import Verif.Props.Any

/-!
# C96: copying the tag of one file to another
-/

namespace Id3.Props

open Spec

/-- What `ID3v2_write_tag` puts before the audio, what it does to the tag and how it ends does not depend on the file. For every
tag whatever. -/
theorem write_target [Platform] (tag : Tag) : ∃ s : Res (Bytes × Tag), ∀ c : List UInt8,
    ID3v2_write_tag (some (ofB c)) tag = (s >>= fun r => .ok (some (r.1 ++ ofB (audio c)), r.2)) := by
  refine ⟨(do
      let extra_padding_length := clamp_int (← ck (2048 - tag.padding_size)) 0 2048
      let tag := { tag with padding_size := ← ck (tag.padding_size + extra_padding_length) }
      let tag_cs ← Tag_to_char_stream tag
      let temp ← memcpySrc tag_cs.stream tag_cs.size
      return (temp, tag)), fun c => ?_⟩
  unfold ID3v2_write_tag
  rw [existing_size]
  simp only [Res.bind_ok, Int.toNat_natCast, ofB_drop]
  change _ = _
  cases ck (2048 - tag.padding_size) with
  | ok p =>
    simp only [Res.bind_ok]
    cases ck (tag.padding_size + clamp_int p 0 2048) with
    | ok q =>
      simp only [Res.bind_ok]
      cases Tag_to_char_stream { tag with padding_size := q } with
      | ok cs =>
        simp only [Res.bind_ok]
        cases memcpySrc cs.stream cs.size with
        | _ => rfl
      | _ => rfl
    | _ => rfl
  | _ => rfl

/-- **C96**: whatever the two files contain, the audio of the target is kept, and what is put before it does not depend on the
target. If the first file has no tag, the target is not touched. -/
theorem copy_keeps_audio [Platform] (source : Option Bytes) :
    (ID3v2_read_tag source = .ok none ∧ ∀ target, copyTag source target = .ok target) ∨
    (ID3v2_read_tag source ≠ .ok none ∧ ∃ s : Res Bytes, ∀ d : List UInt8,
      copyTag source (some (ofB d)) = (s >>= fun b => .ok (some (b ++ ofB (audio d))))) := by
  unfold copyTag
  cases h : ID3v2_read_tag source with
  | ok r =>
    cases r with
    | none => exact .inl ⟨rfl, fun _ => rfl⟩
    | some t =>
      obtain ⟨s, hs⟩ := write_target t
      refine .inr ⟨by simp, s >>= fun r => .ok r.1, fun d => ?_⟩
      simp only [Res.bind_ok]
      rw [hs d]
      cases s with
      | _ => rfl
  | ub k => exact .inr ⟨by simp, .ub k, fun _ => rfl⟩
  | exit => exact .inr ⟨by simp, .exit, fun _ => rfl⟩
  | diverge => exact .inr ⟨by simp, .diverge, fun _ => rfl⟩

/-- **C96**: the tag that the target had does not matter. -/
theorem copy_replaces [Platform] (source : Option Bytes) (d d' : List UInt8) (h : audio d = audio d')
    (ht : ID3v2_read_tag source ≠ .ok none) : copyTag source (some (ofB d)) = copyTag source (some (ofB d')) := by
  rcases copy_keeps_audio source with ⟨h1, -⟩ | ⟨-, s, hs⟩
  · exact absurd h1 ht
  · rw [hs d, hs d', h]

/-- **C96**: the audio of the source does not matter. -/
theorem copy_tag_only [Platform] (c a a' : List UInt8) (target : Option Bytes) (hc : tagLength c = c.length) (h0 : c ≠ []) :
    copyTag (some (ofB (c ++ a))) target = copyTag (some (ofB (c ++ a'))) target := by
  have hl : ∀ a, tagLength (c ++ a) = tagLength c := by
    intro a
    rcases ten_or_less c with h | ⟨b0, b1, b2, b3, b4, b5, s0, s1, s2, s3, rest, rfl⟩
    · exfalso
      rw [tagLength_short c h] at hc
      exact h0 (List.length_eq_zero_iff.mp hc.symm)
    · rfl
  have hr : ∀ a, ID3v2_read_tag (some (ofB (c ++ a))) = ID3v2_read_tag (some (ofB c)) := by
    intro a
    have hne : tagLength c ≠ 0 := by rw [hc]; exact fun h => h0 (List.length_eq_zero_iff.mp h)
    rw [file_buffer (c ++ a) (by rw [hl]; exact hne), file_buffer c hne, hl]
    congr 2
    rw [ofB_append, hc, padTo, padTo, List.take_append, List.length_append]
    simp
  unfold copyTag
  rw [hr a, hr a']

/-- From one target to another. -/
theorem copy_elsewhere [Platform] (c : List UInt8) (x d e : List UInt8) (h0 : tagLength c ≠ 0) :
    copyTag (some (ofB c)) (some (ofB d)) = .ok (some (ofB (x ++ audio d))) ↔
      copyTag (some (ofB c)) (some (ofB e)) = .ok (some (ofB (x ++ audio e))) := by
  rcases copy_keeps_audio (some (ofB c)) with ⟨h1, -⟩ | ⟨-, s, hs⟩
  · exact absurd ((C67_file_null c).mp h1) h0
  · rw [hs d, hs e]
    cases s with
    | ok b =>
      simp only [Res.bind_ok, Res.ok.injEq, Option.some.injEq, ofB_append, List.append_cancel_right_eq]
    | ub k => exact ⟨fun h => (by cases h), fun h => (by cases h)⟩
    | exit => exact ⟨fun h => (by cases h), fun h => (by cases h)⟩
    | diverge => exact ⟨fun h => (by cases h), fun h => (by cases h)⟩

theorem copy_same [Platform] (file : Option Bytes) : copyTag file file = readWrite file := rfl

theorem outBytes_front [Platform] (version minor flags : UInt8) (fs : List SFrame) (padding : Nat) (rest : List UInt8)
    (hv : version = 3 ∨ version = 4) (hs : framesSize fs + padding < 2 ^ 28) :
    tagLength (outBytes version minor flags fs padding ++ rest) ≠ 0 ∧
      audio (outBytes version minor flags fs padding ++ rest) = rest := by
  constructor
  · unfold outBytes
    rw [List.append_assoc, List.append_assoc, tagLength_header _ _ _ _ _ hv hs]
    omega
  · have := audio_behind version minor flags (framesSize fs + padding)
      (fs.flatMap SFrame.bytes ++ List.replicate padding 0) rest hv hs
      (by rw [List.length_append, flatMap_bytes_length, List.length_replicate])
    simpa only [outBytes, List.append_assoc] using this

/-- **C96**, exactly, for files with a tag of well-formed frames: the target then has the frames that the library sees in the
source (all but an empty one at the very end), in their order and as the library writes them, in a tag of the same size, and its
own audio. A copy of the copy, to any file, is the same as a copy if and only if the version is 2.3 or there is no large frame
(of 256 bytes or more, not a comment). -/
theorem copy_exact [Platform] (version minor flags : UInt8) (ws : List Wire) (padding : Nat) (rest : List UInt8)
    (hv : version = 3 ∨ version = 4) (hflag : flags &&& 0x40 = 0) (hR : ∀ w ∈ ws, w.Sane version)
    (hs : (ws.flatMap (Wire.bytes version)).length + padding < 2 ^ 28)
    (hd : ∀ w ∈ seenFrames ws padding, w.defect = none) :
    let fs := (seenFrames ws padding).map Wire.kept
    ∃ padding', framesSize fs + padding' = (ws.flatMap (Wire.bytes version)).length + padding ∧
      ∀ d : List UInt8,
        copyTag (some (ofB (wireTagBytes version minor flags ws padding ++ rest))) (some (ofB d)) =
          .ok (some (ofB (outBytes version minor flags fs padding' ++ audio d))) ∧
        ∀ e : List UInt8,
          copyTag (some (ofB (outBytes version minor flags fs padding' ++ audio d))) (some (ofB e)) =
            copyTag (some (ofB (wireTagBytes version minor flags ws padding ++ rest))) (some (ofB e)) ↔
          (version = 4 → ∀ f ∈ fs, ¬ f.Big) := by
  intro fs
  have hsrc : ∀ rest, tagLength (wireTagBytes version minor flags ws padding ++ rest) ≠ 0 ∧
      audio (wireTagBytes version minor flags ws padding ++ rest) = rest := by
    intro rest
    constructor
    · unfold wireTagBytes
      dsimp only
      rw [List.append_assoc, List.append_assoc, tagLength_header _ _ _ _ _ hv hs]
      omega
    · have := audio_behind version minor flags ((ws.flatMap (Wire.bytes version)).length + padding)
        (ws.flatMap (Wire.bytes version) ++ List.replicate padding 0) rest hv hs
        (by rw [List.length_append, List.length_replicate])
      simpa only [wireTagBytes, List.append_assoc] using this
  have hall := fun rest => rewrites_stable_iff version minor flags ws padding rest hv hflag hR hs hd
  obtain ⟨p, hp, h1, -⟩ := hall rest
  have hpe : ∀ p', framesSize fs + p' = (ws.flatMap (Wire.bytes version)).length + padding → p' = p := by
    intro p' h
    change framesSize fs + p = _ at hp
    omega
  have hone : ∀ file : Option Bytes, readWrites 1 file = readWrite file := by
    intro file
    show (readWrite file >>= fun f => readWrites 0 f) = _
    cases readWrite file with
    | _ => rfl
  have hps : framesSize fs + p < 2 ^ 28 := by
    change framesSize fs + p = _ at hp
    omega
  have hdirect : ∀ d : List UInt8, copyTag (some (ofB (wireTagBytes version minor flags ws padding ++ rest))) (some (ofB d)) =
      .ok (some (ofB (outBytes version minor flags fs p ++ audio d))) := by
    intro d
    rw [copy_elsewhere _ _ d (wireTagBytes version minor flags ws padding ++ rest) (hsrc rest).1, copy_same, ← hone,
      (hsrc rest).2]
    exact h1
  refine ⟨p, hp, fun d => ⟨hdirect d, fun e => ?_⟩⟩
  obtain ⟨p', hp', h1', h2'⟩ := hall (audio d)
  obtain rfl := hpe p' hp'
  obtain ⟨hb1, hb2⟩ := outBytes_front version minor flags fs p' (audio d) hv hps
  rw [hdirect e, copy_elsewhere _ _ e (outBytes version minor flags fs p' ++ audio d) hb1, copy_same, hb2]
  rw [hone] at h1'
  change readWrite _ = .ok (some (ofB (outBytes version minor flags fs p' ++ audio d))) at h1'
  change _ ↔ (version = 4 → ∀ f ∈ fs, ¬ f.Big) at h2'
  rw [← h2']
  have hstep : ∀ n, readWrites (n + 1) (some (ofB (wireTagBytes version minor flags ws padding ++ audio d))) =
      readWrites n (some (ofB (outBytes version minor flags fs p' ++ audio d))) := by
    intro n
    show (readWrite _ >>= fun f => readWrites n f) = _
    rw [h1']
    rfl
  constructor
  · intro h n
    rw [hstep]
    induction n with
    | zero => rfl
    | succ n ih =>
      show (readWrite _ >>= fun f => readWrites n f) = _
      rw [h]
      exact ih
  · intro h
    have := h 1
    rw [hstep, hone] at this
    exact this

/-- **C96**: a copy of a copy is the same as a copy. -/
def C96_claim : Prop :=
  ∀ [Platform] (version minor flags : UInt8) (ws : List Wire) (padding : Nat) (rest d e b : List UInt8),
    (version = 3 ∨ version = 4) → flags &&& 0x40 = 0 → (∀ w ∈ ws, w.Sane version) →
    (ws.flatMap (Wire.bytes version)).length + padding < 2 ^ 28 → (∀ w ∈ seenFrames ws padding, w.defect = none) →
    copyTag (some (ofB (wireTagBytes version minor flags ws padding ++ rest))) (some (ofB d)) = .ok (some (ofB b)) →
    copyTag (some (ofB b)) (some (ofB e)) =
      copyTag (some (ofB (wireTagBytes version minor flags ws padding ++ rest))) (some (ofB e))

/-- A frame of 300 bytes of an unknown kind. -/
def privateFrame : Wire := .other [0x50, 0x52, 0x49, 0x56] [0, 0] (List.replicate 300 0x41)

theorem privateFrame_ok (version : UInt8) (hv : version = 3 ∨ version = 4) :
    (∀ w ∈ [privateFrame], @Wire.Sane strict version w) ∧
      ([privateFrame].flatMap (Wire.bytes version)).length + 20 < 2 ^ 28 ∧
      (∀ w ∈ seenFrames [privateFrame] 20, @Wire.defect strict w = none) ∧
      ((seenFrames [privateFrame] 20).map Wire.kept).map (·.body.length) = [300] := by
  rcases hv with rfl | rfl <;> decide +kernel

/-- **C96** is false: a version 2.4 tag with a large frame. -/
theorem C96_false : ¬ C96_claim := by
  intro h
  obtain ⟨h1, h2, h3, h4⟩ := privateFrame_ok 4 (Or.inr rfl)
  obtain ⟨p, -, hc⟩ := @copy_exact strict 4 0 0 [privateFrame] 20 [] (Or.inr rfl) (by decide) h1 h2 h3
  obtain ⟨hd, he⟩ := hc []
  have := (he []).mp (@h strict 4 0 0 [privateFrame] 20 [] [] [] _ (Or.inr rfl) (by decide) h1 h2 h3 hd) rfl
  exact this (.other [0x50, 0x52, 0x49, 0x56] [0, 0] (List.replicate 300 0x41)) (by decide +kernel)
    ⟨fun _ _ _ _ h => (by cases h), by decide +kernel⟩

/-- **C96**, what holds: a copy of a copy is the same as a copy if the version is 2.3 or all frames but comments have fewer than
256 bytes. -/
theorem C96_partial [Platform] (version minor flags : UInt8) (ws : List Wire) (padding : Nat) (rest d e : List UInt8)
    (hv : version = 3 ∨ version = 4) (hflag : flags &&& 0x40 = 0) (hR : ∀ w ∈ ws, w.Sane version)
    (hs : (ws.flatMap (Wire.bytes version)).length + padding < 2 ^ 28)
    (hd : ∀ w ∈ seenFrames ws padding, w.defect = none)
    (hsm : version = 4 → ∀ w ∈ seenFrames ws padding, (∃ a b c d, w.kept = .comment a b c d) ∨ w.kept.body.length < 256) :
    ∃ b, copyTag (some (ofB (wireTagBytes version minor flags ws padding ++ rest))) (some (ofB d)) = .ok (some (ofB b)) ∧
      audio b = audio d ∧
      copyTag (some (ofB b)) (some (ofB e)) =
        copyTag (some (ofB (wireTagBytes version minor flags ws padding ++ rest))) (some (ofB e)) := by
  obtain ⟨p, hp, hc⟩ := copy_exact version minor flags ws padding rest hv hflag hR hs hd
  obtain ⟨h1, h2⟩ := hc d
  refine ⟨_, h1, (outBytes_front version minor flags _ p (audio d) hv (by omega)).2, (h2 e).mpr ?_⟩
  intro h4 f hf hb
  obtain ⟨w, hw, rfl⟩ := List.mem_map.mp hf
  rcases hsm h4 w hw with ⟨a, b, c, d, h⟩ | h
  · exact hb.1 a b c d h
  · have := hb.2
    omega

/-- The same frame in a version 2.3 tag: the hypotheses of `copy_exact` and of `C96_partial` hold. -/
example : ∃ b, @copyTag strict (some (ofB (@wireTagBytes 3 0 0 [privateFrame] 20 ++ [0xFF]))) (some (ofB [1, 2, 3])) =
      .ok (some (ofB b)) ∧ audio b = [1, 2, 3] ∧
      @copyTag strict (some (ofB b)) (some (ofB [7])) =
        @copyTag strict (some (ofB (wireTagBytes 3 0 0 [privateFrame] 20 ++ [0xFF]))) (some (ofB [7])) := by
  obtain ⟨h1, h2, h3, -⟩ := privateFrame_ok 3 (Or.inl rfl)
  exact @C96_partial strict 3 0 0 [privateFrame] 20 [0xFF] [1, 2, 3] [7] (Or.inl rfl) (by decide) h1 h2 h3
    (fun h => absurd h (by decide))

end Id3.Props
