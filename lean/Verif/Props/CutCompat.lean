import Verif.Props.Cut
import Verif.Props.AnyCompat

/-!
# C79 for the compatibility API: what is loaded from a file that was cut off
-/

namespace Id3.Props

open Id3 Id3.Spec

theorem load_of_does [Platform] (c : List UInt8) (o : Option (Option Tag)) (h : Does (ID3v2_read_tag (some (ofB c))) o) :
    (∀ ct, load_tag (some (ofB c)) = .ok ct ↔
      ∃ t, o = some (some t) ∧ Showable t ∧ ct = compatTag (padTo (tagLength c) (ofB c)) t) ∧
    ((∃ k, load_tag (some (ofB c)) = .ub k) ↔ ∀ t, o = some (some t) → ¬ Showable t) := by
  have hiff : ∀ t, ID3v2_read_tag (some (ofB c)) = .ok (some t) ↔ o = some (some t) := by
    intro t
    cases o with
    | none =>
      obtain ⟨k, hk⟩ := h
      rw [hk]
      constructor <;> intro h <;> cases h
    | some r =>
      have h : ID3v2_read_tag (some (ofB c)) = .ok r := h
      rw [h]
      constructor
      · intro h; cases h; rfl
      · intro h; cases h; rfl
  constructor
  · intro ct
    rw [load_agrees]
    simp only [hiff]
  · rw [load_file_any_undefined]
    simp only [← hiff, C67_file]

/-- **C79** for `load_tag`: from the first `n` bytes of a file that begins with a tag, it makes the entries for what
`ID3v2_read_tag` finds there; if that finds no tag, a tag that cannot be shown, or is undefined, then so is this. -/
theorem load_cut_exact [Platform] (version minor flags : UInt8) (ws : List Wire) (padding : Nat) (rest : List UInt8) (n : Nat)
    (hv : version = 3 ∨ version = 4) (hflag : flags &&& 0x40 = 0) (hR : ∀ w ∈ ws, w.Sane version)
    (hs : wireSize ws + padding < 2 ^ 28) :
    let c := (wireTagBytes version minor flags ws padding ++ rest).take n
    (∀ ct, load_tag (some (ofB c)) = .ok ct ↔ ∃ t, readCut version minor flags ws padding n = some (some t) ∧ Showable t ∧
      ct = compatTag (padTo (tagLength c) (ofB c)) t) ∧
    ((∃ k, load_tag (some (ofB c)) = .ub k) ↔ ∀ t, readCut version minor flags ws padding n = some (some t) → ¬ Showable t) :=
  load_of_does _ _ (read_cut_exact version minor flags ws padding rest n hv hflag hR hs)

/-- The same for a file that the library has written. -/
theorem load_cut_written [Platform] (version minor flags : UInt8) (fs : List SFrame) (padding : Nat) (rest : List UInt8) (n : Nat)
    (hv : version = 3 ∨ version = 4) (hflag : flags &&& 0x40 = 0) (hu : ∀ f ∈ fs, f.Usable)
    (hsm : ∀ f ∈ fs, SmallIn version f) (hs : framesSize fs + padding < 2 ^ 28) :
    let c := (outBytes version minor flags fs padding ++ rest).take n
    (∀ ct, load_tag (some (ofB c)) = .ok ct ↔ ∃ t, readCut version minor flags (fs.map Wire.ofSFrame) padding n = some (some t) ∧
      Showable t ∧ ct = compatTag (padTo (tagLength c) (ofB c)) t) ∧
    ((∃ k, load_tag (some (ofB c)) = .ub k) ↔
      ∀ t, readCut version minor flags (fs.map Wire.ofSFrame) padding n = some (some t) → ¬ Showable t) :=
  load_of_does _ _ (read_cut_written version minor flags fs padding rest n hv hflag hu hsm hs)

theorem usable_writable [Platform] (f : SFrame) (h : f.Usable) : WritableFrame f.toFrame := by
  have one : ∀ s : Str, s.Usable → ofB s.bytes = ofB [0] → Platform.memcmpLenient = true := by
    intro s hs e
    have e := ofB_injective e
    rcases hs.2.2 with h | h
    · exact h
    · exfalso
      cases s with
      | latin chars =>
        cases chars with
        | nil => exact h rfl
        | cons c cs =>
          have := congrArg List.length e
          simp [Str.bytes, Str.content, Str.terminator] at this
      | utf16 le units =>
        have := congrArg List.length e
        cases le <;> simp [Str.bytes, Str.content, Str.terminator, Str.bom] at this
  have hl := h.2.1
  rw [SFrame.bytes_length _ h.1] at hl
  refine ⟨?_, ?_, ?_⟩
  · show (0 : Int) ≤ (f.body.length : Nat)
    omega
  · show ((f.body.length : Nat) : Int) + 10 ≤ 2147483647
    omega
  · cases f with
    | text => exact .inr (fun h => h)
    | comment flags lang desc txt =>
      by_cases e : ofB desc.bytes = ofB [0]
      · exact .inl (one desc h.2.2.1 e)
      · exact .inr e
    | apic flags mime pt desc pic =>
      by_cases e : ofB mime.bytes = ofB [0]
      · exact .inl (one mime h.2.2.1 e)
      · by_cases e' : ofB desc.bytes = ofB [0]
        · exact .inl (one desc h.2.2.2 e')
        · refine .inr ?_
          rintro (h | h)
          · exact e h
          · exact e' h
    | other => exact .inr (fun h => h)

/-- **C79** for `load_tag` and the files that the library usually writes (at least one frame, more than ten bytes of padding):
the tag is loaded if and only if everything up to the fourth byte of padding is there, and shows the frames; otherwise the
behaviour is undefined. -/
theorem load_cut_padded [Platform] (version minor flags : UInt8) (fs : List SFrame) (padding : Nat) (rest : List UInt8) (n : Nat)
    (hv : version = 3 ∨ version = 4) (hflag : flags &&& 0x40 = 0) (hu : ∀ f ∈ fs, f.Usable)
    (hsm : ∀ f ∈ fs, SmallIn version f) (hs : framesSize fs + padding < 2 ^ 28) (hd : ∀ f ∈ fs, f.defect = none)
    (hne : fs ≠ []) (hp : 10 < padding) :
    let c := (outBytes version minor flags fs padding ++ rest).take n
    (14 + framesSize fs ≤ n → load_tag (some (ofB c)) = .ok (compatTag (padTo (tagLength c) (ofB c))
      (toTag version minor flags (framesSize fs + padding) fs padding))) ∧
    (n < 14 + framesSize fs → ∃ k, load_tag (some (ofB c)) = .ub k) := by
  obtain ⟨h1, h2⟩ := load_cut_written version minor flags fs padding rest n hv hflag hu hsm hs
  obtain ⟨a1, a2⟩ := seenFrames_map ofSFrame_body fs padding
  have hll : ¬ LastLost fs padding := fun h => by have := h.1; omega
  have hsb : seenBack fs padding = fs := by unfold seenBack; rw [if_neg hll]
  rw [if_neg hll] at a2
  rw [hsb] at a1
  have hsz : wireSize (fs.map Wire.ofSFrame) = framesSize fs := by
    rw [wireSize_map ofSFrame_body, framesSize_bodies (fun f hf => (hu f hf).1)]
  have hk2 : ∀ f, (Wire.ofSFrame f).kept = f := by intro f; cases f <;> rfl
  have hdef : fs.findSome? SFrame.defect = none := List.findSome?_eq_none_iff.mpr hd
  intro c
  constructor
  · intro hn
    refine (h1 _).mpr ⟨_, ?_, ?_, rfl⟩
    · unfold readCut
      dsimp only
      rw [if_neg (by omega), a1, hsz, if_pos (by rw [if_pos hp]; omega), defects_map defect_ofSFrame, if_pos hdef, kept_map hk2,
        a2]
    · intro x hx
      match fs, hne with
      | f :: fs, _ =>
        obtain ⟨g, hg, rfl⟩ := List.mem_map.mp hx
        exact ⟨_, rfl, usable_writable g (hu g hg)⟩
  · intro hn
    refine h2.mpr (fun t ht => ?_)
    exfalso
    unfold readCut at ht
    dsimp only at ht
    rw [a1, hsz] at ht
    split at ht
    · cases ht
    · rw [if_neg (by omega)] at ht
      cases ht

/-- Every part of a file with two frames: the tag is loaded from 40 bytes on. -/
example (n : Nat) : (∃ ct, @load_tag strict (some (ofB ((outBytes 3 0 0 cutFrames 20 ++ [0xFF, 0xFB]).take n))) = .ok ct) ↔
    40 ≤ n := by
  have h := @load_cut_padded strict 3 0 0 cutFrames 20 [0xFF, 0xFB] n (.inl rfl) (by decide) (by decide)
    (fun _ _ h => absurd h (by decide)) (by decide) (by decide) (by decide) (by decide)
  have e : framesSize cutFrames = 26 := by decide
  rw [e] at h
  constructor
  · rintro ⟨ct, hc⟩
    refine Nat.le_of_not_lt fun hn => ?_
    obtain ⟨k, hk⟩ := h.2 (by omega)
    rw [hc] at hk
    cases hk
  · intro hn
    exact ⟨_, h.1 (by omega)⟩

end Id3.Props
