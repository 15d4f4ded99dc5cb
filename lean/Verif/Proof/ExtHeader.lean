import Verif.Proof.V24
import Verif.Proof.Header

/-!
# Tags with an extended header
-/

namespace Id3

open Spec

/-- Frames are only ever added at the end. -/
theorem loop_keeps_head [Platform] (fuel : Nat) (cs : CharStream) (size : Nat) (version : UInt8) (f : Frame)
    (rest : FrameList) (l : FrameList) (cs' : CharStream)
    (h : Tag_parse_loop fuel cs size version (some f :: rest) = .ok (l, cs')) : ∃ r, l = some f :: r := by
  induction fuel generalizing cs rest with
  | zero => simp [Tag_parse_loop] at h
  | succ fuel ih =>
    unfold Tag_parse_loop at h
    split at h
    · rw [Res.bind_eq_ok] at h
      obtain ⟨⟨o, cs1⟩, h1, h2⟩ := h
      cases o with
      | none =>
        simp only [Res.pure_eq, Res.ok.injEq, Prod.mk.injEq] at h2
        exact ⟨rest, h2.1.symm⟩
      | some g =>
        simp only [FrameList_add_frame] at h2
        exact ih _ _ h2
    · simp only [Res.ok.injEq, Prod.mk.injEq] at h
      exact ⟨rest, h.1.symm⟩

theorem decSize_six (version : UInt8) : decSize version [0, 0, 0, 6] = ((6 : Nat) : Int) := by
  unfold decSize; split <;> rfl

/-- With an extended header of size 6, parsing starts inside the tag header. -/
theorem parse_ext_six [Platform] (version minor flags : UInt8) (s0 s1 s2 s3 x y : UInt8) (d : List UInt8) (rest : Bytes)
    (hv : version = 3 ∨ version = 4) (hflag : flags &&& 0x40 = 0x40) (hd : d.length = 6)
    (h0 : s0.toNat < 0x40) (hs : 6 < sizeValue s0 s1 s2 s3) (t : Option Tag)
    (ht : Tag_parse (csAt [] (ofB [0x49, 0x44, 0x33, version, minor, flags, s0, s1, s2, s3] ++
      (ofB [0, 0, 0, 6, x, y] ++ (ofB d ++ rest)))) = .ok t) :
    ∃ tag r, t = some tag ∧
      tag.frames = some (SFrame.other [s0, s1, s2, s3] [x, y] d).toFrame :: r := by
  unfold Tag_parse at ht
  rw [tag_header_parse_all, if_pos rfl, if_pos hv, if_pos hflag] at ht
  simp only [Res.bind_ok, ID3v2_Tag_new] at ht
  have e : (ofB [0, 0, 0, 6, x, y] ++ (ofB d ++ rest)).take 4 = ofB [0, 0, 0, 6] := rfl
  have e6 : decodeSizeIndet (intoArray 4 (ofB [0, 0, 0, 6])) = some 6 := by decide
  rw [e, e6] at ht
  simp only [show ((6 : Nat) > 0) = True from by simp, if_true] at ht
  have es : CharStream_seek (csAt (ofB [0x49, 0x44, 0x33, version, minor, flags, s0, s1, s2, s3] ++ ofB [0, 0, 0, 6])
      ((ofB [0, 0, 0, 6, x, y] ++ (ofB d ++ rest)).drop 4)) (toInt32 6) .set =
      .ok (csAt (ofB [0x49, 0x44, 0x33, version, minor, flags])
        (ofB ((Wire.other [s0, s1, s2, s3] [x, y] d).bytesWith [0, 0, 0, 6]) ++ rest)) := by
    unfold CharStream_seek
    simp only [csAt, Wire.bytesWith, Wire.id, Wire.flags, Wire.body]
    have : toInt32 6 = 6 := by decide
    rw [this]
    simp [ofB]
  rw [es] at ht
  simp only [Res.bind_ok] at ht
  generalize hL : (csAt (ofB [0x49, 0x44, 0x33, version, minor, flags])
        (ofB ((Wire.other [s0, s1, s2, s3] [x, y] d).bytesWith [0, 0, 0, 6]) ++ rest)).stream.length + 1 = fuel at ht
  rw [Res.bind_eq_ok] at ht
  obtain ⟨⟨l, cs'⟩, hl, ht⟩ := ht
  obtain ⟨fuel, rfl⟩ : ∃ k, fuel = k + 1 := ⟨fuel - 1, by omega⟩
  have hk : (Wire.other [s0, s1, s2, s3] [x, y] d).Keepable := by
    have n1 : s0 ≠ 0x54 := by rintro rfl; simp at h0
    have n2 : s0 ≠ 0x43 := by rintro rfl; simp at h0
    have n3 : s0 ≠ 0x41 := by rintro rfl; simp at h0
    have n4 : ([s0, s1, s2, s3] : List UInt8) ≠ [0, 0, 0, 0] := by
      intro e
      simp only [List.cons.injEq, and_true] at e
      obtain ⟨rfl, rfl, rfl, rfl⟩ := e
      exact absurd hs (by decide)
    have hw : (Wire.other [s0, s1, s2, s3] [x, y] d).WF := by
      refine ⟨rfl, ?_, ?_, ?_, n4, rfl⟩ <;> simpa
    refine ⟨hw, ⟨hw, ?_, trivial⟩, trivial⟩
    simp only [Wire.kept]
    rw [SFrame.bytes_length (SFrame.other [s0, s1, s2, s3] [x, y] d) hw]
    show 10 + d.length ≤ _
    omega
  unfold Tag_parse_loop at hl
  have hc : u32 (csAt (ofB [0x49, 0x44, 0x33, version, minor, flags])
        (ofB ((Wire.other [s0, s1, s2, s3] [x, y] d).bytesWith [0, 0, 0, 6]) ++ rest)).cursor = 6 := by
    simp [csAt, ofB]; decide
  rw [hc, if_pos hs, frame_parse_with version _ _ _ _ hk rfl (by
      rw [decSize_six]; simp [Wire.sizeField, Wire.body, hd]) (by
      simp [Wire.bytesWith, Wire.id, Wire.flags, Wire.body, hd])] at hl
  simp only [Res.bind_ok, FrameList_new, FrameList_add_frame, Wire.kept] at hl
  obtain ⟨r, rfl⟩ := loop_keeps_head _ _ _ _ _ _ _ _ hl
  simp only [Res.bind_eq_ok] at ht
  obtain ⟨p, -, ht⟩ := ht
  simp only [Res.pure_eq, Res.ok.injEq] at ht
  exact ⟨_, r, ht.symm, rfl⟩

end Id3
