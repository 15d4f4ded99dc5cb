import Verif.Spec.Stack
import Verif.Props.Copy

/-!
# C97: files with several tags, and with tags of other versions
-/

namespace Id3.Props

open Spec

theorem tagLength_longer (c a : List UInt8) (h : 10 ≤ c.length) : tagLength (c ++ a) = tagLength c := by
  rcases ten_or_less c with h' | ⟨b0, b1, b2, b3, b4, b5, s0, s1, s2, s3, rest, rfl⟩
  · omega
  · rfl

theorem tagLength_ten (c : List UInt8) (h : tagLength c ≠ 0) : 10 ≤ c.length ∧ 10 ≤ tagLength c := by
  rcases ten_or_less c with h' | ⟨b0, b1, b2, b3, b4, b5, s0, s1, s2, s3, rest, rfl⟩
  · exact absurd (tagLength_short c h') h
  · refine ⟨by simp, ?_⟩
    simp only [List.cons_append, tagLength] at h ⊢
    split at h
    · next hc => rw [if_pos hc]; omega
    · exact absurd rfl h

theorem complete_front (b rest : List UInt8) (h : Complete b) :
    tagLength (b ++ rest) = b.length ∧ audio (b ++ rest) = rest := by
  have h0 : tagLength b ≠ 0 := by rw [h.2]; exact fun e => h.1 (List.length_eq_zero_iff.mp e)
  have e : tagLength (b ++ rest) = b.length := by rw [tagLength_longer _ _ (tagLength_ten b h0).1, h.2]
  exact ⟨e, by rw [audio, e, List.drop_left]⟩

/-- **C97**: with several tags one behind the other, each deletion removes the first one, and nothing else. -/
theorem deletes_stack [Platform] (tags : List (List UInt8)) (rest : List UInt8) (h : ∀ b ∈ tags, Complete b) (n : Nat)
    (hn : n ≤ tags.length) :
    deletes n (some (ofB (tags.flatten ++ rest))) = .ok (some (ofB ((tags.drop n).flatten ++ rest))) := by
  induction n generalizing tags with
  | zero => rfl
  | succ n ih =>
    cases tags with
    | nil => cases hn
    | cons b tags =>
      show ID3v2_delete_tag _ >>= _ = _
      rw [delete_leaves_audio, List.flatten_cons, List.append_assoc, (complete_front b _ (h b (by simp))).2]
      exact ih tags (fun x hx => h x (List.mem_cons_of_mem _ hx)) (by simpa using hn)

/-- **C97**: only the first tag is read. -/
theorem read_stack [Platform] (b rest : List UInt8) (h : Complete b) :
    ID3v2_read_tag (some (ofB (b ++ rest))) = ID3v2_read_tag (some (ofB b)) := by
  have e1 := (complete_front b rest h).1
  have hne : b.length ≠ 0 := fun e => h.1 (List.length_eq_zero_iff.mp e)
  rw [file_buffer (b ++ rest) (by rw [e1]; exact hne), file_buffer b (by rw [h.2]; exact hne), e1, h.2]
  congr 2
  rw [ofB_append, padTo, padTo, List.take_append, List.length_append]
  simp

/-- **C97**: writing replaces the first tag. What is behind it, other tags or not, stays as it is; and the new tag is the same as
in a file without any tag. -/
theorem write_stack [Platform] (tag : Tag) : ∃ s : Res (Bytes × Tag),
    (∀ b rest : List UInt8, Complete b →
      ID3v2_write_tag (some (ofB (b ++ rest))) tag = (s >>= fun r => .ok (some (r.1 ++ ofB rest), r.2))) ∧
    (∀ c : List UInt8, ID3v2_read_tag (some (ofB c)) = .ok none →
      ID3v2_write_tag (some (ofB c)) tag = (s >>= fun r => .ok (some (r.1 ++ ofB c), r.2))) := by
  obtain ⟨s, hs⟩ := write_target tag
  refine ⟨s, fun b rest h => ?_, fun c h => ?_⟩
  · rw [hs, (complete_front b rest h).2]
  · rw [hs, audio, (C67_file_null c).mp h, List.drop_zero]

/-- **C97**: after the deletion the file still has a tag if and only if one follows the tag. -/
theorem delete_reveals [Platform] (c : List UInt8) :
    ∃ r, ID3v2_delete_tag (some (ofB c)) = .ok (some (ofB r)) ∧ r = audio c ∧
      (ID3v2_read_tag (some (ofB r)) = .ok none ↔ tagLength (audio c) = 0) :=
  ⟨_, delete_leaves_audio c, rfl, C67_file_null _⟩

/-- **C97**: for every file there is a number of deletions, at most one for ten bytes, after which it has no tag; before, it
has one; what is left is the end of the file, and further deletions leave it alone. -/
theorem deletes_end [Platform] (c : List UInt8) : ∃ n r, 10 * n ≤ c.length ∧ r <:+ c ∧
    (∀ m, deletes (n + m) (some (ofB c)) = .ok (some (ofB r))) ∧
    ID3v2_read_tag (some (ofB r)) = .ok none ∧
    ∀ m < n, ∃ x, deletes m (some (ofB c)) = .ok (some (ofB x)) ∧ ID3v2_read_tag (some (ofB x)) ≠ .ok none := by
  generalize hl : c.length = l
  induction l using Nat.strongRecOn generalizing c with
  | ind l ih =>
    by_cases h : tagLength c = 0
    · refine ⟨0, c, by omega, List.suffix_refl c, fun m => ?_, (C67_file_null c).mpr h, fun m hm => absurd hm (Nat.not_lt_zero m)⟩
      rw [Nat.zero_add]
      induction m with
      | zero => rfl
      | succ m ih =>
        show ID3v2_delete_tag _ >>= _ = _
        rw [delete_leaves_audio, audio, h, List.drop_zero]
        exact ih
    · obtain ⟨h1, h2⟩ := tagLength_ten c h
      have hlen : (audio c).length + 10 ≤ c.length := by
        rw [audio, List.length_drop]
        omega
      obtain ⟨n, r, g1, g2, g3, g4, g5⟩ := ih (audio c).length (by omega) (audio c) rfl
      refine ⟨n + 1, r, by omega, g2.trans (List.drop_suffix _ _), fun m => ?_, g4, fun m hm => ?_⟩
      · rw [Nat.add_right_comm]
        show ID3v2_delete_tag _ >>= _ = _
        rw [delete_leaves_audio]
        exact g3 m
      · cases m with
        | zero => exact ⟨c, rfl, fun e => h ((C67_file_null c).mp e)⟩
        | succ m =>
          obtain ⟨x, k1, k2⟩ := g5 m (by omega)
          refine ⟨x, ?_, k2⟩
          show ID3v2_delete_tag _ >>= _ = _
          rw [delete_leaves_audio]
          exact k1

/-- **C97**: a tag of another version is no tag for the library: reading gives NULL, deleting leaves it alone, and writing puts
the new tag before it. -/
theorem other_version [Platform] (version : UInt8) (rest : List UInt8) (h : version ≠ 3 ∧ version ≠ 4) :
    ID3v2_read_tag (some (ofB (0x49 :: 0x44 :: 0x33 :: version :: rest))) = .ok none ∧
    ID3v2_delete_tag (some (ofB (0x49 :: 0x44 :: 0x33 :: version :: rest))) =
      .ok (some (ofB (0x49 :: 0x44 :: 0x33 :: version :: rest))) ∧
    ∀ tag file tag', ID3v2_write_tag (some (ofB (0x49 :: 0x44 :: 0x33 :: version :: rest))) tag = .ok (file, tag') →
      ∃ front, file = some (front ++ ofB (0x49 :: 0x44 :: 0x33 :: version :: rest)) := by
  have h0 : tagLength (0x49 :: 0x44 :: 0x33 :: version :: rest) = 0 := by
    unfold tagLength
    split
    · next e =>
      simp only [List.cons.injEq] at e
      obtain ⟨-, -, -, rfl, -⟩ := e
      rw [if_neg]
      rintro ⟨-, -, -, hv⟩
      rcases hv with hv | hv
      · exact h.1 hv
      · exact h.2 hv
    · rfl
  have hn := (C67_file_null (0x49 :: 0x44 :: 0x33 :: version :: rest)).mpr h0
  refine ⟨hn, ?_, fun tag file tag' hw => ?_⟩
  · rw [delete_leaves_audio, audio, h0, List.drop_zero]
  · obtain ⟨s, -, hs⟩ := write_stack tag
    rw [hs _ hn] at hw
    cases s with
    | ok r => cases hw; exact ⟨_, rfl⟩
    | ub k => cases hw
    | exit => cases hw
    | diverge => cases hw

/-- Tags as in files are complete, so a file may have any number of them. -/
theorem wire_complete [Platform] (version minor flags : UInt8) (ws : List Wire) (padding : Nat)
    (hv : version = 3 ∨ version = 4) (hs : (ws.flatMap (Wire.bytes version)).length + padding < 2 ^ 28) :
    Complete (wireTagBytes version minor flags ws padding) := by
  unfold wireTagBytes
  refine ⟨by simp [tagHeaderBytes], ?_⟩
  dsimp only
  rw [List.append_assoc, tagLength_header _ _ _ _ _ hv hs]
  simp [tagHeaderBytes, synchsafe]
  omega

/-- A 2.3 and a 2.4 tag before two bytes of audio: two deletions. -/
example : (∀ b ∈ [[0x49, 0x44, 0x33, 3, 0, 0, 0, 0, 0, 2, 9, 9], [0x49, 0x44, 0x33, 4, 0, 0, 0, 0, 0, 0]], Complete b) ∧
    @deletes strict 2 (some (ofB ([0x49, 0x44, 0x33, 3, 0, 0, 0, 0, 0, 2, 9, 9] ++ [0x49, 0x44, 0x33, 4, 0, 0, 0, 0, 0, 0] ++
      [0xFF, 0xFB]))) = .ok (some (ofB [0xFF, 0xFB])) := by
  decide +kernel

end Id3.Props
