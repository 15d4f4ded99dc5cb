import Verif.Props.Stack
import Verif.Props.AnyCompat
import Verif.Props.CompatFile

/-!
# C96 and C97 for the compatibility API
-/

namespace Id3.Props

open Spec

/-- **C96**: copying with the compatibility API, for all files. If the source has a tag that it can show, the result is that of
the other API; in all other cases the behaviour is undefined, and the target is not touched. -/
theorem compat_copy [Platform] (c : List UInt8) (target : Option Bytes) :
    (∀ t, ID3v2_read_tag (some (ofB c)) = .ok (some t) → Showable t →
      compatCopy (some (ofB c)) target = copyTag (some (ofB c)) target) ∧
    ((∀ t, ID3v2_read_tag (some (ofB c)) = .ok (some t) → ¬ Showable t) →
      ∃ k, compatCopy (some (ofB c)) target = .ub k ∧ load_tag (some (ofB c)) = .ub k) := by
  constructor
  · intro t ht hs
    unfold compatCopy copyTag
    rw [(load_agrees c _).mpr ⟨t, ht, hs, rfl⟩, ht]
    simp only [Res.bind_ok]
    unfold set_tag
    show (ID3v2_write_tag target t >>= _) >>= _ = _
    cases ID3v2_write_tag target t with
    | ok r => rfl
    | ub k => rfl
    | exit => rfl
    | diverge => rfl
  · intro h
    obtain ⟨k, hk⟩ := (load_file_any_undefined c).mpr (fun t ht => h t ((C67_file c t).mpr ht))
    refine ⟨k, ?_, hk⟩
    unfold compatCopy
    rw [hk]
    rfl

/-- **C97**: `load_tag` loads the first tag only. -/
theorem load_stack [Platform] (b rest : List UInt8) (h : Complete b) :
    load_tag (some (ofB (b ++ rest))) = load_tag (some (ofB b)) := by
  have e1 := (complete_front b rest h).1
  have hne : b.length ≠ 0 := fun e => h.1 (List.length_eq_zero_iff.mp e)
  rw [load_file_eq (b ++ rest) (by rw [e1]; exact hne), load_file_eq b (by rw [h.2]; exact hne), e1, h.2]
  congr 1
  rw [ofB_append, padTo, padTo, List.take_append, List.length_append]
  simp

/-- **C97**: `set_tag` replaces the first tag and keeps what is behind it; the new tag is the same as in a file without a tag. -/
theorem set_stack [Platform] (ct : CTag) : ∃ s : Res (Bytes × CTag),
    (∀ b rest : List UInt8, Complete b →
      set_tag (some (ofB (b ++ rest))) ct = (s >>= fun r => .ok (some (r.1 ++ ofB rest), r.2))) ∧
    (∀ c : List UInt8, ID3v2_read_tag (some (ofB c)) = .ok none →
      set_tag (some (ofB c)) ct = (s >>= fun r => .ok (some (r.1 ++ ofB c), r.2))) := by
  obtain ⟨s, h1, h2⟩ := write_stack ct.tag
  refine ⟨s >>= fun r => .ok (r.1, { ct with tag := r.2 }), fun b rest h => ?_, fun c h => ?_⟩
  · unfold set_tag
    rw [h1 b rest h]
    cases s with
    | _ => rfl
  · unfold set_tag
    rw [h2 c h]
    cases s with
    | _ => rfl

/-- **C97**: `remove_tag` removes the first tag and leaves a file without a tag, or with one of another version, alone. -/
theorem remove_stack [Platform] :
    (∀ b rest : List UInt8, Complete b → remove_tag (some (ofB (b ++ rest))) = .ok (some (ofB rest))) ∧
    (∀ c : List UInt8, ID3v2_read_tag (some (ofB c)) = .ok none → remove_tag (some (ofB c)) = .ok (some (ofB c))) := by
  refine ⟨fun b rest h => ?_, fun c h => ?_⟩
  · rw [remove_tag_leaves_audio, (complete_front b rest h).2]
  · rw [remove_tag_leaves_audio, audio, (C67_file_null c).mp h, List.drop_zero]

/-- A file with a tag that can be shown, and one with a tag that cannot: a frame with a negative size. -/
example : (∃ t, @ID3v2_read_tag strict (some (ofB slackTag)) = .ok (some t) ∧ @Showable strict t) ∧
    ∃ k, @compatCopy strict (some (ofB negativeTag)) (some []) = .ub k := by
  constructor
  · refine ⟨slackRead, by decide +kernel, ?_⟩
    intro x hx
    exact ⟨_, List.mem_singleton.mp hx, by decide⟩
  · obtain ⟨k, h, -⟩ := (@compat_copy strict negativeTag (some [])).2 (by
      intro t ht
      rw [negative_read] at ht
      cases ht
      exact @negative_not_shown strict)
    exact ⟨k, h⟩

end Id3.Props
