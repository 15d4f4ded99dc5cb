import Verif.Model.Fault
import Verif.Proof.File

/-!
# Lemmas about failing I/O
-/

namespace Id3

open Spec

theorem deliver_prefix (e : ReadFaults) (l : Bytes) : e.deliver l <+: l := by
  unfold ReadFaults.deliver
  split
  · exact List.prefix_refl _
  · exact List.take_prefix _ _

theorem land_sublist (lost : Nat → Bool) (i : Nat) (l : Bytes) : List.Sublist (land lost i l) l := by
  induction l generalizing i with
  | nil => exact List.Sublist.refl _
  | cons b l ih =>
    unfold land
    split
    · exact (ih (i + 1)).cons b
    · exact (ih (i + 1)).cons_cons b

theorem land_all (lost : Nat → Bool) (i : Nat) (l : Bytes) : land lost i l = l ↔ ∀ j < l.length, lost (i + j) = false := by
  induction l generalizing i with
  | nil => simp [land]
  | cons b l ih =>
    unfold land
    split
    · next h =>
      constructor
      · intro he
        have h1 := (land_sublist lost (i + 1) l).length_le
        rw [he] at h1
        simp at h1
        omega
      · intro ha
        have := ha 0 (by simp)
        simp [h] at this
    · next h =>
      simp only [List.cons.injEq, true_and]
      rw [ih]
      constructor
      · intro ha j hj
        cases j with
        | zero => simpa using h
        | succ j =>
          have := ha j (by simpa using hj)
          rwa [show i + 1 + j = i + (j + 1) from by omega] at this
      · intro ha j hj
        have := ha (j + 1) (by simpa using hj)
        rwa [show i + (j + 1) = i + 1 + j from by omega] at this

theorem deliver_all (e : ReadFaults) (l : Bytes) : e.deliver l = l ↔ ∀ k, e.stops = some k → l.length ≤ k := by
  unfold ReadFaults.deliver
  split
  · next h => simp [h]
  · next k h => rw [h]; simp only [Option.some.injEq, forall_eq']; exact ⟨fun he => by have := congrArg List.length he; rw [List.length_take] at this; omega, List.take_of_length_le⟩

theorem land_none (i : Nat) (l : Bytes) : land (fun _ => false) i l = l := (land_all _ i l).mpr (by simp)

theorem deliver_none (l : Bytes) : ReadFaults.none.deliver l = l := rfl

theorem open_none (file : File) : ReadFaults.none.open file = file := rfl

theorem header_io_none [Platform] (file : File) : ID3v2_read_tag_header_io .none file = ID3v2_read_tag_header file := by
  unfold ID3v2_read_tag_header_io ID3v2_read_tag_header
  rw [open_none]
  cases file with
  | none => rfl
  | some c => dsimp only; rw [deliver_none]

theorem size_io_none [Platform] (file : File) : existingTagSize_io .none file = existingTagSize file := by
  unfold existingTagSize_io existingTagSize
  rw [header_io_none]
  rfl

/-- Reading the header gives the header, or nothing if it cannot be opened or read. -/
theorem header_io [Platform] (e : ReadFaults) (file : File) :
    ID3v2_read_tag_header_io e file = ID3v2_read_tag_header file ∧ (e.opens = true ∧ ∀ k, e.stops = some k → 10 ≤ k) ∨
    ID3v2_read_tag_header_io e file = .ok none ∧ ¬ (e.opens = true ∧ ∀ k, e.stops = some k → 10 ≤ k) := by
  by_cases hok : e.opens = true ∧ ∀ k, e.stops = some k → 10 ≤ k
  · refine .inl ⟨?_, hok⟩
    unfold ID3v2_read_tag_header_io ID3v2_read_tag_header ReadFaults.open
    rw [if_pos hok.1]
    cases file with
    | none => rfl
    | some c =>
      dsimp only
      rw [(deliver_all e (c.take 10)).mpr (by
        intro k hk
        have := hok.2 k hk
        simp
        omega)]
  · refine .inr ⟨?_, hok⟩
    unfold ID3v2_read_tag_header_io ReadFaults.open
    by_cases ho : e.opens = true
    · rw [if_pos ho]
      cases file with
      | none => rfl
      | some c =>
        dsimp only
        have : ∃ k, e.stops = some k ∧ k < 10 := by
          cases hs : e.stops with
          | none => exact absurd ⟨ho, by simp [hs]⟩ hok
          | some k =>
            refine ⟨k, rfl, ?_⟩
            by_cases hk : k < 10
            · exact hk
            · exact absurd ⟨ho, by simp [hs]; omega⟩ hok
        obtain ⟨k, hs, hk⟩ := this
        rw [if_pos (by
          unfold ReadFaults.deliver
          rw [hs]
          simp only [List.length_take]
          omega)]
    · rw [if_neg ho]

end Id3
