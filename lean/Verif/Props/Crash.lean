import Verif.Model.Crash
import Verif.Proof.File

/-!
# C23: crashes during `ID3v2_write_tag` and `ID3v2_delete_tag`
-/

namespace Id3.Props

open Id3 Spec

/-- What is true at every moment of an operation that replaces `old` by `new`, when no write fails: the file is untouched
until it is truncated, and from then on a prefix of the new contents, complete at the end. -/
def Moment (old new : Bytes) (s : IOState) : Prop :=
  match s.phase with
  | .reading temp rest => s.dest = old ∧ temp ++ rest = new
  | .copying buffer rest => s.dest ++ buffer ++ rest = new
  | .finished => s.dest = new

theorem moment_step (old new : Bytes) (s t : IOState) (h : IOStep false s t) (hs : Moment old new s) : Moment old new t := by
  cases h with
  | save dest temp rest c => exact ⟨hs.1, by rw [← hs.2]; simp⟩
  | truncate dest temp => simpa [Moment] using hs.2
  | copy dest buffer rest c =>
    show dest ++ (buffer ++ [c]) ++ rest = new
    rw [← show dest ++ buffer ++ c :: rest = new from hs]; simp
  | flush dest b1 b2 rest =>
    show dest ++ b1 ++ b2 ++ rest = new
    rw [← show dest ++ (b1 ++ b2) ++ rest = new from hs]; simp
  | fail dest b1 b2 rest hf => exact absurd hf (by simp)
  | close dest =>
    show dest = new
    rw [← show dest ++ [] ++ [] = new from hs]; simp

theorem moment_steps (old new : Bytes) (s t : IOState) (h : IOSteps false s t) (hs : Moment old new s) :
    Moment old new t := by
  induction h with
  | refl => exact hs
  | tail t u _ h ih => exact moment_step old new t u h ih

/-- **C23**, what holds for a write: if no write to the disk fails, then at every moment the file is the complete old
file or a prefix of the new one; and when the call is finished it is the new one. Missing: the prefix may be short,
see `C23_false`. -/
theorem write_crash_partial [Platform] (contents : Bytes) (tag tag' : Tag) (file : File) (n : Nat) (cs : CharStream)
    (hid : tag.header.identifier = ofB [0x49, 0x44, 0x33])
    (hsz : existingTagSize (some contents) = .ok (n : Nat)) (hc : Tag_to_char_stream tag = .ok cs)
    (hw : ID3v2_write_tag (some contents) tag = .ok (file, tag')) (s : IOState)
    (h : IOSteps false (writeStart contents cs.stream n) s) :
    ∃ new, file = some new ∧ (s.dest = contents ∨ s.dest <+: new) ∧ (s.phase = .finished → s.dest = new) ∧
      (∀ temp rest, s.phase = .reading temp rest → s.dest = contents) := by
  have hr := write_range _ _ _ hw
  rw [write_tag_eq contents n tag hid hsz hr.1 hr.2, hc] at hw
  simp only [Res.bind_ok, Res.ok.injEq, Prod.mk.injEq] at hw
  refine ⟨_, hw.1.symm, ?_⟩
  have hm := moment_steps contents (cs.stream ++ contents.drop n) _ s h ⟨rfl, rfl⟩
  obtain ⟨dest, phase⟩ := s
  cases phase with
  | reading temp rest => exact ⟨.inl hm.1, by simp, fun _ _ _ => hm.1⟩
  | copying buffer rest =>
    refine ⟨.inr ⟨buffer ++ rest, ?_⟩, by simp, by simp⟩
    rw [← List.append_assoc]; exact hm
  | finished =>
    refine ⟨.inr ⟨[], ?_⟩, fun _ => hm, by simp⟩
    rw [List.append_nil]; exact hm

/-- **C23**, the same for a delete. -/
theorem delete_crash_partial [Platform] (contents : Bytes) (file : File) (n : Nat)
    (hsz : existingTagSize (some contents) = .ok (n : Nat)) (hd : ID3v2_delete_tag (some contents) = .ok file)
    (s : IOState) (h : IOSteps false (deleteStart contents n) s) :
    ∃ new, file = some new ∧ (s.dest = contents ∨ s.dest <+: new) ∧ (s.phase = .finished → s.dest = new) := by
  rw [delete_eq contents n hsz, Res.ok.injEq] at hd
  refine ⟨_, hd.symm, ?_⟩
  have hm := moment_steps contents (contents.drop n) _ s h ⟨rfl, rfl⟩
  obtain ⟨dest, phase⟩ := s
  cases phase with
  | reading temp rest => exact ⟨.inl hm.1, by simp⟩
  | copying buffer rest =>
    refine ⟨.inr ⟨buffer ++ rest, ?_⟩, by simp⟩
    rw [← List.append_assoc]; exact hm
  | finished =>
    refine ⟨.inr ⟨[], ?_⟩, fun _ => hm⟩
    rw [List.append_nil]; exact hm

/-- The hypotheses of the two theorems hold for every ordinary file. -/
example (contents : List UInt8) : ∃ n file, @existingTagSize strict (some (ofB contents)) = .ok (n : Nat) ∧
    @ID3v2_delete_tag strict (some (ofB contents)) = .ok file :=
  ⟨_, _, @existing_size strict contents, @delete_eq strict _ _ (@existing_size strict contents)⟩

/-- Saving the rest to the temporary file. -/
theorem steps_save (faults : Bool) (s : IOState) (dest temp rest : Bytes) (h : IOSteps faults s ⟨dest, .reading temp rest⟩) :
    IOSteps faults s ⟨dest, .reading (temp ++ rest) []⟩ := by
  induction rest generalizing temp with
  | nil => simpa using h
  | cons c rest ih =>
    have := ih (temp ++ [c]) (.tail _ _ _ h (.save _ _ _ _))
    simpa using this

theorem steps_copy (faults : Bool) (s : IOState) (dest buffer rest : Bytes)
    (h : IOSteps faults s ⟨dest, .copying buffer rest⟩) : IOSteps faults s ⟨dest, .copying (buffer ++ rest) []⟩ := by
  induction rest generalizing buffer with
  | nil => simpa using h
  | cons c rest ih =>
    have := ih (buffer ++ [c]) (.tail _ _ _ h (.copy _ _ _ _))
    simpa using this

theorem steps_flush (faults : Bool) (s : IOState) (dest buffer : Bytes)
    (h : IOSteps faults s ⟨dest, .copying buffer []⟩) : IOSteps faults s ⟨dest ++ buffer, .finished⟩ := by
  rw [← List.append_nil buffer] at h
  have := IOSteps.tail _ _ _ (IOSteps.tail _ _ _ h (.flush dest buffer [] [])) (.close _)
  simpa using this

/-- The operation does run to its end. -/
theorem write_finishes (faults : Bool) (contents tag_bytes : Bytes) (n : Nat) :
    IOSteps faults (writeStart contents tag_bytes n) ⟨tag_bytes ++ contents.drop n, .finished⟩ := by
  have h1 := steps_save faults _ _ _ _ (.refl (writeStart contents tag_bytes n))
  have h2 := steps_copy faults _ _ _ _ (.tail _ _ _ h1 (.truncate _ _))
  simpa using steps_flush faults _ _ _ h2

/-- Every write passes through a moment at which the file is empty. -/
theorem write_empties_file (faults : Bool) (contents tag_bytes : Bytes) (n : Nat) :
    ∃ s, IOSteps faults (writeStart contents tag_bytes n) s ∧ s.dest = [] ∧
      IOSteps faults s ⟨tag_bytes ++ contents.drop n, .finished⟩ := by
  have h1 := steps_save faults _ _ _ _ (.refl (writeStart contents tag_bytes n))
  refine ⟨_, .tail _ _ _ h1 (.truncate _ _), rfl, ?_⟩
  have h2 := steps_copy faults _ _ _ _ (.refl ⟨[], .copying [] (tag_bytes ++ contents.drop n)⟩)
  simpa using steps_flush faults _ _ _ h2

/-- At every cut `k` of the new contents there is a moment when the file is just the first `k` bytes. -/
theorem write_any_prefix (faults : Bool) (contents tag_bytes : Bytes) (n k : Nat) :
    ∃ s, IOSteps faults (writeStart contents tag_bytes n) s ∧ s.dest = (tag_bytes ++ contents.drop n).take k := by
  have h1 := steps_save faults _ _ _ _ (.refl (writeStart contents tag_bytes n))
  have h2 := steps_copy faults _ _ _ _ (.tail _ _ _ h1 (.truncate _ _))
  rw [List.nil_append, ← List.take_append_drop k (tag_bytes ++ contents.drop n)] at h2
  exact ⟨_, .tail _ _ _ h2 (.flush _ _ _ _), by simp⟩

/-- The claim of C23 for writes. -/
def C23_claim : Prop :=
  ∀ (contents tag_bytes : Bytes) (n : Nat) (s : IOState), IOSteps false (writeStart contents tag_bytes n) s →
    s.dest = contents ∨ s.dest = tag_bytes ++ contents.drop n

/-- **C23** is false: just after the file was opened for writing both are lost. -/
theorem C23_false : ¬ C23_claim := by
  intro h
  obtain ⟨s, h1, h2, -⟩ := write_empties_file false [some 1] [some 2] 0
  rcases h _ _ _ s h1 with h3 | h3 <;> rw [h2] at h3 <;> simp at h3

/-- With a full disk even a call that returns may have lost the audio: nothing is reported. -/
theorem full_disk_loses_audio (contents tag_bytes : Bytes) (n : Nat) :
    IOSteps true (writeStart contents tag_bytes n) ⟨[], .finished⟩ := by
  have h1 := steps_save true _ _ _ _ (.refl (writeStart contents tag_bytes n))
  have h2 := steps_copy true _ _ _ _ (.tail _ _ _ h1 (.truncate _ _))
  rw [List.nil_append, ← List.append_nil (tag_bytes ++ contents.drop n)] at h2
  exact .tail _ _ _ (.tail _ _ _ h2 (.fail _ _ _ _ rfl)) (.close [])

/-! ## Termination of the copying -/

/-- Work left. -/
def IOState.work (s : IOState) : Nat :=
  match s.phase with
  | .reading temp rest => 3 * rest.length + 2 * temp.length + 2
  | .copying buffer rest => 2 * rest.length + buffer.length + 1
  | .finished => 0

/-- Every step other than a flush of nothing makes progress, so the operation ends whatever the scheduling. -/
theorem io_progress (faults : Bool) (s t : IOState) (h : IOStep faults s t) : t = s ∨ IOState.work t < IOState.work s := by
  cases h with
  | save dest temp rest c => right; simp [IOState.work]; omega
  | truncate dest temp => right; simp [IOState.work]
  | copy dest buffer rest c => right; simp [IOState.work]; omega
  | flush dest b1 b2 rest =>
    cases b1 with
    | nil => left; simp
    | cons x xs => right; simp [IOState.work]; omega
  | fail dest b1 b2 rest =>
    cases b1 with
    | nil => left; simp
    | cons x xs => right; simp [IOState.work]; omega
  | close dest => right; simp [IOState.work]

/-- As long as it is not finished it can go on. -/
theorem io_not_stuck (faults : Bool) (s : IOState) (h : s.phase ≠ .finished) :
    ∃ t, IOStep faults s t ∧ IOState.work t < IOState.work s := by
  obtain ⟨dest, phase⟩ := s
  cases phase with
  | reading temp rest =>
    cases rest with
    | nil => exact ⟨_, .truncate _ _, by simp [IOState.work]⟩
    | cons c rest => exact ⟨_, .save _ _ _ _, by simp [IOState.work]; omega⟩
  | copying buffer rest =>
    cases rest with
    | cons c rest => exact ⟨_, .copy _ _ _ _, by simp [IOState.work]; omega⟩
    | nil =>
      cases buffer with
      | nil => exact ⟨_, .close _, by simp [IOState.work]⟩
      | cons c b => exact ⟨_, .flush dest [c] b [], by simp [IOState.work]⟩
  | finished => exact absurd rfl h

/-! ## Exactly the states that a crash may leave -/

/-- What is true at every moment when writes may fail. -/
def Lossy (old new : Bytes) (s : IOState) : Prop :=
  match s.phase with
  | .reading temp rest => s.dest = old ∧ temp ++ rest = new
  | .copying buffer rest => ∃ done, s.dest.Sublist done ∧ done ++ buffer ++ rest = new
  | .finished => s.dest.Sublist new

theorem lossy_step (old new : Bytes) (faults : Bool) (s t : IOState) (h : IOStep faults s t) (hs : Lossy old new s) :
    Lossy old new t := by
  cases h with
  | save dest temp rest c => exact ⟨hs.1, by rw [← hs.2]; simp⟩
  | truncate dest temp => exact ⟨[], .slnil, by simpa using hs.2⟩
  | copy dest buffer rest c =>
    obtain ⟨d, h1, h2⟩ := hs
    exact ⟨d, h1, by rw [← h2]; simp⟩
  | flush dest b1 b2 rest =>
    obtain ⟨d, h1, h2⟩ := hs
    exact ⟨d ++ b1, h1.append (List.Sublist.refl b1), by rw [← h2]; simp⟩
  | fail dest b1 b2 rest hf =>
    obtain ⟨d, h1, h2⟩ := hs
    exact ⟨d ++ b1, h1.trans (List.sublist_append_left d b1), by rw [← h2]; simp⟩
  | close dest =>
    obtain ⟨d, h1, h2⟩ := hs
    rw [← h2, List.append_nil, List.append_nil]
    exact h1

theorem lossy_steps (old new : Bytes) (faults : Bool) (s t : IOState) (h : IOSteps faults s t) (hs : Lossy old new s) :
    Lossy old new t := by
  induction h with
  | refl => exact hs
  | tail t u _ h ih => exact lossy_step old new faults t u h ih

/-- The buffer is written with losses. -/
theorem steps_lossy (s : IOState) {x l : Bytes} (h : x.Sublist l) : ∀ dest rest : Bytes,
    IOSteps true s ⟨dest, .copying (l ++ rest) []⟩ → IOSteps true s ⟨dest ++ x, .copying rest []⟩ := by
  induction h with
  | slnil => intro dest rest h; simpa using h
  | @cons x l c _ ih =>
    intro dest rest h
    exact ih dest rest (.tail _ _ _ h (.fail dest [c] (l ++ rest) [] rfl))
  | @cons_cons x l c _ ih =>
    intro dest rest h
    have := ih (dest ++ [c]) rest (.tail _ _ _ h (.flush dest [c] (l ++ rest) []))
    simpa using this

/-- **C75**: the files that a crash during a write may leave, if writes to the disk do not fail: the old one and the prefixes
of the new one, and no other. -/
theorem write_crash_exact [Platform] (contents : Bytes) (tag tag' : Tag) (new : Bytes) (n : Nat) (cs : CharStream)
    (hid : tag.header.identifier = ofB [0x49, 0x44, 0x33])
    (hsz : existingTagSize (some contents) = .ok (n : Nat)) (hc : Tag_to_char_stream tag = .ok cs)
    (hw : ID3v2_write_tag (some contents) tag = .ok (some new, tag')) (left : Bytes) :
    (∃ s, IOSteps false (writeStart contents cs.stream n) s ∧ s.dest = left) ↔ left = contents ∨ left <+: new := by
  have hr := write_range _ _ _ hw
  have hn := hw
  rw [write_tag_eq contents n tag hid hsz hr.1 hr.2, hc] at hn
  simp only [Res.bind_ok, Res.ok.injEq, Prod.mk.injEq, Option.some.injEq] at hn
  constructor
  · rintro ⟨s, h, rfl⟩
    obtain ⟨new', h1, h2, -⟩ := write_crash_partial contents tag tag' (some new) n cs hid hsz hc hw s h
    cases h1
    exact h2
  · rintro (rfl | h)
    · exact ⟨_, .refl _, rfl⟩
    · obtain ⟨s, h1, h2⟩ := write_any_prefix false contents cs.stream n left.length
      refine ⟨s, h1, ?_⟩
      rw [h2, hn.1, ← List.prefix_iff_eq_take.mp h]

/-- **C75**: the same if writes may fail: the old file, and all that is left of the new one when bytes are missing. A call
that returns can leave each of the latter. -/
theorem write_crash_lossy_exact [Platform] (contents : Bytes) (tag tag' : Tag) (new : Bytes) (n : Nat) (cs : CharStream)
    (hid : tag.header.identifier = ofB [0x49, 0x44, 0x33])
    (hsz : existingTagSize (some contents) = .ok (n : Nat)) (hc : Tag_to_char_stream tag = .ok cs)
    (hw : ID3v2_write_tag (some contents) tag = .ok (some new, tag')) (left : Bytes) :
    ((∃ s, IOSteps true (writeStart contents cs.stream n) s ∧ s.dest = left) ↔ left = contents ∨ left.Sublist new) ∧
    (IOSteps true (writeStart contents cs.stream n) ⟨left, .finished⟩ ↔ left.Sublist new) := by
  have hr := write_range _ _ _ hw
  rw [write_tag_eq contents n tag hid hsz hr.1 hr.2, hc] at hw
  simp only [Res.bind_ok, Res.ok.injEq, Prod.mk.injEq, Option.some.injEq] at hw
  have hnew := hw.1
  have reach : left.Sublist new → IOSteps true (writeStart contents cs.stream n) ⟨left, .finished⟩ := by
    intro h
    have h1 := steps_save true _ _ _ _ (.refl (writeStart contents cs.stream n))
    have h2 := steps_copy true _ _ _ _ (.tail _ _ _ h1 (.truncate _ _))
    rw [List.nil_append, hnew] at h2
    have h3 := steps_lossy _ h [] [] (by simpa using h2)
    rw [List.nil_append] at h3
    exact .tail _ _ _ h3 (.close _)
  refine ⟨⟨?_, ?_⟩, ?_, reach⟩
  · rintro ⟨s, h, rfl⟩
    have hm := lossy_steps contents (cs.stream ++ contents.drop n) true _ s h ⟨rfl, rfl⟩
    rw [hnew] at hm
    obtain ⟨dest, phase⟩ := s
    cases phase with
    | reading temp rest => exact .inl hm.1
    | copying buffer rest =>
      obtain ⟨d, h1, h2⟩ := hm
      refine .inr (h1.trans ?_)
      rw [← h2, List.append_assoc]
      exact List.sublist_append_left _ _
    | finished => exact .inr hm
  · rintro (rfl | h)
    · exact ⟨_, .refl _, rfl⟩
    · exact ⟨_, reach h, rfl⟩
  · intro h
    have hm := lossy_steps contents (cs.stream ++ contents.drop n) true _ _ h ⟨rfl, rfl⟩
    rw [hnew] at hm
    exact hm

/-- **C75** for a delete. -/
theorem delete_crash_exact [Platform] (contents new : Bytes) (n : Nat)
    (hsz : existingTagSize (some contents) = .ok (n : Nat)) (hd : ID3v2_delete_tag (some contents) = .ok (some new))
    (left : Bytes) :
    ((∃ s, IOSteps false (deleteStart contents n) s ∧ s.dest = left) ↔ left = contents ∨ left <+: new) ∧
    ((∃ s, IOSteps true (deleteStart contents n) s ∧ s.dest = left) ↔ left = contents ∨ left.Sublist new) ∧
    (IOSteps true (deleteStart contents n) ⟨left, .finished⟩ ↔ left.Sublist new) := by
  have hnew := hd
  rw [delete_eq contents n hsz, Res.ok.injEq, Option.some.injEq] at hnew
  have start : deleteStart contents n = writeStart contents [] n := rfl
  have reach : left.Sublist new → IOSteps true (deleteStart contents n) ⟨left, .finished⟩ := by
    intro h
    have h1 := steps_save true _ _ _ _ (.refl (writeStart contents [] n))
    have h2 := steps_copy true _ _ _ _ (.tail _ _ _ h1 (.truncate _ _))
    rw [List.nil_append, List.nil_append, hnew] at h2
    have h3 := steps_lossy _ h [] [] (by simpa using h2)
    rw [List.nil_append] at h3
    exact .tail _ _ _ h3 (.close _)
  refine ⟨⟨?_, ?_⟩, ⟨?_, ?_⟩, ?_, reach⟩
  · rintro ⟨s, h, rfl⟩
    obtain ⟨new', h1, h2, -⟩ := delete_crash_partial contents (some new) n hsz hd s h
    cases h1
    exact h2
  · rintro (rfl | h)
    · exact ⟨_, .refl _, rfl⟩
    · obtain ⟨s, h1, h2⟩ := write_any_prefix false contents [] n left.length
      refine ⟨s, h1, ?_⟩
      rw [h2, List.nil_append, hnew, ← List.prefix_iff_eq_take.mp h]
  · rintro ⟨s, h, rfl⟩
    have hm := lossy_steps contents (contents.drop n) true _ s h ⟨rfl, rfl⟩
    rw [hnew] at hm
    obtain ⟨dest, phase⟩ := s
    cases phase with
    | reading temp rest => exact .inl hm.1
    | copying buffer rest =>
      obtain ⟨d, h1, h2⟩ := hm
      refine .inr (h1.trans ?_)
      rw [← h2, List.append_assoc]
      exact List.sublist_append_left _ _
    | finished => exact .inr hm
  · rintro (rfl | h)
    · exact ⟨_, .refl _, rfl⟩
    · exact ⟨_, reach h, rfl⟩
  · intro h
    have hm := lossy_steps contents (contents.drop n) true _ _ h ⟨rfl, rfl⟩
    rw [hnew] at hm
    exact hm

/-- A file with a tag with the album `Hi`, and one byte of audio. -/
def albumFile : List UInt8 :=
  [0x49, 0x44, 0x33, 3, 0, 0, 0, 0, 0, 14, 0x54, 0x41, 0x4C, 0x42, 0, 0, 0, 4, 0, 0, 0, 0x48, 0x69, 0, 0x41]

/-- The hypotheses hold for reading this file and writing the tag to another one. -/
example : ∃ tag tag' new cs, @ID3v2_read_tag strict (some (ofB albumFile)) = .ok (some tag) ∧
    tag.header.identifier = ofB [0x49, 0x44, 0x33] ∧ @existingTagSize strict (some (ofB [0x42])) = .ok (0 : Nat) ∧
    @Tag_to_char_stream strict tag = .ok cs ∧ @ID3v2_write_tag strict (some (ofB [0x42])) tag = .ok (some new, tag') :=
  ⟨_, _, _, _, rfl, rfl, rfl, rfl, rfl⟩

end Id3.Props
