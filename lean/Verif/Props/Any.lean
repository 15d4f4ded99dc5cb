import Verif.Proof.AnyTag
import Verif.Proof.File

/-!
# What is read from arbitrary bytes (C67)

`TagIn` (Spec/Grammar.lean) describes which tag a buffer of arbitrary bytes holds. Reading returns a tag exactly if the buffer
holds one, and it is this one; it returns NULL exactly if there is no tag header; and in all other cases the behaviour is
undefined.
-/

namespace Id3.Props

open Spec

theorem tail_ofB (b : List UInt8) : Tail (ofB b) := ⟨b, 0, by simp⟩

theorem tail_padTo (n : Nat) (b : List UInt8) : Tail (padTo n (ofB b)) :=
  ⟨b.take n, n - b.length, by rw [padTo, ofB_take, ofB_length]⟩

theorem buffer_stream [Platform] (b : List UInt8) (n : Nat) (hn : n ≤ b.length) :
    ID3v2_read_tag_from_buffer (ofB b) n = Tag_parse (csAt [] (ofB (b.take n))) := by
  unfold ID3v2_read_tag_from_buffer
  have e : ofB b = ofB (b.take n) ++ ofB (b.drop n) := by rw [← ofB_append, List.take_append_drop]
  rw [e, from_buffer_csAt _ _ _ (by simp; omega)]
  rfl

/-- **C67**: for every buffer, a tag is read exactly if the buffer holds it. -/
theorem C67_buffer [Platform] (b : List UInt8) (n : Nat) (hn : n ≤ b.length) (hb : n ≤ 2147483647) (t : Tag) :
    ID3v2_read_tag_from_buffer (ofB b) n = .ok (some t) ↔ TagIn (ofB (b.take n)) t := by
  rw [buffer_stream b n hn]
  exact tag_parse_iff (tail_ofB _) (by simp; omega) t

theorem parse_not_none [Platform] {cs c : CharStream} {h : TagHeader} (hh : TagHeader_parse cs = .ok (some h, c)) :
    Tag_parse cs ≠ .ok none := by
  intro e
  unfold Tag_parse at e
  rw [hh] at e
  simp only [Res.bind_ok] at e
  have fin : ∀ c : CharStream, (do
      let (frames, cs) ← Tag_parse_loop (c.stream.length + 1) c h.tag_size h.major_version (ID3v2_Tag_new (some h) 0).frames
      return some { ID3v2_Tag_new (some h) 0 with frames := frames, padding_size := ← ck (cs.size - cs.cursor) } :
        Res (Option Tag)) ≠ .ok none := by
    intro c e
    obtain ⟨_, -, e⟩ := Res.bind_eq_ok.mp e
    obtain ⟨_, -, e⟩ := Res.bind_eq_ok.mp e
    cases e
  split at e
  · cases e
  · split at e
    · obtain ⟨_, -, e⟩ := Res.bind_eq_ok.mp e
      exact fin _ e
    · exact fin _ e

theorem parse_none [Platform] (b : List UInt8) (k : Nat) (h : 10 ≤ b.length) :
    Tag_parse (csAt [] (ofB b ++ List.replicate k none)) = .ok none ↔ tagLength b = 0 := by
  rcases ten_or_less b with h' | ⟨b0, b1, b2, b3, b4, b5, s0, s1, s2, s3, rest, rfl⟩
  · omega
  · rw [ofB_append, List.append_assoc]
    generalize hp : ofB rest ++ List.replicate k none = post
    have ht : tagLength ([b0, b1, b2, b3, b4, b5, s0, s1, s2, s3] ++ rest) =
        if b0 = 0x49 ∧ b1 = 0x44 ∧ b2 = 0x33 ∧ (b3 = 3 ∨ b3 = 4) then
          10 + (s0.toNat * 128 ^ 3 ||| s1.toNat * 128 ^ 2 ||| s2.toNat * 128 ||| s3.toNat) else 0 := rfl
    rw [ht]
    have hh := tag_header_parse_all b0 b1 b2 b3 b4 b5 s0 s1 s2 s3 post
    by_cases hid : [b0, b1, b2] = [0x49, 0x44, 0x33]
    · by_cases hv : b3 = 3 ∨ b3 = 4
      · rw [if_pos hid, if_pos hv] at hh
        simp only [List.cons.injEq, and_true] at hid
        rw [if_pos ⟨hid.1, hid.2.1, hid.2.2, hv⟩]
        constructor
        · intro e
          exfalso
          split at hh
          · exact parse_not_none hh e
          · exact parse_not_none hh e
        · intro e; exfalso; omega
      · rw [if_pos hid, if_neg hv] at hh
        rw [if_neg (fun h => hv h.2.2.2)]
        exact ⟨fun _ => rfl, fun _ => by unfold Tag_parse; rw [hh]; rfl⟩
    · rw [if_neg hid] at hh
      rw [if_neg]
      · exact ⟨fun _ => rfl, fun _ => by unfold Tag_parse; rw [hh]; rfl⟩
      · rintro ⟨rfl, rfl, rfl, -⟩
        exact hid rfl

/-- **C67**: NULL is returned exactly if there is no tag header (in a buffer of at least ten bytes). -/
theorem C67_buffer_null [Platform] (b : List UInt8) (n : Nat) (hn : n ≤ b.length) (h10 : 10 ≤ n) :
    ID3v2_read_tag_from_buffer (ofB b) n = .ok none ↔ tagLength (b.take n) = 0 := by
  rw [buffer_stream b n hn]
  have := parse_none (b.take n) 0 (by rw [List.length_take]; omega)
  simpa using this

/-- **C67**: in all other cases the behaviour is undefined: the call does not return with a header and without a tag. -/
theorem C67_buffer_undefined [Platform] (b : List UInt8) (n : Nat) (hn : n ≤ b.length) (hb : n ≤ 2147483647) (h10 : 10 ≤ n) :
    (∃ k, ID3v2_read_tag_from_buffer (ofB b) n = .ub k) ↔
      tagLength (b.take n) ≠ 0 ∧ ∀ t, ¬ TagIn (ofB (b.take n)) t := by
  have hs := sat_read_from_buffer (ofB b) n (by omega)
  have h1 := C67_buffer b n hn hb
  have h2 := C67_buffer_null b n hn h10
  generalize ID3v2_read_tag_from_buffer (ofB b) n = x at *
  cases x with
  | ok r =>
    constructor
    · rintro ⟨k, h⟩; cases h
    · rintro ⟨h3, h4⟩
      cases r with
      | none => exact absurd (h2.mp rfl) h3
      | some t => exact absurd ((h1 t).mp rfl) (h4 t)
  | ub k =>
    refine ⟨fun _ => ⟨?_, ?_⟩, fun _ => ⟨k, rfl⟩⟩
    · intro h; cases h2.mpr h
    · intro t h; cases (h1 t).mpr h
  | exit => exact absurd hs (by simp [Sat])
  | diverge => exact absurd hs (by simp [Sat])

theorem file_buffer [Platform] (c : List UInt8) (h : tagLength c ≠ 0) :
    ID3v2_read_tag (some (ofB c)) = Tag_parse (csAt [] (padTo (tagLength c) (ofB c))) := by
  obtain ⟨r, h1, h2, h3⟩ := read_header_spec c
  unfold ID3v2_read_tag
  rw [h1]
  simp only [Res.bind_ok]
  cases r with
  | none => exact absurd (h2 rfl) h
  | some hd =>
    obtain ⟨h4, h5⟩ := h3 hd rfl
    dsimp only
    rw [show (hd.tag_size : Int) + 10 = ((10 + hd.tag_size : Nat) : Int) from by omega, u32_nat (by omega),
      toInt32_nat (by omega), h4, intoArray_padTo]
    unfold ID3v2_read_tag_from_buffer
    have hf := from_buffer_csAt (padTo (tagLength c) (ofB c)) [] (tagLength c) (by rw [padTo_length])
    rw [List.append_nil] at hf
    rw [Int.toNat_natCast, hf]
    rfl

theorem file_none [Platform] (c : List UInt8) (h : tagLength c = 0) : ID3v2_read_tag (some (ofB c)) = .ok none := by
  obtain ⟨r, h1, h2, h3⟩ := read_header_spec c
  unfold ID3v2_read_tag
  rw [h1]
  simp only [Res.bind_ok]
  cases r with
  | none => rfl
  | some hd =>
    obtain ⟨h4, h5⟩ := h3 hd rfl
    omega

theorem tagLength_lt (c : List UInt8) : tagLength c ≤ 2147483647 := by
  unfold tagLength
  split
  · next s0 s1 s2 s3 _ =>
    split
    · rw [← sizeValue_spec]
      have := sizeValue_lt s0 s1 s2 s3
      omega
    · omega
  · omega

theorem tagIn_ten [Platform] {s : Bytes} {t : Tag} (h : TagIn s t) : 10 ≤ s.length := by
  obtain ⟨v, m, f, z, rest, _, _, _, _, -, hz, rfl, -⟩ := h
  simp [hz]

/-- **C67** for files: a tag is read exactly if the part of the file that the tag header speaks of (indeterminate bytes where
the file is shorter) holds it. -/
theorem C67_file [Platform] (c : List UInt8) (t : Tag) :
    ID3v2_read_tag (some (ofB c)) = .ok (some t) ↔ TagIn (padTo (tagLength c) (ofB c)) t := by
  by_cases h : tagLength c = 0
  · rw [file_none c h, h]
    constructor
    · intro e; cases e
    · intro e
      have := tagIn_ten e
      rw [padTo_length] at this
      omega
  · rw [file_buffer c h]
    exact tag_parse_iff (tail_padTo _ _) (by rw [padTo_length]; exact tagLength_lt c) t

/-- **C67** for files: NULL is returned exactly if there is no tag header. -/
theorem C67_file_null [Platform] (c : List UInt8) : ID3v2_read_tag (some (ofB c)) = .ok none ↔ tagLength c = 0 := by
  constructor
  · intro e
    by_cases h : tagLength c = 0
    · exact h
    · exfalso
      have hlen : 10 ≤ c.length := by
        rcases ten_or_less c with h' | ⟨b0, b1, b2, b3, b4, b5, s0, s1, s2, s3, rest, rfl⟩
        · exact absurd (tagLength_short c h') h
        · simp
      have hge : 10 ≤ tagLength c := by
        rcases ten_or_less c with h' | ⟨b0, b1, b2, b3, b4, b5, s0, s1, s2, s3, rest, rfl⟩
        · omega
        · have ht : tagLength ([b0, b1, b2, b3, b4, b5, s0, s1, s2, s3] ++ rest) =
              if b0 = 0x49 ∧ b1 = 0x44 ∧ b2 = 0x33 ∧ (b3 = 3 ∨ b3 = 4) then
                10 + (s0.toNat * 128 ^ 3 ||| s1.toNat * 128 ^ 2 ||| s2.toNat * 128 ||| s3.toNat) else 0 := rfl
          rw [ht] at h ⊢
          split
          · omega
          · next hc => rw [if_neg hc] at h; exact absurd rfl h
      have htake : tagLength (c.take (tagLength c)) = tagLength c := by
        rcases ten_or_less c with h' | ⟨b0, b1, b2, b3, b4, b5, s0, s1, s2, s3, rest, rfl⟩
        · omega
        · obtain ⟨m, hm⟩ : ∃ m, tagLength ([b0, b1, b2, b3, b4, b5, s0, s1, s2, s3] ++ rest) = m + 10 :=
            ⟨tagLength ([b0, b1, b2, b3, b4, b5, s0, s1, s2, s3] ++ rest) - 10, by omega⟩
          rw [hm]
          rw [show ([b0, b1, b2, b3, b4, b5, s0, s1, s2, s3] ++ rest).take (m + 10) =
            [b0, b1, b2, b3, b4, b5, s0, s1, s2, s3] ++ rest.take m from rfl, ← hm]
          rfl
      rw [file_buffer c h, padTo, ofB_take, ofB_length] at e
      have := (parse_none (c.take (tagLength c)) (tagLength c - c.length) (by rw [List.length_take]; omega)).mp e
      rw [htake] at this
      exact h this
  · exact file_none c

/-- **C67** for files: in all other cases the behaviour is undefined. -/
theorem C67_file_undefined [Platform] (c : List UInt8) :
    (∃ k, ID3v2_read_tag (some (ofB c)) = .ub k) ↔
      tagLength c ≠ 0 ∧ ∀ t, ¬ TagIn (padTo (tagLength c) (ofB c)) t := by
  have hs := sat_read_tag (some (ofB c))
  have h1 := C67_file c
  have h2 := C67_file_null c
  generalize ID3v2_read_tag (some (ofB c)) = x at *
  cases x with
  | ok r =>
    constructor
    · rintro ⟨k, h⟩; cases h
    · rintro ⟨h3, h4⟩
      cases r with
      | none => exact absurd (h2.mp rfl) h3
      | some t => exact absurd ((h1 t).mp rfl) (h4 t)
  | ub k =>
    refine ⟨fun _ => ⟨?_, ?_⟩, fun _ => ⟨k, rfl⟩⟩
    · intro h; cases h2.mpr h
    · intro t h; cases (h1 t).mpr h
  | exit => exact absurd hs (by simp [Sat])
  | diverge => exact absurd hs (by simp [Sat])

/-- A buffer holds at most one tag. -/
theorem C67_unique [Platform] (b : List UInt8) (hb : b.length ≤ 2147483647) (t t' : Tag) (h : TagIn (ofB b) t)
    (h' : TagIn (ofB b) t') : t = t' := by
  have e := (tag_parse_iff (tail_ofB b) (by simpa using hb) t).mpr h
  rw [(tag_parse_iff (tail_ofB b) (by simpa using hb) t').mpr h'] at e
  cases e; rfl

/-! ## Concrete buffers -/

/-- A text frame whose size (5) is more than its string needs: the rest is skipped. -/
def slackTag : List UInt8 :=
  [0x49, 0x44, 0x33, 3, 0, 0, 0, 0, 0, 25] ++
  [0x54, 0x49, 0x54, 0x32, 0, 0, 0, 5, 0, 0, 0, 0x41, 0, 0x7A, 0x7A] ++ [0, 0, 0, 0, 0, 0, 0, 0, 0, 0]

def slackRead : Tag :=
  { header := { identifier := ofB [0x49, 0x44, 0x33], major_version := 3, minor_version := 0, flags := 0,
                tag_size := 25, extended_header_size := some 0 }
    frames := [some (SFrame.text [0x54, 0x49, 0x54, 0x32] [0, 0] (.latin [0x41])).toFrame]
    padding_size := 10 }

/-- The grammar applies to it … -/
theorem slack_holds : @TagIn strict (ofB slackTag) slackRead := by
  refine ⟨3, 0, 0, [0, 0, 0, 25], _, 0, 10, [(SFrame.text [0x54, 0x49, 0x54, 0x32] [0, 0] (.latin [0x41])).toFrame], 25,
    .inl rfl, rfl, rfl, by rw [if_neg (by decide)]; exact ⟨rfl, rfl⟩, ?_, rfl⟩
  refine @Items.frame strict _ _ _ _ _ (ofB [0, 0, 0, 0, 0, 0, 0, 0, 0, 0]) [] 25 (by decide) ?_
    (@Items.stop strict _ _ _ _ (by decide))
  exact @Item.text strict 3 [0x54, 0x49, 0x54, 0x32] [0, 0, 0, 5] [0, 0] 0 (.latin [0x41])
    (ofB [0x7A, 0x7A] ++ ofB [0, 0, 0, 0, 0, 0, 0, 0, 0, 0]) 4 ⟨rfl, rfl⟩ rfl rfl (by decide)
    (by have : @Platform.stack strict = 8192 := rfl; omega)
    (by simp [Str.WF, Str.bom]) (by decide) (.inr (.inl (by simp)))

/-- … and so the library reads it. -/
example : @ID3v2_read_tag_from_buffer strict (ofB slackTag) (35 : Nat) = .ok (some slackRead) :=
  (@C67_buffer strict slackTag 35 (by decide) (by decide) slackRead).mpr slack_holds

/-- An unknown frame that claims 4 bytes where the file has only one: the others are indeterminate. -/
def cutTag : List UInt8 := [0x49, 0x44, 0x33, 3, 0, 0, 0, 0, 0, 14] ++ [0x58, 0x59, 0x5A, 0x57, 0, 0, 0, 4, 0, 0, 0x42]

def cutFrame : Frame :=
  { header := { id := ofB [0x58, 0x59, 0x5A, 0x57], size := 4, flags := ofB [0, 0] }
    data := .raw [some 0x42, none, none, none] }

def cutRead : Tag :=
  { header := { identifier := ofB [0x49, 0x44, 0x33], major_version := 3, minor_version := 0, flags := 0,
                tag_size := 14, extended_header_size := some 0 }
    frames := [some cutFrame]
    padding_size := 0 }

theorem cut_holds : @TagIn strict (padTo (tagLength cutTag) (ofB cutTag)) cutRead := by
  refine ⟨3, 0, 0, [0, 0, 0, 14], _, 0, 10, [cutFrame], 24, .inl rfl, rfl, rfl, by rw [if_neg (by decide)]; exact ⟨rfl, rfl⟩,
    ?_, rfl⟩
  refine @Items.frame strict _ _ _ _ _ [] [] 24 (by decide) ?_ (@Items.stop strict _ _ _ _ (by decide))
  have h := @Item.other strict 3 [0x58, 0x59, 0x5A, 0x57] [0, 0, 0, 4] (ofB [0, 0, 0x42] ++ [none, none, none])
    rfl rfl (by decide) (by decide) (by decide) (by decide)
  have e : frameSize 3 [0, 0, 0, 4] = 4 := by decide
  rw [e] at h
  exact h

example : @ID3v2_read_tag strict (some (ofB cutTag)) = .ok (some cutRead) :=
  (@C67_file strict cutTag cutRead).mpr cut_holds

/-- The same frame in a tag that claims more: no tag, and the behaviour is undefined. -/
def overrunTag : List UInt8 := [0x49, 0x44, 0x33, 3, 0, 0, 0, 0, 0, 99] ++ [0x58, 0x59, 0x5A, 0x57, 0, 0, 0, 4, 0, 0, 0x42]

example : tagLength (overrunTag.take 21) ≠ 0 ∧ ∀ t, ¬ @TagIn strict (ofB (overrunTag.take 21)) t :=
  (@C67_buffer_undefined strict overrunTag 21 (by decide) (by decide) (by decide)).mp ⟨.uninit, by decide⟩

example : @ID3v2_read_tag strict (some (ofB [0x49, 0x44, 0x33, 2, 0, 0, 0, 0, 0, 0, 1, 2])) = .ok none :=
  (@C67_file_null strict _).mpr (by decide)

end Id3.Props
