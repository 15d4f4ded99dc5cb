import Verif.Props.Readme

/-!
# C94: what the helpers of the tests print, save and convert (test/test_utils.c)
-/

namespace Id3.Props

open Id3 Spec

/-! ## Conversion -/

theorem strlen_print (p : Bytes) :
    (∃ chars, c_strlen p = .ok chars.length ∧ printStr p = .ok chars ∧ p.take chars.length = ofB chars) ∨
    ∃ k, c_strlen p = .ub k ∧ printStr p = .ub k := by
  induction p with
  | nil => exact Or.inr ⟨_, rfl, rfl⟩
  | cons b bs ih =>
    unfold c_strlen printStr
    cases b with
    | none => exact Or.inr ⟨_, rfl, rfl⟩
    | some v =>
      simp only [load, Res.bind_ok]
      by_cases hv : v = 0
      · exact Or.inl ⟨[], by simp [hv], by simp [hv], rfl⟩
      · simp only [hv, if_false]
        rcases ih with ⟨chars, h1, h2, h3⟩ | ⟨k, h1, h2⟩
        · refine Or.inl ⟨v :: chars, by rw [h1]; rfl, by rw [h2]; rfl, ?_⟩
          simp only [List.length_cons, List.take_succ_cons, h3]
          rfl
        · exact Or.inr ⟨k, by rw [h1]; rfl, by rw [h2]; rfl⟩

/-- **C94**: the conversion of the tests is that of the library, for all strings and whatever happens. -/
theorem to_unicode_same [Platform] (p : Bytes) : to_unicode p = ID3v2_to_unicode p := by
  unfold to_unicode ID3v2_to_unicode
  rw [has_bom_eq]
  cases string_has_bom p with
  | ok b =>
    cases b
    · simp only [Res.bind_ok]
      rcases strlen_print p with ⟨chars, h1, h2, h3⟩ | ⟨k, h1, h2⟩
      · rw [h1, h2]
        simp only [Res.bind_ok, h3, widen_ofB]
        rw [show ((chars.length : Int) * 2 + 2 + 2) = chars.length * 2 + 4 from by omega]
        cases ck ((chars.length : Int) * 2 + 4) with
        | ok n => simp [List.flatMap_map]
        | _ => rfl
      · rw [h1, h2]; rfl
    · rfl
  | _ => rfl

/-! ## Printing -/

theorem unit_value (a b : UInt8) : (a.toUInt16 ||| (b.toUInt16 <<< 8)) = UInt16.ofNat (a.toNat + 256 * b.toNat) := by
  apply UInt16.toNat_inj.mp
  have ha := a.toNat_lt
  have hb := b.toNat_lt
  have e : (b.toUInt16 <<< 8).toNat = 2 ^ 8 * b.toNat := by
    rw [UInt16.toNat_shiftLeft]
    simp only [UInt8.toNat_toUInt16]
    show b.toNat <<< 8 % 2 ^ 16 = _
    rw [Nat.shiftLeft_eq, Nat.mod_eq_of_lt (by omega), Nat.mul_comm]
  rw [UInt16.toNat_or, e, UInt8.toNat_toUInt16, UInt16.toNat_ofNat', Nat.or_comm, ← Nat.two_pow_add_eq_or_of_lt (by omega)]
  omega

theorem print_units_eq (units : List (UInt8 × UInt8)) (rest : Bytes) (n : Nat) (h : (0, 0) ∉ units) (hn : units.length < n) :
    print_units (ofB (units.flatMap fun u => [u.1, u.2]) ++ some 0 :: some 0 :: rest) (some n) =
      .ok (units.map fun u => .wide (UInt16.ofNat (u.1.toNat + 256 * u.2.toNat))) := by
  induction units generalizing n with
  | nil =>
    cases n with
    | zero => simp at hn
    | succ n => unfold print_units; simp [load]
  | cons u us ih =>
    cases n with
    | zero => simp at hn
    | succ n =>
      have h1 : ¬ (u.1 = 0 ∧ u.2 = 0) := by
        rintro ⟨e1, e2⟩
        exact h (by rw [show u = (0, 0) from Prod.ext e1 e2]; simp)
      have h2 := ih n (fun hm => h (by simp [hm])) (by simpa using hn)
      rw [show ofB ((u :: us).flatMap fun u => [u.1, u.2]) ++ some 0 :: some 0 :: rest =
        some u.1 :: some u.2 :: (ofB (us.flatMap fun u => [u.1, u.2]) ++ some 0 :: some 0 :: rest) from by simp]
      unfold print_units
      simp only [load, Res.bind_ok, h1, if_false, Option.map_some, Nat.add_sub_cancel, h2, unit_value]
      rfl

/-- What is printed of a string, exactly. -/
theorem print_text_eq [Platform] (s : Str) (h : s.Usable) :
    print_text_frame_text (ofB s.bytes) s.bytes.length = .ok
      ((match s with
        | .latin chars => [.bytes chars]
        | .utf16 _ units => units.map fun u => .wide (UInt16.ofNat (u.1.toNat + 256 * u.2.toNat))) ++ [lineBreak]) := by
  unfold print_text_frame_text
  have hb := has_bom_usable h []
  rw [List.append_nil] at hb
  rw [has_bom_eq, hb]
  cases s with
  | latin chars =>
    have hp := printStr_str (.latin chars) []
    unfold Str.inMemory at hp
    rw [List.append_nil, shown_latin chars h.1] at hp
    simp only [Res.bind_ok, Str.encoding]
    rw [hp]
    rfl
  | utf16 le units =>
    simp only [Res.bind_ok, Str.encoding, decide_true, if_true]
    unfold char_to_utf16
    rw [if_neg (by omega)]
    simp only [Res.bind_ok]
    have hm : memcpySrc (ofB (Str.utf16 le units).bytes) ((Str.utf16 le units).bytes.length : Nat) =
        .ok (ofB (Str.utf16 le units).bytes) := by
      unfold memcpySrc
      rw [if_neg (by omega), if_neg (by simp)]
      simp [List.take_of_length_le]
    rw [hm]
    simp only [Res.bind_ok, Res.pure_eq]
    unfold println_utf16 intoArray
    rw [if_neg (by omega)]
    have hl : (Str.utf16 le units).bytes.length = 2 + 2 * units.length + 2 := by
      rw [Str.bytes_length]
      simp only [Str.content, Str.terminator, List.length_append, flat_length, Str.bom_length, List.length_cons, List.length_nil]
    have hd : (ofB (Str.utf16 le units).bytes ++ List.replicate
          ((2 * ((Str.utf16 le units).bytes.length : Int)).toNat - (ofB (Str.utf16 le units).bytes).length) none).drop 2 =
        ofB (units.flatMap fun u => [u.1, u.2]) ++ some 0 :: some 0 :: List.replicate
          ((2 * ((Str.utf16 le units).bytes.length : Int)).toNat - (ofB (Str.utf16 le units).bytes).length) none := by
      generalize List.replicate _ (none : Option UInt8) = r
      cases le <;> simp [Str.bytes, Str.content, Str.bom, Str.terminator]
    rw [hd, print_units_eq units _ _ h.1 (by omega)]
    rfl

theorem wide_characters (g : UInt8 × UInt8 → UInt16) (units : List (UInt8 × UInt8)) :
    charactersOf (units.map fun u => .wide (g u)) = units.map g := by
  induction units with
  | nil => rfl
  | cons u us ih => simpa [charactersOf] using ih

theorem swapped_unit (a b : UInt8) :
    UInt16.ofNat (a.toNat + 256 * b.toNat) = swapped (UInt16.ofNat (b.toNat + 256 * a.toNat)) := by
  unfold swapped
  apply UInt16.toNat_inj.mp
  have ha := a.toNat_lt
  have hb := b.toNat_lt
  simp only [UInt16.toNat_ofNat']
  have e1 : (b.toNat + 256 * a.toNat) % 2 ^ 16 = b.toNat + 256 * a.toNat := Nat.mod_eq_of_lt (by omega)
  have e2 : (b.toNat + 256 * a.toNat) / 256 = a.toNat := by omega
  have e3 : (b.toNat + 256 * a.toNat) % 256 = b.toNat := by omega
  rw [e1, e2, e3]

/-- The characters that are printed of a string. -/
theorem print_str_characters [Platform] (s : Str) (h : s.Usable) :
    ∃ out, print_text_frame_text (ofB s.bytes) s.bytes.length = .ok (out ++ [lineBreak]) ∧
      charactersOf out = if s.bigEndian then s.characters.map swapped else s.characters := by
  refine ⟨_, print_text_eq s h, ?_⟩
  cases s with
  | latin chars => simp [charactersOf, Str.bigEndian, Str.characters]
  | utf16 le units =>
    dsimp only
    rw [wide_characters]
    cases le
    · simp only [Str.bigEndian, Bool.not_false, if_true, Str.characters, List.map_map]
      refine List.map_congr_left fun u _ => ?_
      exact swapped_unit u.1 u.2
    · simp [Str.bigEndian, Str.characters]

/-- **C94**: `print_text_frame` prints the characters of every text frame and a line break. Those of a big-endian text are
printed with their bytes exchanged. -/
theorem print_text_characters [Platform] (id flags : List UInt8) (s : Str) (h : (SFrame.text id flags s).Usable) :
    ∃ out, print_text_frame (some (SFrame.text id flags s).toFrame) = .ok (out ++ [lineBreak]) ∧
      charactersOf out = if s.bigEndian then s.characters.map swapped else s.characters :=
  print_str_characters s h.2.2

/-- **C94**: `print_comment_frame` does the same with the text of a comment. -/
theorem print_comment_characters [Platform] (flags lang : List UInt8) (desc txt : Str)
    (h : (SFrame.comment flags lang desc txt).Usable) :
    ∃ out, print_comment_frame (some (SFrame.comment flags lang desc txt).toFrame) = .ok (out ++ [lineBreak]) ∧
      charactersOf out = if txt.bigEndian then txt.characters.map swapped else txt.characters :=
  print_str_characters txt h.2.2.2

/-- **C94**: so what is printed of a text is right exactly if it is not big-endian, or consists of characters whose two
bytes are the same. -/
theorem print_right_iff [Platform] (id flags : List UInt8) (s : Str) (out : List Printed)
    (h : (SFrame.text id flags s).Usable)
    (ho : print_text_frame (some (SFrame.text id flags s).toFrame) = .ok (out ++ [lineBreak])) :
    charactersOf out = s.characters ↔ s.bigEndian = false ∨ ∀ u ∈ s.characters, u.toNat / 256 = u.toNat % 256 := by
  obtain ⟨out', h1, h2⟩ := print_text_characters id flags s h
  have e : out = out' := by
    have := Res.ok.inj (ho.symm.trans h1)
    exact (List.append_inj' this rfl).1
  rw [e, h2]
  have hsw : ∀ u : UInt16, swapped u = u ↔ u.toNat / 256 = u.toNat % 256 := by
    intro u
    have hu := u.toNat_lt
    unfold swapped
    rw [← UInt16.toNat_inj, UInt16.toNat_ofNat']
    omega
  cases s.bigEndian with
  | false => simp
  | true =>
    simp only [if_true, Bool.true_eq_false, false_or]
    constructor
    · intro hm u hu
      rw [← hsw]
      have : s.characters.map swapped = s.characters.map _root_.id := by simpa using hm
      exact List.map_inj_left.mp this u hu
    · intro hm
      have : s.characters.map swapped = s.characters.map _root_.id :=
        List.map_congr_left fun u hu => (hsw u).mpr (hm u hu)
      simpa using this

/-- **C94**: a missing frame is printed as "None". -/
theorem print_missing [Platform] : print_text_frame none = .ok [.bytes [0x4E, 0x6F, 0x6E, 0x65, 0x0A]] ∧
    print_comment_frame none = .ok [.bytes [0x4E, 0x6F, 0x6E, 0x65, 0x0A]] ∧
    print_comment_frames [] = .ok [.bytes [0x4E, 0x6F, 0x6E, 0x65, 0x0A]] := ⟨rfl, rfl, rfl⟩

/-- **C94**: of the comments that `ID3v2_Tag_get_comment_frames` finds, `print_comment_frames` prints each one in a line, in
their order; if it finds none, "None". -/
theorem print_comments_exact [Platform] (cs : List SFrame) (h : ∀ c ∈ cs, c.Usable ∧ c.id = commId) :
    ∃ lines : List (List Printed), print_comment_frames (toFrameList cs) =
        .ok (if cs = [] then printNone else lines.flatMap (· ++ [lineBreak])) ∧
      lines.map charactersOf = cs.map fun
        | .comment _ _ _ txt => if txt.bigEndian then txt.characters.map swapped else txt.characters
        | _ => [] := by
  cases cs with
  | nil => exact ⟨[], rfl, rfl⟩
  | cons c cs =>
    have key : ∀ l : List SFrame, (∀ c ∈ l, c.Usable ∧ c.id = commId) → ∃ lines : List (List Printed),
        print_comments (l.map fun f => some f.toFrame) = .ok (lines.flatMap (· ++ [lineBreak])) ∧
        lines.map charactersOf = l.map fun
          | .comment _ _ _ txt => if txt.bigEndian then txt.characters.map swapped else txt.characters
          | _ => [] := by
      intro l
      induction l with
      | nil => intro _; exact ⟨[], rfl, rfl⟩
      | cons c l ih =>
        intro h
        obtain ⟨lines, h1, h2⟩ := ih fun x hx => h x (by simp [hx])
        obtain ⟨hu, hc⟩ := h c (by simp)
        cases c with
        | comment flags lang desc txt =>
          obtain ⟨out, h3, h4⟩ := print_comment_characters flags lang desc txt hu
          refine ⟨out :: lines, ?_, ?_⟩
          · simp only [List.map_cons, print_comments]
            rw [h3]
            simp only [Res.bind_ok]
            rw [h1]
            simp
          · simp only [List.map_cons, h4, h2]
        | text id flags s =>
          have := hu.1.2.1
          rw [show id = commId from hc] at this
          exact absurd this (by decide)
        | apic flags mime picType desc pic => exact absurd hc (by show apicId ≠ commId; decide)
        | other id flags data =>
          have := hu.1.2.2.1
          rw [show id = commId from hc] at this
          exact absurd rfl this
    obtain ⟨lines, h1, h2⟩ := key (c :: cs) h
    refine ⟨lines, ?_, h2⟩
    rw [if_neg (by simp)]
    exact h1

/-! ## Saving a picture -/

/-- **C94**: `save_apic_frame` never saves a picture, whatever the arguments are. -/
theorem save_apic_never (frame : Frame) (dir : Bytes) (r : Option (List UInt8 × Bytes)) :
    save_apic_frame (some frame) dir ≠ .ok r := by
  intro h
  unfold save_apic_frame at h
  split at h
  · simp at *
  · split at h
    · simp only [Res.bind_eq_ok] at h
      obtain ⟨mime, -, d, -, h⟩ := h
      generalize (if mime = [0x69, 0x6D, 0x61, 0x67, 0x65, 0x2F, 0x70, 0x6E, 0x67] then
        ([0x2E, 0x70, 0x6E, 0x67] : List UInt8) else [0x2E, 0x6A, 0x70, 0x65, 0x67]) = ext at h
      obtain ⟨u1, h1, u2, h2, u3, h3, -⟩ := h
      unfold append_str at h1 h2 h3
      split at h1
      · simp at h1
      · split at h2
        · simp at h2
        · split at h3
          · simp at h3
          · cases h1
            cases h2
            simp only [List.length_cons, List.length_nil] at *
            omega
    · simp at h

/-- **C94**: for every picture frame and every directory it writes one byte beyond the end of the file name that it
builds, which has no room for the terminator. -/
theorem save_apic_overflows (flags : List UInt8) (mime : Str) (picType : UInt8) (desc : Str) (pic dir : List UInt8)
    (rest : Bytes) (hd : 0 ∉ dir) :
    save_apic_frame (some (SFrame.apic flags mime picType desc pic).toFrame) (ofB (dir ++ [0]) ++ rest) = .ub .oobWrite := by
  have h1 := printStr_str mime []
  unfold Str.inMemory at h1
  rw [List.append_nil] at h1
  have h2 := printStr_eq (dir ++ [0]) rest (by simp)
  rw [takeWhile_all (fun y hy => by
    simp only [bne_iff_ne, ne_eq]
    rintro rfl
    exact hd hy) rfl] at h2
  unfold save_apic_frame SFrame.toFrame
  simp only [h1, h2, Res.bind_ok]
  generalize (if mime.shown = [0x69, 0x6D, 0x61, 0x67, 0x65, 0x2F, 0x70, 0x6E, 0x67] then
    ([0x2E, 0x70, 0x6E, 0x67] : List UInt8) else [0x2E, 0x6A, 0x70, 0x65, 0x67]) = ext
  unfold append_str
  simp only [List.length_cons, List.length_nil]
  by_cases he : ext = []
  · subst he
    by_cases h0 : dir.length + 12 + 0 < 0 + dir.length + 1
    · omega
    · simp only [List.length_nil]
      rw [if_neg (by omega)]
      simp only [Res.bind_ok]
      rw [if_pos (by omega)]
      rfl
  · have : 0 < ext.length := List.length_pos_iff.mpr he
    rw [if_neg (by omega)]
    simp only [Res.bind_ok]
    rw [if_neg (by omega)]
    simp only [Res.bind_ok]
    rw [if_pos (by omega)]
    rfl

/-! ## The theorems apply -/

/-- A Chinese character, big-endian: its bytes are exchanged. -/
example : @print_text_frame strict (some (SFrame.text titleId [0, 0] (.utf16 false [(0x4E, 0x2D)])).toFrame) =
    .ok [.wide 0x2D4E, .bytes [0x0A]] := by decide +kernel

example : (Str.utf16 false [(0x4E, 0x2D)]).characters = [0x4E2D] := by decide

example : @SFrame.Usable strict (.text titleId [0, 0] (.utf16 false [(0x4E, 0x2D)])) ∧
    @SFrame.Usable strict (.comment [0, 0] engLang (.utf16 true []) (.utf16 true [(0x79, 0)])) ∧
    @SFrame.Usable strict (.apic [0, 0] pngStr 3 (.utf16 true []) [1, 2, 3]) := by decide

/-- "out" is the directory. -/
example : save_apic_frame (some (SFrame.apic [0, 0] pngStr 3 (.utf16 true []) [1, 2, 3]).toFrame) (lit [0x6F, 0x75, 0x74]) =
    .ub .oobWrite := by decide +kernel

end Id3.Props
