import Verif.Spec.Effects
import Verif.Proof.Fault
import Verif.Props.ReadExact

/-!
# C64, C65, C66: writing, deleting and reading when I/O operations fail
-/

namespace Id3.Props

open Id3 Spec

/-! ## C64: writing -/

/-- If nothing fails, the model of this file is the one used everywhere else. -/
theorem write_no_faults [Platform] (file : File) (tag : Tag) :
    ID3v2_write_tag_io .none file tag =
      match ID3v2_write_tag file tag with
      | .ok (file', tag') => (file', .ok tag')
      | .ub k => (file, .ub k)
      | .exit => (file, .exit)
      | .diverge => (file, .diverge) := by
  unfold ID3v2_write_tag_io ID3v2_write_tag write_prepare
  rw [show WriteFaults.none.header = ReadFaults.none from rfl, size_io_none]
  cases existingTagSize file with
  | ub k => rfl
  | exit => rfl
  | diverge => rfl
  | ok n =>
    simp only [Res.bind_ok]
    cases ck (2048 - tag.padding_size) with
    | ub k => rfl
    | exit => rfl
    | diverge => rfl
    | ok d =>
      simp only [Res.bind_ok]
      cases ck (tag.padding_size + clamp_int d 0 2048) with
      | ub k => rfl
      | exit => rfl
      | diverge => rfl
      | ok p =>
        simp only [Res.bind_ok]
        cases Tag_to_char_stream { tag with padding_size := p } with
        | ub k => rfl
        | exit => rfl
        | diverge => rfl
        | ok cs =>
          simp only [Res.bind_ok]
          cases memcpySrc cs.stream cs.size with
          | ub k => rfl
          | exit => rfl
          | diverge => rfl
          | ok b =>
            cases file with
            | none => rfl
            | some c =>
              simp [WriteFaults.none, ReadFaults.open, ReadFaults.none, ReadFaults.deliver, copyBack, land_none]

/-- The tag and its bytes, for a tag that can be written. -/
theorem write_prepare_ok [Platform] (e : ReadFaults) (contents : List UInt8) (tag : Tag) (cs : CharStream)
    (hid : tag.header.identifier = ofB [0x49, 0x44, 0x33]) (hc : Tag_to_char_stream tag = .ok cs)
    (hp : 0 ≤ tag.padding_size) (hp2 : tag.padding_size ≤ 2147483647) :
    ∃ tag', write_prepare e (some (ofB contents)) tag =
      .ok ((if e.opens = true ∧ ∀ k, e.stops = some k → 10 ≤ k then (tagLength contents : Int) else 0), tag', cs.stream) := by
  obtain ⟨t, hw⟩ := write_succeeds contents tag cs hid hc hp hp2
  have hx := existing_size contents
  have he : existingTagSize_io e (some (ofB contents)) =
      .ok (if e.opens = true ∧ ∀ k, e.stops = some k → 10 ≤ k then (tagLength contents : Int) else 0) := by
    rcases header_io e (some (ofB contents)) with ⟨h1, h2⟩ | ⟨h1, h2⟩
    · rw [if_pos h2, ← hx]
      unfold existingTagSize_io existingTagSize
      rw [h1]
      rfl
    · rw [if_neg h2]
      unfold existingTagSize_io
      rw [h1]
      rfl
  unfold ID3v2_write_tag at hw
  rw [hx] at hw
  simp only [Res.bind_ok] at hw
  obtain ⟨d, h1, hw⟩ := Res.bind_eq_ok.mp hw
  obtain ⟨p, h2, hw⟩ := Res.bind_eq_ok.mp hw
  obtain ⟨cs', h3, hw⟩ := Res.bind_eq_ok.mp hw
  obtain ⟨b, h4, hw⟩ := Res.bind_eq_ok.mp hw
  simp only [Res.pure_eq] at hw
  have hb : b = cs.stream := by
    have := Option.some.inj (Prod.mk.inj (Res.ok.inj hw)).1
    rw [Int.toNat_natCast, ofB_drop] at this
    exact List.append_cancel_right this
  refine ⟨{ tag with padding_size := p }, ?_⟩
  unfold write_prepare
  rw [he]
  simp only [Res.bind_ok]
  rw [h1]
  simp only [Res.bind_ok]
  rw [h2]
  simp only [Res.bind_ok]
  rw [h3]
  simp only [Res.bind_ok]
  rw [h4, hb]
  rfl

/-- **C64**, exactly: the file after writing a tag that can be written (`cs.stream` are its bytes), and how the function
ends, for every combination of failing operations. -/
theorem write_faults_exact [Platform] (e : WriteFaults) (contents : List UInt8) (tag : Tag) (cs : CharStream)
    (hid : tag.header.identifier = ofB [0x49, 0x44, 0x33]) (hc : Tag_to_char_stream tag = .ok cs)
    (hp : 0 ≤ tag.padding_size) (hp2 : tag.padding_size ≤ 2147483647) :
    let oldTag := if e.header.opens = true ∧ ∀ k, e.header.stops = some k → 10 ≤ k then tagLength contents else 0
    let rest := e.source.deliver (ofB (contents.drop (if e.source.seeks then oldTag else 0)))
    let temp := if e.temp.seeks then land e.tmpLost 0 (cs.stream ++ rest) else []
    ∃ tag', ID3v2_write_tag_io e (some (ofB contents)) tag =
      if e.tmp ∧ e.source.opens ∧ e.dest then (some (land e.destLost 0 (e.temp.deliver temp)), .ok tag')
      else (some (ofB contents), .ub .nullDeref) := by
  intro oldTag rest temp
  obtain ⟨tag', h⟩ := write_prepare_ok e.header contents tag cs hid hc hp hp2
  refine ⟨tag', ?_⟩
  unfold ID3v2_write_tag_io
  rw [h]
  dsimp only
  have hold : (if e.header.opens = true ∧ ∀ k, e.header.stops = some k → 10 ≤ k then (tagLength contents : Int) else 0).toNat =
      oldTag := by
    show _ = ite _ _ _
    split <;> simp
  rw [hold]
  cases htmp : e.tmp with
  | false => simp
  | true =>
    rw [if_neg (by simp)]
    unfold ReadFaults.open
    cases hso : e.source.opens with
    | false => simp
    | true =>
      simp only [if_true]
      cases hd : e.dest with
      | false => simp [copyBack, hd]
      | true =>
        unfold copyBack
        simp only [hd, if_true, and_self, Res.bind_ok]
        rw [ofB_drop]

/-- **C64**: if the function crashes or ends the process, the file is as it was. -/
theorem write_crash_unchanged [Platform] (e : WriteFaults) (file : File) (tag : Tag)
    (h : ∀ t, (ID3v2_write_tag_io e file tag).2 ≠ .ok t) : (ID3v2_write_tag_io e file tag).1 = file := by
  unfold ID3v2_write_tag_io at h ⊢
  split
  · rfl
  · rfl
  · rfl
  · next n t b hw =>
    rw [hw] at h
    dsimp only at h
    split
    · rfl
    · next ht =>
      rw [if_neg ht] at h
      cases ho : e.source.open file with
      | none => rfl
      | some c =>
        rw [ho] at h
        dsimp only at h ⊢
        unfold copyBack at h ⊢
        split
        · next hd =>
          rw [if_pos hd] at h
          exact absurd rfl (h t)
        · rfl

/-- **C64**: whatever fails, nothing is invented and nothing changes its order: the file is as it was, or consists of bytes
of the new tag and then bytes of the old file. -/
theorem write_invents_nothing [Platform] (e : WriteFaults) (contents : List UInt8) (tag : Tag) (cs : CharStream)
    (hid : tag.header.identifier = ofB [0x49, 0x44, 0x33]) (hc : Tag_to_char_stream tag = .ok cs)
    (hp : 0 ≤ tag.padding_size) (hp2 : tag.padding_size ≤ 2147483647) :
    (ID3v2_write_tag_io e (some (ofB contents)) tag).1 = some (ofB contents) ∨
    ∃ l, (ID3v2_write_tag_io e (some (ofB contents)) tag).1 = some l ∧ List.Sublist l (cs.stream ++ ofB contents) := by
  obtain ⟨tag', h⟩ := write_faults_exact e contents tag cs hid hc hp hp2
  rw [h]
  split
  · right
    refine ⟨_, rfl, ?_⟩
    refine (land_sublist _ _ _).trans ((deliver_prefix _ _).sublist.trans ?_)
    split
    · refine (land_sublist _ _ _).trans (List.Sublist.append_left ((deliver_prefix _ _).sublist.trans ?_) _)
      rw [← ofB_drop]
      exact List.drop_sublist _ _
    · exact List.nil_sublist _
  · exact .inl rfl

/-- **C64**, exactly when a write succeeds: the file has the tag and the audio if and only if the header could be read (or
there was no tag), and no byte is lost on the way from the file to the temporary file and from there to the file. -/
theorem write_complete_iff [Platform] (e : WriteFaults) (contents : List UInt8) (tag : Tag) (cs : CharStream)
    (hid : tag.header.identifier = ofB [0x49, 0x44, 0x33]) (hc : Tag_to_char_stream tag = .ok cs)
    (hp : 0 ≤ tag.padding_size) (hp2 : tag.padding_size ≤ 2147483647)
    (hheader : e.header.opens = true ∧ ∀ k, e.header.stops = some k → 10 ≤ k) (hseek : e.source.seeks = true)
    (hrewind : e.temp.seeks = true) (hopen : e.tmp ∧ e.source.opens ∧ e.dest) :
    (∃ tag', ID3v2_write_tag_io e (some (ofB contents)) tag =
        (some (cs.stream ++ ofB (audio contents)), .ok tag')) ↔
      (∀ k, e.source.stops = some k → (audio contents).length ≤ k) ∧
      (∀ j < cs.stream.length + (audio contents).length, e.tmpLost j = false) ∧
      (∀ k, e.temp.stops = some k → cs.stream.length + (audio contents).length ≤ k) ∧
      (∀ j < cs.stream.length + (audio contents).length, e.destLost j = false) := by
  obtain ⟨tag', h⟩ := write_faults_exact e contents tag cs hid hc hp hp2
  rw [if_pos hheader, if_pos hseek, if_pos hrewind, if_pos hopen] at h
  rw [h]
  show (∃ t, (some (land e.destLost 0 (e.temp.deliver (land e.tmpLost 0 (cs.stream ++
    e.source.deliver (ofB (audio contents)))))), _) = _) ↔ _
  have hl : (cs.stream ++ ofB (audio contents)).length = cs.stream.length + (audio contents).length := by
    rw [List.length_append, ofB_length]
  constructor
  · rintro ⟨t, ht⟩
    have ht := Option.some.inj (Prod.mk.inj ht).1
    have l1 := (deliver_prefix e.source (ofB (audio contents))).length_le
    have l2 := (land_sublist e.tmpLost 0 (cs.stream ++ e.source.deliver (ofB (audio contents)))).length_le
    have l3 := (deliver_prefix e.temp (land e.tmpLost 0 (cs.stream ++ e.source.deliver (ofB (audio contents))))).length_le
    have l4 := (land_sublist e.destLost 0 (e.temp.deliver (land e.tmpLost 0 (cs.stream ++
      e.source.deliver (ofB (audio contents)))))).length_le
    have l5 := congrArg List.length ht
    rw [List.length_append] at l2 l5
    have e1 : e.source.deliver (ofB (audio contents)) = ofB (audio contents) :=
      (deliver_prefix _ _).eq_of_length (by omega)
    rw [e1] at l1 l2 l3 l4 l5 ht
    have e2 : land e.tmpLost 0 (cs.stream ++ ofB (audio contents)) = cs.stream ++ ofB (audio contents) :=
      (land_sublist _ _ _).eq_of_length (by rw [List.length_append]; omega)
    rw [e2] at l3 l4 l5 ht
    have e3 : e.temp.deliver (cs.stream ++ ofB (audio contents)) = cs.stream ++ ofB (audio contents) :=
      (deliver_prefix _ _).eq_of_length (by rw [List.length_append] at l3 ⊢; omega)
    rw [e3] at ht
    refine ⟨?_, ?_, ?_, ?_⟩
    · have := (deliver_all e.source (ofB (audio contents))).mp e1
      simpa only [ofB_length] using this
    · have := (land_all e.tmpLost 0 _).mp e2
      simpa only [hl, Nat.zero_add] using this
    · have := (deliver_all e.temp _).mp e3
      simpa only [hl] using this
    · have := (land_all e.destLost 0 _).mp ht
      simpa only [hl, Nat.zero_add] using this
  · rintro ⟨h1, h2, h3, h4⟩
    have e1 : e.source.deliver (ofB (audio contents)) = ofB (audio contents) :=
      (deliver_all _ _).mpr (by simpa only [ofB_length] using h1)
    have e2 : land e.tmpLost 0 (cs.stream ++ ofB (audio contents)) = cs.stream ++ ofB (audio contents) :=
      (land_all _ _ _).mpr (by simpa only [hl, Nat.zero_add] using h2)
    have e3 : e.temp.deliver (cs.stream ++ ofB (audio contents)) = cs.stream ++ ofB (audio contents) :=
      (deliver_all _ _).mpr (by simpa only [hl] using h3)
    have e4 : land e.destLost 0 (cs.stream ++ ofB (audio contents)) = cs.stream ++ ofB (audio contents) :=
      (land_all _ _ _).mpr (by simpa only [hl, Nat.zero_add] using h4)
    rw [e1, e2, e3, e4]
    exact ⟨_, rfl⟩

/-- **C64** fails for every file and tag: after a read error the audio ends where the error was. The function returns as if
nothing had happened. -/
theorem read_error_loses_audio [Platform] (k : Nat) (contents : List UInt8) (tag : Tag) (cs : CharStream)
    (hid : tag.header.identifier = ofB [0x49, 0x44, 0x33]) (hc : Tag_to_char_stream tag = .ok cs)
    (hp : 0 ≤ tag.padding_size) (hp2 : tag.padding_size ≤ 2147483647) :
    ∃ tag', ID3v2_write_tag_io { WriteFaults.none with source := ⟨true, true, some k⟩ } (some (ofB contents)) tag =
      (some (cs.stream ++ ofB ((audio contents).take k)), .ok tag') := by
  obtain ⟨tag', h⟩ := write_faults_exact { WriteFaults.none with source := ⟨true, true, some k⟩ } contents tag cs hid hc hp hp2
  refine ⟨tag', ?_⟩
  rw [h]
  rw [if_pos (by simp [WriteFaults.none, ReadFaults.none])]
  simp only [WriteFaults.none, ReadFaults.none, ReadFaults.deliver, land_none, if_true]
  rw [if_pos (by simp), ofB_take]
  rfl

/-- **C64** fails for every file and tag: if the rest of the disk only has room for `k` bytes of the temporary file, the file
ends there. -/
theorem full_temp_loses_audio [Platform] (k : Nat) (contents : List UInt8) (tag : Tag) (cs : CharStream)
    (hid : tag.header.identifier = ofB [0x49, 0x44, 0x33]) (hc : Tag_to_char_stream tag = .ok cs)
    (hp : 0 ≤ tag.padding_size) (hp2 : tag.padding_size ≤ 2147483647) :
    ∃ tag', ID3v2_write_tag_io { WriteFaults.none with tmpLost := fun j => decide (k ≤ j) } (some (ofB contents)) tag =
      (some ((cs.stream ++ ofB (audio contents)).take k), .ok tag') := by
  have hl : ∀ (l : Bytes) (i : Nat), i ≤ k → land (fun j => decide (k ≤ j)) i l = l.take (k - i) := by
    have hz : ∀ (l : Bytes) (i : Nat), k ≤ i → land (fun j => decide (k ≤ j)) i l = [] := by
      intro l
      induction l with
      | nil => intro i _; rfl
      | cons b l ih =>
        intro i hi
        unfold land
        rw [if_pos (by simpa using hi), ih (i + 1) (by omega)]
    intro l
    induction l with
    | nil => intro i _; simp [land]
    | cons b l ih =>
      intro i hi
      by_cases hik : i = k
      · rw [hz (b :: l) i (by omega), hik]; simp
      · unfold land
        rw [if_neg (by simp; omega), ih (i + 1) (by omega), show k - i = (k - (i + 1)) + 1 from by omega, List.take_succ_cons]
  obtain ⟨tag', h⟩ := write_faults_exact { WriteFaults.none with tmpLost := fun j => decide (k ≤ j) } contents tag cs hid hc hp
    hp2
  refine ⟨tag', ?_⟩
  rw [h]
  rw [if_pos (by simp [WriteFaults.none, ReadFaults.none])]
  simp only [WriteFaults.none, ReadFaults.none, ReadFaults.deliver, land_none, if_true]
  rw [if_pos (by simp), hl _ _ (by omega)]
  rfl

/-- **C64** fails for every file with a tag: if the header cannot be read at first, the new tag is put before the old one,
which becomes part of the audio. -/
theorem header_error_stacks_tags [Platform] (contents : List UInt8) (tag : Tag) (cs : CharStream)
    (hid : tag.header.identifier = ofB [0x49, 0x44, 0x33]) (hc : Tag_to_char_stream tag = .ok cs)
    (hp : 0 ≤ tag.padding_size) (hp2 : tag.padding_size ≤ 2147483647) :
    ∃ tag', ID3v2_write_tag_io { WriteFaults.none with header := ⟨false, true, none⟩ } (some (ofB contents)) tag =
      (some (cs.stream ++ ofB contents), .ok tag') := by
  obtain ⟨tag', h⟩ := write_faults_exact { WriteFaults.none with header := ⟨false, true, none⟩ } contents tag cs hid hc hp hp2
  refine ⟨tag', ?_⟩
  rw [h]
  rw [if_pos (by simp [WriteFaults.none, ReadFaults.none])]
  simp only [WriteFaults.none, ReadFaults.none, ReadFaults.deliver, land_none, if_true]
  rw [if_neg (by simp)]
  simp

/-- Writing to a file that may not be written dereferences NULL. The file is as it was. -/
theorem read_only_file_crashes [Platform] (e : WriteFaults) (contents : List UInt8) (tag : Tag) (cs : CharStream)
    (hid : tag.header.identifier = ofB [0x49, 0x44, 0x33]) (hc : Tag_to_char_stream tag = .ok cs)
    (hp : 0 ≤ tag.padding_size) (hp2 : tag.padding_size ≤ 2147483647) (h : e.source.opens = false) :
    ID3v2_write_tag_io e (some (ofB contents)) tag = (some (ofB contents), .ub .nullDeref) := by
  obtain ⟨tag', h'⟩ := write_faults_exact e contents tag cs hid hc hp hp2
  rw [h', if_neg (by simp [h])]

/-- The claim of C64: whatever fails, the function returns and the file is as it was or has the tag and the audio. -/
def C64_claim : Prop :=
  ∀ [Platform] (e : WriteFaults) (contents : List UInt8) (tag : Tag) (cs : CharStream),
    tag.header.identifier = ofB [0x49, 0x44, 0x33] → Tag_to_char_stream tag = .ok cs → 0 ≤ tag.padding_size →
    tag.padding_size ≤ 2147483647 → ∃ tag' file, ID3v2_write_tag_io e (some (ofB contents)) tag = (some file, .ok tag') ∧
      (file = ofB contents ∨ file = cs.stream ++ ofB (audio contents))

/-- A new tag and its bytes: the hypotheses of the theorems are met. -/
theorem new_tag_writes : ∃ cs, @Tag_to_char_stream strict (@ID3v2_Tag_new_empty) = .ok cs ∧
    cs.stream = ofB [0x49, 0x44, 0x33, 3, 0, 0, 0, 0, 0, 0] := by
  obtain ⟨cs, h1, h2, -⟩ := @serialised_tag strict 0 0 [] 0 0 (by simp) (by decide)
  exact ⟨cs, h1, h2⟩

theorem C64_false : ¬ C64_claim := by
  intro h
  obtain ⟨cs, h1, h2⟩ := new_tag_writes
  obtain ⟨tag', file, h3, -⟩ := @h strict { WriteFaults.none with source := ⟨false, true, none⟩ } [0xFF] ID3v2_Tag_new_empty cs
    rfl h1 (by decide) (by decide)
  rw [@read_only_file_crashes strict _ _ _ cs rfl h1 (by decide) (by decide) rfl] at h3
  simp at h3

/-! ## C65: deleting -/

/-- If nothing fails, the model of this file is the one used everywhere else. -/
theorem delete_no_faults [Platform] (file : File) :
    ID3v2_delete_tag_io .none file =
      match ID3v2_delete_tag file with
      | .ok file' => (file', .ok ())
      | .ub k => (file, .ub k)
      | .exit => (file, .exit)
      | .diverge => (file, .diverge) := by
  unfold ID3v2_delete_tag_io ID3v2_delete_tag
  rw [show WriteFaults.none.header = ReadFaults.none from rfl, header_io_none]
  cases ID3v2_read_tag_header file with
  | ub k => rfl
  | exit => rfl
  | diverge => rfl
  | ok r =>
    cases r with
    | none => rfl
    | some h =>
      cases file with
      | none => rfl
      | some c => simp [WriteFaults.none, ReadFaults.open, ReadFaults.none, ReadFaults.deliver, copyBack, land_none]

/-- **C65**, exactly: the file after `ID3v2_delete_tag`, and how it ends, for every file and every combination of failing
operations. -/
theorem delete_faults_exact [Platform] (e : WriteFaults) (contents : List UInt8) :
    let rest := e.source.deliver (ofB (contents.drop (if e.source.seeks then tagLength contents else 0)))
    let temp := if e.temp.seeks then land e.tmpLost 0 rest else []
    ID3v2_delete_tag_io e (some (ofB contents)) =
      if tagLength contents = 0 ∨ ¬ HeaderReadable e.header then (some (ofB contents), .ok ())
      else if e.tmp ∧ e.source.opens ∧ e.dest then (some (land e.destLost 0 (e.temp.deliver temp)), .ok ())
      else if ¬ e.tmp ∧ e.source.opens ∧ e.dest ∧ rest = [] then (some [], .ub .nullDeref)
      else (some (ofB contents), .ub .nullDeref) := by
  intro rest temp
  obtain ⟨r, h1, h2, h3⟩ := read_header_spec contents
  unfold ID3v2_delete_tag_io
  rcases header_io e.header (some (ofB contents)) with ⟨h4, h5⟩ | ⟨h4, h5⟩
  · rw [h4, h1]
    cases r with
    | none => rw [if_pos (.inl (h2 rfl))]
    | some h =>
      obtain ⟨h6, h7⟩ := h3 h rfl
      rw [if_neg (by rintro (h8 | h8); · omega
                     · exact h8 h5)]
      have hu : u32 ((h.tag_size : Int) + 10) = tagLength contents := by
        rw [show (h.tag_size : Int) + 10 = ((10 + h.tag_size : Nat) : Int) from by omega, u32_nat (by omega), h6]
      dsimp only
      rw [hu]
      unfold ReadFaults.open
      cases hso : e.source.opens with
      | false => simp
      | true =>
        simp only [if_true, true_and]
        rw [ofB_drop]
        cases htmp : e.tmp with
        | true =>
          unfold copyBack
          cases hd : e.dest with
          | true => simp [rest, temp]
          | false => simp
        | false =>
          cases hd : e.dest with
          | true => simp [rest]
          | false => simp
  · rw [h4, if_pos (.inr h5)]

/-- **C65**: whatever fails, the file afterwards consists of bytes of the file, in their order. -/
theorem delete_invents_nothing [Platform] (e : WriteFaults) (contents : List UInt8) :
    ∃ l, (ID3v2_delete_tag_io e (some (ofB contents))).1 = some l ∧ List.Sublist l (ofB contents) := by
  rw [delete_faults_exact e contents]
  split
  · exact ⟨_, rfl, List.Sublist.refl _⟩
  · split
    · refine ⟨_, rfl, ?_⟩
      refine (land_sublist _ _ _).trans ((deliver_prefix _ _).sublist.trans ?_)
      split
      · refine (land_sublist _ _ _).trans ((deliver_prefix _ _).sublist.trans ?_)
        rw [← ofB_drop]
        exact List.drop_sublist _ _
      · exact List.nil_sublist _
    · by_cases hc : ¬ e.tmp ∧ e.source.opens ∧ e.dest ∧
          e.source.deliver (ofB (contents.drop (if e.source.seeks then tagLength contents else 0))) = []
      · rw [if_pos hc]
        exact ⟨_, rfl, List.nil_sublist _⟩
      · rw [if_neg hc]
        exact ⟨_, rfl, List.Sublist.refl _⟩

/-- **C65**, exactly when a deletion succeeds (for a file with a tag whose header can be read). -/
theorem delete_complete_iff [Platform] (e : WriteFaults) (contents : List UInt8) (ht : tagLength contents ≠ 0)
    (hheader : HeaderReadable e.header) (hseek : e.source.seeks = true) (hrewind : e.temp.seeks = true)
    (hopen : e.tmp ∧ e.source.opens ∧ e.dest) :
    ID3v2_delete_tag_io e (some (ofB contents)) = (some (ofB (audio contents)), .ok ()) ↔
      (∀ k, e.source.stops = some k → (audio contents).length ≤ k) ∧
      (∀ j < (audio contents).length, e.tmpLost j = false) ∧
      (∀ k, e.temp.stops = some k → (audio contents).length ≤ k) ∧
      (∀ j < (audio contents).length, e.destLost j = false) := by
  rw [delete_faults_exact e contents, if_neg (by rintro (h | h); · exact ht h
                                                 · exact h hheader), if_pos hopen, if_pos hrewind, if_pos hseek]
  show (some (land e.destLost 0 (e.temp.deliver (land e.tmpLost 0 (e.source.deliver (ofB (audio contents)))))), _) = _ ↔ _
  have hl : (ofB (audio contents)).length = (audio contents).length := ofB_length _
  constructor
  · intro h
    have h := Option.some.inj (Prod.mk.inj h).1
    have l1 := (deliver_prefix e.source (ofB (audio contents))).length_le
    have l2 := (land_sublist e.tmpLost 0 (e.source.deliver (ofB (audio contents)))).length_le
    have l3 := (deliver_prefix e.temp (land e.tmpLost 0 (e.source.deliver (ofB (audio contents))))).length_le
    have l4 := (land_sublist e.destLost 0 (e.temp.deliver (land e.tmpLost 0 (e.source.deliver (ofB (audio contents)))))).length_le
    have l5 := congrArg List.length h
    have e1 : e.source.deliver (ofB (audio contents)) = ofB (audio contents) :=
      (deliver_prefix _ _).eq_of_length (by omega)
    rw [e1] at l1 l2 l3 l4 l5 h
    have e2 : land e.tmpLost 0 (ofB (audio contents)) = ofB (audio contents) :=
      (land_sublist _ _ _).eq_of_length (by omega)
    rw [e2] at l3 l4 l5 h
    have e3 : e.temp.deliver (ofB (audio contents)) = ofB (audio contents) :=
      (deliver_prefix _ _).eq_of_length (by omega)
    rw [e3] at h
    refine ⟨?_, ?_, ?_, ?_⟩
    · have := (deliver_all e.source _).mp e1
      simpa only [hl] using this
    · have := (land_all e.tmpLost 0 _).mp e2
      simpa only [hl, Nat.zero_add] using this
    · have := (deliver_all e.temp _).mp e3
      simpa only [hl] using this
    · have := (land_all e.destLost 0 _).mp h
      simpa only [hl, Nat.zero_add] using this
  · rintro ⟨h1, h2, h3, h4⟩
    rw [(deliver_all e.source _).mpr (by simpa only [hl] using h1),
      (land_all e.tmpLost _ (ofB (audio contents))).mpr (by simpa only [hl, Nat.zero_add] using h2),
      (deliver_all e.temp _).mpr (by simpa only [hl] using h3),
      (land_all e.destLost _ _).mpr (by simpa only [hl, Nat.zero_add] using h4)]

/-- **C65** fails for every file with a tag: after a read error the audio ends where the error was, and the function returns
as if nothing had happened. -/
theorem delete_read_error_loses_audio [Platform] (k : Nat) (contents : List UInt8) (ht : tagLength contents ≠ 0) :
    ID3v2_delete_tag_io { WriteFaults.none with source := ⟨true, true, some k⟩ } (some (ofB contents)) =
      (some (ofB ((audio contents).take k)), .ok ()) := by
  rw [delete_faults_exact, if_neg (by
    rintro (h | h)
    · exact ht h
    · exact h ⟨rfl, by simp [WriteFaults.none, ReadFaults.none]⟩)]
  simp only [WriteFaults.none, ReadFaults.none, ReadFaults.deliver, land_none, if_true, and_self]
  rw [ofB_take]
  rfl

/-- **C65** fails for every file with audio: without a temporary file the process crashes; if in addition nothing can be read
of the audio, the file is empty then. -/
theorem delete_crash_empties [Platform] (contents : List UInt8) (ht : tagLength contents ≠ 0) :
    ID3v2_delete_tag_io { WriteFaults.none with tmp := false, source := ⟨true, true, some 0⟩ } (some (ofB contents)) =
      (some [], .ub .nullDeref) := by
  rw [delete_faults_exact, if_neg (by
    rintro (h | h)
    · exact ht h
    · exact h ⟨rfl, by simp [WriteFaults.none, ReadFaults.none]⟩)]
  simp [WriteFaults.none, ReadFaults.none, ReadFaults.deliver]

/-- If the header cannot be read, nothing is deleted, and the caller is not told. -/
theorem delete_header_error [Platform] (e : WriteFaults) (contents : List UInt8) (h : ¬ HeaderReadable e.header) :
    ID3v2_delete_tag_io e (some (ofB contents)) = (some (ofB contents), .ok ()) := by
  rw [delete_faults_exact, if_pos (.inr h)]

/-- The claim of C65: whatever fails, the function returns and the file is as it was or has just the audio. -/
def C65_claim : Prop :=
  ∀ [Platform] (e : WriteFaults) (contents : List UInt8), ∃ file,
    ID3v2_delete_tag_io e (some (ofB contents)) = (some file, .ok ()) ∧ (file = ofB contents ∨ file = ofB (audio contents))

/-- A file with an empty tag and one byte of audio. -/
theorem small_file : tagLength [0x49, 0x44, 0x33, 3, 0, 0, 0, 0, 0, 0, 0xFF] ≠ 0 := by decide

theorem C65_false : ¬ C65_claim := by
  intro h
  obtain ⟨file, h1, -⟩ := @h strict { WriteFaults.none with tmp := false, source := ⟨true, true, some 0⟩ }
    [0x49, 0x44, 0x33, 3, 0, 0, 0, 0, 0, 0, 0xFF]
  rw [@delete_crash_empties strict _ small_file] at h1
  simp at h1

/-! ## C66: reading -/

/-- If nothing fails, the model of this file is the one used everywhere else. -/
theorem read_no_faults [Platform] (file : File) : ID3v2_read_tag_io .none .none true file = ID3v2_read_tag file := by
  unfold ID3v2_read_tag_io ID3v2_read_tag
  rw [header_io_none]
  cases file with
  | none => rfl
  | some c =>
    cases ID3v2_read_tag_header (some c) with
    | ub k => rfl
    | exit => rfl
    | diverge => rfl
    | ok r =>
      cases r with
      | none => rfl
      | some h => rfl

/-- **C66**, exactly: reading any file when operations fail. Without a readable header NULL is returned, and so it is if there
is no memory for the tag; if the file cannot be opened the second time the process crashes; a read error leaves the rest of
the buffer indeterminate. -/
theorem read_faults_exact [Platform] (header body : ReadFaults) (allocates : Bool) (contents : List UInt8) :
    ID3v2_read_tag_io header body allocates (some (ofB contents)) =
      if tagLength contents = 0 ∨ ¬ HeaderReadable header then .ok none
      else if ¬ body.opens then .ub .nullDeref
      else if ¬ allocates then .ok none
      else ID3v2_read_tag_from_buffer
        (intoArray (tagLength contents) (body.deliver (ofB (contents.take (tagLength contents))))) (tagLength contents) := by
  obtain ⟨r, h1, h2, h3⟩ := read_header_spec contents
  unfold ID3v2_read_tag_io
  rcases header_io header (some (ofB contents)) with ⟨h4, h5⟩ | ⟨h4, h5⟩
  · rw [h4, h1]
    cases r with
    | none => rw [if_pos (.inl (h2 rfl))]; rfl
    | some h =>
      obtain ⟨h6, h7⟩ := h3 h rfl
      rw [if_neg (by rintro (h8 | h8); · omega
                     · exact h8 h5)]
      have hu : toInt32 (u32 ((h.tag_size : Int) + 10)) = tagLength contents := by
        rw [show (h.tag_size : Int) + 10 = ((10 + h.tag_size : Nat) : Int) from by omega, u32_nat (by omega),
          toInt32_nat (by omega), h6]
      simp only [Res.bind_ok]
      unfold ReadFaults.open
      cases hb : body.opens with
      | false => simp
      | true =>
        cases allocates with
        | false => simp
        | true =>
          simp only [if_true, not_true, if_false]
          rw [hu, Int.toNat_natCast, ofB_take]
  · rw [h4, if_pos (.inr h5)]
    rfl

/-- **C66**: a read error after `k` bytes (ten at least) is the same as a file that ends there. -/
theorem read_error_is_truncation [Platform] (k : Nat) (contents : List UInt8) (hk : 10 ≤ k) :
    ID3v2_read_tag_io .none ⟨true, true, some k⟩ true (some (ofB contents)) = ID3v2_read_tag (some (ofB (contents.take k))) := by
  rw [← read_no_faults, read_faults_exact, read_faults_exact]
  have ht : tagLength (contents.take k) = tagLength contents := by
    rcases ten_or_less contents with h | ⟨b0, b1, b2, b3, b4, b5, s0, s1, s2, s3, rest, rfl⟩
    · rw [List.take_of_length_le (by omega)]
    · obtain ⟨j, rfl⟩ : ∃ j, k = 10 + j := ⟨k - 10, by omega⟩
      rw [show ([b0, b1, b2, b3, b4, b5, s0, s1, s2, s3] ++ rest).take (10 + j) =
        [b0, b1, b2, b3, b4, b5, s0, s1, s2, s3] ++ rest.take j from by
          rw [List.take_append, List.take_of_length_le (by simp)]; simp]
      rfl
  rw [ht]
  simp only [ReadFaults.deliver, ReadFaults.none]
  rw [ofB_take, List.take_take, List.take_take, Nat.min_comm]

/-- **C66** fails for every file with a tag: if the file cannot be opened the second time, NULL is dereferenced. -/
theorem read_second_open_crashes [Platform] (contents : List UInt8) (ht : tagLength contents ≠ 0) (seeks : Bool)
    (stops : Option Nat) (allocates : Bool) :
    ID3v2_read_tag_io .none ⟨false, seeks, stops⟩ allocates (some (ofB contents)) = .ub .nullDeref := by
  rw [read_faults_exact, if_neg (by
    rintro (h | h)
    · exact ht h
    · exact h ⟨rfl, by simp [ReadFaults.none]⟩)]
  rfl

/-- The claim of C66: when an operation fails, reading returns NULL or what it returns otherwise. -/
def C66_claim : Prop :=
  ∀ [Platform] (header body : ReadFaults) (allocates : Bool) (contents : List UInt8),
    ID3v2_read_tag_io header body allocates (some (ofB contents)) = .ok none ∨
    ID3v2_read_tag_io header body allocates (some (ofB contents)) = ID3v2_read_tag (some (ofB contents))

theorem C66_false : ¬ C66_claim := by
  intro h
  have h1 := @h strict .none ⟨false, true, none⟩ true [0x49, 0x44, 0x33, 3, 0, 0, 0, 0, 0, 0, 0xFF]
  rw [@read_second_open_crashes strict _ small_file] at h1
  rcases h1 with h1 | h1
  · simp at h1
  · obtain ⟨cs, h2, h3⟩ := new_tag_writes
    have h4 := @read_file_exact strict 3 0 0 [] 0 [0xFF] (.inl rfl) (by decide) (by simp) (by simp) (by decide)
    rw [show outBytes 3 0 0 [] 0 ++ [0xFF] = [0x49, 0x44, 0x33, 3, 0, 0, 0, 0, 0, 0, 0xFF] from by decide, ← h1] at h4
    have h5 : @readBack strict 3 0 0 [] 0 = .ok (some (toTag 3 0 0 0 [] 0)) := by decide
    rw [h5] at h4
    simp at h4

end Id3.Props
