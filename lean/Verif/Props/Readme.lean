import Verif.Spec.Readme
import Verif.Props.Tests
import Verif.Props.CompatTest

/-!
# C93: the programs of the README
-/

namespace Id3.Props

open Id3 Spec

/-! ## Printing a string -/

theorem printStr_eq (b : List UInt8) (rest : Bytes) (h : 0 ∈ b) :
    printStr (ofB b ++ rest) = .ok (b.takeWhile (fun x => x != 0)) := by
  induction b with
  | nil => simp at h
  | cons x xs ih =>
    by_cases hx : x = 0
    · subst hx; simp [printStr, ofB, load]
    · have h' : 0 ∈ xs := by
        rcases List.mem_cons.mp h with h | h
        · exact absurd h.symm hx
        · exact h
      have e : printStr (ofB (x :: xs) ++ rest) = (printStr (ofB xs ++ rest) >>= fun l => Res.ok (x :: l)) := by
        simp [printStr, ofB, load, hx]
      rw [e, ih h']
      simp [hx]

theorem zero_in (s : Str) : 0 ∈ s.bytes := by
  cases s <;> simp [Str.bytes, Str.terminator]

theorem printStr_str (s : Str) (rest : Bytes) : printStr (s.inMemory rest) = .ok s.shown :=
  printStr_eq s.bytes rest (zero_in s)

theorem takeWhile_all {p : UInt8 → Bool} {a : List UInt8} {x : UInt8} {b : List UInt8} (h : ∀ y ∈ a, p y = true)
    (hx : p x = false) : (a ++ x :: b).takeWhile p = a := by
  induction a with
  | nil => simp [hx]
  | cons y ys ih =>
    rw [List.cons_append, List.takeWhile_cons, if_pos (h y (by simp)), ih fun z hz => h z (by simp [hz])]

/-- **C93**: an ISO-8859-1 text is printed in full. -/
theorem shown_latin (chars : List UInt8) (h : (Str.latin chars).WF) : (Str.latin chars).shown = chars :=
  takeWhile_all (x := 0) (b := []) (fun y hy => by
    simp only [bne_iff_ne, ne_eq]
    rintro rfl
    exact h.1 hy) rfl

/-- **C93**: of a text in UTF-16 only the byte order mark and the first character are printed, if the characters are
below 256. -/
theorem shown_unicode (c : UInt8) (chars : List UInt8) (h : c ≠ 0) : (unicode (c :: chars)).shown = [0xFF, 0xFE, c] := by
  simp [unicode, Str.shown, Str.bytes, Str.content, Str.bom, h]

/-! ## Reading -/

theorem read_or_new_tagged [Platform] {contents : List UInt8} {version : UInt8} {fs : List SFrame} {spare : Nat}
    {after : List UInt8} (h : TaggedFile contents version fs spare after) :
    ∃ tag, read_or_new (some (ofB contents)) = .ok tag ∧ Start tag ⟨fs, spare⟩ ∧ tag.header.major_version = version ∧
      audio contents = after ∧ (∀ f ∈ fs, f.Usable ∧ f.defect = none) ∧ framesSize fs + spare < 2 ^ 28 ∧
      HeaderOf contents tag.header.minor_version tag.header.flags := by
  obtain ⟨tag, h1, h2, h3, h4, h5, h6⟩ := tagged_read h
  refine ⟨tag, by unfold read_or_new; rw [h1]; rfl, h2, h3, h4, h5, h6, ?_⟩
  obtain ⟨minor, flags, ws, padding, rfl, hv, hflag, hR, hs, hlast, rfl, hsp⟩ := h
  have e := beyond_length_ignored version minor flags ws padding [] hv hflag hR hs hlast
  have e2 : ID3v2_read_tag (some (ofB (wireTagBytes version minor flags ws padding ++ after))) =
      .ok (some (toTag version minor flags ((ws.flatMap (Wire.bytes version)).length + padding) (ws.map Wire.kept) padding)) := by
    rw [wireTag_split, ofB_append, ofB_append, read_tag_prefix version minor flags _ _ _ hv hs (by simp), ← ofB_append,
      ← wireTag_split]
    rw [List.append_nil, Nat.add_assoc] at e
    exact e
  rw [h1] at e2
  cases Option.some.inj (Res.ok.inj e2)
  exact ⟨rfl, rfl⟩

theorem read_or_new_untagged [Platform] (contents : List UInt8) (h : tagLength contents = 0) :
    read_or_new (some (ofB contents)) = .ok ID3v2_Tag_new_empty := by
  unfold read_or_new
  rw [file_none contents h]
  rfl

/-- A frame with the id of a text frame is a text frame. -/
theorem first_text [Platform] (fs : List SFrame) (k : List UInt8) (f : SFrame) (ht : k.head? = some 0x54)
    (hu : ∀ f ∈ fs, f.Usable) (hf : first SFrame.id k fs = some f) : ∃ flags s, f = .text k flags s := by
  have hid : f.id = k := by simpa using List.find?_some hf
  have hwf := (hu f (List.mem_of_find?_eq_some hf)).1
  cases f with
  | text id flags s =>
    cases hid
    exact ⟨flags, s, rfl⟩
  | comment flags lang desc txt => subst hid; simp [SFrame.id, commId] at ht
  | apic flags mime pt desc pic => subst hid; simp [SFrame.id, apicId] at ht
  | other id flags data =>
    subst hid
    exact absurd ht hwf.2.1

/-- What a lookup and the access to the text give. -/
theorem start_text [Platform] (tag : Tag) (fs : List SFrame) (spare : Int) (k : List UInt8) (h : Start tag ⟨fs, spare⟩)
    (hk : ValidId k) (ht : k.head? = some 0x54) (hu : ∀ f ∈ fs, f.Usable) :
    (∃ flags s, first SFrame.id k fs = some (.text k flags s) ∧
      (ID3v2_Tag_get_frame tag (lit k) >>= text_of) = .ok (ofB s.bytes)) ∨
    (first SFrame.id k fs = none ∧ (ID3v2_Tag_get_frame tag (lit k) >>= text_of) = .ub .nullDeref) := by
  obtain ⟨-, h2⟩ := history_exact tag ⟨fs, spare⟩ [] [] (ofB [0]) h (by simp)
  obtain ⟨tag', h3, -, -, -, h4, -⟩ := h2 _ rfl
  cases h3
  have h4 := h4 k hk
  have e : lit k = ofB k ++ ofB [0] := by simp [lit]
  rw [e, h4]
  have hseen : (State.full ⟨fs, spare⟩).seen = fs := rfl
  rw [hseen]
  cases hf : first SFrame.id k fs with
  | none => exact Or.inr ⟨rfl, rfl⟩
  | some f =>
    obtain ⟨flags, s, rfl⟩ := first_text fs k f ht hu hf
    exact Or.inl ⟨flags, s, rfl, rfl⟩

theorem text_then {α : Type} (tag : Tag) (k : List UInt8) (f : Bytes → Res α) :
    (ID3v2_Tag_get_frame tag (lit k) >>= fun x => text_of x >>= f) = ((ID3v2_Tag_get_frame tag (lit k) >>= text_of) >>= f) := by
  cases ID3v2_Tag_get_frame tag (lit k) <;> rfl

/-- **C93**: "Load Tags" prints the first artist and the first album, up to their first zero byte, exactly if the tag has
both; otherwise it dereferences NULL. -/
theorem readme_load_iff [Platform] (contents : List UInt8) (version : UInt8) (fs : List SFrame) (spare : Nat)
    (after : List UInt8) (h : TaggedFile contents version fs spare after) :
    (∀ a b, readme_load (some (ofB contents)) = .ok (a, b) ↔
      ∃ f₁ s₁ f₂ s₂, first SFrame.id artistId fs = some (.text artistId f₁ s₁) ∧
        first SFrame.id albumId fs = some (.text albumId f₂ s₂) ∧ a = s₁.shown ∧ b = s₂.shown) ∧
    (readme_load (some (ofB contents)) = .ub .nullDeref ↔
      first SFrame.id artistId fs = none ∨ first SFrame.id albumId fs = none) := by
  obtain ⟨tag, h1, h2, -, -, h5, -⟩ := read_or_new_tagged h
  have e : readme_load (some (ofB contents)) =
      ((ID3v2_Tag_get_frame tag (lit artistId) >>= text_of) >>= fun t => printStr t >>= fun a =>
        (ID3v2_Tag_get_frame tag (lit albumId) >>= text_of) >>= fun t => printStr t >>= fun b => .ok (a, b)) := by
    unfold readme_load
    rw [h1]
    simp only [Res.bind_ok]
    refine (text_then tag artistId _).trans ?_
    refine congrArg _ (funext fun t => ?_)
    refine congrArg _ (funext fun a => ?_)
    exact text_then tag albumId _
  have hp : ∀ s : Str, printStr (ofB s.bytes) = .ok s.shown := fun s => by
    have := printStr_str s []
    unfold Str.inMemory at this
    rwa [List.append_nil] at this
  rw [e]
  rcases start_text tag fs spare artistId h2 (by decide) rfl (fun f hf => (h5 f hf).1) with ⟨f₁, s₁, a1, a2⟩ | ⟨a1, a2⟩
  · rw [a1, a2]
    simp only [Res.bind_ok]
    rw [hp]
    simp only [Res.bind_ok]
    rcases start_text tag fs spare albumId h2 (by decide) rfl (fun f hf => (h5 f hf).1) with ⟨f₂, s₂, b1, b2⟩ | ⟨b1, b2⟩
    · rw [b1, b2]
      simp only [Res.bind_ok]
      rw [hp]
      simp only [Res.bind_ok]
      refine ⟨fun a b => ⟨?_, ?_⟩, by simp⟩
      · intro e
        cases e
        exact ⟨_, _, _, _, rfl, rfl, rfl, rfl⟩
      · rintro ⟨_, _, _, _, e1, e2, rfl, rfl⟩
        cases e1
        cases e2
        rfl
    · rw [b1, b2]
      simp
  · rw [a1, a2]
    simp

/-- **C93**: and on every file without a tag. -/
theorem readme_load_untagged [Platform] (contents : List UInt8) (h : tagLength contents = 0) :
    readme_load (some (ofB contents)) = .ub .nullDeref := by
  unfold readme_load
  rw [read_or_new_untagged contents h]
  rfl

/-- **C93**: "Read New Frames" prints the first copyright message, exactly if there is one. -/
theorem readme_read_new_iff [Platform] (contents : List UInt8) (version : UInt8) (fs : List SFrame) (spare : Nat)
    (after : List UInt8) (h : TaggedFile contents version fs spare after) :
    (∀ a, readme_read_new (some (ofB contents)) = .ok a ↔
      ∃ f s, first SFrame.id copyrightId fs = some (.text copyrightId f s) ∧ a = s.shown) ∧
    (readme_read_new (some (ofB contents)) = .ub .nullDeref ↔ first SFrame.id copyrightId fs = none) := by
  obtain ⟨tag, h1, h2, -, -, h5, -⟩ := read_or_new_tagged h
  have e : readme_read_new (some (ofB contents)) =
      ((ID3v2_Tag_get_frame tag (lit copyrightId) >>= text_of) >>= fun t => printStr t) := by
    unfold readme_read_new
    rw [h1]
    simp only [Res.bind_ok]
    exact text_then tag copyrightId _
  rw [e]
  rcases start_text tag fs spare copyrightId h2 (by decide) rfl (fun f hf => (h5 f hf).1) with ⟨f₁, s₁, a1, a2⟩ | ⟨a1, a2⟩
  · rw [a1, a2]
    simp only [Res.bind_ok]
    have := printStr_str s₁ []
    unfold Str.inMemory at this
    rw [List.append_nil] at this
    rw [this]
    refine ⟨fun a => ⟨?_, ?_⟩, by simp⟩
    · intro e
      cases e
      exact ⟨_, _, rfl, rfl⟩
    · rintro ⟨_, _, e1, rfl⟩
      cases e1
      rfl
  · rw [a1, a2]
    simp

/-- **C93**: and it dereferences NULL on every file without a tag. -/
theorem readme_read_new_untagged [Platform] (contents : List UInt8) (h : tagLength contents = 0) :
    readme_read_new (some (ofB contents)) = .ub .nullDeref := by
  unfold readme_read_new
  rw [read_or_new_untagged contents h]
  rfl

/-! ## The compatibility layer -/

/-- **C93**: the program of "Compatibility Layer" prints the first album, exactly if there is one. -/
theorem readme_compat_iff [Platform] (contents : List UInt8) (version : UInt8) (fs : List SFrame) (spare : Nat)
    (after : List UInt8) (h : TaggedFile contents version fs spare after) :
    (∀ a, readme_compat (some (ofB contents)) = .ok a ↔
      ∃ f s, first SFrame.id albumId fs = some (.text albumId f s) ∧ a = s.shown) ∧
    (readme_compat (some (ofB contents)) = .ub .nullDeref ↔ first SFrame.id albumId fs = none) := by
  obtain ⟨-, -, -, -, -, hok, -⟩ := tagged_read h
  obtain ⟨minor, flags, ws, padding, rfl, hver, hflag, hR, hsz, hlast, hfs, hsp⟩ := h
  unfold readme_compat
  by_cases hne : ws = []
  · subst hne
    have hl : load_tag (some (ofB (wireTagBytes version minor flags [] padding ++ after))) = .ub .nullDeref := by
      rw [ofB_append, load_file version minor flags [] padding (ofB after) hver hsz]
      exact load_empty_crashes version minor flags padding hver hflag (by simpa using hsz)
    rw [hl, hfs]
    simp [first]
  obtain ⟨ct, l1, l2, l3⟩ := load_succeeds_partial version minor flags ws padding (ofB after) hver hflag hne hR hsz hlast
  rw [← ofB_append] at l1
  rw [l1]
  simp only [Res.bind_ok]
  have hroom : ((ws.flatMap (Wire.bytes version)).length + padding : Nat) - (framesSize (ws.map Wire.kept) : Int) = spare := by
    rw [← hfs]; omega
  rw [hroom, ← hfs] at l3
  have hshow : ShowsAll ct.frames fs := by
    obtain ⟨_, _, _, hi, -⟩ := cstart_inStep ct _ l3
    rw [hi.frames]
    exact compatList_shows _ (fun f hf => (hi.usable f hf).1)
  have ha : Answers (tag_get_album ct) (first SFrame.id albumId fs) :=
    field_answers ct fs .album hshow (fun f hf => (hok f hf).1)
  cases hf : first SFrame.id albumId fs with
  | none =>
    rw [hf] at ha
    have ha : tag_get_album ct = .ok none := ha
    rw [ha]
    simp
  | some f =>
    obtain ⟨flags', s, rfl⟩ := first_text fs albumId f rfl (fun f hf => (hok f hf).1) hf
    rw [hf] at ha
    obtain ⟨c, ha, hs⟩ := ha
    rw [ha]
    simp only [Res.bind_ok, parse_text_frame_content]
    rw [hs.frame]
    simp only [SFrame.toFrame]
    rw [memcpySrc_self _ _ (by simp)]
    simp only [Res.bind_ok, Res.pure_eq]
    have := printStr_str s []
    unfold Str.inMemory at this
    rw [List.append_nil] at this
    rw [this]
    refine ⟨fun a => ⟨?_, ?_⟩, by simp⟩
    · intro e
      cases e
      exact ⟨_, _, rfl, rfl⟩
    · rintro ⟨_, _, e1, rfl⟩
      cases e1
      rfl

/-- **C93**: and it dereferences NULL on every file without a tag. -/
theorem readme_compat_untagged [Platform] (contents : List UInt8) (h : tagLength contents = 0) :
    readme_compat (some (ofB contents)) = .ub .nullDeref := by
  unfold readme_compat
  rw [(load_without_tag_crashes contents h).1]
  rfl

/-! ## Edit Tags -/

theorem put_mem {α : Type} (key : α → List UInt8) (k : List UInt8) (f : α) (l : List α) : f ∈ put key k f l := by
  induction l with
  | nil => simp [put]
  | cons x xs ih =>
    unfold put
    split
    · simp
    · simp [ih]

theorem put_sub {α : Type} (key : α → List UInt8) (k : List UInt8) (f : α) (l : List α) :
    ∀ g ∈ put key k f l, g = f ∨ g ∈ l := by
  induction l with
  | nil => simp [put]
  | cons x xs ih =>
    intro g hg
    unfold put at hg
    split at hg
    · rcases List.mem_cons.mp hg with rfl | hg
      · exact Or.inl rfl
      · exact Or.inr (by simp [hg])
    · rcases List.mem_cons.mp hg with rfl | hg
      · exact Or.inr (by simp)
      · rcases ih g hg with h | h
        · exact Or.inl h
        · exact Or.inr (by simp [h])

theorem mem_framesSize (fs : List SFrame) (f : SFrame) (h : f ∈ fs) : f.bytes.length ≤ framesSize fs := by
  rw [← flatMap_bytes_length]
  obtain ⟨a, b, rfl⟩ := List.append_of_mem h
  simp
  omega

theorem first_retitled (title artist : List UInt8) (fs : List SFrame) :
    first SFrame.id titleId (retitled title artist fs) = some (titleFrame title) ∧
    first SFrame.id artistId (retitled title artist fs) = some (artistFrame artist) := by
  constructor
  · unfold retitled
    rw [first_put_other artistId titleId _ _ (by decide) rfl, first_put_same titleId _ _ rfl]
  · exact first_put_same _ _ _ rfl

/-- The calls of the program. -/
def retitleOps (title artist : List UInt8) : List Op :=
  [.setText titleId [0, 0] (unicode title), .setText artistId [0, 0] (unicode artist)]

theorem unicode_usable [Platform] (k chars : List UInt8) (hk : k.length = 4) (ht : k.head? = some 0x54)
    (h : (Str.latin chars).WF) (hl : (SFrame.text k [0, 0] (unicode chars)).bytes.length ≤ 2147483647) :
    (SFrame.text k [0, 0] (unicode chars)).Usable := by
  have hwf : (unicode chars).WF := by
    show (0, 0) ∉ chars.map (fun c => (c, (0 : UInt8)))
    intro hm
    obtain ⟨c, hc, he⟩ := List.mem_map.mp hm
    cases he
    exact h.1 hc
  refine ⟨⟨hk, ht, rfl, hwf⟩, hl, hwf, ?_, Or.inr (by simp [unicode])⟩
  simp only [SFrame.bytes, SFrame.body, List.length_append] at hl
  simp only [List.length_cons] at hl
  omega

theorem unicode_length (k chars : List UInt8) :
    2 * chars.length + 4 ≤ (SFrame.text k [0, 0] (unicode chars)).bytes.length := by
  simp only [SFrame.bytes, SFrame.body, unicode, Str.bytes_length, Str.content, Str.terminator, List.length_append,
    List.length_cons, List.length_nil, flat_length, List.length_map, Str.bom_length]
  omega

theorem retitle_state (title artist : List UInt8) (fs : List SFrame) (spare : Nat) :
    applyAll (retitleOps title artist) ⟨fs, spare⟩ =
      ⟨retitled title artist fs, (spare : Int) - 10 * missingTwo fs⟩ := by
  have h2 : first SFrame.id artistId (put SFrame.id titleId (titleFrame title) fs) = first SFrame.id artistId fs :=
    first_put_other _ _ _ _ (by decide) rfl
  have e : applyAll (retitleOps title artist) ⟨fs, spare⟩ =
      State.set (State.set ⟨fs, spare⟩ (titleFrame title)) (artistFrame artist) := rfl
  rw [e]
  unfold State.set State.has
  simp only [show (titleFrame title).id = titleId from rfl, show (artistFrame artist).id = artistId from rfl, h2]
  unfold missingTwo retitled
  congr 1
  cases first SFrame.id titleId fs <;> cases first SFrame.id artistId fs <;> simp <;> omega

/-- The program with a tag as it starts. -/
theorem retitle_run [Platform] (contents title artist : List UInt8) (tag : Tag) (fs : List SFrame) (spare : Nat)
    (rest rest' : Bytes) (hread : read_or_new (some (ofB contents)) = .ok tag) (hstart : Start tag ⟨fs, spare⟩)
    (hu : ∀ f ∈ fs, f.Usable) (ht : (Str.latin title).Usable) (ha : (Str.latin artist).Usable)
    (hs : framesSize (retitled title artist fs) + spare < 2 ^ 28) :
    (10 * missingTwo fs ≤ spare → readme_edit ((Str.latin title).inMemory rest) ((Str.latin artist).inMemory rest')
        (some (ofB contents)) = .ok (some (ofB (outBytes tag.header.major_version tag.header.minor_version tag.header.flags
          (retitled title artist fs) (spare - 10 * missingTwo fs) ++ audio contents)))) ∧
    (¬ 10 * missingTwo fs ≤ spare → readme_edit ((Str.latin title).inMemory rest) ((Str.latin artist).inMemory rest')
        (some (ofB contents)) = .ub .oobWrite) := by
  obtain ⟨f1, f2⟩ := first_retitled title artist fs
  have b1 := mem_framesSize _ _ (List.mem_of_find?_eq_some f1)
  have b2 := mem_framesSize _ _ (List.mem_of_find?_eq_some f2)
  unfold titleFrame at b1
  unfold artistFrame at b2
  have u1 := unicode_usable titleId title rfl rfl ht.1 (by omega)
  have u2 := unicode_usable artistId artist rfl rfl ha.1 (by omega)
  have l1 := unicode_length titleId title
  have l2 := unicode_length artistId artist
  have hvalid : ∀ op ∈ retitleOps title artist, op.Valid := by
    intro op hop
    simp only [retitleOps, List.mem_cons, List.not_mem_nil, or_false] at hop
    rcases hop with rfl | rfl
    · exact ⟨by decide, u1⟩
    · exact ⟨by decide, u2⟩
  have hset : ∀ (t : Tag) (k chars : List UInt8) (hu : (SFrame.text k [0, 0] (unicode chars)).Usable),
      ID3v2_Tag_set_text_frame t { id := lit k, flags := NO_FLAGS, text := ofB (unicode chars).bytes } =
        Op.run (ofB [0]) (.setText k [0, 0] (unicode chars)) t := by
    intro t k chars hu
    have h := set_text_rest t k (unicode chars) [] (ofB [0]) (ofB [0]) (ofB [0]) hu
    show ID3v2_Tag_set_text_frame t { id := ofB (k ++ [0]), flags := ofB ([0, 0] ++ [0]), text := _ } = _
    rw [ofB_append, ofB_append]
    refine Eq.trans ?_ h
    unfold Str.inMemory
    rw [List.append_nil]
  have hmain : readme_edit ((Str.latin title).inMemory rest) ((Str.latin artist).inMemory rest') (some (ofB contents)) =
      (runAll (ofB [0]) (retitleOps title artist) tag >>= fun tag => do
        let (file, _) ← ID3v2_write_tag (some (ofB contents)) tag
        return file) := by
    unfold readme_edit
    rw [hread]
    simp only [Res.bind_ok]
    rw [to_unicode_latin title rest ht (by omega)]
    simp only [Res.bind_ok]
    have e1 : ID3v2_Tag_set_title tag (ofB (unicode title).bytes) = Op.run (ofB [0]) (.setText titleId [0, 0] (unicode title)) tag :=
      hset tag titleId title u1
    refine (congrArg (· >>= _) e1).trans ?_
    simp only [retitleOps, runAll]
    cases Op.run (ofB [0]) (.setText titleId [0, 0] (unicode title)) tag with
    | ok t =>
      simp only [Res.bind_ok]
      rw [to_unicode_latin artist rest' ha (by omega)]
      simp only [Res.bind_ok]
      have e2 : ID3v2_Tag_set_artist t (ofB (unicode artist).bytes) = Op.run (ofB [0]) (.setText artistId [0, 0] (unicode artist)) t :=
        hset t artistId artist u2
      refine (congrArg (· >>= _) e2).trans ?_
      cases Op.run (ofB [0]) (.setText artistId [0, 0] (unicode artist)) t <;> rfl
    | ub k => rfl
    | exit => rfl
    | diverge => rfl
  have he : effectAll (retitleOps title artist) (State.full ⟨fs, spare⟩) =
      some ⟨retitled title artist fs, none, framesSize (retitled title artist fs) + ((spare : Int) - 10 * missingTwo fs)⟩ := by
    rw [exact_agrees ⟨fs, spare⟩ _ hu (safe_stores _ _ hvalid (by
      intro op hop st
      simp only [retitleOps, List.mem_cons, List.not_mem_nil, or_false] at hop
      rcases hop with rfl | rfl <;> trivial)), retitle_state]
    unfold State.full
    dsimp only
    rw [if_neg (List.ne_nil_of_mem (List.mem_of_find?_eq_some f1))]
    rfl
  have hm : missingTwo fs ≤ 2 := by
    unfold missingTwo; split <;> split <;> omega
  rw [hmain]
  constructor
  · intro hfit
    have hsub : ((spare : Int) - 10 * missingTwo fs) = (spare - 10 * missingTwo fs : Nat) := by omega
    rw [hsub] at he
    generalize hn : spare - 10 * missingTwo fs = n at he ⊢
    have hser : Full.serialise ⟨retitled title artist fs, none, framesSize (retitled title artist fs) + (n : Int)⟩ =
        .bytes ((retitled title artist fs).flatMap SFrame.bytes) := by
      unfold Full.serialise
      rw [if_neg (by show ¬ (framesSize (retitled title artist fs) + (n : Int) < framesSize (retitled title artist fs)); omega),
        if_neg (by simp)]
    obtain ⟨t2, t3, file, r2, w2, f2, -⟩ := session_file contents tag _ _ (ofB [0]) _ _ hstart
      hvalid he hser (by show framesSize (retitled title artist fs) + (n : Int) < 2 ^ 28; omega)
    rw [r2]
    simp only [Res.bind_ok]
    rw [w2, f2]
    simp only [Res.bind_ok, Res.pure_eq]
    rw [show (framesSize (retitled title artist fs) + (n : Int) - framesSize (retitled title artist fs)).toNat = n from by omega]
  · intro hfit
    obtain ⟨t1, r1, s1, -⟩ := session_fails_exact contents tag _ _ (ofB [0]) _ hstart hvalid he
      (by show _ ≤ framesSize (retitled title artist fs) + ((spare : Int) - 10 * missingTwo fs) + 10; omega)
      (by show framesSize (retitled title artist fs) + ((spare : Int) - 10 * missingTwo fs) + 10 ≤ _; omega)
    rw [r1]
    simp only [Res.bind_ok]
    rw [s1.mpr (by
      unfold Full.serialise
      rw [if_pos (by
        show framesSize (retitled title artist fs) + ((spare : Int) - 10 * missingTwo fs) < framesSize (retitled title artist fs)
        omega)])]
    rfl

/-- **C93**: "Edit Tags", with any title and artist in ISO-8859-1, works exactly if the tag has ten bytes to spare for each
of the two frames that it does not have yet. The file is then the tag with the two frames in it, and the audio. Otherwise
the program overflows the heap. -/
theorem readme_edit_exact [Platform] (contents : List UInt8) (version : UInt8) (fs : List SFrame) (spare : Nat)
    (after title artist : List UInt8) (rest rest' : Bytes) (h : TaggedFile contents version fs spare after)
    (ht : (Str.latin title).Usable) (ha : (Str.latin artist).Usable)
    (hs : framesSize (retitled title artist fs) + spare < 2 ^ 28) :
    (10 * missingTwo fs ≤ spare → ∃ minor flags, HeaderOf contents minor flags ∧
      readme_edit ((Str.latin title).inMemory rest) ((Str.latin artist).inMemory rest') (some (ofB contents)) =
        .ok (some (ofB (outBytes version minor flags (retitled title artist fs) (spare - 10 * missingTwo fs) ++ after)))) ∧
    (spare < 10 * missingTwo fs →
      readme_edit ((Str.latin title).inMemory rest) ((Str.latin artist).inMemory rest') (some (ofB contents)) =
        .ub .oobWrite) := by
  obtain ⟨tag, h1, h2, h3, h4, h5, h6, h7⟩ := read_or_new_tagged h
  obtain ⟨g1, g2⟩ := retitle_run contents title artist tag fs spare rest rest' h1 h2 (fun f hf => (h5 f hf).1) ht ha hs
  rw [h3, h4] at g1
  exact ⟨fun hf => ⟨_, _, h7, g1 hf⟩, fun hf => g2 (by omega)⟩

/-- **C93**: on a file without a tag, where the README makes a new one, the program always overflows the heap. -/
theorem readme_edit_untagged [Platform] (contents title artist : List UInt8) (rest rest' : Bytes)
    (h : tagLength contents = 0) (ht : (Str.latin title).Usable) (ha : (Str.latin artist).Usable)
    (hs : framesSize (retitled title artist []) < 2 ^ 28) :
    readme_edit ((Str.latin title).inMemory rest) ((Str.latin artist).inMemory rest') (some (ofB contents)) =
      .ub .oobWrite :=
  (retitle_run contents title artist ID3v2_Tag_new_empty [] 0 rest rest' (read_or_new_untagged contents h) Start.new
    (by simp) ht ha (by simpa using hs)).2 (by decide)

/-! ## Delete Tags -/

/-- The calls of the program. -/
def untitleOps : List Op := [.delete titleId, .delete artistId]

theorem delete_split (st : Full) (k : List UInt8) (a b : List SFrame) (g : SFrame) (hfs : st.seen = a ++ g :: b)
    (hg : g.id = k) (ha : ∀ x ∈ a, x.id ≠ k) :
    st.delete k =
      some ⟨a ++ b, if st.hidden.isNone ∧ b = [] then some [] else st.hidden, st.size - 10 - g.body.length⟩ := by
  have hn : (all SFrame.id k a).length = 0 := by
    rw [List.length_eq_zero_iff]
    simp only [all, List.filter_eq_nil_iff, decide_eq_true_eq]; exact ha
  unfold Full.delete
  rw [hfs, first_hit _ a g b ha hg]
  dsimp only
  rw [erase_split st k 0 (st.size - 10 - g.body.length) a b g hfs hg hn (by rw [hfs]; exact eraseNth_hit k a b g ha hg)]

theorem first_lost (k k' : List UInt8) (a b : List SFrame) (g : SFrame) (hg : g.id = k) (hk : k ≠ k') :
    first SFrame.id k' (a ++ g :: b) = first SFrame.id k' (a ++ b) := by
  unfold first
  rw [List.find?_append, List.find?_append, List.find?_cons]
  simp [hg, hk]

/-- Where a list with two marked elements ends. -/
theorem ends_iff (a b a' b' : List SFrame) (g g' : SFrame) (hg : g.id = titleId) (ha : ∀ x ∈ a, x.id ≠ titleId)
    (hg' : g'.id = artistId) (ha' : ∀ x ∈ a', x.id ≠ artistId) (e : a ++ b = a' ++ g' :: b') :
    EndsWithOne (a ++ g :: b) ↔ b = [] ∨ b' = [] := by
  have hne : titleId ≠ artistId := by decide
  constructor
  · rintro ⟨front, last, he, hl, hf⟩
    rcases List.eq_nil_or_concat b with hb | ⟨b0, z, hb⟩
    · exact Or.inl hb
    · rw [List.concat_eq_append] at hb
      subst hb
      rw [← List.cons_append, ← List.append_assoc] at he
      obtain ⟨h1, h2⟩ := List.append_inj' he rfl
      cases h2
      subst h1
      rcases hl with hl | hl
      · exact absurd (hg.trans hl.symm) (hf g (by simp))
      · right
        rcases List.eq_nil_or_concat b' with hb' | ⟨b1, z', hb'⟩
        · exact hb'
        · rw [List.concat_eq_append] at hb'
          subst hb'
          rw [← List.append_assoc, ← List.cons_append, ← List.append_assoc] at e
          obtain ⟨h3, h4⟩ := List.append_inj' e rfl
          have hin : g' ∈ a ++ b0 := by rw [h3]; simp
          refine absurd (hg'.trans hl.symm) (hf g' ?_)
          rcases List.mem_append.mp hin with h | h <;> simp [h]
  · intro h
    by_cases hb : b = []
    · subst hb
      exact ⟨a, g, rfl, Or.inl hg, by rw [hg]; exact ha⟩
    · have hb' : b' = [] := h.resolve_left hb
      subst hb'
      rcases List.eq_nil_or_concat b with hb0 | ⟨b0, z, hb0⟩
      · exact absurd hb0 hb
      · rw [List.concat_eq_append] at hb0
        subst hb0
        rw [← List.append_assoc] at e
        obtain ⟨h3, h4⟩ := List.append_inj' e rfl
        cases h4
        refine ⟨a ++ g :: b0, g', by simp, Or.inr hg', ?_⟩
        intro f hf
        rw [hg']
        rcases List.mem_append.mp hf with h | h
        · exact ha' f (by rw [← h3]; simp [h])
        · rcases List.mem_cons.mp h with rfl | h
          · rw [hg]; exact hne
          · exact ha' f (by rw [← h3]; simp [h])

/-- What the two calls do. -/
theorem untitle_effect [Platform] (fs : List SFrame) (spare : Nat) (hu : ∀ f ∈ fs, f.Usable) :
    (first SFrame.id titleId fs = none ∨ first SFrame.id artistId fs = none →
      effectAll untitleOps (State.full ⟨fs, spare⟩) = none) ∧
    (first SFrame.id titleId fs ≠ none → first SFrame.id artistId fs ≠ none →
      ∃ hidden, effectAll untitleOps (State.full ⟨fs, spare⟩) =
        some ⟨untitled fs, hidden, framesSize (untitled fs) + (spare : Int)⟩ ∧ (hidden ≠ none ↔ EndsWithOne fs)) := by
  have hop : ∀ st, effectAll untitleOps st = (st.delete titleId).bind fun st => st.delete artistId := by
    intro st
    simp only [untitleOps, effectAll, Op.effect]
    cases st.delete titleId with
    | none => rfl
    | some st => simp
  rw [hop]
  have hne : titleId ≠ artistId := by decide
  rcases split_first' fs titleId with hm | ⟨a, g, b, hfs, hg, ha⟩
  · have e := first_miss titleId fs hm
    refine ⟨fun _ => ?_, fun h => absurd e h⟩
    unfold Full.delete
    rw [show (State.full ⟨fs, spare⟩).seen = fs from rfl, e]
    rfl
  · have hfull : State.full ⟨fs, spare⟩ = ⟨fs, none, framesSize fs + (spare : Int)⟩ := by
      unfold State.full
      rw [if_neg (by rw [hfs]; simp)]
      rfl
    rw [hfull, delete_split _ titleId a b g hfs hg ha]
    simp only [Option.bind_some]
    have e1 : eraseFirst SFrame.id titleId fs = a ++ b := by rw [hfs]; exact eraseFirst_hit titleId a g b ha hg
    have e2 : first SFrame.id artistId fs = first SFrame.id artistId (a ++ b) := by
      rw [hfs]; exact first_lost _ _ a b g hg hne
    have ht : first SFrame.id titleId fs ≠ none := by rw [hfs, first_hit titleId a g b ha hg]; simp
    rcases split_first' (a ++ b) artistId with hm | ⟨a', g', b', hfs', hg', ha'⟩
    · have e := first_miss artistId (a ++ b) hm
      refine ⟨fun _ => ?_, fun _ h => absurd (e2.trans e) h⟩
      unfold Full.delete
      dsimp only
      rw [e]
    · have e3 : first SFrame.id artistId fs ≠ none := by
        rw [e2, hfs', first_hit artistId a' g' b' ha' hg']; simp
      refine ⟨fun h => (h.elim ht e3).elim, fun _ _ => ?_⟩
      rw [delete_split _ artistId a' b' g' hfs' hg' ha']
      have e4 : untitled fs = a' ++ b' := by
        unfold untitled
        rw [e1, hfs']
        exact eraseFirst_hit artistId a' g' b' ha' hg'
      have hb1 := SFrame.bytes_length g (hu g (by rw [hfs]; simp)).1
      have hb2 := SFrame.bytes_length g' (hu g' (by
        have : g' ∈ a ++ b := by rw [hfs']; simp
        rw [hfs]
        rcases List.mem_append.mp this with h | h <;> simp [h])).1
      have hsz : framesSize fs = framesSize (a' ++ b') + g.bytes.length + g'.bytes.length := by
        have h1 : framesSize (a ++ b) = framesSize (a' ++ b') + g'.bytes.length := by
          rw [hfs']; simp [framesSize]; omega
        have h2 : framesSize fs = framesSize (a ++ b) + g.bytes.length := by
          rw [hfs]; simp [framesSize]; omega
        omega
      rw [e4]
      dsimp only
      refine ⟨_, congrArg some (congrArg (Full.mk _ _) ?_), ?_⟩
      · rw [hsz]; omega
      · rw [hfs, ends_iff a b a' b' g g' hg ha hg' ha' hfs']
        by_cases h1 : b = [] <;> by_cases h2 : b' = [] <;> simp [h1, h2]

theorem untitle_valid [Platform] : ∀ op ∈ untitleOps, op.Valid := by
  intro op hop
  simp only [untitleOps, List.mem_cons, List.not_mem_nil, or_false] at hop
  rcases hop with rfl | rfl <;> (show ValidId _; decide)

theorem readme_delete_ops [Platform] (file : File) (tag : Tag) (h : read_or_new file = .ok tag) :
    readme_delete_frames file = (runAll (ofB [0]) untitleOps tag >>= fun tag => do
        let (file, _) ← ID3v2_write_tag file tag
        return file) := by
  unfold readme_delete_frames
  rw [h]
  simp only [Res.bind_ok, untitleOps, runAll]
  show (ID3v2_Tag_delete_frame tag (ofB titleId ++ ofB [0]) >>= _) = (ID3v2_Tag_delete_frame tag (ofB titleId ++ ofB [0]) >>= _) >>= _
  cases ID3v2_Tag_delete_frame tag (ofB titleId ++ ofB [0]) with
  | ok t =>
    simp only [Res.bind_ok]
    show (ID3v2_Tag_delete_frame t (ofB artistId ++ ofB [0]) >>= _) = (ID3v2_Tag_delete_frame t (ofB artistId ++ ofB [0]) >>= _) >>= _
    cases ID3v2_Tag_delete_frame t (ofB artistId ++ ofB [0]) <;> rfl
  | ub k => rfl
  | exit => rfl
  | diverge => rfl

/-- **C93**: what "Delete Tags" does to a file with a tag. A missing title or artist is a null dereference. If frames
remain, and the first title or artist was the last frame, the process ends. In all other cases the file is written with the
other frames, and in the end the audio is left. -/
theorem readme_delete_exact [Platform] (contents : List UInt8) (version : UInt8) (fs : List SFrame) (spare : Nat)
    (after : List UInt8) (h : TaggedFile contents version fs spare after) :
    (first SFrame.id titleId fs = none ∨ first SFrame.id artistId fs = none →
      readme_delete_frames (some (ofB contents)) = .ub .nullDeref ∧ readme_delete (some (ofB contents)) = .ub .nullDeref) ∧
    (first SFrame.id titleId fs ≠ none → first SFrame.id artistId fs ≠ none →
      (untitled fs ≠ [] ∧ EndsWithOne fs →
        readme_delete_frames (some (ofB contents)) = .exit ∧ readme_delete (some (ofB contents)) = .exit) ∧
      (¬ (untitled fs ≠ [] ∧ EndsWithOne fs) → ∃ minor flags, HeaderOf contents minor flags ∧
        readme_delete_frames (some (ofB contents)) =
          .ok (some (ofB (outBytes version minor flags (untitled fs) spare ++ after))) ∧
        readme_delete (some (ofB contents)) = .ok (some (ofB after)))) := by
  obtain ⟨tag, h1, h2, h3, h4, h5, h6, h7⟩ := read_or_new_tagged h
  obtain ⟨e1, e2⟩ := untitle_effect fs spare (fun f hf => (h5 f hf).1)
  have hops := readme_delete_ops _ tag h1
  constructor
  · intro hm
    have : readme_delete_frames (some (ofB contents)) = .ub .nullDeref := by
      rw [hops, (history_exact tag _ untitleOps (ofB [0]) [] h2 untitle_valid).1 (e1 hm)]
      rfl
    refine ⟨this, ?_⟩
    unfold readme_delete
    rw [this]
    rfl
  · intro ht ha
    obtain ⟨hidden, e3, e4⟩ := e2 ht ha
    have hle : framesSize (untitled fs) ≤ framesSize fs := by
      unfold untitled
      have hs : ∀ k (l : List SFrame), framesSize (eraseFirst SFrame.id k l) ≤ framesSize l := by
        intro k l
        induction l with
        | nil => exact Nat.le_refl _
        | cons x xs ih =>
          unfold eraseFirst
          split
          · simp [framesSize]
          · simp only [framesSize, List.map_cons, List.sum_cons] at ih ⊢; omega
      exact Nat.le_trans (hs _ _) (hs _ _)
    constructor
    · rintro ⟨g1, g2⟩
      obtain ⟨t1, r1, -, s1, -⟩ := session_fails_exact contents tag _ _ (ofB [0]) _ h2 untitle_valid e3
        (by dsimp only; omega) (by dsimp only; omega)
      have : readme_delete_frames (some (ofB contents)) = .exit := by
        rw [hops, r1]
        simp only [Res.bind_ok]
        rw [s1.mpr (by
          unfold Full.serialise
          dsimp only
          rw [if_neg (by omega), if_pos ⟨g1, e4.mpr g2⟩])]
        rfl
      refine ⟨this, ?_⟩
      unfold readme_delete
      rw [this]
      rfl
    · intro g
      obtain ⟨t2, t3, file, r2, w2, f2, -, hv, -, hsz⟩ := session_file contents tag _ _ (ofB [0]) _
        ((untitled fs).flatMap SFrame.bytes) h2 untitle_valid e3 (by
          unfold Full.serialise
          dsimp only
          rw [if_neg (by omega), if_neg (fun hh => g ⟨hh.1, e4.mp hh.2⟩)]) (by dsimp only; omega)
      dsimp only at f2 hsz
      have hsp : (framesSize (untitled fs) + (spare : Int) - framesSize (untitled fs)).toNat = spare := by omega
      rw [hsp, h3, h4] at f2
      rw [hsp] at hsz
      have : readme_delete_frames (some (ofB contents)) =
          .ok (some (ofB (outBytes version tag.header.minor_version tag.header.flags (untitled fs) spare ++ after))) := by
        rw [hops, r2]
        simp only [Res.bind_ok]
        rw [w2, f2]
        rfl
      refine ⟨_, _, h7, this, ?_⟩
      unfold readme_delete
      rw [this]
      simp only [Res.bind_ok]
      exact delete_out version _ _ (untitled fs) spare after (h3 ▸ hv) hsz

/-- **C93**: on a file without a tag it dereferences NULL. -/
theorem readme_delete_untagged [Platform] (contents : List UInt8) (h : tagLength contents = 0) :
    readme_delete (some (ofB contents)) = .ub .nullDeref := by
  have h1 := read_or_new_untagged contents h
  unfold readme_delete
  rw [readme_delete_ops _ _ h1, (history_exact _ ⟨[], 0⟩ untitleOps (ofB [0]) [] Start.new untitle_valid).1
    ((untitle_effect [] 0 (by simp)).1 (Or.inl rfl))]
  rfl

/-! ## Edit New Frames -/

theorem edit_new_run [Platform] (file : File) (tag : Tag) (fs : List SFrame) (spare : Nat) (s : Str) (rest r : Bytes)
    (hread : read_or_new file = .ok tag) (hstart : Start tag ⟨fs, spare⟩) (hu : ∀ f ∈ fs, f.Usable)
    (hm : (SFrame.text copyrightId [0, 0] s).Usable) :
    ∃ tag', readme_edit_new (s.inMemory rest) file = .ok tag' ∧ ∀ k, ValidId k → ID3v2_Tag_get_frame tag' (ofB k ++ r) =
      .ok ((first SFrame.id k (put SFrame.id copyrightId (.text copyrightId [0, 0] s) fs)).map SFrame.toFrame) := by
  have hvalid : ∀ op ∈ [Op.setText copyrightId [0, 0] s], op.Valid := by
    intro op hop
    simp only [List.mem_cons, List.not_mem_nil, or_false] at hop
    subst hop
    exact ⟨by decide, hm⟩
  obtain ⟨tag', h1, -, -, -, h2, -⟩ := (history_exact tag _ [Op.setText copyrightId [0, 0] s] (ofB [0]) r hstart hvalid).2 _
    (exact_agrees ⟨fs, spare⟩ _ hu (safe_stores _ _ hvalid (by
      intro op hop st
      simp only [List.mem_cons, List.not_mem_nil, or_false] at hop
      subst hop
      trivial)))
  refine ⟨tag', ?_, h2⟩
  unfold readme_edit_new
  rw [hread]
  have e := set_text_rest tag copyrightId s rest (ofB [0]) (ofB [0]) (ofB [0]) hm
  have e2 : runAll (ofB [0]) [Op.setText copyrightId [0, 0] s] tag =
      ID3v2_Tag_set_text_frame tag { id := ofB copyrightId ++ ofB [0], flags := ofB [0, 0] ++ ofB [0], text := s.inMemory (ofB [0]) } := by
    simp only [runAll, Op.run]
    cases ID3v2_Tag_set_text_frame tag { id := ofB copyrightId ++ ofB [0], flags := ofB [0, 0] ++ ofB [0], text := s.inMemory (ofB [0]) } <;> rfl
  rw [← h1, e2, ← e]
  rfl

/-- **C93**: "Edit New Frames" works for every message and every file with a tag: afterwards the getters find the message,
and all other frames as before. -/
theorem readme_edit_new_works [Platform] (contents : List UInt8) (version : UInt8) (fs : List SFrame) (spare : Nat)
    (after : List UInt8) (s : Str) (rest r : Bytes) (h : TaggedFile contents version fs spare after)
    (hm : (SFrame.text copyrightId [0, 0] s).Usable) :
    ∃ tag, readme_edit_new (s.inMemory rest) (some (ofB contents)) = .ok tag ∧
      ID3v2_Tag_get_frame tag (ofB copyrightId ++ r) = .ok (some (SFrame.text copyrightId [0, 0] s).toFrame) ∧
      ∀ k, ValidId k → k ≠ copyrightId →
        ID3v2_Tag_get_frame tag (ofB k ++ r) = .ok ((first SFrame.id k fs).map SFrame.toFrame) := by
  obtain ⟨tag, h1, h2, -, -, h5, -⟩ := read_or_new_tagged h
  obtain ⟨tag', g1, g2⟩ := edit_new_run _ tag fs spare s rest r h1 h2 (fun f hf => (h5 f hf).1) hm
  refine ⟨tag', g1, ?_, fun k hk hne => ?_⟩
  · rw [g2 copyrightId (by decide), first_put_same copyrightId _ _ rfl]
    rfl
  · rw [g2 k hk, first_put_other copyrightId k _ _ (Ne.symm hne) rfl]

/-- **C93**: and for every file without a tag: the message is then the only frame. -/
theorem readme_edit_new_untagged [Platform] (contents : List UInt8) (s : Str) (rest r : Bytes)
    (h : tagLength contents = 0) (hm : (SFrame.text copyrightId [0, 0] s).Usable) :
    ∃ tag, readme_edit_new (s.inMemory rest) (some (ofB contents)) = .ok tag ∧
      ID3v2_Tag_get_frame tag (ofB copyrightId ++ r) = .ok (some (SFrame.text copyrightId [0, 0] s).toFrame) ∧
      ∀ k, ValidId k → k ≠ copyrightId → ID3v2_Tag_get_frame tag (ofB k ++ r) = .ok none := by
  obtain ⟨tag', g1, g2⟩ := edit_new_run _ _ [] 0 s rest r (read_or_new_untagged contents h) Start.new (by simp) hm
  refine ⟨tag', g1, ?_, fun k hk hne => ?_⟩
  · rw [g2 copyrightId (by decide), first_put_same copyrightId _ _ rfl]
    rfl
  · rw [g2 k hk, first_put_other copyrightId k _ _ (Ne.symm hne) rfl]
    rfl

/-! ## The theorems apply -/

/-- The frames of the file used below have a title, an artist and an album, and end with a picture. -/
example : @readme_load lenient (some (ofB (elevenFile 5))) = .ok ([0x78], [0x78]) :=
  ((@readme_load_iff lenient _ 3 _ 5 _ (eleven_tagged 5 (by decide))).1 _ _).mpr
    ⟨[0, 0], .latin [0x78], [0, 0], .latin [0x78], by decide, by decide, by decide, by decide⟩

example : @readme_read_new lenient (some (ofB (elevenFile 5))) = .ub .nullDeref :=
  (@readme_read_new_iff lenient _ 3 _ 5 _ (eleven_tagged 5 (by decide))).2.mpr (by decide)

example : @readme_compat lenient (some (ofB (elevenFile 5))) = .ok [0x78] :=
  ((@readme_compat_iff lenient _ 3 _ 5 _ (eleven_tagged 5 (by decide))).1 _).mpr
    ⟨[0, 0], .latin [0x78], by decide, by decide⟩

/-- "Title" and "Artist", as in the README. -/
example : ∃ file, @readme_edit lenient (lit [0x54, 0x69, 0x74, 0x6C, 0x65]) (lit [0x41, 0x72, 0x74, 0x69, 0x73, 0x74])
    (some (ofB (elevenFile 0))) = .ok file := by
  obtain ⟨minor, flags, -, h⟩ := (@readme_edit_exact lenient _ 3 _ 0 _ [0x54, 0x69, 0x74, 0x6C, 0x65]
    [0x41, 0x72, 0x74, 0x69, 0x73, 0x74] [] [] (eleven_tagged 0 (by decide)) (by decide) (by decide) (by decide)).1 (by decide)
  exact ⟨_, h⟩

/-- On a file without a tag the program of the README overflows the heap. -/
example : @readme_edit lenient (lit [0x54, 0x69, 0x74, 0x6C, 0x65]) (lit [0x41, 0x72, 0x74, 0x69, 0x73, 0x74])
    (some (ofB [0xFF, 0xFB, 0x90])) = .ub .oobWrite :=
  @readme_edit_untagged lenient _ [0x54, 0x69, 0x74, 0x6C, 0x65] [0x41, 0x72, 0x74, 0x69, 0x73, 0x74] [] [] (by decide)
    (by decide) (by decide) (by decide)

/-- The picture is the last frame: the program works. -/
example : @readme_delete lenient (some (ofB (elevenFile 0))) = .ok (some (ofB [0xFF, 0xFB, 0x90])) := by
  obtain ⟨-, -, -, -, h⟩ := ((@readme_delete_exact lenient _ 3 _ 0 _ (eleven_tagged 0 (by decide))).2 (by decide)
    (by decide)).2 (by
      rintro ⟨-, front, last, e, hl, -⟩
      have e2 := congrArg List.getLast? e
      rw [List.getLast?_concat] at e2
      have e3 : elevenFrames.getLast? = some (.apic [0, 0] pngStr 3 (.latin []) [1, 2, 3]) := by decide
      rw [e3] at e2
      cases e2
      revert hl
      decide)
  exact h

/-- An album, a title and an artist. -/
def artistLast : List SFrame :=
  [.text albumId [0, 0] (.latin [0x78]), .text titleId [0, 0] (.latin [0x78]), .text artistId [0, 0] (.latin [0x78])]

/-- If the artist is the last frame, the program ends the process. -/
example : @readme_delete lenient (some (ofB (wireTagBytes 3 0 0 (artistLast.map Wire.ofSFrame) 0 ++ [0xFF]))) = .exit :=
  (((@readme_delete_exact lenient _ 3 artistLast 0 [0xFF] ⟨0, 0, artistLast.map Wire.ofSFrame, 0, rfl, Or.inl rfl, by decide,
    by decide, by decide, by unfold lastSeen; simp [artistLast, Wire.ofSFrame, Wire.body], by decide, by decide⟩).2
    (by decide) (by decide)).1 ⟨by decide, artistLast.take 2, .text artistId [0, 0] (.latin [0x78]), by decide, by decide,
      by decide⟩).2

example : (@SFrame.Usable strict (.text copyrightId [0, 0] (.latin [0x41, 0x20, 0x63]))) := by decide

end Id3.Props
