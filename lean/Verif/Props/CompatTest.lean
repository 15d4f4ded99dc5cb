import Verif.Props.Tests
import Verif.Props.CompatExact

/-!
# C92: the project's test of the compatibility API
-/

namespace Id3.Props

open Id3 Spec

/-- A list of entries that shows frames: the getters find the first frame of their id. -/
theorem shows_answers (l : CList) (fs : List SFrame) (k : List UInt8) (h : ShowsAll l fs) (hk : ValidId k)
    (hfs : ∀ g ∈ fs, g.id.length = 4) : Answers (get_from_list l (lit k)) (first SFrame.id k fs) := by
  induction fs generalizing l with
  | nil =>
    have : l = [] := List.length_eq_zero_iff.mp h.1
    subst this
    rfl
  | cons x xs ih =>
    cases l with
    | nil => exact absurd h.1 (by simp)
    | cons c l =>
      obtain ⟨c', hc, hs⟩ := h.2 0 x rfl
      obtain rfl : c = some c' := by simpa using hc
      have hrest : ShowsAll l xs := ⟨by simpa using h.1, fun i f hf => h.2 (i + 1) f (by simpa using hf)⟩
      have hi := ih l hrest (fun g hg => hfs g (by simp [hg]))
      simp only [get_from_list]
      rw [hs.id, lit_eq, strncmp_ofB 4 x.id k _ (hfs x (by simp)) hk.1 hk.2]
      simp only [Res.bind_ok]
      by_cases e : x.id = k
      · simp only [e, decide_true, if_true]
        rw [show first SFrame.id k (x :: xs) = some x from by simp [first, e]]
        exact ⟨c', rfl, hs⟩
      · rw [show first SFrame.id k (x :: xs) = first SFrame.id k xs from by simp [first, e]]
        simp only [e, decide_false, Bool.false_eq_true, if_false]
        rw [← lit_eq]
        exact hi

/-- A comparison of the first bytes succeeds exactly if there are so many and they are the same. -/
theorem memcmp_prefix (x y : List UInt8) (r : Bytes) :
    memcmpBufs (ofB x) (ofB y ++ r) y.length = .ok true ↔ y <+: x := by
  constructor
  · intro h
    obtain ⟨z, hz⟩ := memcmpBufs_ok x y r _ rfl h
    exact ⟨z, hz.symm⟩
  · rintro ⟨z, rfl⟩
    rw [ofB_append, memcmpBufs_eq y y (ofB z) r _ rfl rfl]
    simp

theorem assert_iff (x : Res Bool) : (x >>= fun b => c_assert b) = .ok () ↔ x = .ok true := by
  cases x with
  | ok b => cases b <;> simp [c_assert]
  | ub k => simp
  | exit => simp
  | diverge => simp

/-- The assertion on an entry that shows a frame. -/
theorem assert_content_iff (r : Res (Option CFrame)) (o : Option SFrame) (start : List UInt8) (rest : Bytes)
    (h : Answers r o) :
    (r >>= fun c => assert_content c (ofB start ++ rest) start.length) = .ok () ↔
      ∃ id flags s, o = some (.text id flags s) ∧ start <+: s.bytes := by
  cases o with
  | none =>
    have h : r = .ok none := h
    rw [h]
    simp [assert_content]
  | some f =>
    obtain ⟨c, rfl, hs⟩ := h
    simp only [Res.bind_ok, assert_content, parse_text_frame_content]
    rw [hs.frame]
    cases f with
    | text id flags s =>
      simp only [SFrame.toFrame]
      rw [memcpySrc_self _ _ (by simp)]
      simp only [Res.bind_ok]
      refine (assert_iff _).trans ((memcmp_prefix s.bytes start rest).trans ⟨fun h => ⟨id, flags, s, rfl, h⟩, ?_⟩)
      rintro ⟨id', flags', s', h1, h2⟩
      obtain ⟨-, -, rfl⟩ := SFrame.text.inj (Option.some.inj h1)
      exact h2
    | comment => simp [SFrame.toFrame]
    | apic => simp [SFrame.toFrame]
    | other => simp [SFrame.toFrame]

/-- The id of the first frame of an id. -/
theorem begins_iff (fs : List SFrame) (k start : List UInt8) :
    (∃ id flags s, first SFrame.id k fs = some (.text id flags s) ∧ start <+: s.bytes) ↔ BeginsWith fs k start := by
  constructor
  · rintro ⟨id, flags, s, h1, h2⟩
    have : (SFrame.text id flags s).id = k := by
      have := List.find?_some h1
      simpa using this
    obtain rfl : id = k := this
    exact ⟨flags, s, h1, h2⟩
  · rintro ⟨flags, s, h1, h2⟩
    exact ⟨k, flags, s, h1, h2⟩

theorem field_answers [Platform] (ct : CTag) (fs : List SFrame) (field : Field) (h : ShowsAll ct.frames fs)
    (hu : ∀ f ∈ fs, f.Usable) : Answers (field.get ct) (first SFrame.id field.id fs) := by
  have := shows_answers ct.frames fs field.id h (field_valid field) (fun g hg => (SFrame.wf_lengths g (hu g hg).1).1)
  cases field <;> exact this

/-- The assertions on a tag that shows frames. -/
theorem check_loaded_iff [Platform] (ct : CTag) (fs : List SFrame) (v : CompatValues) (rest : Nat → Bytes)
    (h : ShowsAll ct.frames fs) (hu : ∀ f ∈ fs, f.Usable) :
    check_loaded (v.input rest) ct = .ok () ↔ ∀ e ∈ v.expected, BeginsWith fs e.1.id e.2 := by
  have one (field : Field) (start : List UInt8) (r : Bytes) :=
    (assert_content_iff _ _ start r (field_answers ct fs field h hu)).trans (begins_iff fs field.id start)
  unfold check_loaded
  simp only [CompatValues.expected, List.mem_cons, List.not_mem_nil, or_false, forall_eq_or_imp, forall_eq]
  refine bind_unit_iff.trans (and_congr (one .album v.album _) ?_)
  refine bind_unit_iff.trans (and_congr (one .artist v.artist _) ?_)
  exact bind_unit_iff.trans (and_congr (one .title v.title _) (one .year v.year _))

/-- The setters of the test. -/
theorem compat_set_eq [Platform] (v : CompatValues) (rest : Nat → Bytes) (ct : CTag) :
    compat_set (v.input rest) ct = crunAll (rest 4) v.ops ct := by
  have last (x : Res CTag) : (x >>= fun t => crunAll (rest 4) [] t) = x := by cases x <;> rfl
  unfold compat_set
  simp only [CompatValues.ops, crunAll]
  congr 1; funext a
  congr 1; funext b
  congr 1; funext c
  exact (last _).symm

theorem capply_frames (ops : List COp) (st : State) :
    (capplyAll ops st).frames = putAll (ops.map COp.frame) st.frames := by
  unfold capplyAll putAll
  induction ops generalizing st with
  | nil => rfl
  | cons op ops ih => exact ih _

/-- Writing a compat tag keeps its frames and entries. -/
theorem set_tag_keeps [Platform] (file file' : File) (ct ct' : CTag) (h : set_tag file ct = .ok (file', ct')) :
    ct'.raw = ct.raw ∧ ct'.frames = ct.frames ∧ ct'.tag.frames = ct.tag.frames := by
  unfold set_tag ID3v2_write_tag at h
  obtain ⟨⟨f, t⟩, h1, h2⟩ := Res.bind_eq_ok.mp h
  simp only [Res.pure_eq, Res.ok.injEq, Prod.mk.injEq] at h2
  obtain ⟨-, rfl⟩ := h2
  refine ⟨rfl, rfl, ?_⟩
  obtain ⟨_, -, h1⟩ := Res.bind_eq_ok.mp h1
  obtain ⟨_, -, h1⟩ := Res.bind_eq_ok.mp h1
  obtain ⟨_, -, h1⟩ := Res.bind_eq_ok.mp h1
  obtain ⟨_, -, h1⟩ := Res.bind_eq_ok.mp h1
  obtain ⟨_, -, h1⟩ := Res.bind_eq_ok.mp h1
  cases file with
  | none => simp at h1
  | some c =>
    simp only [Res.pure_eq, Res.ok.injEq, Prod.mk.injEq] at h1
    rw [← h1.2]

theorem free_entries (l : CList) (fs : List SFrame) (h : ShowsAll l fs) : free_compat_frames l = .ok () := by
  induction fs generalizing l with
  | nil =>
    have : l = [] := List.length_eq_zero_iff.mp h.1
    subst this
    rfl
  | cons x xs ih =>
    cases l with
    | nil => exact absurd h.1 (by simp)
    | cons c l =>
      obtain ⟨c', hc, hs⟩ := h.2 0 x rfl
      obtain rfl : c = some c' := by simpa using hc
      exact ih l ⟨by simpa using h.1, fun i f hf => h.2 (i + 1) f (by simpa using hf)⟩

/-- A tag whose entries show its frames can be freed. -/
theorem free_shown [Platform] (ct : CTag) (fs : List SFrame) (hr : ct.raw ≠ none) (h : ShowsAll ct.frames fs)
    (ht : ct.tag.frames = toFrameList fs) (hne : fs ≠ []) (hu : ∀ f ∈ fs, f.Usable) : free_tag ct = .ok () := by
  unfold free_tag
  cases hr' : ct.raw with
  | none => exact absurd hr' hr
  | some r =>
    dsimp only
    have e : ct.tag.frames = (fs.map SFrame.toFrame).map some := by
      rw [ht]
      cases fs with
      | nil => exact absurd rfl hne
      | cons f fs => simp [toFrameList]
    rw [e, FrameList_free_nodes _ (by
      intro f hf
      obtain ⟨g, hg, rfl⟩ := List.mem_map.mp hf
      exact SFrame.sound g (hu g hg))]
    exact free_entries _ _ h

theorem load_raw [Platform] (file : File) (ct : CTag) (h : load_tag file = .ok ct) : ct.raw ≠ none := by
  unfold load_tag at h
  obtain ⟨r, -, h⟩ := Res.bind_eq_ok.mp h
  cases r with
  | none => simp at h
  | some hd =>
    cases file with
    | none => simp at h
    | some c =>
      dsimp only at h
      unfold load_tag_with_buffer at h
      obtain ⟨_, -, h⟩ := Res.bind_eq_ok.mp h
      obtain ⟨_, -, h⟩ := Res.bind_eq_ok.mp h
      split at h
      · simp at h
      · obtain ⟨_, -, h⟩ := Res.bind_eq_ok.mp h
        simp only [Res.pure_eq, Res.ok.injEq] at h
        rw [← h]
        simp

/-- A frame with a body that is found is found in what is read back. -/
theorem first_seenBack (fs : List SFrame) (n : Nat) (k : List UInt8) (f : SFrame)
    (h : first SFrame.id k fs = some f) (hb : f.body ≠ []) : first SFrame.id k (seenBack fs n) = some f := by
  unfold seenBack
  split
  · next hl =>
    obtain ⟨-, g, hg, hg2⟩ := hl
    obtain ⟨ys, rfl⟩ := List.getLast?_eq_some_iff.mp hg
    rw [List.dropLast_concat]
    unfold first at h ⊢
    rw [List.find?_append] at h
    cases hy : ys.find? (fun x => decide (x.id = k)) with
    | some y => rw [hy] at h; exact h
    | none =>
      rw [hy] at h
      simp only [Option.none_or, List.find?_cons, List.find?_nil] at h
      split at h
      · obtain rfl := Option.some.inj h
        exact absurd hg2 hb
      · simp at h
  · exact h

theorem seenBack_subset (fs : List SFrame) (n : Nat) : ∀ f ∈ seenBack fs n, f ∈ fs := by
  intro f hf
  unfold seenBack at hf
  split at hf
  · exact List.dropLast_subset _ hf
  · exact hf

/-- **C92**: exactly when the test of the compatibility API passes, for all values: the texts of the album, artist, title
and year begin with the expected bytes. Whatever is set, it is read again. -/
theorem compat_test_iff [Platform] (contents : List UInt8) (version : UInt8) (fs : List SFrame) (spare : Nat)
    (after : List UInt8) (v : CompatValues) (rest : Nat → Bytes) (h : TaggedFile contents version fs spare after)
    (hv : ∀ f ∈ v.frames, f.Readable) (hsm : ∀ f ∈ v.frames ++ fs, SmallIn version f)
    (hs : framesSize (v.after fs) + spare < 2 ^ 28) (hy : v.yearBytes ≤ v.newYear.bytes.length) :
    compat_test (v.input rest) (some (ofB contents)) = .ok () ↔ ∀ e ∈ v.expected, BeginsWith fs e.1.id e.2 := by
  obtain ⟨-, -, -, -, -, hok, -⟩ := tagged_read h
  obtain ⟨minor, flags, ws, padding, rfl, hver, hflag, hR, hsz, hlast, hfs, hsp⟩ := h
  unfold compat_test clone_file
  simp only [Res.bind_ok]
  by_cases hne : ws = []
  · subst hne
    have hl : load_tag (some (ofB (wireTagBytes version minor flags [] padding ++ after))) = .ub .nullDeref := by
      rw [ofB_append, load_file version minor flags [] padding (ofB after) hver hsz]
      exact load_empty_crashes version minor flags padding hver hflag (by simpa using hsz)
    rw [hl]
    constructor
    · intro e
      exact absurd e (by simp)
    · intro e
      obtain ⟨_, _, h1, -⟩ := e (.album, v.album) (by simp [CompatValues.expected])
      rw [hfs] at h1
      simp [first] at h1
  obtain ⟨ct, l1, l2, l3⟩ := load_succeeds_partial version minor flags ws padding (ofB after) hver hflag hne hR hsz hlast
  rw [← ofB_append] at l1
  rw [l1]
  simp only [Res.bind_ok]
  have hroom : ((ws.flatMap (Wire.bytes version)).length + padding : Nat) - (framesSize (ws.map Wire.kept) : Int) = spare := by
    rw [← hfs]; omega
  rw [hroom, ← hfs] at l3
  have hshow : ShowsAll ct.frames fs := by
    obtain ⟨_, _, _, hi, -⟩ := cstart_inStep ct _ l3
    rw [hi.frames]
    exact compatList_shows _ (fun f hf => (hi.usable f hf).1)
  have hc := check_loaded_iff ct fs v rest hshow (fun f hf => (hok f hf).1)
  rw [← hc]
  constructor
  · intro e
    obtain ⟨u, e, -⟩ := Res.bind_eq_ok.mp e
    exact e
  · intro e
    rw [e]
    simp only [Res.bind_ok]
    have hb := hc.mp e
    rw [compat_set_eq]
    have hids : v.ops.map COp.frame = v.frames := rfl
    have hafter : (capplyAll v.ops ⟨fs, spare⟩).frames = v.after fs := by rw [capply_frames, hids]; rfl
    have hhas : ∀ e ∈ v.expected, (⟨fs, spare⟩ : State).has e.1.id = true := by
      intro e he
      obtain ⟨fl, s, h1, -⟩ := hb e he
      exact (has_iff _ _).mpr ⟨_, List.mem_of_find?_eq_some h1, rfl⟩
    have hops : ∀ o ∈ v.ops, o.Valid ∧ (⟨fs, spare⟩ : State).has o.frame.id = true := by
      intro o ho
      have hu := (hv o.frame (by rw [← hids]; exact List.mem_map_of_mem ho)).1
      simp only [CompatValues.ops, List.mem_cons, List.not_mem_nil, or_false] at ho
      rcases ho with rfl | rfl | rfl | rfl
      · exact ⟨⟨hu, trivial⟩, hhas (.album, v.album) (by simp [CompatValues.expected])⟩
      · exact ⟨⟨hu, trivial⟩, hhas (.artist, v.artist) (by simp [CompatValues.expected])⟩
      · exact ⟨⟨hu, trivial⟩, hhas (.title, v.title) (by simp [CompatValues.expected])⟩
      · exact ⟨⟨hu, trivial⟩, hhas (.year, v.year) (by simp [CompatValues.expected])⟩
    have hsub : ∀ f ∈ v.after fs, f ∈ v.frames ∨ f ∈ fs := putAll_subset v.frames fs
    have hroom2 : (capplyAll v.ops ⟨fs, spare⟩).room = spare := by
      obtain ⟨_, _, _, hi, -⟩ := cstart_inStep ct _ l3
      obtain ⟨_, -, -, e2, -⟩ := history_present (rest 4) v.ops ct _ _ _ _ _ hi hops
      exact e2
    have hver' : ct.tag.header.major_version = version := by rw [l2]; rfl
    have husable : ∀ f ∈ v.after fs, f.Usable := by
      intro f hf
      rcases hsub f hf with hf | hf
      · exact (hv f hf).1
      · exact (hok f hf).1
    obtain ⟨ct', ct'', file, r1, r2, r3, -⟩ := compat_session_exact_partial ct ⟨fs, spare⟩ v.ops (rest 4)
      (wireTagBytes version minor flags ws padding ++ after) l3 hops
      (by unfold State.size; rw [hafter, hroom2]; omega)
      (by rw [hafter, hver']; exact fun f hf => hsm f (List.mem_append.mpr (hsub f hf)))
    obtain ⟨hcalls, -⟩ := compat_calls_exact ct ⟨fs, spare⟩ v.ops (rest 4) l3 (fun o ho => (hops o ho).1)
    obtain ⟨ct1, q1, q2, q3⟩ := hcalls (fun o ho => (hops o ho).2)
    obtain rfl : ct1 = ct' := Res.ok.inj (q1.symm.trans r1)
    rw [hafter] at q2 q3 r3
    obtain ⟨k1, k2, k3⟩ := set_tag_keeps _ _ _ _ r2
    have hraw : ct1.raw ≠ none := by
      obtain ⟨_, _, _, hi, -⟩ := cstart_inStep ct _ l3
      obtain ⟨_, p1, p2, -⟩ := history_present (rest 4) v.ops ct _ _ _ _ _ hi hops
      obtain rfl := Res.ok.inj (p1.symm.trans r1)
      exact p2.raw
    have hmem : ∀ f ∈ v.frames, first SFrame.id f.id (v.after fs) = some f := fun f hf =>
      (putAll_mem v.frames fs f hf (by
        simp only [CompatValues.frames, List.map_cons, List.map_nil, SFrame.id]
        decide)).1
    have hane : v.after fs ≠ [] := by
      intro e
      have := hmem (.text Field.album.id [0, 0] v.newAlbum) (by simp [CompatValues.frames])
      rw [e] at this
      simp [first] at this
    rw [r1]
    simp only [Res.bind_ok]
    rw [r2]
    simp only [Res.bind_ok]
    rw [free_shown ct'' (v.after fs) (by rw [k1]; exact hraw) (by rw [k2]; exact q2) (by rw [k3]; exact q3) hane husable]
    simp only [Res.bind_ok]
    have hback := load_back_exact version ct.tag.header.minor_version ct.tag.header.flags (v.after fs) spare
      (audio (wireTagBytes version minor flags ws padding ++ after)) hver (by rw [l2]; exact hflag) husable
      (fun f hf => hsm f (List.mem_append.mpr (hsub f hf))) hs
    have hd : (seenBack (v.after fs) spare).findSome? SFrame.defect = none := by
      rw [List.findSome?_eq_none_iff]
      intro f hf
      rcases hsub f (seenBack_subset _ _ f hf) with hf | hf
      · exact readable_defect f (hv f hf)
      · exact (hok f hf).2
    have hseen : ∀ f ∈ v.frames, first SFrame.id f.id (seenBack (v.after fs) spare) = some f := by
      intro f hf
      refine first_seenBack _ _ _ _ (hmem f hf) ?_
      simp only [CompatValues.frames, List.mem_cons, List.not_mem_nil, or_false] at hf
      rcases hf with rfl | rfl | rfl | rfl <;> simp [SFrame.body]
    have hsne : seenBack (v.after fs) spare ≠ [] := by
      intro e
      have := hseen (.text Field.album.id [0, 0] v.newAlbum) (by simp [CompatValues.frames])
      rw [e] at this
      simp [first] at this
    rw [hd] at hback
    simp only at hback
    rw [if_neg hsne] at hback
    obtain ⟨final, f1, f2, f3, -⟩ := hback
    have e4 : file = some (ofB (outBytes version ct.tag.header.minor_version ct.tag.header.flags (v.after fs) spare ++
        audio (wireTagBytes version minor flags ws padding ++ after))) := by
      rw [r3, hver']; rfl
    rw [e4, f1]
    simp only [Res.bind_ok]
    have hsu : ∀ f ∈ seenBack (v.after fs) spare, f.Usable := fun f hf => husable f (seenBack_subset _ _ f hf)
    rw [show check_rewritten (v.input rest) final = .ok () from ?_]
    · simp only [Res.bind_ok]
      exact free_shown final _ (load_raw _ _ f1) f2 (by rw [f3]; rfl) hsne hsu
    have hlen : ∀ (id : List UInt8) (s : Str), SFrame.text id [0, 0] s ∈ v.frames →
        ID3v2_strlent (s.inMemory (rest 4)) = .ok (s.bytes.length : Int) := by
      intro id s hm
      exact strlent_usable (hv _ hm).1.2.2 (rest 4)
    have one : ∀ (field : Field) (s : Str) (start : List UInt8), SFrame.text field.id [0, 0] s ∈ v.frames →
        start <+: s.bytes → ∀ r,
        (field.get final >>= fun c => assert_content c (ofB start ++ r) start.length) = .ok () := by
      intro field s start hm hp r
      refine (assert_content_iff _ _ start r (field_answers final _ field f2 hsu)).mpr ⟨_, _, s, hseen _ hm, hp⟩
    have m1 : SFrame.text Field.album.id [0, 0] v.newAlbum ∈ v.frames := by simp [CompatValues.frames]
    have m2 : SFrame.text Field.artist.id [0, 0] v.newArtist ∈ v.frames := by simp [CompatValues.frames]
    have m3 : SFrame.text Field.title.id [0, 0] v.newTitle ∈ v.frames := by simp [CompatValues.frames]
    have m4 : SFrame.text Field.year.id [0, 0] v.newYear ∈ v.frames := by simp [CompatValues.frames]
    unfold check_rewritten
    simp only [CompatValues.input, hlen _ _ m1, hlen _ _ m2, hlen _ _ m3, Res.bind_ok]
    refine bind_unit_iff.mpr ⟨one .album _ _ m1 List.prefix_rfl (rest 4), ?_⟩
    refine bind_unit_iff.mpr ⟨one .artist _ _ m2 List.prefix_rfl (rest 4), ?_⟩
    refine bind_unit_iff.mpr ⟨one .title _ _ m3 List.prefix_rfl (rest 4), ?_⟩
    have h4 := one .year _ (v.newYear.bytes.take v.yearBytes) m4 (List.take_prefix _ _)
      (ofB (v.newYear.bytes.drop v.yearBytes) ++ (rest 4))
    rw [← List.append_assoc, ← ofB_append, List.take_append_drop, List.length_take, Nat.min_eq_left hy] at h4
    exact h4

/-- **C92**: without a tag the test follows NULL. -/
theorem compat_test_untagged [Platform] (contents : List UInt8) (v : CompatInput) (h : tagLength contents = 0) :
    compat_test v (some (ofB contents)) = .ub .nullDeref := by
  unfold compat_test clone_file
  simp only [Res.bind_ok]
  rw [(load_without_tag_crashes contents h).1]
  rfl

/-- What follows the parts of the strings that are compared in memory. -/
def mainRest : Nat → Bytes
  | 0 => restOf [0x53, 0x6D, 0x6F, 0x6B, 0x65, 0x20, 0x41, 0x6E, 0x64, 0x20, 0x53, 0x68, 0x61, 0x64, 0x6F, 0x77, 0x73]
  | 1 => restOf [0x45, 0x74, 0x68, 0x65, 0x72, 0x65, 0x61, 0x6C, 0x20, 0x44, 0x61, 0x72, 0x6B, 0x6E, 0x65, 0x73, 0x73]
  | 2 => restOf [0x52, 0x69, 0x76, 0x65, 0x72, 0x73]
  | 3 => ofB [0]
  | _ => []
where
  /-- the part that is not compared -/
  restOf (chars : List UInt8) : Bytes := ofB ((EditValues.main.wide chars).bytes.drop (chars.length + 1))

theorem strlent_lit [Platform] (chars : List UInt8) (h : (Str.latin chars).WF) (hne : chars ≠ [])
    (hl : chars.length ≤ 1000) : ID3v2_strlent (lit chars) = .ok (chars.length + 1 : Int) := by
  have := strlent_exact (.latin chars) [] ⟨h, by simp [Str.bytes, Str.content, Str.terminator]; omega, Or.inr (by simpa using hne)⟩
  unfold Str.inMemory at this
  rw [List.append_nil] at this
  exact this

/-- **C92**: the test with its values. -/
theorem compat_main_eq [Platform] (file : File) :
    compat_test_main file = compat_test (CompatValues.main.input mainRest) file := by
  unfold compat_test_main
  dsimp only
  iterate 3
    rw [to_unicode_lit _ (by decide) (by decide) (by decide)]
    simp only [Res.bind_ok]
  iterate 3
    rw [strlent_lit _ (by decide) (by decide) (by decide)]
    simp only [Res.bind_ok]
  rfl

/-- **C92**, for the values that are written in the test: it passes exactly if the album begins with "Smoke An", the
artist with "Ethereal", the title with "Riv" in little-endian UTF-16 with a byte order mark, and the year with "2019". -/
theorem compat_test_main_iff [Platform] (contents : List UInt8) (fs : List SFrame) (spare : Nat)
    (after : List UInt8) (h : TaggedFile contents 3 fs spare after) (hst : 7 ≤ Platform.stack)
    (hs : framesSize (CompatValues.main.after fs) + spare < 2 ^ 28) :
    compat_test_main (some (ofB contents)) = .ok () ↔
      BeginsWith fs Field.album.id
        ([0xFF, 0xFE] ++ [0x53, 0, 0x6D, 0, 0x6F, 0, 0x6B, 0, 0x65, 0, 0x20, 0, 0x41, 0, 0x6E, 0]) ∧
      BeginsWith fs Field.artist.id
        ([0xFF, 0xFE] ++ [0x45, 0, 0x74, 0, 0x68, 0, 0x65, 0, 0x72, 0, 0x65, 0, 0x61, 0, 0x6C, 0]) ∧
      BeginsWith fs Field.title.id ([0xFF, 0xFE] ++ [0x52, 0, 0x69, 0, 0x76]) ∧
      BeginsWith fs Field.year.id [0x32, 0x30, 0x31, 0x39] := by
  have hr : ∀ f ∈ CompatValues.main.frames, f.Readable := by
    have ht : ∀ (k : List UInt8) (s : Str), (SFrame.text k [0, 0] s).WF → s.bytes.length ≤ 7 → s ≠ .latin [] →
        (SFrame.text k [0, 0] s).Readable := by
      intro k s hwf hb h0
      refine ⟨⟨hwf, ?_, hwf.2.2.2, by omega, Or.inr h0⟩, ?_⟩
      · rw [SFrame.bytes_length _ hwf]; simp [SFrame.body]; omega
      · simp only [Wire.ofSFrame, Wire.FitsStack, List.length_nil]; omega
    simp only [CompatValues.frames, CompatValues.main, List.forall_mem_cons]
    exact ⟨ht _ _ (by decide) (by decide) (by decide), ht _ _ (by decide) (by decide) (by decide),
      ht _ _ (by decide) (by decide) (by decide), ht _ _ (by decide) (by decide) (by decide), by simp⟩
  rw [compat_main_eq, compat_test_iff contents 3 fs spare after _ _ h hr (fun f _ h => absurd h (by decide)) hs (by decide)]
  simp only [CompatValues.expected, List.mem_cons, List.not_mem_nil, or_false, forall_eq_or_imp, forall_eq]
  exact Iff.rfl

/-! ## The hypotheses can be met -/

/-- The four texts that the test expects; the first ones only begin like them. -/
def fourFrames : List SFrame :=
  [.text Field.title.id [0, 0] (EditValues.main.wide [0x52, 0x69, 0x76, 0x61, 0x6C]),
   .text Field.artist.id [0, 0] (EditValues.main.wide [0x45, 0x74, 0x68, 0x65, 0x72, 0x65, 0x61, 0x6C]),
   .text Field.album.id [0, 0] (EditValues.main.wide [0x53, 0x6D, 0x6F, 0x6B, 0x65, 0x20, 0x41, 0x6E, 0x78]),
   .text Field.year.id [0, 0] (.latin [0x32, 0x30, 0x31, 0x39])]

/-- A file with those frames and no padding, and audio. -/
def fourFile : List UInt8 := wireTagBytes 3 0 0 (fourFrames.map Wire.ofSFrame) 0 ++ [0xFF, 0xFB, 0x90]

theorem four_tagged : @TaggedFile lenient fourFile 3 fourFrames 0 [0xFF, 0xFB, 0x90] :=
  ⟨0, 0, fourFrames.map Wire.ofSFrame, 0, rfl, Or.inl rfl, by decide, by decide, by decide,
    by decide, by decide, by decide +kernel⟩

/-- The test passes for an album "Smoke Anx", the artist "Ethereal", the title "Rival" and the year 2019. -/
example : @compat_test_main lenient (some (ofB fourFile)) = .ok () :=
  (@compat_test_main_iff lenient _ _ 0 _ four_tagged (by decide) (by decide)).mpr
    ⟨⟨_, _, rfl, by decide⟩, ⟨_, _, rfl, by decide⟩, ⟨_, _, rfl, by decide⟩, ⟨_, _, rfl, by decide⟩⟩

/-- It does not pass for the file of the other tests. -/
example : @compat_test_main lenient (some (ofB (elevenFile 5))) ≠ .ok () := by
  intro h
  obtain ⟨⟨flags, s, h1, h2⟩, -⟩ := (@compat_test_main_iff lenient _ _ 5 _ (eleven_tagged 5 (by decide)) (by decide)
    (by decide)).mp h
  have : s = .latin [0x78] := (SFrame.text.inj (Option.some.inj (h1.symm.trans (show _ = some (SFrame.text Field.album.id [0, 0] (.latin [0x78])) from rfl)))).2.2
  rw [this] at h2
  exact absurd h2 (by decide)

end Id3.Props
