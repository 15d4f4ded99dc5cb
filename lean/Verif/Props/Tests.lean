import Verif.Spec.Tests
import Verif.Proof.Tests
import Verif.Props.ReadExact
import Verif.Props.Stable
import Verif.Props.Any
import Verif.Props.Algebra
import Verif.Props.Strings

/-!
# C92: for which files and values the project's own tests pass

The tests (test/*.c) store values in one file, read it again and compare. Here they are considered for every file and all
values. The theorems say exactly when they pass.
-/

namespace Id3.Props

open Id3 Spec

/-! ## The file -/

theorem wireTag_split (version minor flags : UInt8) (ws : List Wire) (padding : Nat) :
    wireTagBytes version minor flags ws padding =
      tagHeaderBytes version minor flags ((ws.flatMap (Wire.bytes version)).length + padding) ++
        (ws.flatMap (Wire.bytes version) ++ List.replicate padding 0) := by
  simp [wireTagBytes]

/-- Reading such a file. -/
theorem tagged_read [Platform] {contents : List UInt8} {version : UInt8} {fs : List SFrame} {spare : Nat}
    {rest : List UInt8} (h : TaggedFile contents version fs spare rest) :
    ∃ tag, ID3v2_read_tag (some (ofB contents)) = .ok (some tag) ∧ Start tag ⟨fs, spare⟩ ∧
      tag.header.major_version = version ∧ audio contents = rest ∧ (∀ f ∈ fs, f.Usable ∧ f.defect = none) ∧
      framesSize fs + spare < 2 ^ 28 := by
  obtain ⟨minor, flags, ws, padding, rfl, hv, hflag, hR, hs, hlast, rfl, hsp⟩ := h
  have hst := start_read version minor flags ws padding hv hflag hR hs hlast
  have h1 := beyond_length_ignored version minor flags ws padding [] hv hflag hR hs hlast
  have hx := existing_size_header version minor flags ((ws.flatMap (Wire.bytes version)).length + padding)
    (ofB (ws.flatMap (Wire.bytes version) ++ List.replicate padding 0 ++ rest)) hv hs
  have e : ofB (wireTagBytes version minor flags ws padding ++ rest) =
      ofB (tagHeaderBytes version minor flags ((ws.flatMap (Wire.bytes version)).length + padding)) ++
        ofB (ws.flatMap (Wire.bytes version) ++ List.replicate padding 0) ++ ofB rest := by
    rw [wireTag_split]; simp
  have e2 : ofB (wireTagBytes version minor flags ws padding) =
      ofB (tagHeaderBytes version minor flags ((ws.flatMap (Wire.bytes version)).length + padding)) ++
        ofB (ws.flatMap (Wire.bytes version) ++ List.replicate padding 0) := by
    rw [wireTag_split]; simp
  refine ⟨toTag version minor flags ((ws.flatMap (Wire.bytes version)).length + padding) (ws.map Wire.kept) padding,
    ?_, ?_, rfl, ?_, ?_, by omega⟩
  · rw [e, read_tag_prefix version minor flags _ _ _ hv hs (by simp), ← e2]
    rw [List.append_nil, Nat.add_assoc] at h1
    exact h1
  · have : (spare : Int) = ((ws.flatMap (Wire.bytes version)).length + padding : Nat) - framesSize (ws.map Wire.kept) := by
      omega
    rw [this]
    exact hst
  · have h2 := existing_size (wireTagBytes version minor flags ws padding ++ rest)
    rw [e, List.append_assoc, ← ofB_append, hx] at h2
    have h3 : tagLength (wireTagBytes version minor flags ws padding ++ rest) =
        (wireTagBytes version minor flags ws padding).length := by
      have h4 := Res.ok.inj h2
      have h5 : (wireTagBytes version minor flags ws padding).length =
          10 + ((ws.flatMap (Wire.bytes version)).length + padding) := by
        rw [wireTag_split]; simp [tagHeaderBytes, synchsafe]; omega
      omega
    unfold audio
    rw [h3, List.drop_left]
  · intro f hf
    obtain ⟨w, hw, rfl⟩ := List.mem_map.mp hf
    have := (hR w hw).1
    exact ⟨this.2.1, kept_defect w ((defect_none w).mpr this.2.2)⟩

theorem toTag_first [Platform] (major minor flags : UInt8) (n : Nat) (fs : List SFrame) (p : Int) (k : List UInt8)
    (r : Bytes) (h : ∀ f ∈ fs, f.Usable) (hk : ValidId k) :
    ID3v2_Tag_get_frame (toTag major minor flags n fs p) (ofB k ++ r) = .ok ((first SFrame.id k fs).map SFrame.toFrame) := by
  rw [get_first _ _ k r (toTag_holds major minor flags n fs p h) hk, first_map SFrame.toFrame (k1 := SFrame.id) toFrame_key]

theorem toTag_all [Platform] (major minor flags : UInt8) (n : Nat) (fs : List SFrame) (p : Int) (k : List UInt8)
    (r : Bytes) (h : ∀ f ∈ fs, f.Usable) (hk : ValidId k) :
    ID3v2_Tag_get_frames (toTag major minor flags n fs p) (ofB k ++ r) = .ok (toFrameList (all SFrame.id k fs)) := by
  rw [get_all _ _ k r (toTag_holds major minor flags n fs p h) hk, all_map SFrame.toFrame (k1 := SFrame.id) toFrame_key,
    toFrameList_nodes]

/-! ## delete_test -/

/-- The calls of the test, by id. -/
def deleteBefore : List (List UInt8) :=
  [[0x54, 0x41, 0x4C, 0x42], [0x54, 0x50, 0x45, 0x31], [0x54, 0x50, 0x45, 0x32]]
@[inherit_doc deleteBefore]
def deleteBehind : List (List UInt8) :=
  [[0x54, 0x43, 0x4F, 0x4D], [0x54, 0x50, 0x4F, 0x53], [0x54, 0x43, 0x4F, 0x4E], [0x54, 0x49, 0x54, 0x32],
   [0x54, 0x52, 0x43, 0x4B], [0x54, 0x59, 0x45, 0x52], apicId]
@[inherit_doc deleteBefore]
def deleteOps : List Op := deleteBefore.map Op.delete ++ (.deleteComment 0 :: deleteBehind.map Op.delete)

theorem bind_last {α : Type} (x : Res α) : (x >>= fun a => Res.ok a) = x := by cases x <;> rfl

theorem delete_frames_ops [Platform] (tag : Tag) : delete_frames tag = runAll (ofB [0]) deleteOps tag := by
  show _ = (_ : Res Tag)
  unfold delete_frames deleteOps deleteBefore deleteBehind
  simp only [List.map_cons, List.map_nil, List.cons_append, List.nil_append, runAll, Op.run]
  simp only [bind_last]
  rfl

/-- The empty node, if any, is the last one. -/
def NoneBehind (st : Full) : Prop := st.hidden = none ∨ st.hidden = some []

theorem erase_none (st : Full) (id : List UInt8) (n : Nat) (size : Int) (h : NoneBehind st) :
    NoneBehind (st.erase id n size) := by
  unfold NoneBehind Full.erase
  dsimp only
  split
  · exact Or.inr rfl
  · exact h

theorem erase_perm (l : List SFrame) (id : List UInt8) (h : id ∈ l.map SFrame.id) :
    (l.map SFrame.id).Perm (id :: (eraseNth SFrame.id id 0 l).map SFrame.id) := by
  induction l with
  | nil => simp at h
  | cons x xs ih =>
    by_cases hx : x.id = id
    · simp [eraseNth, hx]
    · have : id ∈ xs.map SFrame.id := by
        simp only [List.map_cons, List.mem_cons] at h
        rcases h with h | h
        · exact absurd h.symm hx
        · exact h
      simp only [eraseNth, hx, if_false, List.map_cons]
      exact ((ih this).cons x.id).trans (List.Perm.swap _ _ _)

theorem first_mem (l : List SFrame) (id : List UInt8) : (first SFrame.id id l).isSome ↔ id ∈ l.map SFrame.id := by
  unfold first
  rw [List.find?_isSome]
  simp

/-- Deleting one frame by id. -/
theorem delete_step (st : Full) (id : List UInt8) (h : NoneBehind st) :
    (id ∉ st.seen.map SFrame.id → st.delete id = none) ∧
    (id ∈ st.seen.map SFrame.id → ∃ st', st.delete id = some st' ∧ NoneBehind st' ∧
      (st.seen.map SFrame.id).Perm (id :: st'.seen.map SFrame.id) ∧ st'.size ≤ st.size ∧ ∀ f ∈ st'.seen, f ∈ st.seen) := by
  rw [← first_mem]
  unfold Full.delete
  cases hf : first SFrame.id id st.seen with
  | none => simp
  | some old =>
    refine ⟨by simp, fun _ => ⟨_, rfl, erase_none _ _ _ _ h, ?_, ?_, ?_⟩⟩
    · exact erase_perm st.seen id (by rw [← first_mem, hf]; rfl)
    · show st.size - 10 - old.body.length ≤ st.size
      omega
    · exact eraseNth_sub SFrame.id id 0 st.seen

theorem delete_list (ids : List (List UInt8)) (st : Full) (h : NoneBehind st) :
    (∀ st', effectAll (ids.map Op.delete) st = some st' → NoneBehind st' ∧
      (st.seen.map SFrame.id).Perm (ids ++ st'.seen.map SFrame.id) ∧ st'.size ≤ st.size ∧ ∀ f ∈ st'.seen, f ∈ st.seen) ∧
    (∀ l, (st.seen.map SFrame.id).Perm (ids ++ l) → ∃ st', effectAll (ids.map Op.delete) st = some st') := by
  induction ids generalizing st with
  | nil =>
    refine ⟨fun st' e => ?_, fun l _ => ⟨st, rfl⟩⟩
    cases e
    exact ⟨h, .refl _, Int.le_refl _, fun f hf => hf⟩
  | cons id ids ih =>
    obtain ⟨h1, h2⟩ := delete_step st id h
    have e : effectAll ((id :: ids).map Op.delete) st = (st.delete id).bind (effectAll (ids.map Op.delete)) := rfl
    rw [e]
    by_cases hm : id ∈ st.seen.map SFrame.id
    · obtain ⟨s1, e1, h3, h4, h5, h6⟩ := h2 hm
      rw [e1, Option.bind_some]
      obtain ⟨h7, h8⟩ := ih s1 h3
      refine ⟨fun st' e' => ?_, fun l hl => ?_⟩
      · obtain ⟨h9, h10, h11, h12⟩ := h7 st' e'
        exact ⟨h9, h4.trans (h10.cons id), by omega, fun f hf => h6 f (h12 f hf)⟩
      · exact h8 l ((h4.symm.trans hl).cons_inv)
    · rw [h1 hm]
      refine ⟨fun st' e' => by simp at e', fun l hl => ?_⟩
      exact absurd (hl.mem_iff.mpr (by simp)) hm

/-- Deleting the first comment. -/
theorem delete_comment_step (st : Full) (h : NoneBehind st) :
    NoneBehind (st.deleteAt commId 0) ∧ (st.deleteAt commId 0).size = st.size ∧
      (∀ f ∈ (st.deleteAt commId 0).seen, f ∈ st.seen) ∧
      ((commId ∈ st.seen.map SFrame.id ∧
          (st.seen.map SFrame.id).Perm (commId :: (st.deleteAt commId 0).seen.map SFrame.id)) ∨
        (commId ∉ st.seen.map SFrame.id ∧ (st.deleteAt commId 0).seen = st.seen)) := by
  by_cases hm : commId ∈ st.seen.map SFrame.id
  · have hl : 0 < (all SFrame.id commId st.seen).length := by
      obtain ⟨f, hf, hi⟩ := List.mem_map.mp hm
      exact List.length_pos_iff.mpr (List.ne_nil_of_mem (a := f) (by simp [all, hf, hi]))
    have e : st.deleteAt commId 0 = st.erase commId 0 st.size := by
      unfold Full.deleteAt
      rw [if_neg (by omega), if_pos (by simpa using hl)]
      rfl
    rw [e]
    exact ⟨erase_none _ _ _ _ h, rfl, eraseNth_sub SFrame.id commId 0 st.seen, Or.inl ⟨hm, erase_perm _ _ hm⟩⟩
  · have hl : (all SFrame.id commId st.seen).length = 0 := by
      rw [List.length_eq_zero_iff]
      unfold all
      rw [List.filter_eq_nil_iff]
      intro f hf hi
      exact hm (List.mem_map.mpr ⟨f, hf, by simpa using hi⟩)
    have e : st.deleteAt commId 0 = st := by
      unfold Full.deleteAt
      rw [if_neg (by omega), if_neg (by rw [hl]; simp), if_pos rfl]
      rcases h with h | h <;> rw [h]
    rw [e]
    exact ⟨h, rfl, fun f hf => hf, Or.inr ⟨hm, rfl⟩⟩

theorem effectAll_split (a b : List Op) (st : Full) : effectAll (a ++ b) st = (effectAll a st).bind (effectAll b) := by
  induction a generalizing st with
  | nil => rfl
  | cons op a ih =>
    show (op.effect st).bind (effectAll (a ++ b)) = ((op.effect st).bind (effectAll a)).bind (effectAll b)
    cases op.effect st with
    | none => rfl
    | some s => exact ih s

/-- All the deletions of the test. -/
theorem delete_all (st : Full) (h : NoneBehind st) :
    (∀ st', effectAll deleteOps st = some st' → NoneBehind st' ∧ st'.size ≤ st.size ∧ (∀ f ∈ st'.seen, f ∈ st.seen) ∧
      ((st.seen.map SFrame.id).Perm (deleteBefore ++ commId :: deleteBehind ++ st'.seen.map SFrame.id) ∨
        (st.seen.map SFrame.id).Perm (deleteBefore ++ deleteBehind ++ st'.seen.map SFrame.id))) ∧
    ((st.seen.map SFrame.id).Perm (deleteBefore ++ commId :: deleteBehind) ∨
      (st.seen.map SFrame.id).Perm (deleteBefore ++ deleteBehind) →
        ∃ st', effectAll deleteOps st = some st' ∧ st'.seen = []) := by
  obtain ⟨a1, a2⟩ := delete_list deleteBefore st h
  unfold deleteOps
  rw [effectAll_split]
  constructor
  · intro st' e
    cases e1 : effectAll (deleteBefore.map Op.delete) st with
    | none => rw [e1] at e; simp at e
    | some s1 =>
      rw [e1] at e
      obtain ⟨b1, b2, b3, b4⟩ := a1 s1 e1
      obtain ⟨c1, c2, c3, c4⟩ := delete_comment_step s1 b1
      obtain ⟨d1, d2, d3, d4⟩ := (delete_list deleteBehind (s1.deleteAt commId 0) c1).1 st' e
      refine ⟨d1, by omega, fun f hf => b4 f (c3 f (d4 f hf)), ?_⟩
      rcases c4 with ⟨-, c4⟩ | ⟨-, c4⟩
      · left
        rw [List.append_assoc]
        exact b2.trans (List.Perm.append_left _ (c4.trans (d2.cons commId)))
      · right
        rw [c4] at d2
        rw [List.append_assoc]
        exact b2.trans (List.Perm.append_left _ d2)
  · intro hp
    have hnot : commId ∉ deleteBefore ++ deleteBehind := by decide
    obtain ⟨l, hl, hcase⟩ : ∃ l, (st.seen.map SFrame.id).Perm (deleteBefore ++ l) ∧
        (l = commId :: deleteBehind ∨ l = deleteBehind) := by
      rcases hp with hp | hp
      · exact ⟨_, hp, Or.inl rfl⟩
      · exact ⟨_, hp, Or.inr rfl⟩
    obtain ⟨s1, e1⟩ := a2 l hl
    obtain ⟨b1, b2, b3, b4⟩ := a1 s1 e1
    have hl1 : (s1.seen.map SFrame.id).Perm l := (List.perm_append_left_iff _).mp (b2.symm.trans hl)
    obtain ⟨c1, c2, c3, c4⟩ := delete_comment_step s1 b1
    have hl2 : ((s1.deleteAt commId 0).seen.map SFrame.id).Perm (deleteBehind ++ []) := by
      rw [List.append_nil]
      rcases hcase with rfl | rfl
      · rcases c4 with ⟨-, c4⟩ | ⟨c5, -⟩
        · exact (c4.symm.trans hl1).cons_inv
        · exact absurd (hl1.mem_iff.mpr (by simp)) c5
      · rcases c4 with ⟨c5, -⟩ | ⟨-, c4⟩
        · exact absurd (List.mem_append_right _ (hl1.mem_iff.mp c5)) hnot
        · rw [c4]; exact hl1
    obtain ⟨d1, d2⟩ := delete_list deleteBehind (s1.deleteAt commId 0) c1
    obtain ⟨s2, e2⟩ := d2 [] hl2
    obtain ⟨-, d4, -⟩ := d1 s2 e2
    refine ⟨s2, ?_, ?_⟩
    · rw [e1]; exact e2
    · have := (List.perm_append_left_iff _).mp (d4.symm.trans hl2)
      simpa using this

theorem delete_gain (ops : List Op) (st : Full) (h : ∀ op ∈ ops, (∃ id, op = .delete id) ∨ ∃ i, op = .deleteComment i) :
    0 ≤ gainAll ops st := by
  induction ops generalizing st with
  | nil => exact Int.le_refl _
  | cons op ops ih =>
    have h1 : 0 ≤ op.gain st := by
      rcases h op (by simp) with ⟨id, rfl⟩ | ⟨i, rfl⟩
      · exact Int.le_refl _
      · unfold Op.gain
        dsimp only
        split
        · exact Int.le_refl _
        · omega
    show 0 ≤ op.gain st + _
    split
    · omega
    · next st' _ => 
      have := ih st' (fun o ho => h o (by simp [ho]))
      omega

theorem start_none (st : State) : NoneBehind st.full := by
  unfold NoneBehind State.full
  dsimp only
  split
  · exact Or.inr rfl
  · exact Or.inl rfl

theorem deleteOps_valid [Platform] : ∀ op ∈ deleteOps, op.Valid := by
  intro op hop
  unfold deleteOps at hop
  simp only [List.mem_append, List.mem_map, List.mem_cons] at hop
  rcases hop with ⟨id, hid, rfl⟩ | rfl | ⟨id, hid, rfl⟩
  · show ValidId id
    revert id; decide
  · exact trivial
  · show ValidId id
    revert id; decide

theorem deleteOps_kinds : ∀ op ∈ deleteOps, (∃ id, op = .delete id) ∨ ∃ i, op = .deleteComment i := by
  intro op hop
  unfold deleteOps at hop
  simp only [List.mem_append, List.mem_map, List.mem_cons] at hop
  rcases hop with ⟨id, -, rfl⟩ | rfl | ⟨id, -, rfl⟩
  · exact Or.inl ⟨id, rfl⟩
  · exact Or.inr ⟨0, rfl⟩
  · exact Or.inl ⟨id, rfl⟩

/-- The assertions of the test on a tag without frames. -/
theorem check_deleted_empty [Platform] (version minor flags : UInt8) (n : Nat) (h : n < 2 ^ 28) :
    check_deleted (toTag version minor flags n [] n) = .ok () := by
  have e : ((toTag version minor flags n [] n).header.tag_size ==
      u32 (toTag version minor flags n [] (n : Nat)).padding_size) = true := by
    show ((n : Nat) == u32 (n : Int)) = true
    have : u32 (n : Int) = n := by unfold u32; omega
    rw [this]; exact beq_self_eq_true n
  have g : ∀ k, ValidId k → ID3v2_Tag_get_frame (toTag version minor flags n [] n) (ofB k ++ ofB [0]) = .ok none :=
    fun k hk => toTag_first version minor flags n [] n k (ofB [0]) (by simp) hk
  unfold check_deleted
  rw [e, show ID3v2_Tag_get_artist_frame (toTag version minor flags n [] n) = .ok none from
      g [0x54, 0x50, 0x45, 0x31] (by decide),
    show ID3v2_Tag_get_album_frame (toTag version minor flags n [] n) = .ok none from g [0x54, 0x41, 0x4C, 0x42] (by decide),
    show ID3v2_Tag_get_title_frame (toTag version minor flags n [] n) = .ok none from g [0x54, 0x49, 0x54, 0x32] (by decide),
    show ID3v2_Tag_get_track_frame (toTag version minor flags n [] n) = .ok none from g [0x54, 0x52, 0x43, 0x4B] (by decide),
    show ID3v2_Tag_get_album_artist_frame (toTag version minor flags n [] n) = .ok none from
      g [0x54, 0x50, 0x45, 0x32] (by decide),
    show ID3v2_Tag_get_genre_frame (toTag version minor flags n [] n) = .ok none from g [0x54, 0x43, 0x4F, 0x4E] (by decide),
    show ID3v2_Tag_get_year_frame (toTag version minor flags n [] n) = .ok none from g [0x54, 0x59, 0x45, 0x52] (by decide),
    show ID3v2_Tag_get_disc_number_frame (toTag version minor flags n [] n) = .ok none from
      g [0x54, 0x50, 0x4F, 0x53] (by decide),
    show ID3v2_Tag_get_composer_frame (toTag version minor flags n [] n) = .ok none from
      g [0x54, 0x43, 0x4F, 0x4D] (by decide),
    show ID3v2_Tag_get_comment_frame (toTag version minor flags n [] n) = .ok none from g commId (by decide),
    show ID3v2_Tag_get_album_cover_frame (toTag version minor flags n [] n) = .ok none from g apicId (by decide)]
  rfl

/-- Deleting the tag that the library has written. -/
theorem delete_out [Platform] (version minor flags : UInt8) (fs : List SFrame) (padding : Nat) (rest : List UInt8)
    (hv : version = 3 ∨ version = 4) (hs : framesSize fs + padding < 2 ^ 28) :
    ID3v2_delete_tag (some (ofB (outBytes version minor flags fs padding ++ rest))) = .ok (some (ofB rest)) := by
  have hl : (outBytes version minor flags fs padding).length = 10 + (framesSize fs + padding) := by
    unfold outBytes
    rw [List.length_append, List.length_append, flatMap_bytes_length, List.length_replicate]
    simp [tagHeaderBytes, synchsafe]; omega
  have e : ofB (outBytes version minor flags fs padding ++ rest) =
      ofB (tagHeaderBytes version minor flags (framesSize fs + padding)) ++
        ofB (fs.flatMap SFrame.bytes ++ List.replicate padding 0 ++ rest) := by
    simp [outBytes]
  rw [delete_eq _ (10 + (framesSize fs + padding))
    (by rw [e]; exact existing_size_header version minor flags _ _ hv hs), ofB_append, List.drop_left' (by simp [hl])]

/-- **C92**: `delete_test` passes exactly for the files whose frames are those that the test deletes, one each, in any order
and with any contents, or these without a comment, and where no other tag follows the tag. (For version 2.4 the frames must
be small, see C12; empty frames are not allowed in a tag.) -/
theorem delete_test_iff [Platform] (contents : List UInt8) (version : UInt8) (fs : List SFrame) (spare : Nat)
    (rest : List UInt8) (h : TaggedFile contents version fs spare rest) (hne : ∀ f ∈ fs, f.body ≠ [])
    (hsm : ∀ f ∈ fs, SmallIn version f) :
    delete_test_main (some (ofB contents)) = .ok () ↔
      ((fs.map SFrame.id).Perm testIds ∨ (fs.map SFrame.id).Perm testIdsNoComment) ∧ tagLength rest = 0 := by
  obtain ⟨tag, hread, hstart, hver, hrest, hok, hsize⟩ := tagged_read h
  have hnb := start_none ⟨fs, spare⟩
  have hseen : (State.full ⟨fs, spare⟩).seen = fs := rfl
  have hsz0 : (State.full ⟨fs, spare⟩).size = (framesSize fs + spare : Nat) := rfl
  have p1 : (deleteBefore ++ commId :: deleteBehind).Perm testIds := by decide
  have p2 : (deleteBefore ++ deleteBehind).Perm testIdsNoComment := by decide
  obtain ⟨hd1, hd2⟩ := delete_all (State.full ⟨fs, spare⟩) hnb
  have hmain : delete_test_main (some (ofB contents)) = (runAll (ofB [0]) deleteOps tag >>= fun tag => do
      let (file, _) ← ID3v2_write_tag (some (ofB contents)) tag
      match ← ID3v2_read_tag file with
      | none => .exit
      | some edited_tag =>
        check_deleted edited_tag
        let file ← ID3v2_delete_tag file
        c_assert (← ID3v2_read_tag file).isNone) := by
    unfold delete_test_main clone_file
    simp only [Res.bind_ok]
    rw [hread]
    simp only [Res.bind_ok, Option.getD_some]
    rw [delete_frames_ops]
    rfl
  rw [hmain]
  cases he : effectAll deleteOps (State.full ⟨fs, spare⟩) with
  | none =>
    rw [(history_exact tag _ deleteOps (ofB [0]) [] hstart deleteOps_valid).1 he]
    simp only [Res.bind_ub, reduceCtorEq, false_iff]
    rintro ⟨hp, -⟩
    obtain ⟨st', e, -⟩ := hd2 (by
      rw [hseen]
      rcases hp with hp | hp
      · exact Or.inl (hp.trans p1.symm)
      · exact Or.inr (hp.trans p2.symm))
    rw [he] at e
    simp at e
  | some st' =>
    obtain ⟨a1, a2, a3, a4⟩ := hd1 st' he
    have hg := gain_exact deleteOps _ _ he
    rw [start_room _ (fun f hf => (hok f hf).1.1)] at hg
    have hg0 := delete_gain deleteOps (State.full ⟨fs, spare⟩) deleteOps_kinds
    have hlow : 0 ≤ st'.size := by
      have : (State.room ⟨fs, spare⟩) = (spare : Int) := rfl
      omega
    obtain ⟨t1, r1, -, -, s1⟩ := session_fails_exact contents tag _ deleteOps (ofB [0]) st' hstart deleteOps_valid he
      (by omega) (by omega)
    cases hser : Full.serialise st' with
    | bytes b =>
      obtain ⟨t2, t3, file, r2, w2, f2, rd2⟩ := session_exact_partial contents tag _ deleteOps (ofB [0]) st' b hstart
        deleteOps_valid he hser (by omega) (by rw [hver]; exact fun f hf => hsm f (a3 f hf))
      obtain ⟨hv3, -⟩ := start_header tag _ hstart
      rw [r2]
      simp only [Res.bind_ok]
      rw [w2]
      simp only [Res.bind_ok]
      rw [rd2, f2, hrest]
      have hge : (framesSize st'.seen : Int) ≤ st'.size := by
        unfold Full.serialise at hser
        split at hser
        · simp at hser
        · omega
      have hnl : ¬ LastLost st'.seen (st'.size - framesSize st'.seen).toNat := by
        rintro ⟨-, f, hf, hb⟩
        exact hne f (a3 f (List.mem_of_getLast? hf)) hb
      have hdef : st'.seen.findSome? SFrame.defect = none := by
        rw [List.findSome?_eq_none_iff]
        exact fun f hf => (hok f (a3 f hf)).2
      have hrb : readBack tag.header.major_version tag.header.minor_version tag.header.flags st'.seen
          (st'.size - framesSize st'.seen).toNat = .ok (some (toTag tag.header.major_version tag.header.minor_version
            tag.header.flags st'.size.toNat st'.seen (st'.size - framesSize st'.seen).toNat)) := by
        unfold readBack
        simp only [if_neg hnl, hdef]
        have : framesSize st'.seen + (st'.size - framesSize st'.seen).toNat = st'.size.toNat := by omega
        rw [this]
      rw [hrb]
      simp only [Res.bind_ok]
      rw [delete_out _ _ _ _ _ _ hv3 (by omega)]
      by_cases hnil : st'.seen = []
      · rw [hnil] at a4 ⊢
        have : (st'.size - (framesSize [] : Nat)).toNat = st'.size.toNat := by
          show (st'.size - (0 : Nat)).toNat = _
          omega
        rw [this, check_deleted_empty _ _ _ _ (by omega)]
        simp only [Res.bind_ok]
        have hperm : (fs.map SFrame.id).Perm testIds ∨ (fs.map SFrame.id).Perm testIdsNoComment := by
          simp only [List.map_nil, List.append_nil] at a4
          rcases a4 with a4 | a4
          · exact Or.inl (a4.trans p1)
          · exact Or.inr (a4.trans p2)
        by_cases hr : tagLength rest = 0
        · rw [file_none rest hr]
          simp [hperm, hr]
        · refine ⟨fun hh => ?_, fun hh => absurd hh.2 hr⟩
          exfalso
          obtain ⟨x, hx, hh⟩ := Res.bind_eq_ok.mp hh
          cases x with
          | none => exact hr ((C67_file_null rest).mp hx)
          | some t => simp at hh
      · constructor
        · intro hh
          exfalso
          have : check_deleted (toTag tag.header.major_version tag.header.minor_version
            tag.header.flags st'.size.toNat st'.seen (st'.size - framesSize st'.seen).toNat) = .exit := by
            have hpos : 0 < framesSize st'.seen := by
              cases hs : st'.seen with
              | nil => exact absurd hs hnil
              | cons f l =>
                have := SFrame.bytes_length f (hok f (a3 f (by simp [hs]))).1.1
                simp [framesSize]; omega
            have e : (st'.size.toNat == u32 ((st'.size - framesSize st'.seen).toNat : Nat)) = false := by
              refine beq_false_of_ne ?_
              unfold u32
              omega
            unfold check_deleted
            rw [show (toTag tag.header.major_version tag.header.minor_version
              tag.header.flags st'.size.toNat st'.seen (st'.size - framesSize st'.seen).toNat).header.tag_size =
                st'.size.toNat from rfl, show (toTag tag.header.major_version tag.header.minor_version
              tag.header.flags st'.size.toNat st'.seen ((st'.size - framesSize st'.seen).toNat : Nat)).padding_size =
                ((st'.size - framesSize st'.seen).toNat : Nat) from rfl, e]
            rfl
          rw [this] at hh
          simp at hh
        · rintro ⟨hp, -⟩
          exfalso
          have hl1 : fs.length = 11 ∨ fs.length = 10 := by
            rcases hp with hp | hp
            · left; have := hp.length_eq; rw [List.length_map] at this; exact this
            · right; have := hp.length_eq; rw [List.length_map] at this; exact this
          obtain ⟨s2, e2, n2⟩ := hd2 (by
            rw [hseen]
            rcases hp with hp | hp
            · exact Or.inl (hp.trans p1.symm)
            · exact Or.inr (hp.trans p2.symm))
          rw [he, Option.some.injEq] at e2
          rw [← e2] at n2
          exact hnil n2
    | overflow =>
      rw [r1]
      simp only [Res.bind_ok]
      constructor
      · intro hh
        obtain ⟨x, hx, -⟩ := Res.bind_eq_ok.mp hh
        obtain ⟨b, hb⟩ := s1.mp ⟨x, hx⟩
        rw [hser] at hb
        simp at hb
      · rintro ⟨hp, -⟩
        exfalso
        obtain ⟨s2, e2, n2⟩ := hd2 (by
          rw [hseen]
          rcases hp with hp | hp
          · exact Or.inl (hp.trans p1.symm)
          · exact Or.inr (hp.trans p2.symm))
        rw [he, Option.some.injEq] at e2
        rw [← e2] at n2
        unfold Full.serialise at hser
        rw [n2] at hser
        rw [if_neg (by show ¬ st'.size < ((0 : Nat) : Int); omega)] at hser
        simp at hser
    | exits =>
      rw [r1]
      simp only [Res.bind_ok]
      constructor
      · intro hh
        obtain ⟨x, hx, -⟩ := Res.bind_eq_ok.mp hh
        obtain ⟨b, hb⟩ := s1.mp ⟨x, hx⟩
        rw [hser] at hb
        simp at hb
      · rintro ⟨hp, -⟩
        exfalso
        obtain ⟨s2, e2, n2⟩ := hd2 (by
          rw [hseen]
          rcases hp with hp | hp
          · exact Or.inl (hp.trans p1.symm)
          · exact Or.inr (hp.trans p2.symm))
        rw [he, Option.some.injEq] at e2
        rw [← e2] at n2
        unfold Full.serialise at hser
        rw [n2] at hser
        rw [if_neg (by show ¬ st'.size < ((0 : Nat) : Int); omega)] at hser
        simp at hser

/-- **C92**: on a file without a tag the test dereferences NULL. -/
theorem delete_test_untagged [Platform] (contents : List UInt8) (h : tagLength contents = 0) :
    delete_test_main (some (ofB contents)) = .ub .nullDeref := by
  unfold delete_test_main clone_file
  simp only [Res.bind_ok]
  rw [file_none contents h]
  simp only [Res.bind_ok, Option.getD_none]
  rw [delete_frames_ops, (history_exact _ _ deleteOps (ofB [0]) [] Start.new deleteOps_valid).1 rfl]
  rfl

/-! ## edit_test -/

/-- The calls of the test. -/
def _root_.Id3.Spec.EditValues.ops (v : EditValues) : List Op :=
  List.zipWith (fun id s => Op.setText id [0, 0] s) testTextIds v.texts ++
    [.setComment [0, 0] engLang emptyStr v.comment, .addComment [0, 0] engLang v.short_desc v.comment,
     .setApic [0, 0] pngStr 3 emptyStr v.picture, .addApic [0, 0] pngStr 3 v.description v.picture]

theorem set_text_rest [Platform] (tag : Tag) (k : List UInt8) (s : Str) (r r' r1 r2 : Bytes)
    (h : (SFrame.text k [0, 0] s).Usable) :
    ID3v2_Tag_set_text_frame tag { id := ofB k ++ r1, flags := ofB [0, 0] ++ r2, text := s.inMemory r } =
      ID3v2_Tag_set_text_frame tag { id := ofB k ++ r1, flags := ofB [0, 0] ++ r2, text := s.inMemory r' } := by
  unfold ID3v2_Tag_set_text_frame Str.inMemory
  dsimp only
  rw [text_new h, text_new h]

theorem set_comment_rest [Platform] (tag : Tag) (desc txt : Str) (r1 r2 r3 r4 r3' r4' : Bytes)
    (h : (SFrame.comment [0, 0] engLang desc txt).Usable) :
    ID3v2_Tag_set_comment_frame tag (commentInput [0, 0] engLang desc txt r1 r2 r3 r4) =
      ID3v2_Tag_set_comment_frame tag (commentInput [0, 0] engLang desc txt r1 r2 r3' r4') ∧
    ID3v2_Tag_add_comment_frame tag (commentInput [0, 0] engLang desc txt r1 r2 r3 r4) =
      ID3v2_Tag_add_comment_frame tag (commentInput [0, 0] engLang desc txt r1 r2 r3' r4') := by
  unfold ID3v2_Tag_set_comment_frame ID3v2_Tag_add_comment_frame commentInput Str.inMemory
  dsimp only
  rw [comment_new h, comment_new h]
  exact ⟨rfl, rfl⟩

theorem set_apic_rest [Platform] (tag : Tag) (desc : Str) (pic : List UInt8) (r1 r2 r3 r4 r2' r3' r4' : Bytes)
    (h : (SFrame.apic [0, 0] pngStr 3 desc pic).Usable) :
    ID3v2_Tag_set_apic_frame tag (apicInput [0, 0] pngStr 3 desc pic r1 r2 r3 r4) =
      ID3v2_Tag_set_apic_frame tag (apicInput [0, 0] pngStr 3 desc pic r1 r2' r3' r4') ∧
    ID3v2_Tag_add_apic_frame tag (apicInput [0, 0] pngStr 3 desc pic r1 r2 r3 r4) =
      ID3v2_Tag_add_apic_frame tag (apicInput [0, 0] pngStr 3 desc pic r1 r2' r3' r4') := by
  unfold ID3v2_Tag_set_apic_frame ID3v2_Tag_add_apic_frame ApicFrame_of_input apicInput Str.inMemory
  dsimp only
  rw [apic_new h _ _ _ _ _ rfl, apic_new h _ _ _ _ _ rfl]
  exact ⟨rfl, rfl⟩

theorem edit_tag_ops [Platform] (v : EditValues) (rest : Nat → Bytes) (tag : Tag) (h : ∀ f ∈ v.frames, f.Usable) :
    edit_tag (v.input rest) tag = runAll (ofB [0]) v.ops tag := by
  have ht : ∀ (k : List UInt8) (s : Str) (r : Bytes) (t : Tag), (SFrame.text k [0, 0] s).Usable →
      ID3v2_Tag_set_text_frame t { id := lit k, flags := NO_FLAGS, text := s.inMemory r } =
        Op.run (ofB [0]) (.setText k [0, 0] s) t := by
    intro k s r t hu
    have := set_text_rest t k s r (ofB [0]) (ofB [0]) (ofB [0]) hu
    rw [← ofB_append, ← ofB_append] at this
    show ID3v2_Tag_set_text_frame t { id := ofB (k ++ [0]), flags := ofB ([0, 0] ++ [0]), text := s.inMemory r } = _
    rw [this]
    show _ = ID3v2_Tag_set_text_frame t { id := ofB k ++ ofB [0], flags := ofB [0, 0] ++ ofB [0], text := _ }
    rw [← ofB_append, ← ofB_append]
  simp only [EditValues.frames, EditValues.textFrames, testTextIds, EditValues.texts, List.zipWith_cons_cons,
    List.zipWith_nil_left, List.cons_append, List.nil_append, List.forall_mem_cons] at h
  obtain ⟨h1, h2, h3, h4, h5, h6, h7, h8, h9, h10, h11, h12, h13, -⟩ := h
  simp only [EditValues.ops, testTextIds, EditValues.texts, List.zipWith_cons_cons,
    List.zipWith_nil_left, List.cons_append, List.nil_append, runAll]
  unfold edit_tag
  rw [← ht _ _ (rest 0) _ h1]
  refine congrArg _ (funext fun t => ?_)
  rw [← ht _ _ (rest 1) _ h2]
  refine congrArg _ (funext fun t => ?_)
  rw [← ht _ _ (rest 2) _ h3]
  refine congrArg _ (funext fun t => ?_)
  rw [← ht _ _ (rest 3) _ h4]
  refine congrArg _ (funext fun t => ?_)
  rw [← ht _ _ (rest 4) _ h5]
  refine congrArg _ (funext fun t => ?_)
  rw [← ht _ _ (rest 5) _ h6]
  refine congrArg _ (funext fun t => ?_)
  rw [← ht _ _ (rest 6) _ h7]
  refine congrArg _ (funext fun t => ?_)
  rw [← ht _ _ (rest 7) _ h8]
  refine congrArg _ (funext fun t => ?_)
  rw [← ht _ _ (rest 8) _ h9]
  refine congrArg _ (funext fun t => ?_)
  have e10 := (set_comment_rest t emptyStr v.comment (ofB [0]) (ofB [0]) (ofB [0]) (rest 9) (ofB [0]) (ofB [0]) h10).1
  refine (congrArg (· >>= _) e10).trans (congrArg _ (funext fun t => ?_))
  have e11 := (set_comment_rest t v.short_desc v.comment (ofB [0]) (ofB [0]) (rest 10) (rest 9) (ofB [0]) (ofB [0]) h11).2
  refine (congrArg (· >>= _) e11).trans (congrArg _ (funext fun t => ?_))
  have e12 := (set_apic_rest t emptyStr v.picture (ofB [0]) [] (ofB [0]) (rest 12) (ofB [0]) (ofB [0]) (ofB [0]) h12).1
  refine (congrArg (· >>= _) e12).trans (congrArg _ (funext fun t => ?_))
  have e13 := (set_apic_rest t v.description v.picture (ofB [0]) [] (rest 11) (rest 12) (ofB [0]) (ofB [0]) (ofB [0])
    h13).2
  exact e13.trans (bind_last _).symm

theorem mem_put (k : List UInt8) (f : SFrame) (l : List SFrame) (x : SFrame) (h : x ∈ put SFrame.id k f l) : x = f ∨ x ∈ l := by
  induction l with
  | nil => exact Or.inl (by simpa [put] using h)
  | cons y ys ih =>
    by_cases hy : y.id = k
    · simp only [put, hy, if_true, List.mem_cons] at h ⊢
      rcases h with h | h
      · exact Or.inl h
      · exact Or.inr (Or.inr h)
    · simp only [put, hy, if_false, List.mem_cons] at h ⊢
      rcases h with h | h
      · exact Or.inr (Or.inl h)
      · rcases ih h with h | h
        · exact Or.inl h
        · exact Or.inr (Or.inr h)

theorem first_put_same (k : List UInt8) (f : SFrame) (l : List SFrame) (hf : f.id = k) :
    first SFrame.id k (put SFrame.id k f l) = some f := by
  induction l with
  | nil => simp [put, first, hf]
  | cons x xs ih =>
    unfold first at ih ⊢
    by_cases h : x.id = k
    · simp [put, h, hf]
    · simp [put, h, ih]

theorem all_put_other (k k' : List UInt8) (f : SFrame) (l : List SFrame) (hk : k ≠ k') (hf : f.id = k) :
    all SFrame.id k' (put SFrame.id k f l) = all SFrame.id k' l := by
  induction l with
  | nil => simp [put, all, hf, hk]
  | cons x xs ih =>
    unfold all at ih ⊢
    by_cases h1 : x.id = k
    · simp [put, h1, hf, hk]
    · by_cases h2 : x.id = k'
      · simp [put, h2, Ne.symm hk, ih]
      · simp [put, h1, h2, ih]

theorem all_put_same (k : List UInt8) (f : SFrame) (l : List SFrame) (hf : f.id = k) :
    all SFrame.id k (put SFrame.id k f l) = f :: (all SFrame.id k l).tail := by
  induction l with
  | nil => simp [put, all, hf]
  | cons x xs ih =>
    unfold all at ih ⊢
    by_cases h : x.id = k
    · simp [put, h, hf]
    · simp [put, h, ih]

/-- Storing several frames. -/
def putAll (l fs : List SFrame) : List SFrame := l.foldl (fun fs f => put SFrame.id f.id f fs) fs

theorem putAll_other (l fs : List SFrame) (k : List UInt8) (h : k ∉ l.map SFrame.id) :
    first SFrame.id k (putAll l fs) = first SFrame.id k fs ∧ all SFrame.id k (putAll l fs) = all SFrame.id k fs := by
  induction l generalizing fs with
  | nil => exact ⟨rfl, rfl⟩
  | cons f l ih =>
    simp only [List.map_cons, List.mem_cons, not_or] at h
    obtain ⟨h1, h2⟩ := ih (put SFrame.id f.id f fs) h.2
    rw [first_put_other _ _ _ _ (Ne.symm h.1) rfl] at h1
    rw [all_put_other _ _ _ _ (Ne.symm h.1) rfl] at h2
    exact ⟨h1, h2⟩

theorem putAll_mem (l fs : List SFrame) (f : SFrame) (hf : f ∈ l) (h : (l.map SFrame.id).Nodup) :
    first SFrame.id f.id (putAll l fs) = some f ∧ all SFrame.id f.id (putAll l fs) = f :: (all SFrame.id f.id fs).tail := by
  induction l generalizing fs with
  | nil => simp at hf
  | cons g l ih =>
    rw [List.map_cons, List.nodup_cons] at h
    rcases List.mem_cons.mp hf with rfl | hf
    · obtain ⟨h1, h2⟩ := putAll_other l (put SFrame.id f.id f fs) f.id h.1
      rw [first_put_same _ _ _ rfl] at h1
      rw [all_put_same _ _ _ rfl] at h2
      exact ⟨h1, h2⟩
    · obtain ⟨h1, h2⟩ := ih (put SFrame.id g.id g fs) hf h.2
      have hne : g.id ≠ f.id := fun e => h.1 (List.mem_map.mpr ⟨f, hf, e.symm⟩)
      rw [all_put_other _ _ _ _ hne rfl] at h2
      exact ⟨h1, h2⟩

theorem putAll_subset (l fs : List SFrame) : ∀ f ∈ putAll l fs, f ∈ l ∨ f ∈ fs := by
  induction l generalizing fs with
  | nil => exact fun f hf => Or.inr hf
  | cons g l ih =>
    intro f hf
    rcases ih (put SFrame.id g.id g fs) f hf with h | h
    · exact Or.inl (List.mem_cons_of_mem _ h)
    · rcases mem_put g.id g fs f h with h | h
      · exact Or.inl (by simp [h])
      · exact Or.inr h

theorem setAll_state (l : List SFrame) (st : State) (h : (l.map SFrame.id).Nodup) :
    l.foldl State.set st = ⟨putAll l st.frames,
      st.room - 10 * ((l.map SFrame.id).filter (fun id => (first SFrame.id id st.frames).isNone)).length⟩ := by
  induction l generalizing st with
  | nil => simp [putAll]
  | cons f l ih =>
    rw [List.map_cons, List.nodup_cons] at h
    rw [List.foldl_cons, ih _ h.2]
    have e : (l.map SFrame.id).filter (fun id => (first SFrame.id id (st.set f).frames).isNone) =
        (l.map SFrame.id).filter (fun id => (first SFrame.id id st.frames).isNone) := by
      refine List.filter_congr fun id hid => ?_
      have hne : f.id ≠ id := fun e => h.1 (e ▸ hid)
      show (first SFrame.id id (put SFrame.id f.id f st.frames)).isNone = _
      rw [first_put_other _ _ _ _ hne rfl]
    rw [e, List.map_cons, List.filter_cons]
    have e2 : (st.set f).room = if (first SFrame.id f.id st.frames).isSome then st.room else st.room - 10 := rfl
    have e3 : putAll l (st.set f).frames = putAll (f :: l) st.frames := rfl
    rw [e2, e3]
    cases hf : first SFrame.id f.id st.frames with
    | none => simp; omega
    | some g => simp

theorem first_end (k : List UInt8) (l : List SFrame) (f : SFrame) (h : f.id ≠ k) :
    first SFrame.id k (l ++ [f]) = first SFrame.id k l := by
  simp [first, List.find?_append, h]

theorem all_end (k : List UInt8) (l : List SFrame) (f : SFrame) :
    all SFrame.id k (l ++ [f]) = all SFrame.id k l ++ if f.id = k then [f] else [] := by
  unfold all
  rw [List.filter_append]
  by_cases h : f.id = k <;> simp [h]

/-- The frames that the test sets before it adds one. -/
def _root_.Id3.Spec.EditValues.early (v : EditValues) : List SFrame := v.textFrames ++ [v.comment1]

theorem early_ids (v : EditValues) : v.early.map SFrame.id = testTextIds ++ [commId] := rfl

theorem early_nodup (v : EditValues) : (v.early.map SFrame.id).Nodup := by
  rw [early_ids]; decide

theorem comment2_id (v : EditValues) : v.comment2.id = commId := rfl
theorem cover2_id (v : EditValues) : v.cover2.id = apicId := rfl

theorem after_eq (v : EditValues) (fs : List SFrame) :
    v.after fs = put SFrame.id apicId v.cover1 (putAll v.early fs ++ [v.comment2]) ++ [v.cover2] := rfl

/-- The state after the calls of the test. -/
theorem edit_state (v : EditValues) (fs : List SFrame) (spare : Int) :
    applyAll v.ops ⟨fs, spare⟩ = ⟨v.after fs, spare - 20 - 10 * missingIds fs⟩ := by
  have e : applyAll v.ops ⟨fs, spare⟩ =
      (((v.early.foldl State.set ⟨fs, spare⟩).add v.comment2).set v.cover1).add v.cover2 := rfl
  rw [e, setAll_state _ _ (early_nodup v), early_ids]
  have hm : missingIds fs = ((testTextIds ++ [commId]).filter (fun id => (first SFrame.id id fs).isNone)).length +
      if (first SFrame.id apicId fs).isSome then 0 else 1 := by
    unfold missingIds testIds testIdsNoComment
    simp only [List.filter_append, List.length_append]
    cases h : first SFrame.id apicId fs with
    | none => simp [List.filter_cons, h]; omega
    | some g => simp [List.filter_cons, h]
  have hf : first SFrame.id apicId (putAll v.early fs ++ [v.comment2]) = first SFrame.id apicId fs := by
    rw [first_end _ _ _ (by rw [comment2_id]; decide), (putAll_other _ _ _ (by rw [early_ids]; decide)).1]
  unfold State.add State.set State.has
  dsimp only
  rw [show v.cover1.id = apicId from rfl, hf, after_eq, hm]
  congr 1
  split <;> omega

theorem after_first (v : EditValues) (fs : List SFrame) (f : SFrame) (hf : f ∈ v.early) :
    first SFrame.id f.id (v.after fs) = some f := by
  have hid : f.id ∈ testTextIds ++ [commId] := by rw [← early_ids v]; exact List.mem_map_of_mem hf
  have h1 : f.id ≠ apicId := by
    intro e; rw [e] at hid; revert hid; decide
  rw [after_eq, first_end _ _ _ (fun e => h1 e.symm), first_put_other _ _ _ _ (fun e => h1 e.symm) rfl]
  have h2 := (putAll_mem v.early fs f hf (early_nodup v)).1
  unfold first at h2 ⊢
  rw [List.find?_append, h2]
  rfl

theorem after_cover (v : EditValues) (fs : List SFrame) : first SFrame.id apicId (v.after fs) = some v.cover1 := by
  have h2 := first_put_same apicId v.cover1 (putAll v.early fs ++ [v.comment2]) rfl
  rw [after_eq]
  unfold first at h2 ⊢
  rw [List.find?_append, h2]
  rfl

theorem after_comments (v : EditValues) (fs : List SFrame) :
    all SFrame.id commId (v.after fs) = v.comment1 :: (all SFrame.id commId fs).tail ++ [v.comment2] := by
  rw [after_eq, all_end, cover2_id, if_neg (by decide : apicId ≠ commId), List.append_nil,
    all_put_other _ _ _ _ (by decide : apicId ≠ commId) rfl, all_end, comment2_id, if_pos rfl]
  have := (putAll_mem v.early fs v.comment1 (by simp [EditValues.early]) (early_nodup v)).2
  rw [show v.comment1.id = commId from rfl] at this
  rw [this]

theorem after_covers (v : EditValues) (fs : List SFrame) :
    all SFrame.id apicId (v.after fs) = v.cover1 :: (all SFrame.id apicId fs).tail ++ [v.cover2] := by
  rw [after_eq, all_end, cover2_id, if_pos rfl, all_put_same apicId v.cover1 _ rfl, all_end, comment2_id, if_neg (by decide : commId ≠ apicId), List.append_nil,
    (putAll_other _ _ _ (by rw [early_ids]; decide)).2]

theorem after_subset (v : EditValues) (fs : List SFrame) : ∀ f ∈ v.after fs, f ∈ v.frames ∨ f ∈ fs := by
  intro f hf
  rw [after_eq] at hf
  have he : ∀ g ∈ v.early, g ∈ v.frames := by
    intro g hg
    simp only [EditValues.early, EditValues.frames, List.mem_append, List.mem_cons, List.not_mem_nil, or_false] at hg ⊢
    rcases hg with h | h
    · exact Or.inl h
    · exact Or.inr (Or.inl h)
  rcases List.mem_append.mp hf with h | h
  · rcases mem_put apicId _ _ f h with h | h
    · exact Or.inl (by simp [EditValues.frames, h])
    · rcases List.mem_append.mp h with h | h
      · rcases putAll_subset _ _ f h with h | h
        · exact Or.inl (he f h)
        · exact Or.inr h
      · exact Or.inl (by simp at h; simp [EditValues.frames, h])
  · exact Or.inl (by simp at h; simp [EditValues.frames, h])

theorem edit_ops_valid [Platform] (v : EditValues) (h : ∀ f ∈ v.frames, f.Usable) : ∀ op ∈ v.ops, op.Valid := by
  simp only [EditValues.frames, EditValues.textFrames, testTextIds, EditValues.texts, List.zipWith_cons_cons,
    List.zipWith_nil_left, List.cons_append, List.nil_append, List.forall_mem_cons] at h
  obtain ⟨h1, h2, h3, h4, h5, h6, h7, h8, h9, h10, h11, h12, h13, -⟩ := h
  simp only [EditValues.ops, testTextIds, EditValues.texts, List.zipWith_cons_cons,
    List.zipWith_nil_left, List.cons_append, List.nil_append, List.forall_mem_cons]
  exact ⟨⟨by decide, h1⟩, ⟨by decide, h2⟩, ⟨by decide, h3⟩, ⟨by decide, h4⟩, ⟨by decide, h5⟩, ⟨by decide, h6⟩,
    ⟨by decide, h7⟩, ⟨by decide, h8⟩, ⟨by decide, h9⟩, h10, h11, h12, h13, by simp⟩

theorem edit_ops_stores (v : EditValues) (st : State) : ∀ op ∈ v.ops, op.DeleteSafe st := by
  simp only [EditValues.ops, testTextIds, EditValues.texts, List.zipWith_cons_cons,
    List.zipWith_nil_left, List.cons_append, List.nil_append, List.forall_mem_cons]
  exact ⟨trivial, trivial, trivial, trivial, trivial, trivial, trivial, trivial, trivial, trivial, trivial, trivial, trivial,
    by simp⟩

theorem safe_stores [Platform] (ops : List Op) (st : State) (h1 : ∀ op ∈ ops, op.Valid)
    (h2 : ∀ op ∈ ops, ∀ st, op.DeleteSafe st) : SafeHistory ops st := by
  induction ops generalizing st with
  | nil => trivial
  | cons op ops ih =>
    exact ⟨h1 op (by simp), h2 op (by simp) st,
      ih _ (fun o ho => h1 o (by simp [ho])) (fun o ho => h2 o (by simp [ho]))⟩

theorem after_ne (v : EditValues) (fs : List SFrame) : v.after fs ≠ [] := by
  rw [after_eq]; simp

/-- What the calls of the test do to a tag. -/
theorem edit_effect [Platform] (v : EditValues) (fs : List SFrame) (spare : Nat) (hfs : ∀ f ∈ fs, f.Usable)
    (h : ∀ f ∈ v.frames, f.Usable) :
    effectAll v.ops (State.full ⟨fs, spare⟩) =
      some ⟨v.after fs, none, framesSize (v.after fs) + ((spare : Int) - 20 - 10 * missingIds fs)⟩ := by
  rw [exact_agrees ⟨fs, spare⟩ v.ops hfs
    (safe_stores _ _ (edit_ops_valid v h) (fun op hop st => edit_ops_stores v st op hop)), edit_state]
  unfold State.full
  dsimp only
  rw [if_neg (after_ne v fs)]
  rfl

theorem readable_defect [Platform] (f : SFrame) (h : f.Readable) : f.defect = none := by
  rw [← defect_ofSFrame]; exact (defect_none _).mpr h.2

/-- The frame of the second node of a list. -/
theorem next_frame_eq (f g : SFrame) (l : List SFrame) :
    next_frame (toFrameList (f :: g :: l)) = .ok (some g.toFrame) := rfl

theorem second_end (f g : SFrame) (l : List SFrame) : ∃ l', f :: l.tail ++ [g] = f :: l[1]?.getD g :: l' := by
  cases l with
  | nil => exact ⟨[], rfl⟩
  | cons a l =>
    cases l with
    | nil => exact ⟨[], rfl⟩
    | cons b l => exact ⟨l ++ [g], rfl⟩

/-- The assertions of the test, on a tag with the frames it has stored. -/
theorem check_edited_iff [Platform] (v : EditValues) (rest : Nat → Bytes) (major minor flags : UInt8) (n : Nat)
    (fs : List SFrame) (p : Int) (hfs : ∀ f ∈ fs, f.Usable) (h : ∀ f ∈ v.frames, f.Usable) :
    check_edited (v.input rest) (toTag major minor flags n (v.after fs) p) = .ok () ↔
      (∀ f, (all SFrame.id commId fs)[1]? = some f → f = v.comment2) ∧
      (∀ f, (all SFrame.id apicId fs)[1]? = some f → ∃ pt, f = .apic [0, 0] pngStr pt v.description v.picture) := by
  have hu : ∀ f ∈ v.after fs, f.Usable := by
    intro f hf
    rcases after_subset v fs f hf with hf | hf
    · exact h f hf
    · exact hfs f hf
  have hg : ∀ k, ValidId k → ID3v2_Tag_get_frame (toTag major minor flags n (v.after fs) p) (ofB k ++ ofB [0]) =
      .ok ((first SFrame.id k (v.after fs)).map SFrame.toFrame) :=
    fun k hk => toTag_first major minor flags n _ p k (ofB [0]) hu hk
  have ha : ∀ k, ValidId k → ID3v2_Tag_get_frames (toTag major minor flags n (v.after fs) p) (ofB k ++ ofB [0]) =
      .ok (toFrameList (all SFrame.id k (v.after fs))) :=
    fun k hk => toTag_all major minor flags n _ p k (ofB [0]) hu hk
  have ht : ∀ (k : List UInt8) (s : Str) (r : Bytes), ValidId k → SFrame.text k [0, 0] s ∈ v.early →
      (SFrame.text k [0, 0] s).Usable →
      (ID3v2_Tag_get_frame (toTag major minor flags n (v.after fs) p) (ofB k ++ ofB [0]) >>= fun f =>
        assert_text_frame f (textInput k [0, 0] s (ofB [0]) (ofB [0]) r)) = .ok () := by
    intro k s r hk hm hus
    have e := after_first v fs _ hm
    rw [show (SFrame.text k [0, 0] s).id = k from rfl] at e
    rw [hg k hk, e]
    simp only [Res.bind_ok, Option.map_some]
    rw [assert_text_exact _ hus.1 _ _ _ _ _ _ hus, if_pos rfl]
  have h' := h
  simp only [EditValues.frames, EditValues.textFrames, testTextIds, EditValues.texts, List.zipWith_cons_cons,
    List.zipWith_nil_left, List.cons_append, List.nil_append, List.forall_mem_cons] at h'
  obtain ⟨h1, h2, h3, h4, h5, h6, h7, h8, h9, h10, h11, h12, h13, -⟩ := h'
  have hb : ∀ {α β : Type} {x : Res α} {f : α → Res Unit} {g : Unit → Res β}, (x >>= f) = .ok () →
      (x >>= fun a => f a >>= g) = g () := by
    intro α β x f g e
    cases x with
    | ok a => simp only [Res.bind_ok] at e ⊢; rw [e]; rfl
    | ub k => simp at e
    | exit => simp at e
    | diverge => simp at e
  have hin : ∀ f, f ∈ v.textFrames → f ∈ v.early := fun f hf => List.mem_append_left _ hf
  have hc1 : (ID3v2_Tag_get_frame (toTag major minor flags n (v.after fs) p) (ofB commId ++ ofB [0]) >>= fun f =>
      assert_comment_frame f (commentInput [0, 0] engLang emptyStr v.comment (ofB [0]) (ofB [0]) (ofB [0]) (rest 9))) =
        .ok () := by
    have e := after_first v fs v.comment1 (by simp [EditValues.early])
    rw [show v.comment1.id = commId from rfl] at e
    rw [hg commId (by decide), e]
    simp only [Res.bind_ok, Option.map_some]
    exact (assert_comment_exact _ h10.1 _ _ _ _ _ _ _ _ h10).trans (if_pos rfl)
  have hp1 : (ID3v2_Tag_get_frame (toTag major minor flags n (v.after fs) p) (ofB apicId ++ ofB [0]) >>= fun f =>
      assert_apic_frame f (apicInput [0, 0] pngStr 3 emptyStr v.picture (ofB [0]) [] (ofB [0]) (rest 12))) = .ok () := by
    rw [hg apicId (by decide), after_cover]
    simp only [Res.bind_ok, Option.map_some]
    exact (assert_apic_exact _ h12.1 _ _ _ _ _ _ _ _ _ h12).mpr ⟨3, rfl⟩
  obtain ⟨lc, hlc⟩ := second_end v.comment1 v.comment2 (all SFrame.id commId fs)
  obtain ⟨lp, hlp⟩ := second_end v.cover1 v.cover2 (all SFrame.id apicId fs)
  have hc2 : (ID3v2_Tag_get_frames (toTag major minor flags n (v.after fs) p) (ofB commId ++ ofB [0]) >>= next_frame) =
      .ok (some ((all SFrame.id commId fs)[1]?.getD v.comment2).toFrame) := by
    rw [ha commId (by decide), after_comments, hlc]
    rfl
  have hp2 : (ID3v2_Tag_get_frames (toTag major minor flags n (v.after fs) p) (ofB apicId ++ ofB [0]) >>= next_frame) =
      .ok (some ((all SFrame.id apicId fs)[1]?.getD v.cover2).toFrame) := by
    rw [ha apicId (by decide), after_covers, hlp]
    rfl
  have hwf : ∀ (k : List UInt8) (g : SFrame), g.WF → ((all SFrame.id k fs)[1]?.getD g).WF := by
    intro k g hg
    cases e : (all SFrame.id k fs)[1]? with
    | none => exact hg
    | some f => exact (hfs f (List.mem_filter.mp (List.mem_of_getElem? e)).1).1
  have hb2 : ∀ {α β γ : Type} {x : Res α} {f : α → Res β} {b : β} {g : β → Res γ}, (x >>= f) = .ok b →
      (x >>= fun a => f a >>= g) = g b := by
    intro α β γ x f b g e
    cases x with
    | ok a => simp only [Res.bind_ok] at e ⊢; rw [e]; rfl
    | ub k => simp at e
    | exit => simp at e
    | diverge => simp at e
  have E : check_edited (v.input rest) (toTag major minor flags n (v.after fs) p) =
      (if (all SFrame.id commId fs)[1]?.getD v.comment2 = v.comment2 then
        assert_apic_frame (some ((all SFrame.id apicId fs)[1]?.getD v.cover2).toFrame)
          (apicInput [0, 0] pngStr 3 v.description v.picture (ofB [0]) [] (rest 11) (rest 12)) else .exit) := by
    unfold check_edited
    refine (hb (ht [0x54, 0x50, 0x45, 0x31] v.artist (rest 0) (by decide) (hin _ (by simp [EditValues.textFrames, testTextIds, EditValues.texts]))
      h1)).trans ?_
    refine (hb (ht [0x54, 0x41, 0x4C, 0x42] v.album (rest 1) (by decide) (hin _ (by simp [EditValues.textFrames, testTextIds, EditValues.texts]))
      h2)).trans ?_
    refine (hb (ht [0x54, 0x49, 0x54, 0x32] v.title (rest 2) (by decide) (hin _ (by simp [EditValues.textFrames, testTextIds, EditValues.texts]))
      h3)).trans ?_
    refine (hb (ht [0x54, 0x52, 0x43, 0x4B] v.track (rest 3) (by decide) (hin _ (by simp [EditValues.textFrames, testTextIds, EditValues.texts]))
      h4)).trans ?_
    refine (hb (ht [0x54, 0x50, 0x45, 0x32] v.album_artist (rest 4) (by decide) (hin _ (by simp [EditValues.textFrames, testTextIds, EditValues.texts]))
      h5)).trans ?_
    refine (hb (ht [0x54, 0x43, 0x4F, 0x4E] v.genre (rest 5) (by decide) (hin _ (by simp [EditValues.textFrames, testTextIds, EditValues.texts]))
      h6)).trans ?_
    refine (hb (ht [0x54, 0x59, 0x45, 0x52] v.year (rest 6) (by decide) (hin _ (by simp [EditValues.textFrames, testTextIds, EditValues.texts]))
      h7)).trans ?_
    refine (hb (ht [0x54, 0x50, 0x4F, 0x53] v.disc_number (rest 7) (by decide) (hin _ (by simp [EditValues.textFrames, testTextIds, EditValues.texts]))
      h8)).trans ?_
    refine (hb (ht [0x54, 0x43, 0x4F, 0x4D] v.composer (rest 8) (by decide) (hin _ (by simp [EditValues.textFrames, testTextIds, EditValues.texts]))
      h9)).trans ?_
    refine (hb hc1).trans ?_
    refine (hb2 hc2).trans ?_
    have e := assert_comment_exact _ (hwf commId v.comment2 h11.1) _ _ _ _ (ofB [0]) (ofB [0]) (rest 10) (rest 9) h11
    refine (congrArg (· >>= _) e).trans ?_
    rw [exit_then]
    split
    · rw [if_pos ‹_›]
      refine (hb hp1).trans ?_
      exact hb2 hp2
    · rw [if_neg ‹_›]
  rw [E]
  have hcc : (all SFrame.id commId fs)[1]?.getD v.comment2 = v.comment2 ↔
      ∀ f, (all SFrame.id commId fs)[1]? = some f → f = v.comment2 := by
    cases (all SFrame.id commId fs)[1]? <;> simp
  have hpp := assert_apic_exact _ (hwf apicId v.cover2 h13.1) [0, 0] pngStr 3 v.description v.picture (ofB [0]) [] (rest 11)
    (rest 12) h13
  have hpp' : (∃ pt', (all SFrame.id apicId fs)[1]?.getD v.cover2 = .apic [0, 0] pngStr pt' v.description v.picture) ↔
      ∀ f, (all SFrame.id apicId fs)[1]? = some f → ∃ pt, f = .apic [0, 0] pngStr pt v.description v.picture := by
    cases (all SFrame.id apicId fs)[1]? with
    | none => simp [EditValues.cover2]
    | some f => simp
  rw [← hcc, ← hpp', ← hpp]
  split
  next h => simp [h]
  next h => simp [h]

/-- The test with a tag as it starts. -/
theorem edit_run [Platform] (contents : List UInt8) (v : EditValues) (rest : Nat → Bytes) (tag : Tag) (fs : List SFrame)
    (spare : Nat) (r : Option Tag) (hread : ID3v2_read_tag (some (ofB contents)) = .ok r)
    (hr : r.getD ID3v2_Tag_new_empty = tag) (hstart : Start tag ⟨fs, spare⟩)
    (hok : ∀ f ∈ fs, f.Usable ∧ f.defect = none) (hv : ∀ f ∈ v.frames, f.Readable)
    (hsm : ∀ f ∈ v.after fs, SmallIn tag.header.major_version f) (hs : framesSize (v.after fs) + spare < 2 ^ 28) :
    edit_test (v.input rest) (some (ofB contents)) =
      if 20 + 10 * missingIds fs ≤ spare then
        check_edited (v.input rest) (toTag tag.header.major_version tag.header.minor_version tag.header.flags
          (framesSize (v.after fs) + (spare - 20 - 10 * missingIds fs)) (v.after fs) (spare - 20 - 10 * missingIds fs : Nat))
      else .ub .oobWrite := by
  have hvu : ∀ f ∈ v.frames, f.Usable := fun f hf => (hv f hf).1
  have he := edit_effect v fs spare (fun f hf => (hok f hf).1) hvu
  have hval := edit_ops_valid v hvu
  have hmiss : missingIds fs ≤ 11 := List.length_filter_le _ testIds
  have hmain : edit_test (v.input rest) (some (ofB contents)) = (runAll (ofB [0]) v.ops tag >>= fun tag => do
      let (file, _) ← ID3v2_write_tag (some (ofB contents)) tag
      match ← ID3v2_read_tag file with
      | none => .exit
      | some edited_tag => check_edited (v.input rest) edited_tag) := by
    unfold edit_test clone_file
    simp only [Res.bind_ok]
    rw [hread]
    simp only [Res.bind_ok]
    rw [hr, edit_tag_ops v rest tag hvu]
    rfl
  rw [hmain]
  by_cases hfit : 20 + 10 * missingIds fs ≤ spare
  · rw [if_pos hfit]
    have hsub : ((spare : Int) - 20 - 10 * missingIds fs) = (spare - 20 - 10 * missingIds fs : Nat) := by omega
    rw [hsub] at he
    have hn : spare - 20 - 10 * missingIds fs ≤ spare := by omega
    generalize spare - 20 - 10 * missingIds fs = n at he hn ⊢
    have hser : Full.serialise ⟨v.after fs, none, framesSize (v.after fs) + (n : Int)⟩ =
        .bytes ((v.after fs).flatMap SFrame.bytes) := by
      unfold Full.serialise
      rw [if_neg (by show ¬ (framesSize (v.after fs) + (n : Int) < framesSize (v.after fs)); omega), if_neg (by simp)]
    obtain ⟨t2, t3, file, r2, w2, f2, rd2⟩ := session_exact_partial contents tag _ v.ops (ofB [0]) _ _ hstart
      hval he hser (by show framesSize (v.after fs) + (n : Int) < 2 ^ 28; omega) hsm
    rw [r2]
    simp only [Res.bind_ok]
    rw [w2]
    simp only [Res.bind_ok]
    rw [rd2]
    have e1 : ((framesSize (v.after fs) + (n : Int)) - framesSize (v.after fs)).toNat = n := by omega
    have hnl : ¬ LastLost (v.after fs) n := by
      rintro ⟨-, f, hf, hb⟩
      rw [after_eq, List.getLast?_concat, Option.some.injEq] at hf
      rw [← hf] at hb
      simp [EditValues.cover2, SFrame.body] at hb
    have hdef : (v.after fs).findSome? SFrame.defect = none := by
      rw [List.findSome?_eq_none_iff]
      intro f hf
      rcases after_subset v fs f hf with hf | hf
      · exact readable_defect f (hv f hf)
      · exact (hok f hf).2
    have hrb : readBack tag.header.major_version tag.header.minor_version tag.header.flags (v.after fs)
        ((framesSize (v.after fs) + (n : Int)) - framesSize (v.after fs)).toNat =
        .ok (some (toTag tag.header.major_version tag.header.minor_version tag.header.flags
          (framesSize (v.after fs) + n) (v.after fs) n)) := by
      rw [e1]
      unfold readBack
      simp only [if_neg hnl, hdef]
    rw [hrb]
    rfl
  · rw [if_neg hfit]
    obtain ⟨t1, r1, s1, -⟩ := session_fails_exact contents tag _ v.ops (ofB [0]) _ hstart hval he
      (by show _ ≤ framesSize (v.after fs) + ((spare : Int) - 20 - 10 * missingIds fs) + 10; omega)
      (by show framesSize (v.after fs) + ((spare : Int) - 20 - 10 * missingIds fs) + 10 ≤ _; omega)
    rw [r1]
    simp only [Res.bind_ok]
    rw [s1.mpr (by
      unfold Full.serialise
      rw [if_pos (by
        show framesSize (v.after fs) + ((spare : Int) - 20 - 10 * missingIds fs) < framesSize (v.after fs); omega)])]
    rfl

/-- **C92**: `edit_test` passes, whatever values it stores, exactly for the files whose tag has twenty bytes to spare and ten
more for each of the eleven ids that no frame has (the library does not make room for the headers of new frames), and that
have no second comment and no second picture (except the very ones that the test adds: the type of the picture is not
compared). The values are any that the library can handle; for version 2.4 the frames must be small, see C12. -/
theorem edit_test_iff [Platform] (contents : List UInt8) (version : UInt8) (fs : List SFrame) (spare : Nat)
    (after : List UInt8) (v : EditValues) (rest : Nat → Bytes) (h : TaggedFile contents version fs spare after)
    (hv : ∀ f ∈ v.frames, f.Readable) (hsm : ∀ f ∈ v.frames ++ fs, SmallIn version f)
    (hs : framesSize (v.after fs) + spare < 2 ^ 28) :
    edit_test (v.input rest) (some (ofB contents)) = .ok () ↔
      20 + 10 * missingIds fs ≤ spare ∧
      (∀ f, (all SFrame.id commId fs)[1]? = some f → f = .comment [0, 0] engLang v.short_desc v.comment) ∧
      (∀ f, (all SFrame.id apicId fs)[1]? = some f → ∃ type, f = .apic [0, 0] pngStr type v.description v.picture) := by
  obtain ⟨tag, hread, hstart, hver, -, hok, hsize⟩ := tagged_read h
  rw [edit_run contents v rest tag fs spare (some tag) hread rfl hstart hok hv
    (by
      rw [hver]
      intro f hf
      exact hsm f (List.mem_append.mpr (after_subset v fs f hf))) hs]
  have := check_edited_iff v rest tag.header.major_version tag.header.minor_version tag.header.flags
    (framesSize (v.after fs) + (spare - 20 - 10 * missingIds fs)) fs (spare - 20 - 10 * missingIds fs : Nat)
    (fun f hf => (hok f hf).1) (fun f hf => (hv f hf).1)
  split
  next hf =>
    rw [this]
    exact ⟨fun h => ⟨hf, h⟩, fun h => h.2⟩
  next hf => simp [hf]

/-- **C92**: with less to spare, `edit_test` writes beyond the end of the buffer. -/
theorem edit_test_overflows [Platform] (contents : List UInt8) (version : UInt8) (fs : List SFrame) (spare : Nat)
    (after : List UInt8) (v : EditValues) (rest : Nat → Bytes) (h : TaggedFile contents version fs spare after)
    (hv : ∀ f ∈ v.frames, f.Readable) (hsm : ∀ f ∈ v.frames ++ fs, SmallIn version f)
    (hs : framesSize (v.after fs) + spare < 2 ^ 28) (hfit : spare < 20 + 10 * missingIds fs) :
    edit_test (v.input rest) (some (ofB contents)) = .ub .oobWrite := by
  obtain ⟨tag, hread, hstart, hver, -, hok, hsize⟩ := tagged_read h
  rw [edit_run contents v rest tag fs spare (some tag) hread rfl hstart hok hv
    (by
      rw [hver]
      intro f hf
      exact hsm f (List.mem_append.mpr (after_subset v fs f hf))) hs, if_neg (by omega)]

/-- **C92**: so it does on every file without a tag. -/
theorem edit_test_untagged [Platform] (contents : List UInt8) (v : EditValues) (rest : Nat → Bytes)
    (h : tagLength contents = 0) (hv : ∀ f ∈ v.frames, f.Readable) (hs : framesSize (v.after []) < 2 ^ 28) :
    edit_test (v.input rest) (some (ofB contents)) = .ub .oobWrite := by
  rw [edit_run contents v rest ID3v2_Tag_new_empty [] 0 none (file_none contents h) rfl Start.new (by simp) hv
    (fun f _ h => absurd h (by decide)) (by simpa using hs)]
  rfl

theorem to_unicode_lit [Platform] (chars : List UInt8) (h : (Str.latin chars).WF) (hne : chars ≠ [])
    (hl : chars.length ≤ 1000) : ID3v2_to_unicode (lit chars) = .ok ((EditValues.main.wide chars).inMemory []) := by
  have := to_unicode_latin chars [] ⟨h, by simp [Str.bytes, Str.content, Str.terminator]; omega, Or.inr (by simpa using hne)⟩ (by omega)
  unfold Str.inMemory at this
  rw [List.append_nil] at this
  unfold Str.inMemory
  rw [List.append_nil]
  exact this

theorem edit_main_eq [Platform] (cover : List UInt8) (file : File) :
    edit_test_main cover file = edit_test ((EditValues.main cover).input (fun _ => [])) file := by
  unfold edit_test_main
  iterate 9
    rw [to_unicode_lit _ (by decide) (by decide) (by decide)]
    simp only [Res.bind_ok]
  unfold EditValues.input
  simp only [Str.inMemory, List.append_nil]
  rfl

theorem main_readable [Platform] (cover : List UInt8) (hne : cover ≠ []) (hl : cover.length ≤ Platform.stack)
    (hl2 : cover.length < 2 ^ 28) (hst : 38 ≤ Platform.stack) : ∀ f ∈ (EditValues.main cover).frames, f.Readable := by
  have ht : ∀ (k : List UInt8) (s : Str), (SFrame.text k [0, 0] s).WF → s.bytes.length ≤ 38 → s ≠ .latin [] →
      (SFrame.text k [0, 0] s).Readable := by
    intro k s hwf hb h0
    refine ⟨⟨hwf, ?_, hwf.2.2.2, by omega, Or.inr h0⟩, ?_⟩
    · rw [SFrame.bytes_length _ hwf]; simp [SFrame.body]; omega
    · simp only [Wire.ofSFrame, Wire.FitsStack, List.length_nil]; omega
  have hc : ∀ s d : Str, (SFrame.comment [0, 0] engLang d s).WF → s.bytes.length ≤ 38 → d.bytes.length ≤ 38 →
      s ≠ .latin [] → d ≠ .latin [] → (SFrame.comment [0, 0] engLang d s).Readable := by
    intro s d hwf hb hd h0 h1
    refine ⟨⟨hwf, ?_, ⟨hwf.2.2.1, by omega, Or.inr h1⟩, hwf.2.2.2, by omega, Or.inr h0⟩, ?_⟩
    · rw [SFrame.bytes_length _ hwf]; simp [SFrame.body, engLang]; omega
    · simp only [Wire.ofSFrame, Wire.FitsStack]; omega
  have hp : ∀ d : Str, d.WF → d.bytes.length ≤ 38 → d ≠ .latin [] →
      (SFrame.apic [0, 0] pngStr 3 d cover).Readable := by
    intro d hwf hd h1
    have hw : (SFrame.apic [0, 0] pngStr 3 d cover).WF := ⟨by decide, by decide, hwf⟩
    have hpl : pngStr.bytes.length = 10 := rfl
    refine ⟨⟨hw, ?_, ⟨by decide, by decide, Or.inr (by decide)⟩, hwf, by omega, Or.inr h1⟩, ?_⟩
    · rw [SFrame.bytes_length _ hw]; simp only [SFrame.body, List.length_append, List.length_cons]; omega
    · have := List.length_pos_iff.mpr hne
      refine ⟨by omega, by omega, hl, hne⟩
  simp only [EditValues.frames, EditValues.textFrames, testTextIds, EditValues.texts, List.zipWith_cons_cons,
    List.zipWith_nil_left, List.cons_append, List.nil_append, List.forall_mem_cons, EditValues.comment1, EditValues.comment2,
    EditValues.cover1, EditValues.cover2, EditValues.main]
  exact ⟨ht _ _ (by decide) (by decide) (by decide), ht _ _ (by decide) (by decide) (by decide),
    ht _ _ (by decide) (by decide) (by decide), ht _ _ (by decide) (by decide) (by decide),
    ht _ _ (by decide) (by decide) (by decide), ht _ _ (by decide) (by decide) (by decide),
    ht _ _ (by decide) (by decide) (by decide), ht _ _ (by decide) (by decide) (by decide),
    ht _ _ (by decide) (by decide) (by decide), hc _ _ (by decide) (by decide) (by decide) (by decide) (by decide),
    hc _ _ (by decide) (by decide) (by decide) (by decide) (by decide), hp _ (by decide) (by decide) (by decide),
    hp _ (by decide) (by decide) (by decide), by simp⟩

/-- **C92**: the test with the values that are written in it, for every picture file, on a file with a version 2.3 tag. -/
theorem edit_test_main_iff [Platform] (contents : List UInt8) (fs : List SFrame) (spare : Nat) (after cover : List UInt8)
    (h : TaggedFile contents 3 fs spare after) (hne : cover ≠ []) (hl : cover.length ≤ Platform.stack)
    (hst : 38 ≤ Platform.stack) (hs : framesSize ((EditValues.main cover).after fs) + spare < 2 ^ 28) :
    edit_test_main cover (some (ofB contents)) = .ok () ↔
      20 + 10 * missingIds fs ≤ spare ∧
      (∀ f, (all SFrame.id commId fs)[1]? = some f → f = (EditValues.main cover).comment2) ∧
      (∀ f, (all SFrame.id apicId fs)[1]? = some f →
        ∃ type, f = .apic [0, 0] pngStr type (EditValues.main cover).description cover) := by
  rw [edit_main_eq]
  refine edit_test_iff contents 3 fs spare after (EditValues.main cover) _ h (main_readable cover hne hl ?_ hst)
    (fun f _ h => absurd h (by decide)) hs
  rw [after_eq, framesSize_append] at hs
  have : cover.length ≤ framesSize [(EditValues.main cover).cover2] := by
    simp [framesSize, SFrame.bytes, EditValues.cover2, SFrame.body, EditValues.main]; omega
  omega

/-! ## get_test -/

theorem bind_unit_iff {α β : Type} {x : Res α} {f : α → Res Unit} {g : Unit → Res β} {b : β} :
    (x >>= fun a => f a >>= g) = .ok b ↔ (x >>= f) = .ok () ∧ g () = .ok b := by
  cases x with
  | ok a =>
    simp only [Res.bind_ok]
    cases f a with
    | ok u => cases u; simp
    | ub k => simp
    | exit => simp
    | diverge => simp
  | ub k => simp
  | exit => simp
  | diverge => simp

theorem assert_text_none [Platform] (c : TextFrameInput) : assert_text_frame none c ≠ .ok () := by
  intro h
  unfold assert_text_frame at h
  obtain ⟨_, -, h⟩ := Res.bind_eq_ok.mp h
  obtain ⟨_, -, h⟩ := Res.bind_eq_ok.mp h
  obtain ⟨_, -, h⟩ := Res.bind_eq_ok.mp h
  obtain ⟨_, -, h⟩ := Res.bind_eq_ok.mp h
  obtain ⟨_, h, -⟩ := Res.bind_eq_ok.mp h
  simp [assert_frame_header] at h

theorem assert_comment_none [Platform] (c : CommentFrameInput) : assert_comment_frame none c ≠ .ok () := by
  intro h
  unfold assert_comment_frame at h
  obtain ⟨_, -, h⟩ := Res.bind_eq_ok.mp h
  obtain ⟨_, -, h⟩ := Res.bind_eq_ok.mp h
  obtain ⟨_, -, h⟩ := Res.bind_eq_ok.mp h
  obtain ⟨_, -, h⟩ := Res.bind_eq_ok.mp h
  obtain ⟨_, -, h⟩ := Res.bind_eq_ok.mp h
  obtain ⟨_, -, h⟩ := Res.bind_eq_ok.mp h
  obtain ⟨_, -, h⟩ := Res.bind_eq_ok.mp h
  obtain ⟨_, h, -⟩ := Res.bind_eq_ok.mp h
  simp [assert_frame_header] at h

theorem assert_apic_none [Platform] (c : ApicFrameInput) : assert_apic_frame none c ≠ .ok () := by
  intro h
  unfold assert_apic_frame at h
  obtain ⟨_, -, h⟩ := Res.bind_eq_ok.mp h
  obtain ⟨_, -, h⟩ := Res.bind_eq_ok.mp h
  obtain ⟨_, -, h⟩ := Res.bind_eq_ok.mp h
  obtain ⟨_, -, h⟩ := Res.bind_eq_ok.mp h
  obtain ⟨_, h, -⟩ := Res.bind_eq_ok.mp h
  simp [assert_frame_header] at h

theorem first_in (k : List UInt8) (fs : List SFrame) (f : SFrame) (h : first SFrame.id k fs = some f) : f ∈ fs :=
  List.mem_of_find?_eq_some h

/-- **C92**: `get_test` passes, whatever values it expects, exactly for the files in which the first frame with each of the
eleven ids is the frame it expects. (Where `memcmp` reads beyond its arguments' ends, which is where the empty description
of the picture can be handled, see C36.) -/
theorem get_test_iff [Platform] (contents : List UInt8) (version : UInt8) (fs : List SFrame) (spare : Nat)
    (after : List UInt8) (v : GetValues) (rest : Nat → Bytes) (h : TaggedFile contents version fs spare after)
    (hv : ∀ f ∈ v.textFrames ++ [v.commentFrame, v.cover 3], f.Usable) :
    get_test_existing (v.input rest) (some (ofB contents)) = .ok () ↔
      (∀ f ∈ v.textFrames, first SFrame.id f.id fs = some f) ∧ first SFrame.id commId fs = some v.commentFrame ∧
      ∃ type, first SFrame.id apicId fs = some (v.cover type) := by
  obtain ⟨minor, flags, ws, padding, rfl, hver, hflag, hR, hs, hlast, rfl, hsp⟩ := h
  have hok : ∀ f ∈ ws.map Wire.kept, f.Usable := by
    intro f hf
    obtain ⟨w, hw, rfl⟩ := List.mem_map.mp hf
    exact (hR w hw).1.2.1
  have hread : ID3v2_read_tag (some (ofB (wireTagBytes version minor flags ws padding ++ after))) =
      .ok (some (toTag version minor flags ((ws.flatMap (Wire.bytes version)).length + padding) (ws.map Wire.kept) padding)) := by
    have h1 := beyond_length_ignored version minor flags ws padding [] hver hflag hR hs hlast
    rw [wireTag_split, ofB_append, ofB_append, read_tag_prefix version minor flags _ _ _ hver hs (by simp), ← ofB_append,
      ← wireTag_split]
    rw [List.append_nil, Nat.add_assoc] at h1
    exact h1
  have hg := fun k hk => toTag_first version minor flags ((ws.flatMap (Wire.bytes version)).length + padding)
    (ws.map Wire.kept) padding k (ofB [0]) hok hk
  have ha := fun k hk => toTag_all version minor flags ((ws.flatMap (Wire.bytes version)).length + padding)
    (ws.map Wire.kept) padding k (ofB [0]) hok hk
  generalize toTag version minor flags ((ws.flatMap (Wire.bytes version)).length + padding) (ws.map Wire.kept) padding = tag
    at hread hg ha
  generalize ws.map Wire.kept = fs at hok hg ha
  have ht : ∀ (k : List UInt8) (s : Str) (r : Bytes), ValidId k → (SFrame.text k [0, 0] s).Usable →
      ((ID3v2_Tag_get_frame tag (ofB k ++ ofB [0]) >>= fun f =>
        assert_text_frame f (textInput k [0, 0] s (ofB [0]) (ofB [0]) r)) = .ok () ↔
      first SFrame.id k fs = some (.text k [0, 0] s)) := by
    intro k s r hk hu
    rw [hg k hk]
    simp only [Res.bind_ok]
    cases e : first SFrame.id k fs with
    | none => simp [assert_text_none]
    | some f =>
      simp only [Option.map_some, Option.some.injEq]
      rw [assert_text_exact f (hok f (first_in _ _ _ e)).1 _ _ _ _ _ _ hu]
      split <;> simp [*]
  simp only [GetValues.textFrames, testTextIds, GetValues.texts, List.zipWith_cons_cons,
    List.zipWith_nil_left, List.cons_append, List.nil_append, List.forall_mem_cons] at hv
  obtain ⟨h1, h2, h3, h4, h5, h6, h7, h8, h9, h10, h11, -⟩ := hv
  have hc : ∀ f : Option SFrame, (∀ g, f = some g → g.WF) →
      (assert_comment_frame (f.map SFrame.toFrame)
        (commentInput [0, 0] engLang v.short_description v.comment (ofB [0]) (ofB [0]) (rest 10) (rest 9)) = .ok () ↔
      f = some v.commentFrame) := by
    intro f hf
    cases f with
    | none => simp [assert_comment_none]
    | some f =>
      simp only [Option.map_some, Option.some.injEq]
      rw [assert_comment_exact f (hf f rfl) _ _ _ _ _ _ _ _ h10]
      show _ ↔ f = .comment [0, 0] engLang v.short_description v.comment
      split <;> simp [*]
  have hcw : ∀ g, first SFrame.id commId fs = some g → g.WF := fun g e => (hok g (first_in _ _ _ e)).1
  have hc1 : (ID3v2_Tag_get_frame tag (ofB commId ++ ofB [0]) >>= fun f => assert_comment_frame f
      (commentInput [0, 0] engLang v.short_description v.comment (ofB [0]) (ofB [0]) (rest 10) (rest 9))) = .ok () ↔
      first SFrame.id commId fs = some v.commentFrame := by
    rw [hg commId (by decide)]
    exact hc _ hcw
  have hc2 : ((ID3v2_Tag_get_frames tag (ofB commId ++ ofB [0]) >>= head_frame) >>= fun f => assert_comment_frame f
      (commentInput [0, 0] engLang v.short_description v.comment (ofB [0]) (ofB [0]) (rest 10) (rest 9))) = .ok () ↔
      first SFrame.id commId fs = some v.commentFrame := by
    rw [ha commId (by decide)]
    have e : (Res.ok (toFrameList (all SFrame.id commId fs)) >>= head_frame) =
        .ok ((first SFrame.id commId fs).map SFrame.toFrame) := by
      rw [← first_all]
      cases all SFrame.id commId fs <;> rfl
    rw [e]
    exact hc _ hcw
  have hp : (ID3v2_Tag_get_frame tag (ofB apicId ++ ofB [0]) >>= fun f => assert_apic_frame f
      (apicInput [0, 0] pngStr 3 (.latin []) v.picture (ofB [0]) [] [] (rest 12))) = .ok () ↔
      ∃ type, first SFrame.id apicId fs = some (v.cover type) := by
    rw [hg apicId (by decide)]
    simp only [Res.bind_ok]
    cases e : first SFrame.id apicId fs with
    | none => simp [assert_apic_none]
    | some f =>
      simp only [Option.map_some, Option.some.injEq]
      exact assert_apic_exact f (hok f (first_in _ _ _ e)).1 _ _ _ _ _ _ _ _ _ h11
  unfold get_test_existing
  rw [hread]
  simp only [Res.bind_ok]
  simp only [GetValues.textFrames, testTextIds, GetValues.texts, List.zipWith_cons_cons,
    List.zipWith_nil_left, List.forall_mem_cons, List.not_mem_nil, false_implies, implies_true, and_true, SFrame.id, and_assoc]
  refine (bind_unit_iff.trans (and_congr_left' (ht [0x54, 0x50, 0x45, 0x31] v.artist (rest 0) (by decide) h1))).trans (and_congr_right' ?_)
  refine (bind_unit_iff.trans (and_congr_left' (ht [0x54, 0x41, 0x4C, 0x42] v.album (rest 1) (by decide) h2))).trans (and_congr_right' ?_)
  refine (bind_unit_iff.trans (and_congr_left' (ht [0x54, 0x49, 0x54, 0x32] v.title (rest 2) (by decide) h3))).trans (and_congr_right' ?_)
  refine (bind_unit_iff.trans (and_congr_left' (ht [0x54, 0x52, 0x43, 0x4B] v.track (rest 3) (by decide) h4))).trans (and_congr_right' ?_)
  refine (bind_unit_iff.trans (and_congr_left' (ht [0x54, 0x50, 0x45, 0x32] v.album_artist (rest 4) (by decide) h5))).trans (and_congr_right' ?_)
  refine (bind_unit_iff.trans (and_congr_left' (ht [0x54, 0x43, 0x4F, 0x4E] v.genre (rest 5) (by decide) h6))).trans (and_congr_right' ?_)
  refine (bind_unit_iff.trans (and_congr_left' (ht [0x54, 0x59, 0x45, 0x52] v.year (rest 6) (by decide) h7))).trans (and_congr_right' ?_)
  refine (bind_unit_iff.trans (and_congr_left' (ht [0x54, 0x50, 0x4F, 0x53] v.disc_number (rest 7) (by decide) h8))).trans (and_congr_right' ?_)
  refine (bind_unit_iff.trans (and_congr_left' (ht [0x54, 0x43, 0x4F, 0x4D] v.composer (rest 8) (by decide) h9))).trans (and_congr_right' ?_)
  refine (bind_unit_iff.trans (and_congr_left' hc1)).trans ?_
  have hq : ∀ {α β γ : Type} {x : Res α} {f : α → Res β} {g : β → Res Unit} {k : Unit → Res γ},
      (x >>= fun a => f a >>= fun b => g b >>= k) = ((x >>= f) >>= fun b => g b >>= k) := by
    intro α β γ x f g k
    cases x <;> rfl
  refine (and_congr_right' ((Eq.to_iff (congrArg (· = Res.ok ()) hq)).trans (bind_unit_iff.trans (and_congr hc2 hp)))).trans ?_
  exact ⟨fun h => h.2, fun h => ⟨h.1, h⟩⟩

/-- **C92**: and for a file without a tag it dereferences NULL, whatever it expects. -/
theorem get_test_untagged [Platform] (contents : List UInt8) (v : GetInput) (h : tagLength contents = 0) :
    get_test_existing v (some (ofB contents)) = .ub .nullDeref := by
  unfold get_test_existing
  rw [(C67_file_null contents).mpr h]
  rfl

/-- **C92**: where `memcmp` does not read beyond the ends of its arguments, `get_test` with the values that are written in it
never passes: it converts the empty string, of which two bytes are compared with a BOM. -/
theorem get_test_main_strict [Platform] (h : Platform.memcmpLenient = false) (cover : List UInt8) (file : File) :
    get_test_existing_main cover file = .ub .oobRead := by
  have e : ID3v2_to_unicode (lit []) = .ub .oobRead := by
    unfold ID3v2_to_unicode string_has_bom memcmpEq
    simp [lit, ofB, h]
  unfold get_test_existing_main
  iterate 6
    rw [to_unicode_lit _ (by decide) (by decide) (by decide)]
    simp only [Res.bind_ok]
  rw [e]
  rfl

/-- **C92**: the second part of `get_test` passes exactly for two files without a tag. -/
theorem get_test_empty_iff [Platform] (a b : List UInt8) :
    get_test_empty (some (ofB a)) (some (ofB b)) = .ok () ↔ tagLength a = 0 ∧ tagLength b = 0 := by
  unfold get_test_empty
  refine bind_unit_iff.trans (and_congr ?_ ?_)
  · rw [← C67_file_null a]
    cases ID3v2_read_tag (some (ofB a)) with
    | ok r => cases r <;> simp
    | ub k => simp
    | exit => simp
    | diverge => simp
  · rw [← C67_file_null b]
    cases ID3v2_read_tag (some (ofB b)) with
    | ok r => cases r <;> simp
    | ub k => simp
    | exit => simp
    | diverge => simp

/-! ## The hypotheses can be met -/

/-- One short frame for each of the eleven ids. -/
def elevenFrames : List SFrame :=
  testTextIds.map (fun id => SFrame.text id [0, 0] (.latin [0x78])) ++
    [.comment [0, 0] engLang emptyStr (.latin [0x79]), .apic [0, 0] pngStr 3 (.latin []) [1, 2, 3]]

/-- The values in those frames. -/
def shortValues : EditValues :=
  { artist := .latin [0x78], album := .latin [0x78], title := .latin [0x78], track := .latin [0x78]
    album_artist := .latin [0x78], genre := .utf16 false [(0x4E, 0x2D)], year := .latin [0x78], disc_number := .latin [0x78]
    composer := .latin [0x78], comment := .latin [0x79], short_desc := .latin [0x7A], description := .latin [0x7A]
    picture := [1, 2, 3] }

/-- A file with the frames and padding, and audio. -/
def elevenFile (padding : Nat) : List UInt8 :=
  wireTagBytes 3 0 0 (elevenFrames.map Wire.ofSFrame) padding ++ [0xFF, 0xFB, 0x90]

theorem eleven_tagged (padding : Nat) (h : padding < 1000) :
    @TaggedFile lenient (elevenFile padding) 3 elevenFrames padding [0xFF, 0xFB, 0x90] := by
  have hl : (((elevenFrames.map Wire.ofSFrame)).flatMap (Wire.bytes 3)).length = framesSize elevenFrames := by decide +kernel
  have hl2 : framesSize elevenFrames < 1000 := by decide
  exact ⟨0, 0, elevenFrames.map Wire.ofSFrame, padding, rfl, Or.inl rfl, by decide, by decide, by omega,
    by unfold lastSeen; simp [elevenFrames, Wire.ofSFrame, Wire.body], by decide, by omega⟩

/-- `edit_test` passes with the eleven frames and twenty bytes of padding, and overflows with nineteen. -/
example : @edit_test lenient (shortValues.input (fun _ => [])) (some (ofB (elevenFile 20))) = .ok () :=
  (@edit_test_iff lenient _ 3 _ 20 _ shortValues _ (eleven_tagged 20 (by decide)) (by decide)
    (fun f _ h => absurd h (by decide)) (by decide)).mpr ⟨by decide, by decide, fun _ h => nomatch h⟩

example : @edit_test lenient (shortValues.input (fun _ => [])) (some (ofB (elevenFile 19))) = .ub .oobWrite :=
  @edit_test_overflows lenient _ 3 _ 19 _ shortValues _ (eleven_tagged 19 (by decide)) (by decide)
    (fun f _ h => absurd h (by decide)) (by decide) (by decide)

/-- `delete_test` passes. -/
example : @delete_test_main lenient (some (ofB (elevenFile 0))) = .ok () :=
  (@delete_test_iff lenient _ 3 _ 0 _ (eleven_tagged 0 (by decide)) (by decide)
    (fun f _ h => absurd h (by decide))).mpr ⟨Or.inl (by decide), by decide⟩

/-- `get_test` passes with the values in the file. -/
example : @get_test_existing lenient (GetValues.input
    { artist := .latin [0x78], album := .latin [0x78], title := .latin [0x78], track := .latin [0x78]
      album_artist := .latin [0x78], genre := .latin [0x78], year := .latin [0x78], disc_number := .latin [0x78]
      composer := .latin [0x78], comment := .latin [0x79], short_description := emptyStr, picture := [1, 2, 3] } (fun _ => []))
    (some (ofB (elevenFile 5))) = .ok () :=
  (@get_test_iff lenient _ 3 _ 5 _ _ _ (eleven_tagged 5 (by decide)) (by decide)).mpr ⟨by decide, by decide, 3, by decide⟩

/-- The test with its own values passes with eleven frames and room. -/
example : @edit_test_main lenient [1, 2, 3] (some (ofB (elevenFile 20))) = .ok () :=
  (@edit_test_main_iff lenient _ _ 20 _ [1, 2, 3] (eleven_tagged 20 (by decide)) (by decide) (by decide) (by decide)
    (by decide)).mpr ⟨by decide, by decide, fun _ h => nomatch h⟩

end Id3.Props
