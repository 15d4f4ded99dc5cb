import Verif.Spec.Total
import Verif.Proof.History

/-!
# The exact effect of histories of valid calls
-/

namespace Id3

open Spec

/-- The nodes after the frames that are seen. -/
def tailNodes : Option (List SFrame) → FrameList
  | none => []
  | some h => none :: (h.map SFrame.toFrame).map some

/-- The nodes of a tag. -/
def fullNodes (st : Full) : FrameList := (st.seen.map SFrame.toFrame).map some ++ tailNodes st.hidden

/-- The in-memory tag. -/
def fullTag (major minor flags : UInt8) (st : Full) (p : Int) : Tag :=
  { toTag major minor flags (u32 st.size) [] p with frames := fullNodes st }

/-- All frames are usable, and the list has a node. -/
def Full.Ok [Platform] (st : Full) : Prop :=
  (∀ f ∈ st.seen, f.Usable) ∧ (∀ h, st.hidden = some h → ∀ f ∈ h, f.Usable) ∧ (st.seen = [] → st.hidden.isSome)

theorem tail_stops (h : Option (List SFrame)) : Stops (tailNodes h) := by
  cases h with
  | none => exact Or.inl rfl
  | some h => exact Or.inr ⟨_, rfl⟩

theorem State.full_nodes (st : State) : fullNodes st.full = toFrameList st.frames := by
  rw [toFrameList_nodes]
  unfold fullNodes State.full
  cases h : st.frames with
  | nil => rfl
  | cons x xs => simp [tailNodes, nodes]

theorem State.full_tag (major minor flags : UInt8) (st : State) (p : Int) :
    fullTag major minor flags st.full p = tagOf major minor flags st p := by
  unfold fullTag tagOf
  rw [State.full_nodes]
  rfl

theorem State.full_ok [Platform] (st : State) (h : ∀ f ∈ st.frames, f.Usable) : Full.Ok st.full := by
  refine ⟨h, ?_, ?_⟩
  · intro l hl
    unfold State.full at hl
    dsimp only at hl
    split at hl
    · cases hl; simp
    · simp at hl
  · intro hs
    have : st.frames = [] := hs
    simp [State.full, this]

theorem add_full [Platform] (st : Full) (hst : Full.Ok st) (f : SFrame) :
    FrameList_add_frame (fullNodes st) f.toFrame = fullNodes (st.add f) := by
  unfold fullNodes Full.add
  cases hh : st.hidden with
  | none =>
    cases hs : st.seen with
    | nil => have := hst.2.2 hs; simp [hh] at this
    | cons x xs => simp [tailNodes, FrameList_add_frame]
  | some h =>
    cases hs : st.seen with
    | nil => simp [tailNodes, FrameList_add_frame]
    | cons x xs => simp [tailNodes, FrameList_add_frame]

theorem append_full [Platform] (major minor flags : UInt8) (st : Full) (p : Int) (hst : Full.Ok st) (f : SFrame) :
    Tag_append (fullTag major minor flags st p) f.toFrame = fullTag major minor flags (st.add f) p := by
  have hsz : (st.add f).size = st.size + f.body.length := by
    unfold Full.add; split
    · rfl
    · split <;> rfl
  unfold Tag_append
  have e1 : FrameList_add_frame (fullTag major minor flags st p).frames f.toFrame = fullNodes (st.add f) := add_full st hst f
  have e2 : u32 (((fullTag major minor flags st p).header.tag_size : Int) + f.toFrame.header.size) = u32 (st.add f).size := by
    show u32 ((u32 st.size : Int) + (f.body.length : Int)) = _
    rw [u32_add, hsz]
  rw [e1, e2]
  rfl

theorem add_ok [Platform] (st : Full) (hst : Full.Ok st) (f : SFrame) (hf : f.Usable) : Full.Ok (st.add f) := by
  obtain ⟨h1, h2, h3⟩ := hst
  unfold Full.add
  cases hh : st.hidden with
  | none =>
    refine ⟨?_, by simp, by simp⟩
    intro g hg
    rcases List.mem_append.1 hg with hg | hg
    · exact h1 g hg
    · rw [List.mem_singleton.1 hg]; exact hf
  | some h =>
    dsimp only
    split
    · refine ⟨?_, by simp, by simp⟩
      intro g hg
      rcases List.mem_cons.1 hg with rfl | hg
      · exact hf
      · exact h2 h hh g hg
    · next hne =>
      refine ⟨h1, ?_, fun h => absurd h hne⟩
      intro l hl g hg
      cases hl
      rcases List.mem_append.1 hg with hg | hg
      · exact h2 h hh g hg
      · rw [List.mem_singleton.1 hg]; exact hf

/-- Storing a frame. -/
theorem set_full [Platform] (major minor flags : UInt8) (st : Full) (p : Int) (hst : Full.Ok st) (f : SFrame) (rest : Bytes)
    (hk : ValidId f.id) (hf : f.Usable) :
    Tag_set_frame (fullTag major minor flags st p) (ofB f.id ++ rest) f.toFrame =
      .ok (fullTag major minor flags (st.set f) p) ∧ Full.Ok (st.set f) := by
  have hsound : ∀ g ∈ st.seen, g.toFrame.Sound := fun g hg => SFrame.sound g (hst.1 g hg)
  have hlen := body_lt f hf
  rcases split_first' st.seen f.id with hm | ⟨a, g, b, hfs, hg, ha⟩
  · have e : st.set f = st.add f := by unfold Full.set; rw [first_miss _ _ hm]
    rw [e]
    refine ⟨?_, add_ok st hst f hf⟩
    rw [set_frame_miss (fullTag major minor flags st p) (st.seen.map SFrame.toFrame) (tailNodes st.hidden) f.id rest f.toFrame
        rfl (tail_stops _) hk (by
          intro x hx
          obtain ⟨y, hy, rfl⟩ := List.mem_map.mp hx
          exact ⟨hsound y hy, by rw [toFrame_key]; exact hm y hy⟩), append_full _ _ _ _ _ hst]
  · have hput : put SFrame.id f.id f st.seen = a ++ f :: b := by rw [hfs]; exact put_hit _ _ _ _ _ ha hg
    have e : st.set f = { st with seen := a ++ f :: b, size := st.size + f.body.length - g.body.length } := by
      unfold Full.set
      rw [hput, hfs, first_hit _ a g b ha hg]
    have hglen := body_lt g (hst.1 g (by rw [hfs]; simp))
    rw [e]
    refine ⟨?_, ?_, hst.2.1, by simp⟩
    · rw [set_frame_hit (fullTag major minor flags st p) (a.map SFrame.toFrame) g.toFrame
        ((b.map SFrame.toFrame).map some ++ tailNodes st.hidden) f.id rest f.toFrame (by
          show fullNodes st = _
          unfold fullNodes; rw [hfs]; simp) hk (by
          intro x hx
          obtain ⟨y, hy, rfl⟩ := List.mem_map.mp hx
          exact ⟨hsound y (by rw [hfs]; simp [hy]), by rw [toFrame_key]; exact ha y hy⟩)
        (hsound g (by rw [hfs]; simp)) (by rw [toFrame_key]; exact hg)
        (SFrame.sound f hf).2.2.1 (by have := (SFrame.sound f hf).2.2.2; omega)]
      have e2 : u32 (((fullTag major minor flags st p).header.tag_size : Int) +
          (f.toFrame.header.size - g.toFrame.header.size)) = u32 (st.size + f.body.length - g.body.length) := by
        show u32 ((u32 st.size : Int) + ((f.body.length : Int) - (g.body.length : Int))) = _
        rw [u32_add]; congr 1; omega
      rw [e2, Res.ok.injEq]
      unfold fullTag fullNodes
      simp only [List.map_append, List.map_cons, List.append_assoc, List.cons_append]
      rfl
    · intro x hx
      simp only [List.mem_append, List.mem_cons] at hx
      rcases hx with hx | rfl | hx
      · exact hst.1 x (by rw [hfs]; simp [hx])
      · exact hf
      · exact hst.1 x (by rw [hfs]; simp [hx])

/-- What erasing leaves. -/
theorem erase_split (st : Full) (k : List UInt8) (n : Nat) (size : Int) (a b : List SFrame) (g : SFrame)
    (hfs : st.seen = a ++ g :: b) (hg : g.id = k) (hn : (all SFrame.id k a).length = n)
    (he : eraseNth SFrame.id k n st.seen = a ++ b) :
    st.erase k n size = ⟨a ++ b, if st.hidden.isNone ∧ b = [] then some [] else st.hidden, size⟩ := by
  have : (all SFrame.id k st.seen.dropLast).length = n ↔ b = [] := by
    rw [hfs]
    cases hb : b with
    | nil => simp [hn]
    | cons y ys =>
      rw [List.dropLast_append_cons, List.dropLast_cons_cons]
      simp only [all, List.filter_append, List.filter_cons, hg, decide_true, if_true, List.length_append, List.length_cons] at *
      constructor
      · intro h; omega
      · intro h; cases h
  unfold Full.erase
  rw [he]
  simp only [this]

theorem unlink_full [Platform] (st : Full) (a b : List SFrame) (size : Int) :
    (a.map SFrame.toFrame).map some ++ unlinkNode ((b.map SFrame.toFrame).map some ++ tailNodes st.hidden) =
      fullNodes ⟨a ++ b, if st.hidden.isNone ∧ b = [] then some [] else st.hidden, size⟩ := by
  unfold fullNodes
  cases hb : b with
  | nil =>
    cases st.hidden with
    | none => simp [tailNodes, unlinkNode]
    | some h => simp [tailNodes, unlinkNode]
  | cons y ys => simp [unlinkNode]

theorem erase_ok [Platform] (st : Full) (hst : Full.Ok st) (size : Int) (a b : List SFrame) (g : SFrame)
    (hfs : st.seen = a ++ g :: b) :
    Full.Ok ⟨a ++ b, if st.hidden.isNone ∧ b = [] then some [] else st.hidden, size⟩ := by
  refine ⟨?_, ?_, ?_⟩
  · intro x hx
    refine hst.1 x ?_
    rw [hfs]
    simp only [List.mem_append, List.mem_cons] at *
    rcases hx with hx | hx
    · exact Or.inl hx
    · exact Or.inr (Or.inr hx)
  · intro h hh
    dsimp only at hh
    split at hh
    · cases hh; simp
    · exact hst.2.1 h hh
  · intro h
    obtain ⟨-, hb⟩ := List.append_eq_nil_iff.1 h
    dsimp only
    cases hh : st.hidden with
    | none => simp [hb]
    | some l => simp

theorem eraseNth_hit (k : List UInt8) (a b : List SFrame) (g : SFrame) (ha : ∀ x ∈ a, x.id ≠ k) (hg : g.id = k) :
    eraseNth SFrame.id k 0 (a ++ g :: b) = a ++ b := by
  induction a with
  | nil => simp [eraseNth, hg]
  | cons x xs ih =>
    simp only [List.cons_append, eraseNth, ha x (by simp), if_false]
    rw [ih (fun y hy => ha y (by simp [hy]))]

/-- Deleting by id. -/
theorem delete_full [Platform] (major minor flags : UInt8) (st : Full) (p : Int) (hst : Full.Ok st) (k : List UInt8)
    (rest : Bytes) (hk : ValidId k) :
    (∀ st', st.delete k = some st' → ID3v2_Tag_delete_frame (fullTag major minor flags st p) (ofB k ++ rest) =
        .ok (fullTag major minor flags st' p) ∧ Full.Ok st') ∧
      (st.delete k = none → ID3v2_Tag_delete_frame (fullTag major minor flags st p) (ofB k ++ rest) = .ub .nullDeref) := by
  have hsound : ∀ g ∈ st.seen, g.toFrame.Sound := fun g hg => SFrame.sound g (hst.1 g hg)
  rcases split_first' st.seen k with hm | ⟨a, g, b, hfs, hg, ha⟩
  · have e : st.delete k = none := by unfold Full.delete; rw [first_miss _ _ hm]
    rw [e]
    refine ⟨by simp, fun _ => ?_⟩
    have hm' : ∀ f ∈ st.seen.map SFrame.toFrame, f.Sound ∧ f.key ≠ k := by
      intro x hx
      obtain ⟨y, hy, rfl⟩ := List.mem_map.mp hx
      exact ⟨hsound y hy, by rw [toFrame_key]; exact hm y hy⟩
    unfold ID3v2_Tag_delete_frame
    show (FrameList_remove_frame_by_id (fullNodes st) (ofB k ++ rest)).bind _ = _
    unfold fullNodes
    cases hh : st.hidden with
    | none =>
      simp only [tailNodes, List.append_nil]
      rw [remove_miss _ k rest hk hm']
      rfl
    | some h =>
      simp only [tailNodes]
      rw [remove_hole _ _ k rest hk hm']
      rfl
  · have e : st.delete k = some (st.erase k 0 (st.size - 10 - g.body.length)) := by
      unfold Full.delete; rw [hfs, first_hit _ a g b ha hg]
    have hn : (all SFrame.id k a).length = 0 := by
      rw [List.length_eq_zero_iff]
      simp only [all, List.filter_eq_nil_iff, decide_eq_true_eq]; exact ha
    have e2 := erase_split st k 0 (st.size - 10 - g.body.length) a b g hfs hg hn (by rw [hfs]; exact eraseNth_hit k a b g ha hg)
    rw [e, e2]
    refine ⟨?_, by simp⟩
    intro st' h
    cases h
    refine ⟨?_, erase_ok st hst _ a b g hfs⟩
    rw [delete_hit (fullTag major minor flags st p) (a.map SFrame.toFrame) g.toFrame
      ((b.map SFrame.toFrame).map some ++ tailNodes st.hidden) k rest (by
        show fullNodes st = _
        unfold fullNodes; rw [hfs]; simp) hk (by
        intro x hx
        obtain ⟨y, hy, rfl⟩ := List.mem_map.mp hx
        exact ⟨hsound y (by rw [hfs]; simp [hy]), by rw [toFrame_key]; exact ha y hy⟩)
      (hsound g (by rw [hfs]; simp)) (by rw [toFrame_key]; exact hg)]
    have e3 : u32 (((fullTag major minor flags st p).header.tag_size : Int) - (g.toFrame.header.size + 10)) =
        u32 (st.size - 10 - g.body.length) := by
      show u32 ((u32 st.size : Int) - ((g.body.length : Int) + 10)) = _
      rw [Int.sub_eq_add_neg, u32_add]; congr 1; omega
    rw [e3, unlink_full st a b (st.size - 10 - g.body.length)]
    rfl

theorem remove_null_full (fs : List Frame) (t : FrameList) :
    FrameList_remove_null (fs.map some ++ none :: t) = fs.map some ++ unlinkNode t := by
  induction fs with
  | nil => rfl
  | cons x xs ih => simp [FrameList_remove_null, ih]

theorem matches_get {k : List UInt8} {n : Nat} {fs : List SFrame} (h : n < (all SFrame.id k fs).length) :
    ∃ i a g b, (matchesFrom k 0 (fs.map SFrame.toFrame))[n]? = some (i, g.toFrame) ∧ fs = a ++ g :: b ∧ g.id = k ∧
      i = a.length ∧ eraseNth SFrame.id k n fs = a ++ b ∧ (all SFrame.id k a).length = n := by
  suffices H : ∀ (fs : List SFrame) (n m : Nat), n < (all SFrame.id k fs).length →
      ∃ i a g b, (matchesFrom k m (fs.map SFrame.toFrame))[n]? = some (i, g.toFrame) ∧ fs = a ++ g :: b ∧ g.id = k ∧
        i = m + a.length ∧ eraseNth SFrame.id k n fs = a ++ b ∧ (all SFrame.id k a).length = n by
    obtain ⟨i, a, g, b, h1, h2, h3, h4, h5⟩ := H fs n 0 h
    exact ⟨i, a, g, b, h1, h2, h3, by omega, h5⟩
  intro fs
  induction fs with
  | nil => intro n m h; simp [all] at h
  | cons x xs ih =>
    intro n m h
    by_cases hx : x.id = k
    · cases n with
      | zero => exact ⟨m, [], x, xs, by simp [matchesFrom, toFrame_key, hx], rfl, hx, rfl, by simp [eraseNth, hx], rfl⟩
      | succ n =>
        simp only [all, List.filter_cons, hx, decide_true, if_true, List.length_cons] at h
        obtain ⟨i, a, g, b, h1, h2, h3, h4, h5, h6⟩ := ih n (m + 1) (by simp only [all]; omega)
        refine ⟨i, x :: a, g, b, ?_, by rw [h2]; rfl, h3, by simp; omega, ?_, ?_⟩
        · simp only [List.map_cons, matchesFrom, toFrame_key, hx, if_true, List.getElem?_cons_succ]; exact h1
        · simp only [eraseNth, hx, if_true, h5, List.cons_append]
        · simp only [all, List.filter_cons, hx, decide_true, if_true, List.length_cons] at *; omega
    · simp only [all, List.filter_cons, hx, decide_false, Bool.false_eq_true, if_false] at h
      obtain ⟨i, a, g, b, h1, h2, h3, h4, h5, h6⟩ := ih n (m + 1) (by simp only [all]; omega)
      refine ⟨i, x :: a, g, b, ?_, by rw [h2]; rfl, h3, by simp; omega, ?_, ?_⟩
      · simp only [List.map_cons, matchesFrom, toFrame_key, hx, if_false]; exact h1
      · cases n <;> simp only [eraseNth, hx, if_false, h5, List.cons_append]
      · simp only [all, List.filter_cons, hx, decide_false, Bool.false_eq_true, if_false]; exact h6

/-- Deleting by index. -/
theorem deleteAt_full [Platform] (major minor flags : UInt8) (st : Full) (p : Int) (hst : Full.Ok st) (k : List UInt8)
    (rest : Bytes) (index : Int) (hk : ValidId k) :
    ID3v2_Tag_delete_frame_at (fullTag major minor flags st p) (ofB k ++ rest) index =
      .ok (fullTag major minor flags (st.deleteAt k index) p) ∧ Full.Ok (st.deleteAt k index) := by
  have hsound : ∀ g ∈ st.seen, g.toFrame.Sound := fun g hg => SFrame.sound g (hst.1 g hg)
  have hm : FrameList_matching (fullTag major minor flags st p).frames (ofB k ++ rest) =
      .ok (matchesFrom k 0 (st.seen.map SFrame.toFrame)) :=
    matching_eq (st.seen.map SFrame.toFrame) (tailNodes st.hidden) k rest hk (by
      intro x hx
      obtain ⟨y, hy, rfl⟩ := List.mem_map.mp hx
      exact hsound y hy) (tail_stops _)
  have hlen : (matchesFrom k 0 (st.seen.map SFrame.toFrame)).length = (all SFrame.id k st.seen).length := by
    rw [← List.length_map (f := fun p => p.2), matchesFrom_frames, all_map SFrame.toFrame (k1 := SFrame.id) toFrame_key,
      List.length_map]
  unfold ID3v2_Tag_delete_frame_at Full.deleteAt
  rw [hm]
  simp only [Res.bind_ok]
  by_cases hneg : index < 0
  · rw [if_pos hneg]
    refine ⟨?_, hst⟩
    cases hms : matchesFrom k 0 (st.seen.map SFrame.toFrame) with
    | nil => dsimp only; rw [if_neg (by omega)]; rfl
    | cons x xs => dsimp only; rw [if_pos hneg]; rfl
  rw [if_neg hneg]
  by_cases hr : index.toNat < (all SFrame.id k st.seen).length
  · rw [if_pos hr]
    obtain ⟨i, a, g, b, h1, h2, h3, h4, h5, h6⟩ := matches_get hr
    rw [erase_split st k index.toNat st.size a b g h2 h3 h6 h5]
    refine ⟨?_, erase_ok st hst _ a b g h2⟩
    cases hms : matchesFrom k 0 (st.seen.map SFrame.toFrame) with
    | nil => rw [hms] at hlen; simp only [List.length_nil] at hlen; omega
    | cons x xs =>
      dsimp only
      rw [hms] at h1
      rw [if_neg hneg, h1]
      dsimp only
      have e : (fullTag major minor flags st p).frames = (a.map SFrame.toFrame).map some ++
          some g.toFrame :: ((b.map SFrame.toFrame).map some ++ tailNodes st.hidden) := by
        show fullNodes st = _
        unfold fullNodes; rw [h2]; simp
      rw [e, remove_at _ _ _ i (by simp [h4]), unlink_full st a b st.size, (hsound g (by rw [h2]; simp)).2.1]
      rfl
  · rw [if_neg hr]
    by_cases h0 : index = 0
    · subst h0
      have hnil : matchesFrom k 0 (st.seen.map SFrame.toFrame) = [] := by
        rw [← List.length_eq_zero_iff, hlen]; omega
      rw [hnil]
      dsimp only
      rw [if_pos rfl, if_pos rfl]
      have hn : FrameList_remove_null (fullTag major minor flags st p).frames =
          (match st.hidden with
            | none => fullNodes st
            | some h => (st.seen.map SFrame.toFrame).map some ++ unlinkNode ((h.map SFrame.toFrame).map some)) := by
        show FrameList_remove_null (fullNodes st) = _
        unfold fullNodes
        cases hh : st.hidden with
        | none =>
          dsimp only [tailNodes]
          cases hs : st.seen with
          | nil => have := hst.2.2 hs; simp [hh] at this
          | cons x xs =>
            have := remove_null_clean ((x :: xs).map SFrame.toFrame)
            rw [nodes_eq _ (by simp)] at this
            rw [List.append_nil]
            exact this
        | some h => exact remove_null_full _ _
      rw [hn]
      cases hh : st.hidden with
      | none => exact ⟨rfl, hst⟩
      | some h =>
        cases h with
        | nil =>
          dsimp only
          refine ⟨?_, hst⟩
          unfold fullTag fullNodes
          rw [hh]
          rfl
        | cons x xs =>
          dsimp only
          refine ⟨?_, ?_, by simp, by simp⟩
          · unfold fullTag fullNodes
            simp [tailNodes, unlinkNode]
          · intro y hy
            rcases List.mem_append.1 hy with hy | hy
            · exact hst.1 y hy
            · exact hst.2.1 _ hh y hy
    · simp only [if_neg h0]
      refine ⟨?_, hst⟩
      cases hms : matchesFrom k 0 (st.seen.map SFrame.toFrame) with
      | nil => rfl
      | cons x xs =>
        dsimp only
        rw [hms] at hlen
        rw [if_neg hneg, List.getElem?_eq_none (by omega)]
        rfl

/-- One call. -/
theorem effect_full [Platform] (major minor flags : UInt8) (st : Full) (p : Int) (rest : Bytes) (op : Op) (hst : Full.Ok st)
    (hv : op.Valid) :
    (∀ st', op.effect st = some st' →
      op.run rest (fullTag major minor flags st p) = .ok (fullTag major minor flags st' p) ∧ Full.Ok st') ∧
    (op.effect st = none → op.run rest (fullTag major minor flags st p) = .ub .nullDeref) := by
  have lift : ∀ st1, op.effect st = some st1 →
      (op.run rest (fullTag major minor flags st p) = .ok (fullTag major minor flags st1 p) ∧ Full.Ok st1) →
      ((∀ st', op.effect st = some st' →
        op.run rest (fullTag major minor flags st p) = .ok (fullTag major minor flags st' p) ∧ Full.Ok st') ∧
      (op.effect st = none → op.run rest (fullTag major minor flags st p) = .ub .nullDeref)) := by
    intro st1 e h
    rw [e]
    exact ⟨fun st' hs => by cases hs; exact h, by simp⟩
  cases op with
  | setText id fl s =>
    obtain ⟨h1, h2⟩ := set_full major minor flags st p hst (.text id fl s) rest hv.1 hv.2
    refine lift _ rfl ⟨?_, h2⟩
    simp only [Op.run, ID3v2_Tag_set_text_frame, Str.inMemory]
    rw [text_new hv.2]
    exact h1
  | setComment fl lang desc txt =>
    obtain ⟨h1, h2⟩ := set_full major minor flags st p hst (.comment fl lang desc txt) (ofB [0]) (show ValidId commId by decide) hv
    refine lift _ rfl ⟨?_, h2⟩
    simp only [Op.run, ID3v2_Tag_set_comment_frame, Str.inMemory]
    rw [comment_new hv]
    exact h1
  | addComment fl lang desc txt =>
    have h1 := append_full major minor flags st p hst (.comment fl lang desc txt)
    refine lift _ rfl ⟨?_, add_ok st hst _ hv⟩
    simp only [Op.run, ID3v2_Tag_add_comment_frame, Str.inMemory]
    rw [comment_new hv]
    simp only [Res.bind_ok, Res.pure_eq, h1]
  | setApic fl mime pt desc pic =>
    obtain ⟨h1, h2⟩ := set_full major minor flags st p hst (.apic fl mime pt desc pic) (ofB [0]) (show ValidId apicId by decide) hv
    refine lift _ rfl ⟨?_, h2⟩
    simp only [Op.run, ID3v2_Tag_set_apic_frame, ApicFrame_of_input, Str.inMemory]
    rw [apic_new hv _ _ _ _ _ rfl]
    exact h1
  | addApic fl mime pt desc pic =>
    have h1 := append_full major minor flags st p hst (.apic fl mime pt desc pic)
    refine lift _ rfl ⟨?_, add_ok st hst _ hv⟩
    simp only [Op.run, ID3v2_Tag_add_apic_frame, ApicFrame_of_input, Str.inMemory]
    rw [apic_new hv _ _ _ _ _ rfl]
    simp only [Res.bind_ok, Res.pure_eq, h1]
  | delete id => exact delete_full major minor flags st p hst id rest hv
  | deleteComment i => exact lift _ rfl (deleteAt_full major minor flags st p hst commId (ofB [0]) i (by decide))
  | deleteApic i => exact lift _ rfl (deleteAt_full major minor flags st p hst apicId (ofB [0]) i (by decide))

/-- A whole history. -/
theorem effects_full [Platform] (major minor flags : UInt8) (p : Int) (rest : Bytes) (ops : List Op) (st : Full)
    (hst : Full.Ok st) (hv : ∀ op ∈ ops, op.Valid) :
    (∀ st', effectAll ops st = some st' →
      runAll rest ops (fullTag major minor flags st p) = .ok (fullTag major minor flags st' p) ∧ Full.Ok st') ∧
    (effectAll ops st = none → runAll rest ops (fullTag major minor flags st p) = .ub .nullDeref) := by
  induction ops generalizing st with
  | nil => exact ⟨fun st' h => (by cases h; exact ⟨rfl, hst⟩), fun h => (by cases h)⟩
  | cons op ops ih =>
    obtain ⟨h1, h2⟩ := effect_full major minor flags st p rest op hst (hv op (by simp))
    simp only [effectAll, runAll]
    cases he : op.effect st with
    | none =>
      rw [h2 he]
      exact ⟨fun _ h => (by cases h), fun _ => rfl⟩
    | some st1 =>
      obtain ⟨h3, h4⟩ := h1 st1 he
      rw [h3]
      simp only [Res.bind_ok, Option.bind_some]
      exact ih st1 h4 (fun o ho => hv o (by simp [ho]))

end Id3
