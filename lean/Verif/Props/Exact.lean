import Verif.Spec.Effects
import Verif.Proof.Total
import Verif.Props.History

/-!
# C25 - C34: the exact effect of every history of valid calls

The specification is in `Verif/Spec/Total.lean`. Nothing is assumed about what is deleted: a history may delete frames that
are not there, and the last of several frames.
-/

namespace Id3.Props

open Id3 Spec

/-- **C31**, exactly: every history of valid calls has the effect of the specification, or dereferences NULL where the
specification says so. Afterwards every lookup gives what the seen frames give. -/
theorem history_exact [Platform] (tag : Tag) (st : State) (ops : List Op) (rest r : Bytes) (hstart : Start tag st)
    (hv : ∀ op ∈ ops, op.Valid) :
    (effectAll ops st.full = none → runAll rest ops tag = .ub .nullDeref) ∧
    (∀ st', effectAll ops st.full = some st' → ∃ tag', runAll rest ops tag = .ok tag' ∧
      tag'.frames = (st'.seen.map (fun f => some f.toFrame)) ++
        (match st'.hidden with
          | none => []
          | some h => none :: h.map (fun f => some f.toFrame)) ∧
      tag'.header = { tag.header with tag_size := u32 st'.size } ∧ tag'.padding_size = tag.padding_size ∧
      (∀ k, ValidId k → ID3v2_Tag_get_frame tag' (ofB k ++ r) = .ok ((first SFrame.id k st'.seen).map SFrame.toFrame)) ∧
      (∀ k, ValidId k → ID3v2_Tag_get_frames tag' (ofB k ++ r) = .ok (toFrameList (all SFrame.id k st'.seen)))) := by
  obtain ⟨hu, major, minor, flags, ht⟩ := start_eq tag st hstart
  obtain ⟨h1, h2⟩ := effects_full major minor flags tag.padding_size rest ops st.full (State.full_ok st hu) hv
  rw [State.full_tag, ← ht] at h1 h2
  refine ⟨h2, ?_⟩
  intro st' he
  obtain ⟨h3, h4⟩ := h1 st' he
  have hsound : ∀ f ∈ st'.seen.map SFrame.toFrame, f.Sound := by
    intro x hx
    obtain ⟨y, hy, rfl⟩ := List.mem_map.mp hx
    exact SFrame.sound y (h4.1 y hy)
  refine ⟨_, h3, ?_, ?_, rfl, ?_, ?_⟩
  · show fullNodes st' = _
    unfold fullNodes tailNodes
    cases st'.hidden <;> simp [Function.comp_def]
  · rw [ht]; rfl
  · intro k hk
    show (FrameList_get_frame_by_id (fullNodes st') (ofB k ++ r)).bind _ = _
    rcases split_first' st'.seen k with hm | ⟨a, g, b, hfs, hg, ha⟩
    · unfold fullNodes
      rw [get_miss _ _ k r hk (by
        intro x hx
        obtain ⟨y, hy, rfl⟩ := List.mem_map.mp hx
        exact ⟨hsound _ hx, by rw [toFrame_key]; exact hm y hy⟩) (tail_stops _), first_miss _ _ hm]
      rfl
    · have e : fullNodes st' = (a.map SFrame.toFrame).map some ++
          some g.toFrame :: ((b.map SFrame.toFrame).map some ++ tailNodes st'.hidden) := by
        unfold fullNodes; rw [hfs]; simp
      rw [e, get_hit _ _ _ k r hk (by
        intro x hx
        obtain ⟨y, hy, rfl⟩ := List.mem_map.mp hx
        exact ⟨hsound _ (by rw [hfs]; simp; exact Or.inl ⟨y, hy, rfl⟩), by rw [toFrame_key]; exact ha y hy⟩)
        (hsound _ (by rw [hfs]; simp)) (by rw [toFrame_key]; exact hg), hfs, first_hit _ a g b ha hg]
      rfl
  · intro k hk
    show FrameList_get_frames_by_id (fullNodes st') (ofB k ++ r) = _
    unfold fullNodes
    rw [get_frames_eq _ _ k r hk hsound (tail_stops _), all_map SFrame.toFrame (k1 := SFrame.id) toFrame_key,
      toFrameList_nodes]

/-- Title, artist, delete artist, album, delete title, comment: the album is not seen until the title is gone. -/
def holeHistory : List Op :=
  [.setText [0x54, 0x49, 0x54, 0x32] [0, 0] (.latin [0x48, 0x69]),
   .setText [0x54, 0x50, 0x45, 0x31] [0, 0] (.latin [0x48, 0x6F]),
   .delete [0x54, 0x50, 0x45, 0x31],
   .setText [0x54, 0x41, 0x4C, 0x42] [0, 0] (.latin [0x48, 0x61]),
   .delete [0x54, 0x49, 0x54, 0x32],
   .addComment [0, 0] [0x65, 0x6E, 0x67] (.latin [0x61]) (.latin [0x62])]

example : (∀ op ∈ holeHistory, @Op.Valid strict op) ∧
    effectAll (holeHistory.take 4) (State.full ⟨[], 0⟩) =
      some ⟨[.text [0x54, 0x49, 0x54, 0x32] [0, 0] (.latin [0x48, 0x69])],
        some [.text [0x54, 0x41, 0x4C, 0x42] [0, 0] (.latin [0x48, 0x61])], -2⟩ ∧
    effectAll (holeHistory.take 5) (State.full ⟨[], 0⟩) =
      some ⟨[], some [.text [0x54, 0x41, 0x4C, 0x42] [0, 0] (.latin [0x48, 0x61])], -16⟩ ∧
    effectAll holeHistory (State.full ⟨[], 0⟩) =
      some ⟨[.comment [0, 0] [0x65, 0x6E, 0x67] (.latin [0x61]) (.latin [0x62]),
        .text [0x54, 0x41, 0x4C, 0x42] [0, 0] (.latin [0x48, 0x61])], none, -8⟩ ∧
    effectAll (holeHistory.take 4 ++ [.delete [0x54, 0x41, 0x4C, 0x42]]) (State.full ⟨[], 0⟩) = none := by decide

/-! ## The two specifications agree on safe histories -/

theorem set_agrees [Platform] (st : State) (f : SFrame) (hst : ∀ f ∈ st.frames, f.Usable) (hf : f.Usable) :
    st.full.set f = (st.set f).full := by
  have hlen := body_lt f hf
  rcases split_first' st.frames f.id with hm | ⟨a, g, b, hfs, hg, ha⟩
  · have hhas : st.has f.id = false := by unfold State.has; rw [first_miss _ _ hm]; rfl
    have hput : put SFrame.id f.id f st.frames = st.frames ++ [f] := put_miss _ _ _ hm
    have e : st.full.set f = st.full.add f := by
      unfold Full.set; rw [show st.full.seen = st.frames from rfl, first_miss _ _ hm]
    rw [e]
    unfold Full.add State.full State.set State.size
    simp only [hhas, hput, framesSize_append, framesSize_cons, framesSize_nil, Bool.false_eq_true, if_false]
    cases st.frames with
    | nil => simp; omega
    | cons x xs => simp; omega
  · have hhas : st.has f.id = true := by unfold State.has; rw [hfs, first_hit _ a g b ha hg]; rfl
    have hput : put SFrame.id f.id f st.frames = a ++ f :: b := by rw [hfs]; exact put_hit _ _ _ _ _ ha hg
    have hglen := body_lt g (hst g (by rw [hfs]; simp))
    unfold Full.set
    rw [show st.full.seen = st.frames from rfl, hput, hfs, first_hit _ a g b ha hg]
    unfold State.full State.set State.size
    simp only [hhas, if_true]
    rw [hput, hfs]
    simp only [framesSize_append, framesSize_cons, Full.mk.injEq, true_and]
    refine ⟨by simp, by omega⟩

theorem add_agrees [Platform] (st : State) (f : SFrame) (hf : f.Usable) : st.full.add f = (st.add f).full := by
  have hlen := body_lt f hf
  unfold Full.add State.full State.add State.size
  simp only [framesSize_append, framesSize_cons, framesSize_nil]
  cases st.frames with
  | nil => simp; omega
  | cons x xs => simp; omega

theorem erase_agrees (st : State) (k : List UInt8) (n : Nat) (size : Int) (hn : n < (all SFrame.id k st.frames).length)
    (ht : ¬ removesTail SFrame.id k n st.frames) :
    st.full.erase k n size = ⟨eraseNth SFrame.id k n st.frames,
      if eraseNth SFrame.id k n st.frames = [] then some [] else none, size⟩ := by
  obtain ⟨i, a, g, b, -, h2, h3, -, h5, h6⟩ := matches_get hn
  rw [erase_split st.full k n size a b g h2 h3 h6 h5, h5]
  have hne : st.frames ≠ [] := by rw [h2]; simp
  have hhid : st.full.hidden = none := by simp [State.full, hne]
  rw [hhid]
  have hb : b = [] → a = [] := by
    intro hb
    by_cases hA : a = []
    · exact hA
    · exfalso
      apply ht
      subst hb
      rw [h2]
      refine ⟨?_, by simp [h6], ?_⟩
      · cases a with
        | nil => exact absurd rfl hA
        | cons => simp
      · simp only [all, List.filter_append, List.filter_cons, h3, decide_true, if_true, List.length_append,
          List.filter_nil, List.length_cons, List.length_nil] at *
        omega
  cases b with
  | nil => rw [hb rfl]; simp
  | cons y ys => simp

theorem effect_agrees [Platform] (st : State) (op : Op) (hst : ∀ f ∈ st.frames, f.Usable) (hv : op.Valid)
    (hd : op.DeleteSafe st) : op.effect st.full = some (op.apply st).full := by
  have hat : ∀ k index, st.IndexSafe k index → st.full.deleteAt k index = (st.deleteAt k index).full := by
    intro k index hi
    unfold Full.deleteAt State.deleteAt
    by_cases hneg : index < 0
    · rw [if_pos hneg, if_pos hneg]
    rw [if_neg hneg, if_neg hneg]
    rcases hi with hi | hi
    · exact absurd hi hneg
    by_cases hr : index.toNat < (all SFrame.id k st.full.seen).length
    · rw [if_pos hr, erase_agrees st k index.toNat _ hr hi]
      unfold State.full State.size
      simp only [Full.mk.injEq, true_and]
      omega
    · rw [if_neg hr]
      have hsame : eraseNth SFrame.id k index.toNat st.frames = st.frames :=
        eraseNth_miss k index.toNat st.frames (by have : st.full.seen = st.frames := rfl; rw [this] at hr; omega)
      have e : (⟨eraseNth SFrame.id k index.toNat st.frames,
          st.room + framesSize st.frames - framesSize (eraseNth SFrame.id k index.toNat st.frames)⟩ : State) = st := by
        rw [hsame]; cases st; simp only [State.mk.injEq, true_and]; omega
      rw [e]
      split
      · unfold State.full
        dsimp only
        by_cases h : st.frames = [] <;> simp [h]
      · rfl
  cases op with
  | setText id fl s => exact congrArg some (set_agrees st _ hst hv.2)
  | setComment fl lang desc txt => exact congrArg some (set_agrees st _ hst hv)
  | addComment fl lang desc txt => exact congrArg some (add_agrees st _ hv)
  | setApic fl mime pt desc pic => exact congrArg some (set_agrees st _ hst hv)
  | addApic fl mime pt desc pic => exact congrArg some (add_agrees st _ hv)
  | deleteComment i => exact congrArg some (hat _ _ hd)
  | deleteApic i => exact congrArg some (hat _ _ hd)
  | delete k =>
    obtain ⟨hh, ht⟩ := hd
    rcases split_first' st.frames k with hm | ⟨a, g, b, hfs, hg, ha⟩
    · unfold State.has at hh; rw [first_miss _ _ hm] at hh; simp at hh
    · have hglen := body_lt g (hst g (by rw [hfs]; simp))
      have hfirst : first SFrame.id k st.full.seen = some g := by
        rw [show st.full.seen = st.frames from rfl, hfs]; exact first_hit _ a g b ha hg
      have hlen : 0 < (all SFrame.id k st.frames).length := by
        rw [hfs]; simp [all, hg]; omega
      have her : eraseFirst SFrame.id k st.frames = a ++ b := by rw [hfs]; exact eraseFirst_hit _ _ _ _ ha hg
      have her' : eraseNth SFrame.id k 0 st.frames = a ++ b := by rw [hfs]; exact eraseNth_hit k a b g ha hg
      show st.full.delete k = _
      unfold Full.delete
      rw [hfirst]
      simp only [Option.some.injEq]
      rw [erase_agrees st k 0 _ hlen ht]
      show _ = State.full { st with frames := eraseFirst SFrame.id k st.frames }
      rw [her, her']
      unfold State.full State.size
      rw [hfs]
      simp only [framesSize_append, framesSize_cons, Full.mk.injEq, true_and]
      omega

/-- On a safe history the exact specification gives the list of frames that the user has in mind. -/
theorem exact_agrees [Platform] (st : State) (ops : List Op) (hst : ∀ f ∈ st.frames, f.Usable) (hs : SafeHistory ops st) :
    effectAll ops st.full = some (applyAll ops st).full := by
  induction ops generalizing st with
  | nil => rfl
  | cons op ops ih =>
    obtain ⟨hv, hd, hs⟩ := hs
    have h2 := (op_step 3 0 0 st 0 [] op hst hv hd).2
    unfold effectAll
    rw [effect_agrees st op hst hv hd]
    exact ih (op.apply st) h2 hs

/-! ## C25, C26, C29, C30, C34: single calls after any history -/

theorem effectAll_append (ops : List Op) (op : Op) (st : Full) :
    effectAll (ops ++ [op]) st = (effectAll ops st).bind op.effect := by
  induction ops generalizing st with
  | nil =>
    show (op.effect st).bind (fun s => some s) = op.effect st
    cases op.effect st <;> rfl
  | cons o ops ih =>
    show (o.effect st).bind (effectAll (ops ++ [op])) = ((o.effect st).bind (effectAll ops)).bind op.effect
    cases o.effect st with
    | none => rfl
    | some st1 => exact ih st1

/-- The frames with an id that are seen after storing a frame. -/
theorem set_seen (st : Full) (f : SFrame) (k : List UInt8) :
    first SFrame.id f.id (st.set f).seen =
        (if st.has f.id = true ∨ st.seen = [] ∨ st.hidden = none then some f else none) ∧
      (k ≠ f.id → all SFrame.id k (st.set f).seen =
        all SFrame.id k st.seen ++ (if st.seen = [] then all SFrame.id k (st.hidden.getD []) else [])) := by
  have hk' : k ≠ f.id → ¬ f.id = k := fun h e => h e.symm
  rcases split_first' st.seen f.id with hm | ⟨a, g, b, hfs, hg, ha⟩
  · have hhas : st.has f.id = false := by unfold Full.has; rw [first_miss _ _ hm]; rfl
    have e : st.set f = st.add f := by unfold Full.set; rw [first_miss _ _ hm]
    rw [e, hhas]
    unfold Full.add
    cases hh : st.hidden with
    | none =>
      have h1 : first SFrame.id f.id (st.seen ++ [f]) = some f := by
        rw [show st.seen ++ [f] = st.seen ++ f :: [] from rfl]; exact first_hit _ _ _ _ hm rfl
      refine ⟨by simpa using h1, fun hk => ?_⟩
      simp [all, List.filter_append, hk' hk]
    | some h =>
      by_cases hs : st.seen = []
      · refine ⟨?_, fun hk => ?_⟩
        · simp [hs, first]
        · simp [hs, all, hk' hk]
      · refine ⟨?_, fun hk => ?_⟩
        · simp only [hs, if_false]
          rw [first_miss _ _ hm]
          simp
        · simp [hs]
  · have hhas : st.has f.id = true := by unfold Full.has; rw [hfs, first_hit _ a g b ha hg]; rfl
    have hput : put SFrame.id f.id f st.seen = a ++ f :: b := by rw [hfs]; exact put_hit _ _ _ _ _ ha hg
    have e : (st.set f).seen = a ++ f :: b := by
      unfold Full.set
      rw [hput, hfs, first_hit _ a g b ha hg]
    rw [e, hhas, first_hit _ a f b ha rfl]
    refine ⟨by simp, fun hk => ?_⟩
    have hne : st.seen ≠ [] := by rw [hfs]; simp
    rw [if_neg hne, hfs]
    simp [all, List.filter_append, hk' hk, hg]

theorem stores_effect {op : Op} {f : SFrame} (h : Stores op f) (st : Full) : op.effect st = some (st.set f) := by
  cases h <;> rfl

theorem stores_id [Platform] {op : Op} {f : SFrame} (h : Stores op f) (hv : op.Valid) : ValidId f.id := by
  cases h with
  | text => exact hv.1
  | comment => exact (by decide : ValidId commId)
  | apic => exact (by decide : ValidId apicId)

/-- **C25, C26, C34**, exactly: after any history that returns, a setter succeeds; the getter finds the frame if one with
its id was seen before, or nothing was seen, or there is no empty node, and gives NULL otherwise. The frames with other ids
that are seen are the same as before, except that frames behind an empty node come back when nothing was seen. -/
theorem set_get_exact [Platform] (tag : Tag) (st : State) (ops : List Op) (op : Op) (f : SFrame) (rest r : Bytes) (st' : Full)
    (hstart : Start tag st) (hv : ∀ op ∈ ops, op.Valid) (he : effectAll ops st.full = some st') (hop : Stores op f)
    (hvo : op.Valid) :
    ∃ tag', runAll rest (ops ++ [op]) tag = .ok tag' ∧
      ID3v2_Tag_get_frame tag' (ofB f.id ++ r) =
        .ok (if st'.has f.id = true ∨ st'.seen = [] ∨ st'.hidden = none then some f.toFrame else none) ∧
      ∀ k, ValidId k → k ≠ f.id → ID3v2_Tag_get_frames tag' (ofB k ++ r) =
        .ok (toFrameList (all SFrame.id k st'.seen ++ (if st'.seen = [] then all SFrame.id k (st'.hidden.getD []) else []))) := by
  obtain ⟨-, h⟩ := history_exact tag st (ops ++ [op]) rest r hstart (by
    intro o ho
    rcases List.mem_append.1 ho with ho | ho
    · exact hv o ho
    · rw [List.mem_singleton.1 ho]; exact hvo)
  obtain ⟨tag', h1, -, -, -, h2, h3⟩ := h (st'.set f) (by rw [effectAll_append, he]; exact stores_effect hop st')
  refine ⟨tag', h1, ?_, ?_⟩
  · rw [h2 _ (stores_id hop hvo), (set_seen st' f []).1]
    split <;> rfl
  · intro k hk hne
    rw [h3 k hk, (set_seen st' f k).2 hne]

example : Stores (.setText [0x54, 0x41, 0x4C, 0x42] [0, 0] (.latin [0x48, 0x61]))
    (.text [0x54, 0x41, 0x4C, 0x42] [0, 0] (.latin [0x48, 0x61])) := .text _ _ _

/-- **C29**, exactly: after any history that returns, deleting by id dereferences NULL if no frame with the id is seen;
otherwise the frames that are seen afterwards are those before, without the first one with the id. -/
theorem delete_exact [Platform] (tag : Tag) (st : State) (ops : List Op) (id : List UInt8) (rest r : Bytes) (st' : Full)
    (hstart : Start tag st) (hv : ∀ op ∈ ops, op.Valid) (he : effectAll ops st.full = some st') (hid : ValidId id) :
    (st'.has id = false → runAll rest (ops ++ [.delete id]) tag = .ub .nullDeref) ∧
    (st'.has id = true → ∃ tag', runAll rest (ops ++ [.delete id]) tag = .ok tag' ∧
      ∀ k, ValidId k → ID3v2_Tag_get_frames tag' (ofB k ++ r) =
        .ok (toFrameList (all SFrame.id k (eraseFirst SFrame.id id st'.seen)))) := by
  obtain ⟨h0, h⟩ := history_exact tag st (ops ++ [.delete id]) rest r hstart (by
    intro o ho
    rcases List.mem_append.1 ho with ho | ho
    · exact hv o ho
    · rw [List.mem_singleton.1 ho]; exact hid)
  have e : effectAll (ops ++ [.delete id]) st.full = st'.delete id := by rw [effectAll_append, he]; rfl
  rw [e] at h0 h
  rcases split_first' st'.seen id with hm | ⟨a, g, b, hfs, hg, ha⟩
  · have hf := first_miss (key := SFrame.id) id st'.seen hm
    have hd : st'.delete id = none := by unfold Full.delete; rw [hf]
    refine ⟨fun _ => h0 hd, fun hh => ?_⟩
    unfold Full.has at hh; rw [hf] at hh; simp at hh
  · have hf : first SFrame.id id st'.seen = some g := by rw [hfs]; exact first_hit _ a g b ha hg
    have hd : st'.delete id = some (st'.erase id 0 (st'.size - 10 - g.body.length)) := by unfold Full.delete; rw [hf]
    refine ⟨fun hh => ?_, fun _ => ?_⟩
    · unfold Full.has at hh; rw [hf] at hh; simp at hh
    · obtain ⟨tag', h1, -, -, -, -, h3⟩ := h _ hd
      refine ⟨tag', h1, ?_⟩
      intro k hk
      rw [h3 k hk]
      show Res.ok (toFrameList (all SFrame.id k (eraseNth SFrame.id id 0 st'.seen))) = _
      rw [hfs, eraseNth_hit id a b g ha hg, eraseFirst_hit _ _ _ _ ha hg]

/-- **C30**, exactly: after any history that returns, deleting comments or pictures by index succeeds for every index. The
frames that are seen afterwards are those before without the one that was meant; but if no frame of the kind is seen, index
0 brings back the frames behind an empty node. -/
theorem delete_at_exact [Platform] (tag : Tag) (st : State) (ops : List Op) (op : Op) (id : List UInt8) (index : Int)
    (rest r : Bytes) (st' : Full) (hstart : Start tag st) (hv : ∀ op ∈ ops, op.Valid) (he : effectAll ops st.full = some st')
    (hop : DeletesAt index op id) :
    ∃ tag', runAll rest (ops ++ [op]) tag = .ok tag' ∧
      ∀ k, ValidId k → ID3v2_Tag_get_frames tag' (ofB k ++ r) =
        .ok (toFrameList (all SFrame.id k (
          if index < 0 then st'.seen
          else if index = 0 ∧ st'.has id = false then st'.seen ++ st'.hidden.getD []
          else eraseNth SFrame.id id index.toNat st'.seen))) := by
  obtain ⟨-, h⟩ := history_exact tag st (ops ++ [op]) rest r hstart (by
    intro o ho
    rcases List.mem_append.1 ho with ho | ho
    · exact hv o ho
    · rw [List.mem_singleton.1 ho]; cases hop <;> trivial)
  obtain ⟨tag', h1, -, -, -, -, h3⟩ := h (st'.deleteAt id index) (by rw [effectAll_append, he]; cases hop <;> rfl)
  refine ⟨tag', h1, ?_⟩
  intro k hk
  rw [h3 k hk]
  congr 3
  unfold Full.deleteAt
  by_cases hneg : index < 0
  · rw [if_pos hneg, if_pos hneg]
  rw [if_neg hneg, if_neg hneg]
  have hhas : st'.has id = false ↔ (all SFrame.id id st'.seen).length = 0 := by
    rcases split_first' st'.seen id with hm | ⟨a, g, b, hfs, hg, ha⟩
    · have : (all SFrame.id id st'.seen) = [] := by
        simp only [all, List.filter_eq_nil_iff, decide_eq_true_eq]; exact hm
      rw [this]; unfold Full.has; rw [first_miss _ _ hm]; simp
    · unfold Full.has
      rw [hfs, first_hit _ a g b ha hg]
      simp [all, List.filter_append, hg]
  by_cases hr : index.toNat < (all SFrame.id id st'.seen).length
  · rw [if_pos hr, if_neg (by rw [hhas]; rintro ⟨h0, h1⟩; omega)]
    rfl
  · rw [if_neg hr]
    by_cases h0 : index = 0
    · rw [if_pos h0, if_pos ⟨h0, by rw [hhas]; subst h0; omega⟩]
      cases hh : st'.hidden with
      | none => simp
      | some l => cases l <;> simp
    · rw [if_neg h0, if_neg (fun h => h0 h.1), eraseNth_miss _ _ _ (by omega)]

/-! ## C32: the tag size after any history -/

theorem totalSize_append (a b : List SFrame) : totalSize (a ++ b) = totalSize a + totalSize b := by simp [totalSize]

theorem totalSize_cons (a : SFrame) (b : List SFrame) : totalSize (a :: b) = 10 + a.body.length + totalSize b := by simp [totalSize]

theorem size_put (id : List UInt8) (f old : SFrame) (l : List SFrame) (h : first SFrame.id id l = some old) :
    totalSize (put SFrame.id id f l) + old.body.length = totalSize l + f.body.length := by
  induction l with
  | nil => cases h
  | cons g l ih =>
    unfold put
    unfold first at h
    rw [List.find?_cons] at h
    by_cases hg : g.id = id
    · rw [if_pos hg, totalSize_cons, totalSize_cons]
      simp only [hg, decide_true, Option.some.injEq] at h
      subst h
      omega
    · rw [if_neg hg, totalSize_cons, totalSize_cons]
      simp only [hg, decide_false] at h
      have := ih h
      omega

theorem size_eraseNth (id : List UInt8) (n : Nat) (l : List SFrame) :
    totalSize (eraseNth SFrame.id id n l) + totalSize ((all SFrame.id id l)[n]?.toList) = totalSize l := by
  induction l generalizing n with
  | nil => cases n <;> rfl
  | cons g l ih =>
    by_cases hg : g.id = id
    · have ha : all SFrame.id id (g :: l) = g :: all SFrame.id id l := by simp [all, hg]
      cases n with
      | zero =>
        rw [ha]
        simp only [eraseNth, hg, if_true, List.getElem?_cons_zero, Option.toList_some, totalSize_cons]
        show totalSize l + (10 + g.body.length + 0) = _
        omega
      | succ n =>
        rw [ha]
        simp only [eraseNth, hg, if_true, List.getElem?_cons_succ, totalSize_cons]
        have := ih n
        omega
    · have ha : all SFrame.id id (g :: l) = all SFrame.id id l := by simp [all, hg]
      rw [ha]
      cases n with
      | zero =>
        simp only [eraseNth, hg, if_false, totalSize_cons]
        have := ih 0
        omega
      | succ n =>
        simp only [eraseNth, hg, if_false, totalSize_cons]
        have := ih (n + 1)
        omega

theorem first_all (id : List UInt8) (l : List SFrame) : (all SFrame.id id l)[0]? = first SFrame.id id l := by
  induction l with
  | nil => rfl
  | cons g l ih =>
    unfold all first at *
    rw [List.find?_cons, List.filter_cons]
    by_cases hg : g.id = id
    · simp [hg]
    · simp [hg, ih]

theorem gain_add (st : Full) (f : SFrame) : (st.add f).size - totalSize (st.add f).frames = st.size - totalSize st.frames - 10 := by
  unfold Full.add Full.frames
  cases st.hidden with
  | none =>
    simp only [Option.getD_none, List.append_nil, totalSize_append, totalSize_cons]
    show _ - ((totalSize st.seen + (10 + f.body.length + 0) : Nat) : Int) = _
    omega
  | some h =>
    dsimp only
    split
    next e =>
      rw [e]
      simp only [Option.getD_none, Option.getD_some, List.append_nil, List.nil_append, totalSize_cons]
      omega
    next =>
      simp only [Option.getD_some, totalSize_append, totalSize_cons]
      show _ - ((totalSize st.seen + (totalSize h + (10 + f.body.length + 0)) : Nat) : Int) = _
      omega

theorem gain_set (st : Full) (f : SFrame) :
    (st.set f).size - totalSize (st.set f).frames = st.size - totalSize st.frames + if st.has f.id then 0 else -10 := by
  unfold Full.set Full.has
  cases h : first SFrame.id f.id st.seen with
  | none =>
    simp only [Option.isSome_none, Bool.false_eq_true, if_false]
    have := gain_add st f
    omega
  | some old =>
    simp only [Option.isSome_some, if_true]
    unfold Full.frames
    have := size_put f.id f old st.seen h
    simp only [totalSize_append]
    omega

theorem gain_erase (st : Full) (id : List UInt8) (n : Nat) (size : Int) :
    (st.erase id n size).size - totalSize (st.erase id n size).frames =
      size - totalSize st.frames + totalSize ((all SFrame.id id st.seen)[n]?.toList) := by
  have h : (st.erase id n size).hidden.getD [] = st.hidden.getD [] := by
    unfold Full.erase
    dsimp only
    split
    next h =>
      rw [Option.isNone_iff_eq_none.mp h.1]
      rfl
    next => rfl
  have := size_eraseNth id n st.seen
  unfold Full.frames
  rw [h]
  simp only [Full.erase, totalSize_append]
  omega

theorem gain_deleteAt (st : Full) (id : List UInt8) (i : Int) :
    (st.deleteAt id i).size - totalSize (st.deleteAt id i).frames =
      st.size - totalSize st.frames + if i < 0 then 0 else (totalSize ((all SFrame.id id st.seen)[i.toNat]?.toList) : Int) := by
  unfold Full.deleteAt
  by_cases hi : i < 0
  · simp only [if_pos hi]
    omega
  · simp only [if_neg hi]
    by_cases hr : i.toNat < (all SFrame.id id st.seen).length
    · simp only [if_pos hr]
      exact gain_erase ..
    · simp only [if_neg hr]
      rw [List.getElem?_eq_none (by omega)]
      show _ = st.size - totalSize st.frames + ((0 : Nat) : Int)
      split
      · unfold Full.frames
        cases hh : st.hidden with
        | none => simp [hh]
        | some h =>
          cases h with
          | nil => simp [hh]
          | cons f h => simp
      · omega

theorem gain_effect (op : Op) (st st' : Full) (h : op.effect st = some st') :
    st'.size - totalSize st'.frames = st.size - totalSize st.frames + op.gain st := by
  cases op with
  | setText id flags s => cases h; exact gain_set ..
  | setComment flags lang desc txt => cases h; exact gain_set ..
  | addComment flags lang desc txt => cases h; exact gain_add ..
  | setApic flags mime pt desc pic => cases h; exact gain_set ..
  | addApic flags mime pt desc pic => cases h; exact gain_add ..
  | delete id =>
    show _ = _ + 0
    unfold Op.effect Full.delete at h
    dsimp only at h
    split at h
    · cases h
    next old ho =>
      cases h
      rw [gain_erase, first_all, ho]
      show _ + ((10 + old.body.length + 0 : Nat) : Int) = _
      omega
  | deleteComment i => cases h; exact gain_deleteAt ..
  | deleteApic i => cases h; exact gain_deleteAt ..

/-- The tag size of the specification, for every history: it exceeds the size of all frames by what it did at the start,
minus ten bytes for every frame that was created, plus the sizes of the frames that were deleted by index. -/
theorem gain_exact (ops : List Op) (st st' : Full) (h : effectAll ops st = some st') :
    st'.size - totalSize st'.frames = st.size - totalSize st.frames + gainAll ops st := by
  induction ops generalizing st with
  | nil =>
    cases h
    show _ = _ + (0 : Int)
    omega
  | cons op ops ih =>
    unfold effectAll at h
    cases he : op.effect st with
    | none => rw [he] at h; cases h
    | some s1 =>
      rw [he] at h
      have h1 := ih s1 h
      have h2 := gain_effect op st s1 he
      unfold gainAll
      rw [he]
      dsimp only
      omega

theorem totalSize_bytes (fs : List SFrame) (h : ∀ f ∈ fs, f.WF) : totalSize fs = framesSize fs := by
  induction fs with
  | nil => rfl
  | cons f fs ih =>
    rw [totalSize_cons, framesSize_cons, ih fun g hg => h g (List.mem_cons_of_mem _ hg),
      SFrame.bytes_length _ (h f List.mem_cons_self)]

theorem start_room (st : State) (hu : ∀ f ∈ st.frames, f.WF) : st.full.size - totalSize st.full.frames = st.room := by
  have : st.full.frames = st.frames := by
    unfold Full.frames State.full
    dsimp only
    split
    next e => rw [e]; rfl
    next => simp
  rw [this, totalSize_bytes _ hu]
  show (framesSize st.frames + st.room : Int) - _ = _
  omega

/-- **C32**, exactly: after every history of valid calls that returns, the tag size is the size of all frames plus the
excess that the tag had at the start, minus ten for every frame that was created, plus the sizes of the frames that were
deleted by index. -/
theorem tag_size_exact [Platform] (tag : Tag) (st : State) (ops : List Op) (rest : Bytes) (hstart : Start tag st)
    (hv : ∀ op ∈ ops, op.Valid) (st' : Full) (he : effectAll ops st.full = some st') :
    ∃ tag', runAll rest ops tag = .ok tag' ∧
      tag'.header.tag_size = u32 (totalSize st'.frames + st.room + gainAll ops st.full) := by
  obtain ⟨tag', h1, -, h2, -⟩ := (history_exact tag st ops rest [] hstart hv).2 st' he
  refine ⟨tag', h1, ?_⟩
  have h3 := gain_exact ops st.full st' he
  obtain ⟨hu, -⟩ := start_eq tag st hstart
  have h4 := start_room st fun f hf => (hu f hf).1
  rw [h2]
  show u32 st'.size = _
  congr 1
  omega

/-- **C32**, exactly: the tag size covers all frames if and only if ten bytes for every frame that was created are not more
than what the tag had to spare at the start and what deleting by index left behind. -/
theorem size_covers_iff (ops : List Op) (st : State) (st' : Full) (hu : ∀ f ∈ st.frames, f.WF)
    (he : effectAll ops st.full = some st') : (totalSize st'.frames : Int) ≤ st'.size ↔ 0 ≤ st.room + gainAll ops st.full := by
  have h3 := gain_exact ops st.full st' he
  have h4 := start_room st hu
  omega

/-- A new tag with a title and two comments of which the second is deleted: the size is 30 bytes too small for the frames
created, and the deleted comment left 10 + 12 bytes behind. -/
example : gainAll [.setText [0x54, 0x49, 0x54, 0x32] [0, 0] (.latin [0x48, 0x69]),
    .addComment [0, 0] [0x65, 0x6E, 0x67] (.latin []) (.latin [0x61]),
    .addComment [0, 0] [0x65, 0x6E, 0x67] (.latin []) (.latin [0x62]), .deleteComment 1] (State.full ⟨[], 0⟩) = -13 := by
  decide

/-! ## C33, C34: serialising after any history -/

/-- **C33, C34**, exactly: what serialising a tag does after any history that returns. -/
theorem serialise_exact [Platform] (tag : Tag) (st : State) (ops : List Op) (rest : Bytes) (st' : Full)
    (hstart : Start tag st) (hv : ∀ op ∈ ops, op.Valid) (he : effectAll ops st.full = some st')
    (h1 : -2147483648 ≤ st'.size + 10) (h2 : st'.size + 10 ≤ 2147483647) :
    ∃ tag', runAll rest ops tag = .ok tag' ∧
      match Full.serialise st' with
      | .overflow => Tag_to_char_stream tag' = .ub .oobWrite
      | .exits => Tag_to_char_stream tag' = .exit
      | .bytes b => ∃ cs header, Tag_to_char_stream tag' = .ok cs ∧
          cs.stream = ofB (header ++ b ++ List.replicate (st'.size.toNat - b.length) 0) ∧ header.length = 10 ∧
          (st'.size < 2 ^ 28 → header = tagHeaderBytes tag.header.major_version tag.header.minor_version tag.header.flags
            st'.size.toNat) := by
  obtain ⟨hu, major, minor, flags, ht⟩ := start_eq tag st hstart
  obtain ⟨h3, -⟩ := effects_full major minor flags tag.padding_size rest ops st.full (State.full_ok st hu) hv
  rw [State.full_tag, ← ht] at h3
  obtain ⟨h4, h5⟩ := h3 st' he
  refine ⟨_, h4, ?_⟩
  have t1 : tag.header.major_version = major := by rw [ht]; rfl
  have t2 : tag.header.minor_version = minor := by rw [ht]; rfl
  have t3 : tag.header.flags = flags := by rw [ht]; rfl
  rw [t1, t2, t3]
  generalize tag.padding_size = p
  have hsz : (fullTag major minor flags st' p).header.tag_size = u32 st'.size := rfl
  have hid : (fullTag major minor flags st' p).header.identifier = ofB [0x49, 0x44, 0x33] := rfl
  by_cases h0 : st'.size < 0
  · have : Full.serialise st' = .overflow := by unfold Full.serialise; rw [if_pos (by omega)]
    rw [this]
    exact tag_out_small _ st'.size rfl hsz h1 (by omega)
  obtain ⟨n, hn⟩ : ∃ n : Nat, st'.size = n := ⟨st'.size.toNat, by omega⟩
  have hn' : (fullTag major minor flags st' p).header.tag_size = n := by rw [hsz, hn]; exact u32_nat (by omega)
  have hhead : st'.size < 2 ^ 28 → headerOut (fullTag major minor flags st' p).header =
      tagHeaderBytes major minor flags st'.size.toNat := by
    intro h
    rw [headerOut_eq _ (by omega), hn', hn]
    rfl
  have hout := tag_header_out (fullTag major minor flags st' p) hid (by omega)
  have hfr : (fullTag major minor flags st' p).frames =
      st'.seen.map (fun f => some f.toFrame) ++ tailNodes st'.hidden := by
    show fullNodes st' = _
    unfold fullNodes; simp [Function.comp_def]
  cases hs : st'.seen with
  | nil =>
    have hsome : st'.hidden.isSome := h5.2.2 hs
    obtain ⟨h, hh⟩ : ∃ h, st'.hidden = some h := Option.isSome_iff_exists.1 hsome
    have : Full.serialise st' = .bytes [] := by
      unfold Full.serialise
      rw [hs, if_neg (by simp [framesSize]; omega), if_neg (by simp)]
      rfl
    rw [this]
    dsimp only
    rw [hout, hfr, hs, hh]
    refine ⟨_, _, rfl, ?_, headerOut_length _, hhead⟩
    rw [csOut_stream, hn', hn]
    simp [ofB]
  | cons f fs =>
    by_cases hfit : st'.size < framesSize st'.seen
    · have : Full.serialise st' = .overflow := by unfold Full.serialise; rw [if_pos hfit]
      rw [this]
      dsimp only
      have ho := write_frames_overflow st'.seen h5.1 (ofB (headerOut (fullTag major minor flags st' p).header)) n
        (by simp; omega) (by omega)
      have ha := write_frames_append (csOut (ofB (headerOut (fullTag major minor flags st' p).header)) n)
        (st'.seen.map (fun f => some f.toFrame)) (tailNodes st'.hidden)
      rw [ho] at ha
      rw [hout, hfr, hn']
      rw [hs] at ha ⊢
      simp only [List.map_cons, List.cons_append] at ha ⊢
      exact ha
    · have ho := write_frames_fit st'.seen h5.1 (ofB (headerOut (fullTag major minor flags st' p).header)) n
        (by simp; omega) (by omega)
      have ha := write_frames_append (csOut (ofB (headerOut (fullTag major minor flags st' p).header)) n)
        (st'.seen.map (fun f => some f.toFrame)) (tailNodes st'.hidden)
      rw [ho] at ha
      have hwr : (match (fullTag major minor flags st' p).frames with
          | [] => Res.ub .nullDeref
          | none :: _ => Res.ok (csOut (ofB (headerOut (fullTag major minor flags st' p).header)) n)
          | frames => Tag_write_frames (csOut (ofB (headerOut (fullTag major minor flags st' p).header)) n) frames) =
          Tag_write_frames (csOut (ofB (headerOut (fullTag major minor flags st' p).header)) n)
            (st'.seen.map (fun f => some f.toFrame) ++ tailNodes st'.hidden) := by
        rw [hfr, hs]; rfl
      cases hh : st'.hidden with
      | none =>
        have : Full.serialise st' = .bytes (st'.seen.flatMap SFrame.bytes) := by
          unfold Full.serialise; rw [if_neg hfit, if_neg (by simp [hh])]
        rw [this]
        dsimp only
        rw [hout, hn']
        refine ⟨csOut (ofB (headerOut (fullTag major minor flags st' p).header) ++ ofB (st'.seen.flatMap SFrame.bytes))
            (n - framesSize st'.seen), _, hwr.trans ?_, ?_, headerOut_length _, hhead⟩
        · rw [ha, hh]; rfl
        · rw [csOut_stream, hn]
          simp [ofB, framesSize]
      | some h =>
        have : Full.serialise st' = .exits := by
          unfold Full.serialise; rw [if_neg hfit, if_pos ⟨by simp [hs], by simp [hh]⟩]
        rw [this]
        dsimp only
        rw [hout, hn']
        refine hwr.trans ?_
        rw [ha, hh]
        rfl

example : (effectAll (holeHistory.take 4) (State.full ⟨[], 0⟩)).map Full.serialise = some .overflow ∧
    (effectAll (holeHistory.take 4) (State.full ⟨[], 100⟩)).map Full.serialise = some .exits ∧
    (effectAll (holeHistory.take 5) (State.full ⟨[], 100⟩)).map Full.serialise = some (.bytes []) := by decide

end Id3.Props
