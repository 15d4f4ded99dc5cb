import Verif.Props.Exact

/-!
# C61: laws of the calls that change a tag

The laws are about whole histories: any valid calls on a new tag or one that was read, in any order.
-/

namespace Id3.Props

open Id3 Spec

/-- Two histories with the same effect give the same tag, or both dereference NULL. -/
theorem same_effect [Platform] (tag : Tag) (st : State) (ops ops' : List Op) (rest : Bytes) (hstart : Start tag st)
    (hv : ∀ op ∈ ops, op.Valid) (hv' : ∀ op ∈ ops', op.Valid) (he : effectAll ops st.full = effectAll ops' st.full) :
    runAll rest ops tag = runAll rest ops' tag := by
  obtain ⟨hu, major, minor, flags, ht⟩ := start_eq tag st hstart
  obtain ⟨h1, h2⟩ := effects_full major minor flags tag.padding_size rest ops st.full (State.full_ok st hu) hv
  obtain ⟨h1', h2'⟩ := effects_full major minor flags tag.padding_size rest ops' st.full (State.full_ok st hu) hv'
  rw [State.full_tag, ← ht] at h1 h2 h1' h2'
  cases h : effectAll ops st.full with
  | none => rw [h2 h, h2' (by rw [← he]; exact h)]
  | some st' => rw [(h1 st' h).1, (h1' st' (by rw [← he]; exact h)).1]

theorem effectAll_append' (ops more : List Op) (st : Full) :
    effectAll (ops ++ more) st = (effectAll ops st).bind (effectAll more) := by
  induction ops generalizing st with
  | nil => rfl
  | cons o os ih =>
    simp only [List.cons_append, effectAll]
    cases o.effect st with
    | none => rfl
    | some s => exact ih s

theorem valid_append [Platform] {ops more : List Op} (h : ∀ op ∈ ops, op.Valid) (h' : ∀ op ∈ more, op.Valid) :
    ∀ op ∈ ops ++ more, op.Valid := by
  intro o ho
  rcases List.mem_append.1 ho with ho | ho
  · exact h o ho
  · exact h' o ho

theorem set_set_same (st : Full) (f g : SFrame) (hid : f.id = g.id)
    (hfound : st.has f.id = true ∨ st.seen = [] ∨ st.hidden = none) : (st.set f).set g = st.set g := by
  rcases split_first' st.seen f.id with hm | ⟨a, x, b, hfs, hx, ha⟩
  · have hf := first_miss (key := SFrame.id) f.id st.seen hm
    have hg := hf
    rw [hid] at hg
    have hs : st.set f = st.add f := by unfold Full.set; rw [hf]
    have hs' : st.set g = st.add g := by unfold Full.set; rw [hg]
    rw [hs, hs']
    have hno : st.has f.id = false := by unfold Full.has; rw [hf]; rfl
    cases hh : st.hidden with
    | none =>
      have e : st.add f = ⟨st.seen ++ [f], none, st.size + f.body.length⟩ := by unfold Full.add; rw [hh]
      have e' : st.add g = ⟨st.seen ++ [g], none, st.size + g.body.length⟩ := by unfold Full.add; rw [hh]
      rw [e, e']
      unfold Full.set
      dsimp only
      rw [hid] at hm
      rw [first_hit g.id st.seen f [] hm hid, put_hit g.id g st.seen f [] hm hid]
      dsimp only
      congr 1
      omega
    | some h =>
      have hemp : st.seen = [] := by
        rcases hfound with h1 | h1 | h1
        · rw [hno] at h1; cases h1
        · exact h1
        · rw [hh] at h1; cases h1
      have e : st.add f = ⟨f :: h, none, st.size + f.body.length⟩ := by unfold Full.add; rw [hh]; simp [hemp]
      have e' : st.add g = ⟨g :: h, none, st.size + g.body.length⟩ := by unfold Full.add; rw [hh]; simp [hemp]
      rw [e, e']
      unfold Full.set
      dsimp only
      have e1 := first_hit (key := SFrame.id) g.id [] f h (by simp) hid
      have e2 := put_hit g.id g [] f h (by simp) hid
      rw [List.nil_append] at e1 e2
      rw [e1, e2]
      dsimp only [List.nil_append]
      congr 1
      omega
  · have e : st.set f = { st with seen := a ++ f :: b, size := st.size + f.body.length - x.body.length } := by
      unfold Full.set
      rw [hfs, first_hit _ a x b ha hx, put_hit _ _ _ _ _ ha hx]
    have hx' := hx
    rw [hid] at ha hx
    have e' : st.set g = { st with seen := a ++ g :: b, size := st.size + g.body.length - x.body.length } := by
      unfold Full.set
      rw [hfs, first_hit _ a x b ha hx, put_hit _ _ _ _ _ ha hx]
    rw [e, e']
    unfold Full.set
    dsimp only
    rw [first_hit g.id a f b ha hid, put_hit g.id g a f b ha hid]
    dsimp only
    congr 1
    omega

/-- **C61**: setting a frame twice is the same as setting it once, to the second value: the tag in memory is the same in
every respect. (The condition is the one under which the getter finds the frame, see `set_get_exact`.) -/
theorem last_set_wins [Platform] (tag : Tag) (st : State) (ops : List Op) (op op' : Op) (f g : SFrame) (rest : Bytes)
    (st' : Full) (hstart : Start tag st) (hv : ∀ op ∈ ops, op.Valid) (he : effectAll ops st.full = some st')
    (hop : Stores op f) (hop' : Stores op' g) (hvo : op.Valid) (hvo' : op'.Valid) (hid : f.id = g.id)
    (hfound : st'.has f.id = true ∨ st'.seen = [] ∨ st'.hidden = none) :
    runAll rest (ops ++ [op, op']) tag = runAll rest (ops ++ [op']) tag := by
  refine same_effect tag st _ _ rest hstart (valid_append hv (by simp [hvo, hvo'])) (valid_append hv (by simp [hvo'])) ?_
  rw [effectAll_append', effectAll_append', he]
  simp only [Option.bind_some, effectAll, stores_effect hop, stores_effect hop']
  rw [set_set_same st' f g hid hfound]

theorem put_comm (k k' : List UInt8) (f g : SFrame) (l : List SFrame) (hk : k ≠ k') (hf : f.id = k) (hg : g.id = k')
    (h : (∃ x ∈ l, x.id = k) ∨ ∃ x ∈ l, x.id = k') :
    put SFrame.id k' g (put SFrame.id k f l) = put SFrame.id k f (put SFrame.id k' g l) := by
  induction l with
  | nil => simp at h
  | cons x xs ih =>
    by_cases h1 : x.id = k
    · have h2 : x.id ≠ k' := fun h => hk (h1.symm.trans h)
      simp only [put, h1, if_true, if_false, hf, hk]
    · by_cases h2 : x.id = k'
      · have h3 : g.id ≠ k := fun h => hk (h.symm.trans hg)
        simp [put, h2, h3, Ne.symm hk]
      · simp only [put, h1, h2, if_false]
        rw [ih (by simpa [h1, h2] using h)]

theorem first_put_other (k k' : List UInt8) (f : SFrame) (l : List SFrame) (hk : k ≠ k') (hf : f.id = k) :
    first SFrame.id k' (put SFrame.id k f l) = first SFrame.id k' l := by
  induction l with
  | nil => simp [put, first, hf, hk]
  | cons x xs ih =>
    unfold first at ih ⊢
    by_cases h1 : x.id = k
    · have h2 : x.id ≠ k' := fun h => hk (h1.symm.trans h)
      simp [put, h1, hf, hk]
    · by_cases h2 : x.id = k'
      · simp [put, h2, Ne.symm hk]
      · simp [put, h1, h2, ih]

theorem set_seen_none (st : Full) (f : SFrame) (h : st.hidden = none) :
    st.set f = ⟨put SFrame.id f.id f st.seen, none, st.size + f.body.length -
      ((first SFrame.id f.id st.seen).map (fun x => (x.body.length : Int))).getD 0⟩ := by
  rcases split_first' st.seen f.id with hm | ⟨a, x, b, hfs, hx, ha⟩
  · have hf := first_miss (key := SFrame.id) f.id st.seen hm
    unfold Full.set
    rw [hf]
    dsimp only
    unfold Full.add
    rw [h, put_miss _ _ _ hm]
    simp
  · unfold Full.set
    rw [hfs, first_hit _ a x b ha hx, h]
    simp

/-- **C61**: setters for different ids can be called in either order. The tag size is the same and all lookups give the
same; the tag is the same in every respect if it had a frame with one of the ids before (otherwise the two frames are in
the order of the calls). -/
theorem setters_commute [Platform] (tag : Tag) (st : State) (ops : List Op) (op op' : Op) (f g : SFrame) (rest r : Bytes)
    (st' : Full) (hstart : Start tag st) (hv : ∀ op ∈ ops, op.Valid) (he : effectAll ops st.full = some st')
    (hop : Stores op f) (hop' : Stores op' g) (hvo : op.Valid) (hvo' : op'.Valid) (hid : f.id ≠ g.id)
    (hh : st'.hidden = none) :
    ∃ t1 t2, runAll rest (ops ++ [op, op']) tag = .ok t1 ∧ runAll rest (ops ++ [op', op]) tag = .ok t2 ∧
      t1.header = t2.header ∧
      (∀ k, ValidId k → ID3v2_Tag_get_frame t1 (ofB k ++ r) = ID3v2_Tag_get_frame t2 (ofB k ++ r) ∧
        ID3v2_Tag_get_frames t1 (ofB k ++ r) = ID3v2_Tag_get_frames t2 (ofB k ++ r)) ∧
      (st'.has f.id = true ∨ st'.has g.id = true → t1 = t2) := by
  have hv1 : ∀ o ∈ ops ++ [op, op'], o.Valid := valid_append hv (by simp [hvo, hvo'])
  have hv2 : ∀ o ∈ ops ++ [op', op], o.Valid := valid_append hv (by simp [hvo, hvo'])
  have e1 : effectAll (ops ++ [op, op']) st.full = some ((st'.set f).set g) := by
    rw [effectAll_append', he]
    simp only [Option.bind_some, effectAll, stores_effect hop, stores_effect hop']
  have e2 : effectAll (ops ++ [op', op]) st.full = some ((st'.set g).set f) := by
    rw [effectAll_append', he]
    simp only [Option.bind_some, effectAll, stores_effect hop, stores_effect hop']
  obtain ⟨t1, h1, -, h3, -, h4, h5⟩ := (history_exact tag st _ rest r hstart hv1).2 _ e1
  obtain ⟨t2, h1', -, h3', -, h4', h5'⟩ := (history_exact tag st _ rest r hstart hv2).2 _ e2
  have s1 := set_seen_none st' f hh
  have s2 := set_seen_none st' g hh
  have s3 := set_seen_none (st'.set f) g (by rw [s1])
  have s4 := set_seen_none (st'.set g) f (by rw [s2])
  have f1 := first_put_other f.id g.id f st'.seen hid rfl
  have f2 := first_put_other g.id f.id g st'.seen (Ne.symm hid) rfl
  have hsz : ((st'.set f).set g).size = ((st'.set g).set f).size := by
    rw [s3, s4, s1, s2]
    dsimp only
    rw [f1, f2]
    omega
  have hpres : (∃ x ∈ st'.seen, x.id = f.id) ∨ (∃ x ∈ st'.seen, x.id = g.id) →
      (st'.set f).set g = (st'.set g).set f := by
    intro h
    have := hsz
    rw [s3, s4] at this ⊢
    rw [s1, s2] at this ⊢
    dsimp only at this ⊢
    rw [put_comm f.id g.id f g st'.seen hid rfl rfl h, this]
  have hhas : ∀ k, st'.has k = true → ∃ x ∈ st'.seen, x.id = k := by
    intro k hk
    unfold Full.has first at hk
    obtain ⟨x, hx⟩ := Option.isSome_iff_exists.mp hk
    exact ⟨x, List.mem_of_find?_eq_some hx, by simpa using List.find?_some hx⟩
  have hsame : ∀ k, first SFrame.id k ((st'.set f).set g).seen = first SFrame.id k ((st'.set g).set f).seen ∧
      all SFrame.id k ((st'.set f).set g).seen = all SFrame.id k ((st'.set g).set f).seen := by
    intro k
    by_cases hp : (∃ x ∈ st'.seen, x.id = f.id) ∨ (∃ x ∈ st'.seen, x.id = g.id)
    · rw [hpres hp]; exact ⟨rfl, rfl⟩
    · have hmf : ∀ x ∈ st'.seen, x.id ≠ f.id := fun x hx h => hp (.inl ⟨x, hx, h⟩)
      have hmg : ∀ x ∈ st'.seen, x.id ≠ g.id := fun x hx h => hp (.inr ⟨x, hx, h⟩)
      rw [s3, s4, s1, s2]
      dsimp only
      rw [put_miss _ _ _ hmf, put_miss _ _ _ hmg, put_miss g.id g _ (by
        intro x hx
        rcases List.mem_append.1 hx with hx | hx
        · exact hmg x hx
        · rw [List.mem_singleton.1 hx]; exact hid), put_miss f.id f _ (by
        intro x hx
        rcases List.mem_append.1 hx with hx | hx
        · exact hmf x hx
        · rw [List.mem_singleton.1 hx]; exact Ne.symm hid)]
      have hfg : ∀ k : List UInt8, f.id = k → g.id ≠ k := fun k h h' => hid (h.trans h'.symm)
      constructor
      · unfold first
        simp only [List.find?_append, List.append_assoc]
        by_cases h1 : f.id = k
        · simp [h1, hfg k h1]
        · simp [h1]
      · unfold all
        simp only [List.filter_append, List.append_assoc]
        by_cases h1 : f.id = k
        · simp [h1, hfg k h1]
        · simp [h1]
  refine ⟨t1, t2, h1, h1', by rw [h3, h3', hsz], ?_, ?_⟩
  · intro k hk
    rw [h4 k hk, h4' k hk, h5 k hk, h5' k hk, (hsame k).1, (hsame k).2]
    exact ⟨rfl, rfl⟩
  · intro hp
    have := same_effect tag st _ _ rest hstart hv1 hv2 (by
      rw [e1, e2, hpres (hp.imp (hhas _) (hhas _))])
    rw [h1, h1'] at this
    exact Res.ok.inj this

theorem set_delete (st : Full) (f : SFrame) (h : st.has f.id = true) : (st.set f).delete f.id = st.delete f.id := by
  rcases split_first' st.seen f.id with hm | ⟨a, x, b, hfs, hx, ha⟩
  · unfold Full.has at h
    rw [first_miss (key := SFrame.id) f.id st.seen hm] at h
    cases h
  · have e : st.set f = { st with seen := a ++ f :: b, size := st.size + f.body.length - x.body.length } := by
      unfold Full.set
      rw [hfs, first_hit _ a x b ha hx, put_hit _ _ _ _ _ ha hx]
    rw [e]
    unfold Full.delete
    dsimp only
    rw [hfs, first_hit f.id a f b ha rfl, first_hit f.id a x b ha hx]
    dsimp only
    unfold Full.erase
    dsimp only
    rw [hfs, eraseNth_hit f.id a b f ha rfl, eraseNth_hit f.id a b x ha hx]
    have hl : (all SFrame.id f.id (a ++ f :: b).dropLast).length = (all SFrame.id f.id (a ++ x :: b).dropLast).length := by
      rw [List.dropLast_append_cons, List.dropLast_append_cons]
      cases b with
      | nil => simp [all]
      | cons y ys => simp [all, hx]
    rw [hl]
    congr 2
    omega

/-- **C61**: setting a frame that the tag has and deleting it is the same as deleting it. -/
theorem delete_forgets_set [Platform] (tag : Tag) (st : State) (ops : List Op) (op : Op) (f : SFrame) (rest : Bytes)
    (st' : Full) (hstart : Start tag st) (hv : ∀ op ∈ ops, op.Valid) (he : effectAll ops st.full = some st')
    (hop : Stores op f) (hvo : op.Valid) (hhas : st'.has f.id = true) :
    runAll rest (ops ++ [op, .delete f.id]) tag = runAll rest (ops ++ [.delete f.id]) tag := by
  have hid := stores_id hop hvo
  refine same_effect tag st _ _ rest hstart (valid_append hv (by
    intro o ho
    simp only [List.mem_cons, List.not_mem_nil, or_false] at ho
    rcases ho with rfl | rfl
    · exact hvo
    · exact hid)) (valid_append hv (by
    intro o ho
    rw [List.mem_singleton.1 ho]
    exact hid)) ?_
  rw [effectAll_append', effectAll_append', he]
  simp only [Option.bind_some, effectAll, stores_effect hop]
  show ((st'.set f).delete f.id).bind _ = (st'.delete f.id).bind _
  rw [set_delete st' f hhas]

/-- **C61**, first law, as stated. -/
def C61_claim : Prop :=
  ∀ [Platform] (tag : Tag) (st : State) (ops : List Op) (op op' : Op) (f g : SFrame) (rest : Bytes),
    Start tag st → (∀ op ∈ ops, op.Valid) → (effectAll ops st.full).isSome → Stores op f → Stores op' g →
    op.Valid → op'.Valid → f.id = g.id → runAll rest (ops ++ [op, op']) tag = runAll rest (ops ++ [op']) tag

/-- **C61** is false: after the last of two frames was deleted, a frame that is set twice is there twice (where no getter
finds it, but it counts in the tag size). -/
theorem C61_false : ¬ C61_claim := by
  intro h
  letI : Platform := strict
  have h1 := @h strict _ _ [.setText [0x54, 0x49, 0x54, 0x32] [0, 0] (.latin [0x48]),
      .setText [0x54, 0x50, 0x45, 0x31] [0, 0] (.latin [0x49]), .delete [0x54, 0x50, 0x45, 0x31]]
    (.setText [0x54, 0x41, 0x4C, 0x42] [0, 0] (.latin [0x48])) (.setText [0x54, 0x41, 0x4C, 0x42] [0, 0] (.latin [0x48]))
    _ _ [] Start.new (by decide) (by decide) (.text _ _ _) (.text _ _ _) (by decide) (by decide) rfl
  obtain ⟨t, e1, -, e2, -⟩ := (history_exact _ _ ([.setText [0x54, 0x49, 0x54, 0x32] [0, 0] (.latin [0x48]),
      .setText [0x54, 0x50, 0x45, 0x31] [0, 0] (.latin [0x49]), .delete [0x54, 0x50, 0x45, 0x31]] ++
    [.setText [0x54, 0x41, 0x4C, 0x42] [0, 0] (.latin [0x48]), .setText [0x54, 0x41, 0x4C, 0x42] [0, 0] (.latin [0x48])])
    [] [] Start.new (by decide)).2 _ rfl
  obtain ⟨t', e1', -, e2', -⟩ := (history_exact _ _ ([.setText [0x54, 0x49, 0x54, 0x32] [0, 0] (.latin [0x48]),
      .setText [0x54, 0x50, 0x45, 0x31] [0, 0] (.latin [0x49]), .delete [0x54, 0x50, 0x45, 0x31]] ++
    [.setText [0x54, 0x41, 0x4C, 0x42] [0, 0] (.latin [0x48])])
    [] [] Start.new (by decide)).2 _ rfl
  rw [e1, e1'] at h1
  cases h1
  rw [e2] at e2'
  have := congrArg TagHeader.tag_size e2'
  revert this
  decide

/-- A new tag, a title and an artist are set: the hypotheses of all three laws are met. -/
example : ∃ tag st, @Start strict tag st ∧ ∃ st', effectAll [.setText [0x54, 0x49, 0x54, 0x32] [0, 0] (.latin [0x48]),
      .setText [0x54, 0x50, 0x45, 0x31] [0, 0] (.latin [0x49])] st.full = some st' ∧ st'.hidden = none ∧
      st'.has [0x54, 0x49, 0x54, 0x32] = true ∧ st'.has [0x54, 0x41, 0x4C, 0x42] = false :=
  ⟨_, _, @Start.new strict, _, rfl, rfl, by decide, by decide⟩

end Id3.Props
