import Verif.Props.Readme
import Verif.Props.Claims

/-!
# C61: exactly when the laws of the setters hold
-/

namespace Id3.Props

open Id3 Spec

theorem lookups_put_put (f g : SFrame) (l : List SFrame) (hid : f.id ≠ g.id) (k : List UInt8) :
    first SFrame.id k (put SFrame.id g.id g (put SFrame.id f.id f l)) =
        first SFrame.id k (put SFrame.id f.id f (put SFrame.id g.id g l)) ∧
      all SFrame.id k (put SFrame.id g.id g (put SFrame.id f.id f l)) =
        all SFrame.id k (put SFrame.id f.id f (put SFrame.id g.id g l)) := by
  by_cases hg : k = g.id
  · subst hg
    rw [first_put_same g.id _ _ rfl, first_put_other f.id g.id _ _ hid rfl, first_put_same g.id _ _ rfl,
      all_put_same g.id _ _ rfl, all_put_other f.id g.id _ _ hid rfl, all_put_other f.id g.id _ _ hid rfl,
      all_put_same g.id _ _ rfl]
    exact ⟨rfl, rfl⟩
  · by_cases hf : k = f.id
    · subst hf
      rw [first_put_same f.id _ _ rfl, first_put_other g.id f.id _ _ (Ne.symm hid) rfl, first_put_same f.id _ _ rfl,
        all_put_same f.id _ _ rfl, all_put_other g.id f.id _ _ (Ne.symm hid) rfl,
        all_put_other g.id f.id _ _ (Ne.symm hid) rfl, all_put_same f.id _ _ rfl]
      exact ⟨rfl, rfl⟩
    · rw [first_put_other g.id k _ _ (Ne.symm hg) rfl, first_put_other f.id k _ _ (Ne.symm hf) rfl,
        first_put_other f.id k _ _ (Ne.symm hf) rfl, first_put_other g.id k _ _ (Ne.symm hg) rfl,
        all_put_other g.id k _ _ (Ne.symm hg) rfl, all_put_other f.id k _ _ (Ne.symm hf) rfl,
        all_put_other f.id k _ _ (Ne.symm hf) rfl, all_put_other g.id k _ _ (Ne.symm hg) rfl]
      exact ⟨rfl, rfl⟩

theorem set_hit (st : Full) (f old : SFrame) (h : first SFrame.id f.id st.seen = some old) :
    st.set f = { st with seen := put SFrame.id f.id f st.seen, size := st.size + f.body.length - old.body.length } := by
  unfold Full.set
  rw [h]

theorem set_miss (st : Full) (f : SFrame) (l : List SFrame) (h : first SFrame.id f.id st.seen = none)
    (hh : st.hidden = some l) (hs : st.seen ≠ []) :
    st.set f = ⟨st.seen, some (l ++ [f]), st.size + f.body.length⟩ := by
  unfold Full.set
  rw [h]
  dsimp only
  unfold Full.add
  rw [hh]
  simp [hs]

theorem set_empty (st : Full) (f : SFrame) (l : List SFrame) (hh : st.hidden = some l) (hs : st.seen = []) :
    st.set f = ⟨f :: l, none, st.size + f.body.length⟩ := by
  unfold Full.set
  rw [hs]
  show st.add f = _
  unfold Full.add
  rw [hh]
  simp [hs]

theorem put_ne_nil (k : List UInt8) (f : SFrame) (l : List SFrame) : put SFrame.id k f l ≠ [] := by
  cases l with
  | nil => simp [put]
  | cons x xs => unfold put; split <;> simp

theorem first_id (k : List UInt8) (l : List SFrame) (x : SFrame) (h : first SFrame.id k l = some x) :
    ∃ x ∈ l, x.id = k :=
  ⟨x, List.mem_of_find?_eq_some h, by simpa using List.find?_some h⟩

/-- What two setters for different ids do, in either order. -/
theorem set_set_comm (st : Full) (f g : SFrame) (hid : f.id ≠ g.id)
    (hc : st.seen = [] → ∀ l, st.hidden = some l → ∀ x ∈ l, x.id ≠ f.id ∧ x.id ≠ g.id) :
    ((st.set f).set g).size = ((st.set g).set f).size ∧
    (∀ k, first SFrame.id k ((st.set f).set g).seen = first SFrame.id k ((st.set g).set f).seen ∧
      all SFrame.id k ((st.set f).set g).seen = all SFrame.id k ((st.set g).set f).seen) ∧
    (st.has f.id = true ∨ st.has g.id = true → (st.set f).set g = (st.set g).set f) := by
  have f1 := fun l => first_put_other f.id g.id f l hid rfl
  have f2 := fun l => first_put_other g.id f.id g l (Ne.symm hid) rfl
  cases hh : st.hidden with
  | none =>
    have s1 := set_seen_none st f hh
    have s2 := set_seen_none st g hh
    have s3 := set_seen_none (st.set f) g (by rw [s1])
    have s4 := set_seen_none (st.set g) f (by rw [s2])
    have hsz : ((st.set f).set g).size = ((st.set g).set f).size := by
      rw [s3, s4, s1, s2]
      dsimp only
      rw [f1, f2]
      omega
    refine ⟨hsz, ?_, ?_⟩
    · intro k
      rw [s3, s4, s1, s2]
      exact lookups_put_put f g st.seen hid k
    · intro h
      have hp : (∃ x ∈ st.seen, x.id = f.id) ∨ ∃ x ∈ st.seen, x.id = g.id := by
        refine h.imp ?_ ?_ <;> intro h <;> obtain ⟨x, hx⟩ := Option.isSome_iff_exists.mp h <;> exact first_id _ _ x hx
      rw [s3, s4] at hsz ⊢
      rw [s1, s2] at hsz ⊢
      dsimp only at hsz ⊢
      rw [put_comm f.id g.id f g st.seen hid rfl rfl hp, hsz]
  | some l =>
    by_cases hs : st.seen = []
    · have hl := hc hs l hh
      have s1 := set_empty st f l hh hs
      have s2 := set_empty st g l hh hs
      have s3 := set_seen_none (st.set f) g (by rw [s1])
      have s4 := set_seen_none (st.set g) f (by rw [s2])
      have m1 := first_miss (key := SFrame.id) f.id l (fun x hx => (hl x hx).1)
      have m2 := first_miss (key := SFrame.id) g.id l (fun x hx => (hl x hx).2)
      have n1 : first SFrame.id f.id (g :: l) = none := by
        unfold first at m1 ⊢
        rw [List.find?_cons_of_neg (by simp [Ne.symm hid])]; exact m1
      have n2 : first SFrame.id g.id (f :: l) = none := by
        unfold first at m2 ⊢
        rw [List.find?_cons_of_neg (by simp [hid])]; exact m2
      refine ⟨?_, ?_, ?_⟩
      · rw [s3, s4, s1, s2]
        dsimp only
        rw [n1, n2]
        simp only [Option.map_none, Option.getD_none]
        omega
      · intro k
        rw [s3, s4, s1, s2]
        dsimp only
        have e1 : put SFrame.id g.id g (f :: l) = f :: (l ++ [g]) := by
          rw [put_miss]
          · rfl
          · intro x hx
            rcases List.mem_cons.mp hx with rfl | hx
            · exact hid
            · exact (hl x hx).2
        have e2 : put SFrame.id f.id f (g :: l) = g :: (l ++ [f]) := by
          rw [put_miss]
          · rfl
          · intro x hx
            rcases List.mem_cons.mp hx with rfl | hx
            · exact Ne.symm hid
            · exact (hl x hx).1
        rw [e1, e2]
        by_cases hf : f.id = k
        · subst hf
          have a1 : all SFrame.id f.id l = [] := by
            simpa [all, List.filter_eq_nil_iff] using fun x hx => (hl x hx).1
          unfold first all at *
          simp [m1, a1, Ne.symm hid, List.find?_append]
        · by_cases hg : g.id = k
          · subst hg
            have a1 : all SFrame.id g.id l = [] := by
              simpa [all, List.filter_eq_nil_iff] using fun x hx => (hl x hx).2
            unfold first all at *
            simp [m2, a1, hid, List.find?_append]
          · unfold first all
            simp [hf, hg, List.find?_append]
      · unfold Full.has
        rw [hs]
        simp [first]
    · cases hf : first SFrame.id f.id st.seen with
      | none =>
        have s1 := set_miss st f l hf hh hs
        cases hg : first SFrame.id g.id st.seen with
        | none =>
          have s2 := set_miss st g l hg hh hs
          have s3 := set_miss (st.set f) g (l ++ [f]) (by rw [s1]; exact hg) (by rw [s1]) (by rw [s1]; exact hs)
          have s4 := set_miss (st.set g) f (l ++ [g]) (by rw [s2]; exact hf) (by rw [s2]) (by rw [s2]; exact hs)
          rw [s3, s4, s1, s2]
          refine ⟨?_, fun k => ⟨rfl, rfl⟩, ?_⟩
          · dsimp only; omega
          · unfold Full.has
            rw [hf, hg]
            simp
        | some old =>
          have s2 := set_hit st g old hg
          have s3 := set_hit (st.set f) g old (by rw [s1]; exact hg)
          have s4 := set_miss (st.set g) f l (by rw [s2]; dsimp only; rw [f2]; exact hf) (by rw [s2]; exact hh)
            (by rw [s2]; exact put_ne_nil _ _ _)
          have e : (st.set f).set g = (st.set g).set f := by
            rw [s3, s4, s1, s2]
            dsimp only
            congr 1
            omega
          rw [e]
          exact ⟨rfl, fun k => ⟨rfl, rfl⟩, fun _ => rfl⟩
      | some old =>
        have s1 := set_hit st f old hf
        cases hg : first SFrame.id g.id st.seen with
        | none =>
          have s2 := set_miss st g l hg hh hs
          have s3 := set_miss (st.set f) g l (by rw [s1]; dsimp only; rw [f1]; exact hg) (by rw [s1]; exact hh)
            (by rw [s1]; exact put_ne_nil _ _ _)
          have s4 := set_hit (st.set g) f old (by rw [s2]; exact hf)
          have e : (st.set f).set g = (st.set g).set f := by
            rw [s3, s4, s1, s2]
            dsimp only
            congr 1
            omega
          rw [e]
          exact ⟨rfl, fun k => ⟨rfl, rfl⟩, fun _ => rfl⟩
        | some old' =>
          have s2 := set_hit st g old' hg
          have s3 := set_hit (st.set f) g old' (by rw [s1]; dsimp only; rw [f1]; exact hg)
          have s4 := set_hit (st.set g) f old (by rw [s2]; dsimp only; rw [f2]; exact hf)
          have e : (st.set f).set g = (st.set g).set f := by
            rw [s3, s4, s1, s2]
            dsimp only
            rw [put_comm f.id g.id f g st.seen hid rfl rfl (.inl (first_id _ _ old hf))]
            congr 1
            omega
          rw [e]
          exact ⟨rfl, fun k => ⟨rfl, rfl⟩, fun _ => rfl⟩

/-- If frames reappear that have the id of the second call, the order matters for the number of frames with this id. -/
theorem set_set_differ (st : Full) (f g : SFrame) (hid : f.id ≠ g.id) (l : List SFrame) (hs : st.seen = [])
    (hh : st.hidden = some l) (x : SFrame) (hx : x ∈ l) (hxf : x.id = f.id) :
    (all SFrame.id f.id ((st.set f).set g).seen).length = (all SFrame.id f.id ((st.set g).set f).seen).length + 1 := by
  have s1 := set_empty st f l hh hs
  have s2 := set_empty st g l hh hs
  have s3 := set_seen_none (st.set f) g (by rw [s1])
  have s4 := set_seen_none (st.set g) f (by rw [s2])
  rw [s3, s4, s1, s2]
  dsimp only
  rw [all_put_other g.id f.id _ _ (Ne.symm hid) rfl, all_put_same f.id _ _ rfl]
  have hm : x ∈ all SFrame.id f.id l := by
    unfold all
    simp [hx, hxf]
  have e1 : all SFrame.id f.id (f :: l) = f :: all SFrame.id f.id l := by
    unfold all; simp
  have e2 : all SFrame.id f.id (g :: l) = all SFrame.id f.id l := by
    unfold all; simp [Ne.symm hid]
  rw [e1, e2]
  cases h : all SFrame.id f.id l with
  | nil => rw [h] at hm; simp at hm
  | cons y ys => simp

/-- **C61**, second law, exactly, after every history of calls: setters for different ids can be called in either order
(the tag size and all lookups are the same) if and only if the first of them does not make frames with one of the two ids
reappear. This happens only if the tag has no frames that are seen, and frames with one of these ids behind an empty node. If
the tag has a frame with one of the ids, it is the same in every respect. -/
theorem setters_commute_iff [Platform] (tag : Tag) (st : State) (ops : List Op) (op op' : Op) (f g : SFrame)
    (rest r : Bytes) (st' : Full) (hstart : Start tag st) (hv : ∀ op ∈ ops, op.Valid)
    (he : effectAll ops st.full = some st') (hop : Stores op f) (hop' : Stores op' g) (hvo : op.Valid) (hvo' : op'.Valid)
    (hid : f.id ≠ g.id) :
    ∃ t1 t2, runAll rest (ops ++ [op, op']) tag = .ok t1 ∧ runAll rest (ops ++ [op', op]) tag = .ok t2 ∧
      ((t1.header = t2.header ∧
        ∀ k, ValidId k → ID3v2_Tag_get_frame t1 (ofB k ++ r) = ID3v2_Tag_get_frame t2 (ofB k ++ r) ∧
          ID3v2_Tag_get_frames t1 (ofB k ++ r) = ID3v2_Tag_get_frames t2 (ofB k ++ r)) ↔
        ¬ (st'.seen = [] ∧ ∃ l, st'.hidden = some l ∧ ∃ x ∈ l, x.id = f.id ∨ x.id = g.id)) ∧
      (st'.has f.id = true ∨ st'.has g.id = true → t1 = t2) := by
  have hv1 : ∀ o ∈ ops ++ [op, op'], o.Valid := valid_append hv (by simp [hvo, hvo'])
  have hv2 : ∀ o ∈ ops ++ [op', op], o.Valid := valid_append hv (by simp [hvo, hvo'])
  have e1 : effectAll (ops ++ [op, op']) st.full = some ((st'.set f).set g) := by
    rw [effectAll_append', he]
    simp only [Option.bind_some, effectAll, stores_effect hop, stores_effect hop']
  have e2 : effectAll (ops ++ [op', op]) st.full = some ((st'.set g).set f) := by
    rw [effectAll_append', he]
    simp only [Option.bind_some, effectAll, stores_effect hop, stores_effect hop']
  obtain ⟨t1, h1, -, h3, -, h4, h5⟩ := (history_exact tag st _ rest r hstart hv1).2 _ e1
  obtain ⟨t2, h1', -, h3', -, h4', h5'⟩ := (history_exact tag st _ rest r hstart hv2).2 _ e2
  have back : ∀ l l' : List SFrame, toFrameList l = toFrameList l' → l ≠ [] → l' ≠ [] → l.length = l'.length := by
    intro l l' h hl hl'
    rw [← toFrameList_length l hl, ← toFrameList_length l' hl', h]
  have hne : ∀ (k : List UInt8) (s : Full) (f : SFrame), f ∈ s.seen → f.id = k → all SFrame.id k s.seen ≠ [] := by
    intro k s f hf hk h
    have : f ∈ all SFrame.id k s.seen := by unfold all; simp [hf, hk]
    rw [h] at this
    simp at this
  refine ⟨t1, t2, h1, h1', ⟨?_, ?_⟩, ?_⟩
  · rintro ⟨-, hk⟩ ⟨hs, l, hl, x, hx, hxid⟩
    have s1 := set_empty st' f l hl hs
    have s2 := set_empty st' g l hl hs
    have s3 := set_seen_none (st'.set f) g (by rw [s1])
    have s4 := set_seen_none (st'.set g) f (by rw [s2])
    have hin : ∀ y, y = f ∨ y = g → y ∈ ((st'.set f).set g).seen ∧ y ∈ ((st'.set g).set f).seen := by
      rw [s3, s4, s1, s2]
      dsimp only
      rintro y (rfl | rfl)
      · refine ⟨?_, put_mem _ _ _ _⟩
        rw [put, if_neg hid]; simp
      · refine ⟨put_mem _ _ _ _, ?_⟩
        rw [put, if_neg (Ne.symm hid)]; simp
    rcases hxid with hxid | hxid
    · have hd := set_set_differ st' f g hid l hs hl x hx hxid
      have := (hk f.id (stores_id hop hvo)).2
      rw [h5 _ (stores_id hop hvo), h5' _ (stores_id hop hvo)] at this
      have := back _ _ (Res.ok.inj this) (hne _ _ f (hin f (.inl rfl)).1 rfl) (hne _ _ f (hin f (.inl rfl)).2 rfl)
      omega
    · have hd := set_set_differ st' g f (Ne.symm hid) l hs hl x hx hxid
      have := (hk g.id (stores_id hop' hvo')).2
      rw [h5 _ (stores_id hop' hvo'), h5' _ (stores_id hop' hvo')] at this
      have := back _ _ (Res.ok.inj this) (hne _ _ g (hin g (.inr rfl)).1 rfl) (hne _ _ g (hin g (.inr rfl)).2 rfl)
      omega
  · intro hc
    obtain ⟨c1, c2, -⟩ := set_set_comm st' f g hid (by
      intro hs l hl x hx
      refine ⟨fun h => hc ⟨hs, l, hl, x, hx, .inl h⟩, fun h => hc ⟨hs, l, hl, x, hx, .inr h⟩⟩)
    refine ⟨by rw [h3, h3', c1], ?_⟩
    intro k hk
    rw [h4 k hk, h4' k hk, h5 k hk, h5' k hk, (c2 k).1, (c2 k).2]
    exact ⟨rfl, rfl⟩
  · intro hp
    have hs : st'.seen ≠ [] := by
      intro hs
      unfold Full.has at hp
      rw [hs] at hp
      simp [first] at hp
    have := same_effect tag st _ _ rest hstart hv1 hv2 (by
      rw [e1, e2, (set_set_comm st' f g hid (fun h => absurd h hs)).2.2 hp])
    rw [h1, h1'] at this
    exact Res.ok.inj this

/-- **C61**, first law, exactly, after every history of calls: setting a frame twice is the same as setting it once, to the
second value, if and only if the getter finds the frame that was set. -/
theorem last_set_wins_iff [Platform] (tag : Tag) (st : State) (ops : List Op) (op op' : Op) (f g : SFrame) (rest : Bytes)
    (st' : Full) (hstart : Start tag st) (hv : ∀ op ∈ ops, op.Valid) (he : effectAll ops st.full = some st')
    (hop : Stores op f) (hop' : Stores op' g) (hvo : op.Valid) (hvo' : op'.Valid) (hid : f.id = g.id) :
    runAll rest (ops ++ [op, op']) tag = runAll rest (ops ++ [op']) tag ↔
      ∃ t, runAll rest (ops ++ [op]) tag = .ok t ∧ ID3v2_Tag_get_frame t (ofB f.id) = .ok (some f.toFrame) := by
  have hv0 : ∀ o ∈ ops ++ [op], o.Valid := valid_append hv (by simp [hvo])
  have hv1 : ∀ o ∈ ops ++ [op, op'], o.Valid := valid_append hv (by simp [hvo, hvo'])
  have hv2 : ∀ o ∈ ops ++ [op'], o.Valid := valid_append hv (by simp [hvo'])
  have e0 : effectAll (ops ++ [op]) st.full = some (st'.set f) := by
    rw [effectAll_append', he]
    simp only [Option.bind_some, effectAll, stores_effect hop]
  have e1 : effectAll (ops ++ [op, op']) st.full = some ((st'.set f).set g) := by
    rw [effectAll_append', he]
    simp only [Option.bind_some, effectAll, stores_effect hop, stores_effect hop']
  have e2 : effectAll (ops ++ [op']) st.full = some (st'.set g) := by
    rw [effectAll_append', he]
    simp only [Option.bind_some, effectAll, stores_effect hop']
  obtain ⟨t0, h0, -, -, -, g0, -⟩ := (history_exact tag st _ rest [] hstart hv0).2 _ e0
  obtain ⟨t1, h1, l1, -⟩ := (history_exact tag st _ rest [] hstart hv1).2 _ e1
  obtain ⟨t2, h2, l2, -⟩ := (history_exact tag st _ rest [] hstart hv2).2 _ e2
  have hget := g0 f.id (stores_id hop hvo)
  rw [List.append_nil] at hget
  by_cases hfound : st'.has f.id = true ∨ st'.seen = [] ∨ st'.hidden = none
  · refine ⟨fun _ => ⟨t0, h0, ?_⟩, fun _ =>
      last_set_wins tag st ops op op' f g rest st' hstart hv he hop hop' hvo hvo' hid hfound⟩
    rw [hget]
    have : first SFrame.id f.id (st'.set f).seen = some f := by
      cases hh : st'.hidden with
      | none =>
        rw [set_seen_none st' f hh]
        exact first_put_same f.id _ _ rfl
      | some l =>
        by_cases hs : st'.seen = []
        · rw [set_empty st' f l hh hs]
          simp [first]
        · rcases hfound with h | h | h
          · obtain ⟨old, ho⟩ := Option.isSome_iff_exists.mp h
            rw [set_hit st' f old ho]
            exact first_put_same f.id _ _ rfl
          · exact absurd h hs
          · rw [hh] at h; cases h
    rw [this]
    rfl
  · have hnf : first SFrame.id f.id st'.seen = none := by
      cases h : first SFrame.id f.id st'.seen with
      | none => rfl
      | some x => exact absurd (.inl (by unfold Full.has; rw [h]; rfl)) hfound
    have hs : st'.seen ≠ [] := fun h => hfound (.inr (.inl h))
    cases hh : st'.hidden with
    | none => exact absurd (.inr (.inr hh)) hfound
    | some l =>
      have s1 := set_miss st' f l hnf hh hs
      have s2 := set_miss st' g l (by rw [← hid]; exact hnf) hh hs
      have s3 := set_miss (st'.set f) g (l ++ [f]) (by rw [s1, ← hid]; exact hnf) (by rw [s1]) (by rw [s1]; exact hs)
      constructor
      · intro h
        rw [h1, h2] at h
        have h : t1.frames.length = t2.frames.length := congrArg (fun t : Tag => t.frames.length) (Res.ok.inj h)
        rw [l1, l2, s3, s1, s2] at h
        simp at h
      · rintro ⟨t, ht, hg⟩
        rw [h0] at ht
        cases ht
        rw [hget, s1] at hg
        dsimp only at hg
        rw [hnf] at hg
        simp at hg

/-- The laws on a new tag: no frames at all, so nothing can reappear. -/
example : ∃ tag st, @Start strict tag st ∧ ∃ st', effectAll [] st.full = some st' ∧ st'.hidden = some [] ∧
    ¬ (st'.seen = [] ∧ ∃ l, st'.hidden = some l ∧ ∃ x ∈ l, x.id = [0x54, 0x49, 0x54, 0x32] ∨ x.id = [0x54, 0x50, 0x45, 0x31]) :=
  ⟨_, _, @Start.new strict, _, rfl, rfl, by simp [State.full]⟩

/-- A history after which the order matters: title and artist are set, the artist is deleted and set again (it is stored
behind the empty node), the title is deleted. -/
example : ∃ tag st, @Start strict tag st ∧ ∃ st', effectAll [.setText [0x54, 0x49, 0x54, 0x32] [0, 0] (.latin [0x48]),
      .setText [0x54, 0x50, 0x45, 0x31] [0, 0] (.latin [0x49]), .delete [0x54, 0x50, 0x45, 0x31],
      .setText [0x54, 0x50, 0x45, 0x31] [0, 0] (.latin [0x4A]), .delete [0x54, 0x49, 0x54, 0x32]] st.full = some st' ∧
    st'.seen = [] ∧ st'.hidden = some [.text [0x54, 0x50, 0x45, 0x31] [0, 0] (.latin [0x4A])] :=
  ⟨_, _, @Start.new strict, _, rfl, by decide, by decide⟩

end Id3.Props
