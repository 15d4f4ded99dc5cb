import Verif.Spec.History
import Verif.Props.Ops

/-!
# Histories of API calls refine the list specification
-/

namespace Id3

open Spec

section map
variable {α β : Type} {k1 : α → List UInt8} {k2 : β → List UInt8} (g : α → β) (hg : ∀ x, k2 (g x) = k1 x)
include hg

theorem first_map (id : List UInt8) (l : List α) : first k2 id (l.map g) = (first k1 id l).map g := by
  induction l with
  | nil => rfl
  | cons x xs ih =>
    by_cases h : k1 x = id
    · simp [first, hg, h]
    · simp only [first] at ih
      simp [first, hg, h, ih]

theorem all_map (id : List UInt8) (l : List α) : all k2 id (l.map g) = (all k1 id l).map g := by
  induction l with
  | nil => rfl
  | cons x xs ih =>
    by_cases h : k1 x = id
    · simp only [all] at ih
      simp [all, hg, h, ih]
    · simp only [all] at ih
      simp [all, hg, h, ih]

theorem put_map (id : List UInt8) (new : α) (l : List α) : put k2 id (g new) (l.map g) = (put k1 id new l).map g := by
  induction l with
  | nil => rfl
  | cons x xs ih =>
    by_cases h : k1 x = id
    · simp [put, hg, h]
    · simp [put, hg, h, ih]

theorem eraseFirst_map (id : List UInt8) (l : List α) : eraseFirst k2 id (l.map g) = (eraseFirst k1 id l).map g := by
  induction l with
  | nil => rfl
  | cons x xs ih =>
    by_cases h : k1 x = id
    · simp [eraseFirst, hg, h]
    · simp [eraseFirst, hg, h, ih]

theorem eraseNth_map (id : List UInt8) (n : Nat) (l : List α) : eraseNth k2 id n (l.map g) = (eraseNth k1 id n l).map g := by
  induction l generalizing n with
  | nil => cases n <;> rfl
  | cons x xs ih =>
    cases n with
    | zero =>
      by_cases h : k1 x = id
      · simp [eraseNth, hg, h]
      · simp [eraseNth, hg, h, ih]
    | succ n => simp [eraseNth, hg, ih]

theorem removesTail_map (id : List UInt8) (n : Nat) (l : List α) :
    removesTail k2 id n (l.map g) ↔ removesTail k1 id n l := by
  unfold removesTail
  rw [← List.map_dropLast, all_map g hg, all_map g hg]
  simp

end map

theorem u32_add (a b : Int) : u32 ((u32 a : Int) + b) = u32 (a + b) := by
  unfold u32; omega

theorem framesSize_append (a b : List SFrame) : framesSize (a ++ b) = framesSize a + framesSize b := by
  simp [framesSize]

theorem split_first' (fs : List SFrame) (k : List UInt8) :
    (∀ f ∈ fs, f.id ≠ k) ∨ ∃ a f b, fs = a ++ f :: b ∧ f.id = k ∧ ∀ g ∈ a, g.id ≠ k := by
  induction fs with
  | nil => left; simp
  | cons x xs ih =>
    by_cases hx : x.id = k
    · right; exact ⟨[], x, xs, rfl, hx, by simp⟩
    · rcases ih with h | ⟨a, f, b, rfl, h1, h2⟩
      · left
        intro f hf
        rcases List.mem_cons.mp hf with rfl | hf
        · exact hx
        · exact h f hf
      · right
        refine ⟨x :: a, f, b, rfl, h1, ?_⟩
        intro g hg
        rcases List.mem_cons.mp hg with rfl | hg
        · exact hx
        · exact h2 g hg

theorem eraseNth_sub {α : Type} (key : α → List UInt8) (id : List UInt8) (n : Nat) (l : List α) :
    ∀ x ∈ eraseNth key id n l, x ∈ l := by
  induction l generalizing n with
  | nil => cases n <;> simp [eraseNth]
  | cons y ys ih =>
    intro x hx
    cases n with
    | zero =>
      unfold eraseNth at hx
      split at hx
      · simp [hx]
      · rcases List.mem_cons.mp hx with rfl | hx
        · simp
        · simp [ih 0 x hx]
    | succ n =>
      unfold eraseNth at hx
      rcases List.mem_cons.mp hx with rfl | hx
      · simp
      · simp [ih _ x hx]

/-- The in-memory tag of a state. -/
def tagOf (major minor flags : UInt8) (st : State) (p : Int) : Tag := toTag major minor flags (u32 st.size) st.frames p

theorem toTag_withSize (major minor flags : UInt8) (n m : Nat) (fs : List SFrame) (p : Int) (l : FrameList) :
    (toTag major minor flags n fs p).withSize l m = { toTag major minor flags m [] p with frames := l } := rfl

theorem toTag_mk (major minor flags : UInt8) (n : Nat) (fs : List SFrame) (p : Int) :
    ({ toTag major minor flags n [] p with frames := nodes (fs.map SFrame.toFrame) } : Tag) =
      toTag major minor flags n fs p := by
  rw [← toFrameList_nodes]; rfl

theorem body_lt [Platform] (f : SFrame) (h : f.Usable) :
    f.bytes.length = 10 + f.body.length ∧ f.body.length ≤ 2147483637 := by
  have := SFrame.bytes_length f h.1
  have := h.2.1
  omega

/-- Storing a frame. -/
theorem set_step [Platform] (major minor flags : UInt8) (st : State) (p : Int) (f : SFrame) (rest : Bytes)
    (hst : ∀ f ∈ st.frames, f.Usable) (hk : ValidId f.id) (hf : f.Usable) :
    Tag_set_frame (tagOf major minor flags st p) (ofB f.id ++ rest) f.toFrame =
      .ok (tagOf major minor flags (st.set f) p) ∧ ∀ g ∈ (st.set f).frames, g.Usable := by
  have hsound : ∀ g ∈ st.frames, g.toFrame.Sound := fun g hg => SFrame.sound g (hst g hg)
  have hlen := body_lt f hf
  rcases split_first' st.frames f.id with hm | ⟨a, g, b, hfs, hg, ha⟩
  · have hhas : st.has f.id = false := by unfold State.has; rw [first_miss _ _ hm]; rfl
    have hput : put SFrame.id f.id f st.frames = st.frames ++ [f] := put_miss _ _ _ hm
    refine ⟨?_, ?_⟩
    · obtain ⟨l, hl, hs⟩ := nodes_stops (st.frames.map SFrame.toFrame)
      rw [set_frame_miss (tagOf major minor flags st p) (st.frames.map SFrame.toFrame) l f.id rest f.toFrame
        ((toFrameList_nodes _).trans hl) hs hk (by
          intro x hx
          obtain ⟨y, hy, rfl⟩ := List.mem_map.mp hx
          exact ⟨hsound y hy, by rw [toFrame_key]; exact hm y hy⟩)]
      unfold Tag_append tagOf
      rw [toTag_withSize, Res.ok.injEq]
      have e1 : FrameList_add_frame (toTag major minor flags (u32 st.size) st.frames p).frames f.toFrame =
          nodes ((st.frames ++ [f]).map SFrame.toFrame) := by
        show FrameList_add_frame (toFrameList st.frames) f.toFrame = _
        rw [toFrameList_nodes, add_nodes]; simp
      have e2 : u32 (((toTag major minor flags (u32 st.size) st.frames p).header.tag_size : Int) + f.toFrame.header.size) =
          u32 (st.set f).size := by
        show u32 ((u32 st.size : Int) + (f.body.length : Int)) = _
        rw [u32_add]
        simp only [State.size, State.set, hhas, Bool.false_eq_true, if_false, hput, framesSize_append, framesSize_cons,
          framesSize_nil]
        congr 1; omega
      rw [e1, e2, toTag_mk]
      simp only [State.set, hput]
    · simp only [State.set, hput]
      intro x hx
      rcases List.mem_append.mp hx with hx | hx
      · exact hst x hx
      · rw [List.mem_singleton] at hx; rw [hx]; exact hf
  · have hhas : st.has f.id = true := by unfold State.has; rw [hfs, first_hit _ a g b ha hg]; rfl
    have hput : put SFrame.id f.id f st.frames = a ++ f :: b := by rw [hfs]; exact put_hit _ _ _ _ _ ha hg
    have hglen := body_lt g (hst g (by rw [hfs]; simp))
    refine ⟨?_, ?_⟩
    · have e : (tagOf major minor flags st p).frames =
          (a.map SFrame.toFrame).map some ++ some g.toFrame :: (b.map SFrame.toFrame).map some := by
        show toFrameList st.frames = _
        rw [toFrameList_nodes, hfs, nodes_eq _ (by simp)]; simp
      rw [set_frame_hit (tagOf major minor flags st p) (a.map SFrame.toFrame) g.toFrame _ f.id rest f.toFrame e hk (by
          intro x hx
          obtain ⟨y, hy, rfl⟩ := List.mem_map.mp hx
          exact ⟨hsound y (by rw [hfs]; simp [hy]), by rw [toFrame_key]; exact ha y hy⟩)
        (hsound g (by rw [hfs]; simp)) (by rw [toFrame_key]; exact hg)
        (SFrame.sound f hf).2.2.1 (by have := (SFrame.sound f hf).2.2.2; omega)]
      unfold tagOf
      rw [toTag_withSize, Res.ok.injEq]
      have e1 : (a.map SFrame.toFrame).map some ++ some f.toFrame :: (b.map SFrame.toFrame).map some =
          nodes ((a ++ f :: b).map SFrame.toFrame) := by
        rw [nodes_eq _ (by simp)]; simp
      have e2 : u32 (((toTag major minor flags (u32 st.size) st.frames p).header.tag_size : Int) +
          (f.toFrame.header.size - g.toFrame.header.size)) = u32 (st.set f).size := by
        show u32 ((u32 st.size : Int) + ((f.body.length : Int) - (g.body.length : Int))) = _
        rw [u32_add]
        simp only [State.size, State.set, hhas, if_true, hput]
        rw [hfs]
        simp only [framesSize_append, framesSize_cons]
        congr 1; omega
      rw [e1, e2, toTag_mk]
      simp only [State.set, hput]
    · simp only [State.set, hput]
      intro x hx
      simp only [List.mem_append, List.mem_cons] at hx
      rcases hx with hx | rfl | hx
      · exact hst x (by rw [hfs]; simp [hx])
      · exact hf
      · exact hst x (by rw [hfs]; simp [hx])

/-- Appending a frame. -/
theorem add_step [Platform] (major minor flags : UInt8) (st : State) (p : Int) (f : SFrame)
    (hst : ∀ f ∈ st.frames, f.Usable) (hf : f.Usable) :
    Tag_append (tagOf major minor flags st p) f.toFrame = tagOf major minor flags (st.add f) p ∧
      ∀ g ∈ (st.add f).frames, g.Usable := by
  have hlen := body_lt f hf
  refine ⟨?_, ?_⟩
  · unfold Tag_append tagOf
    rw [toTag_withSize]
    have e1 : FrameList_add_frame (toTag major minor flags (u32 st.size) st.frames p).frames f.toFrame =
        nodes ((st.frames ++ [f]).map SFrame.toFrame) := by
      show FrameList_add_frame (toFrameList st.frames) f.toFrame = _
      rw [toFrameList_nodes, add_nodes]; simp
    have e2 : u32 (((toTag major minor flags (u32 st.size) st.frames p).header.tag_size : Int) + f.toFrame.header.size) =
        u32 (st.add f).size := by
      show u32 ((u32 st.size : Int) + (f.body.length : Int)) = _
      rw [u32_add]
      simp only [State.size, State.add, framesSize_append, framesSize_cons, framesSize_nil]
      congr 1; omega
    rw [e1, e2, toTag_mk]
    rfl
  · intro x hx
    simp only [State.add] at hx
    rcases List.mem_append.mp hx with hx | hx
    · exact hst x hx
    · rw [List.mem_singleton] at hx; rw [hx]; exact hf

theorem tagOf_holds [Platform] (major minor flags : UInt8) (st : State) (p : Int) (hst : ∀ f ∈ st.frames, f.Usable) :
    (tagOf major minor flags st p).Holds (st.frames.map SFrame.toFrame) := toTag_holds _ _ _ _ _ _ hst

/-- A tag with the same header fields except the size is determined by its size and frames. -/
theorem tag_ext (t : Tag) (major minor flags : UInt8) (n m : Nat) (fs gs : List SFrame) (p : Int)
    (hh : t.header = { (toTag major minor flags n fs p).header with tag_size := m })
    (hf : t.frames = nodes (gs.map SFrame.toFrame)) (hp : t.padding_size = p) : t = toTag major minor flags m gs p := by
  cases t
  simp only at hh hf hp
  subst hh; subst hp
  rw [hf, ← toFrameList_nodes]
  rfl

/-- Deleting by id. -/
theorem delete_step [Platform] (major minor flags : UInt8) (st : State) (p : Int) (k : List UInt8) (rest : Bytes)
    (hst : ∀ f ∈ st.frames, f.Usable) (hk : ValidId k) (hhas : st.has k = true)
    (ht : ¬ removesTail SFrame.id k 0 st.frames) :
    ID3v2_Tag_delete_frame (tagOf major minor flags st p) (ofB k ++ rest) =
      .ok (tagOf major minor flags { st with frames := eraseFirst SFrame.id k st.frames } p) ∧
      ∀ g ∈ eraseFirst SFrame.id k st.frames, g.Usable := by
  have hsound : ∀ g ∈ st.frames, g.toFrame.Sound := fun g hg => SFrame.sound g (hst g hg)
  rcases split_first' st.frames k with hm | ⟨a, g, b, hfs, hg, ha⟩
  · unfold State.has at hhas; rw [first_miss _ _ hm] at hhas; simp at hhas
  · have her : eraseFirst SFrame.id k st.frames = a ++ b := by rw [hfs]; exact eraseFirst_hit _ _ _ _ ha hg
    have hglen := body_lt g (hst g (by rw [hfs]; simp))
    have hb : b ≠ [] ∨ a = [] := by
      by_cases hb : b = []
      · right
        subst hb
        by_cases hA : a = []
        · exact hA
        · exfalso
          apply ht
          rw [← removesTail_map SFrame.toFrame (k1 := SFrame.id) toFrame_key, hfs]
          have := Props.removesTail_iff k (a.map SFrame.toFrame) g.toFrame 0 (by rw [toFrame_key]; exact hg) (by simpa using hA) (by
            rw [all_map SFrame.toFrame (k1 := SFrame.id) toFrame_key, List.length_map, List.length_eq_zero_iff]
            simp only [all, List.filter_eq_nil_iff, decide_eq_true_eq]; exact ha)
          simpa using this
      · exact Or.inl hb
    refine ⟨?_, ?_⟩
    · have e : (tagOf major minor flags st p).frames =
          (a.map SFrame.toFrame).map some ++ some g.toFrame :: (b.map SFrame.toFrame).map some := by
        show toFrameList st.frames = _
        rw [toFrameList_nodes, hfs, nodes_eq _ (by simp)]; simp
      rw [delete_hit (tagOf major minor flags st p) (a.map SFrame.toFrame) g.toFrame _ k rest e hk (by
          intro x hx
          obtain ⟨y, hy, rfl⟩ := List.mem_map.mp hx
          exact ⟨hsound y (by rw [hfs]; simp [hy]), by rw [toFrame_key]; exact ha y hy⟩)
        (hsound g (by rw [hfs]; simp)) (by rw [toFrame_key]; exact hg)]
      unfold tagOf
      rw [toTag_withSize, Res.ok.injEq]
      have e2 : u32 (((toTag major minor flags (u32 st.size) st.frames p).header.tag_size : Int) -
          (g.toFrame.header.size + 10)) = u32 (State.size { st with frames := a ++ b }) := by
        show u32 ((u32 st.size : Int) - ((g.body.length : Int) + 10)) = _
        rw [Int.sub_eq_add_neg, u32_add]
        simp only [State.size]
        rw [hfs]
        simp only [framesSize_append, framesSize_cons]
        congr 1; omega
      rw [e2, Props.holds_of_split _ _ (by simpa using hb), ← List.map_append, toTag_mk, her]
    · rw [her]
      intro x hx
      refine hst x ?_
      rw [hfs]
      simp only [List.mem_append, List.mem_cons] at *
      rcases hx with hx | hx
      · exact Or.inl hx
      · exact Or.inr (Or.inr hx)

/-- Deleting by index. -/
theorem deleteAt_step [Platform] (major minor flags : UInt8) (st : State) (p : Int) (k : List UInt8) (rest : Bytes)
    (index : Int) (hst : ∀ f ∈ st.frames, f.Usable) (hk : ValidId k) (hi : st.IndexSafe k index) :
    ID3v2_Tag_delete_frame_at (tagOf major minor flags st p) (ofB k ++ rest) index =
      .ok (tagOf major minor flags (st.deleteAt k index) p) ∧
      ∀ g ∈ (st.deleteAt k index).frames, g.Usable := by
  have hh := tagOf_holds major minor flags st p hst
  unfold State.deleteAt
  by_cases hneg : index < 0
  · rw [if_pos hneg]
    exact ⟨Props.delete_at_out_of_range _ _ k rest index hh hk (Or.inl hneg), hst⟩
  · rw [if_neg hneg]
    rcases hi with hi | hi
    · exact absurd hi hneg
    obtain ⟨n, rfl⟩ : ∃ n : Nat, index = n := ⟨index.toNat, by omega⟩
    simp only [Int.toNat_natCast] at hi ⊢
    have herase := eraseNth_map SFrame.toFrame (k1 := SFrame.id) toFrame_key k n st.frames
    refine ⟨?_, fun g hg => hst g (eraseNth_sub _ _ _ _ g hg)⟩
    by_cases hr : n < (all Frame.key k (st.frames.map SFrame.toFrame)).length
    · obtain ⟨t, h1, h2, h3, h4⟩ := Props.delete_at_partial _ _ k rest n hh hk hr
        (by rw [removesTail_map SFrame.toFrame (k1 := SFrame.id) toFrame_key]; exact hi)
      rw [h1, Res.ok.injEq]
      refine tag_ext t major minor flags (u32 st.size) _ st.frames _ p ?_ ?_ h4
      · rw [h3]
        unfold tagOf
        have : State.size ⟨eraseNth SFrame.id k n st.frames,
            st.room + framesSize st.frames - framesSize (eraseNth SFrame.id k n st.frames)⟩ = st.size := by
          simp only [State.size]; omega
        rw [this]; rfl
      · rw [h2.1, herase]
    · have hout := Props.delete_at_out_of_range _ _ k rest n hh hk (Or.inr (by omega))
      have hsame : eraseNth SFrame.id k n st.frames = st.frames := by
        rw [all_map SFrame.toFrame (k1 := SFrame.id) toFrame_key, List.length_map] at hr
        exact eraseNth_miss k n st.frames (by omega)
      rw [hout, hsame]
      congr 2
      simp only [Int.add_sub_cancel]

/-- One call. -/
theorem op_step [Platform] (major minor flags : UInt8) (st : State) (p : Int) (rest : Bytes) (op : Op)
    (hst : ∀ f ∈ st.frames, f.Usable) (hv : op.Valid) (hd : op.DeleteSafe st) :
    op.run rest (tagOf major minor flags st p) = .ok (tagOf major minor flags (op.apply st) p) ∧
      ∀ g ∈ (op.apply st).frames, g.Usable := by
  cases op with
  | setText id fl s =>
    obtain ⟨h1, h2⟩ := set_step major minor flags st p (.text id fl s) rest hst hv.1 hv.2
    refine ⟨?_, h2⟩
    simp only [Op.run, ID3v2_Tag_set_text_frame, Str.inMemory]
    rw [text_new hv.2]
    exact h1
  | setComment fl lang desc txt =>
    obtain ⟨h1, h2⟩ := set_step major minor flags st p (.comment fl lang desc txt) (ofB [0]) hst (show ValidId commId by decide) hv
    refine ⟨?_, h2⟩
    simp only [Op.run, ID3v2_Tag_set_comment_frame, Str.inMemory]
    rw [comment_new hv]
    exact h1
  | addComment fl lang desc txt =>
    obtain ⟨h1, h2⟩ := add_step major minor flags st p (.comment fl lang desc txt) hst hv
    refine ⟨?_, h2⟩
    simp only [Op.run, ID3v2_Tag_add_comment_frame, Str.inMemory]
    rw [comment_new hv]
    simp only [Res.bind_ok, Res.pure_eq, h1]
    rfl
  | setApic fl mime pt desc pic =>
    obtain ⟨h1, h2⟩ := set_step major minor flags st p (.apic fl mime pt desc pic) (ofB [0]) hst (show ValidId apicId by decide) hv
    refine ⟨?_, h2⟩
    simp only [Op.run, ID3v2_Tag_set_apic_frame, ApicFrame_of_input, Str.inMemory]
    rw [apic_new hv _ _ _ _ _ rfl]
    exact h1
  | addApic fl mime pt desc pic =>
    obtain ⟨h1, h2⟩ := add_step major minor flags st p (.apic fl mime pt desc pic) hst hv
    refine ⟨?_, h2⟩
    simp only [Op.run, ID3v2_Tag_add_apic_frame, ApicFrame_of_input, Str.inMemory]
    rw [apic_new hv _ _ _ _ _ rfl]
    simp only [Res.bind_ok, Res.pure_eq, h1]
    rfl
  | delete id => exact delete_step major minor flags st p id rest hst hv hd.1 hd.2
  | deleteComment i => exact deleteAt_step major minor flags st p commId (ofB [0]) i hst (by decide) hd
  | deleteApic i => exact deleteAt_step major minor flags st p apicId (ofB [0]) i hst (by decide) hd

/-- A whole history. -/
theorem history_step [Platform] (major minor flags : UInt8) (p : Int) (rest : Bytes) (ops : List Op) (st : State)
    (hst : ∀ f ∈ st.frames, f.Usable) (hs : SafeHistory ops st) :
    runAll rest ops (tagOf major minor flags st p) = .ok (tagOf major minor flags (applyAll ops st) p) ∧
      ∀ g ∈ (applyAll ops st).frames, g.Usable := by
  induction ops generalizing st with
  | nil => exact ⟨rfl, hst⟩
  | cons op ops ih =>
    obtain ⟨hv, hd, hs⟩ := hs
    obtain ⟨h1, h2⟩ := op_step major minor flags st p rest op hst hv hd
    obtain ⟨h3, h4⟩ := ih (op.apply st) h2 hs
    refine ⟨?_, h4⟩
    simp only [runAll, h1, Res.bind_ok]
    exact h3

end Id3
