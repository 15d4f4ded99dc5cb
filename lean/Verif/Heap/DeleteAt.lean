import Verif.Heap.Tags

/-!
# Proofs about deleting by index on the heap
-/

namespace Id3.H

open Id3

/-- src/modules/tag.c:518-523: what is done at the selected node. -/
def deleteAction (tagFrames : Ptr) (n : Nat × Ptr) : HeapM Ptr := do
  let _ ← FrameList_remove_frame (← heapFuel) tagFrames n.2
  ID3v2_Frame_free n.2
  return some n.1

theorem delete_loop_spec {h : Heap} {L : List Block} (r : Rep h L) (sub : Nat) (tf : Ptr) (index : Int) :
    ∀ (k : Nat) (i : Int) (sp : List (Nat × Ptr)), (∀ b ∈ listNodes sub sp, b ∈ L) → sp.length < k →
      delete_loop tf index k i (first sp) h =
        match (if i ≤ index then sp[(index - i).toNat]? else none) with
        | some n => deleteAction tf n h
        | none => .ok (none, h)
  | 0, _, _, _, hk => absurd hk (by omega)
  | k + 1, i, [], _, _ => by
    show delete_loop tf index (k + 1) i none h = _
    unfold delete_loop
    split
    · rename_i h1
      split at h1 <;> simp at h1
    · rfl
  | k + 1, i, (a, p) :: sp, hm, hk => by
    show delete_loop tf index (k + 1) i (some a) h = _
    unfold delete_loop
    have e : loadNode (some a) h = .ok (⟨p, first sp, p.map fun _ => sub⟩, h) := by
      unfold loadNode
      rw [HeapM.bind_apply, r.load (hm _ List.mem_cons_self)]
      rfl
    rw [HeapM.bind_apply, e, Res.bind_ok]
    by_cases hi : i = index
    · subst hi
      simp only [if_true, Int.le_refl, Int.sub_self]
      rfl
    · dsimp only
      rw [if_neg hi, delete_loop_spec r sub tf index k (i + 1) sp (fun b hb => hm b (List.mem_cons_of_mem _ hb))
        (by simp only [List.length_cons] at hk; omega)]
      by_cases hle : i ≤ index
      · have h1 : i + 1 ≤ index := by omega
        have h2 : (index - i).toNat = (index - (i + 1)).toNat + 1 := by omega
        rw [if_pos hle, if_pos h1, h2, List.getElem?_cons_succ]
      · have h1 : ¬ i + 1 ≤ index := by omega
        rw [if_neg hle, if_neg h1]

/-- The number of list nodes that deleting by index leaves behind, when `m` frames match. -/
def leakedNodes (index : Int) (m : Nat) : Nat :=
  if 0 ≤ index ∧ index < (max 1 m : Nat) then index.toNat else max 1 m

/-- The blocks are list nodes. -/
def NodesOnly (N : List Block) : Prop := ∀ b ∈ N, ∃ f n s, b.2 = .node f n s

theorem nodesTo_only (head : Nat) (t : Ptr) : ∀ sp, NodesOnly (nodesTo head t sp)
  | [] => fun _ h => by cases h
  | (a, f) :: sp => by
    intro b hb
    rcases List.mem_cons.mp hb with rfl | hb
    · exact ⟨_, _, _, rfl⟩
    · exact nodesTo_only head t sp b hb

theorem nodesTo_length (head : Nat) (t : Ptr) : ∀ sp, (nodesTo head t sp).length = sp.length
  | [] => rfl
  | (_, _) :: sp => congrArg (· + 1) (nodesTo_length head t sp)

theorem matchPtrs_length (ps : List Nat) : (matchPtrs ps).length = max 1 ps.length := by
  cases ps with
  | nil => rfl
  | cons p ps => simp [matchPtrs]

theorem frame_free_null {h : Heap} {X : List Block} (r : Rep h X) :
    Refines (ID3v2_Frame_free none h) (.ok ()) (fun _ _ h' => Rep h' X) := .pure r

/-- What deleting by index leaves behind. -/
structure AtLeak (T : HTag) (id : Bytes) (index : Int) (N K : List Block) : Prop where
  frame : SetLeak T K
  exact : (N ++ K).length = Spec.indexLeft T.value id index
  nodes : NodesOnly N
  count : ∃ m, FrameList_matching T.value.frames id = .ok m ∧ N.length = leakedNodes index m.length

theorem foldl_add_some (f : Frame) : ∀ (m : List (Nat × Frame)) (l : FrameList),
    m.foldl (fun l p => Id3.FrameList_add_frame l p.2) (some f :: l) = some f :: l ++ m.map (fun p => some p.2)
  | [], l => by simp
  | p :: m, l => by
    rw [List.foldl_cons]
    show m.foldl _ (some f :: (l ++ [some p.2])) = _
    rw [foldl_add_some f m]
    simp

/-- The list of matches, as the specification sees it. -/
theorem matches_list {T : HTag} {id : Bytes} {m : List (Nat × Frame)} (h : FrameList_matching T.value.frames id = .ok m) :
    Id3.ID3v2_Tag_get_frames T.value id = .ok (if m = [] then [none] else m.map fun p => some p.2) := by
  unfold Id3.ID3v2_Tag_get_frames Id3.FrameList_get_frames_by_id
  rw [h]
  cases m with
  | nil => rfl
  | cons x m =>
    show Res.ok (List.foldl _ (some x.2 :: []) m) = _
    rw [foldl_add_some]
    rfl

/-- The number of blocks lost, when the frame `f` is deleted. -/
theorem index_left_some {T : HTag} {id : Bytes} {m : List (Nat × Frame)} {index : Int} {x : Nat × Frame}
    (h : FrameList_matching T.value.frames id = .ok m) (h0 : 0 ≤ index) (hx : m[index.toNat]? = some x) :
    Spec.indexLeft T.value id index = index.toNat + Spec.frameLeft x.2 := by
  have hl : index.toNat < m.length := by
    rcases Nat.lt_or_ge index.toNat m.length with h | h
    · exact h
    · rw [List.getElem?_eq_none h] at hx; cases hx
  have hm : m ≠ [] := by rintro rfl; cases hl
  unfold Spec.indexLeft
  rw [matches_list h, if_neg hm]
  dsimp only
  rw [if_pos ⟨h0, by rw [List.length_map]; omega⟩]
  unfold Spec.atLeft
  rw [List.getElem?_map, hx]
  rfl

theorem index_left_none {T : HTag} {id : Bytes} {m : List (Nat × Frame)} {index : Int}
    (h : FrameList_matching T.value.frames id = .ok m) (hx : ¬ (0 ≤ index ∧ index < (max 1 m.length : Nat)) ∨ m = []) :
    Spec.indexLeft T.value id index = leakedNodes index m.length := by
  unfold Spec.indexLeft leakedNodes
  rw [matches_list h]
  dsimp only
  cases m with
  | nil =>
    simp only [if_true, List.length_cons, List.length_nil]
    split
    · next hc =>
      obtain rfl : index = 0 := by omega
      rfl
    · next hc => rw [if_neg (by rw [show max 1 0 = 0 + 1 from rfl]; exact hc)]; rfl
  | cons x m =>
    rcases hx with hx | hx
    · have e : max 1 (x :: m).length = (x :: m).length := by simp
      rw [e] at hx ⊢
      rw [if_neg (List.cons_ne_nil _ _), if_neg (by rw [List.length_map]; exact hx), if_neg hx, List.length_map]
    · cases hx

theorem matching_getElem {ms : List (Nat × HFrame)} {sp : List (Nat × Ptr)}
    (hsp : sp.map (·.2) = matchPtrs (ms.map (·.2.addr))) {j : Nat} {a : Nat} {p : Ptr} (hj : sp[j]? = some (a, p)) :
    (ms = [] ∧ j = 0 ∧ p = none) ∨ ∃ i F, ms[j]? = some (i, F) ∧ p = some F.addr := by
  have h1 : (sp.map (·.2))[j]? = some p := by simp [hj]
  rw [hsp] at h1
  cases ms with
  | nil =>
    cases j with
    | zero => simp [matchPtrs] at h1; exact .inl ⟨rfl, rfl, h1.symm⟩
    | succ j => simp [matchPtrs] at h1
  | cons m ms =>
    right
    have h2 : (((m :: ms).map (·.2.addr)).map some)[j]? = some p := h1
    rw [List.getElem?_map, List.getElem?_map] at h2
    cases hm : (m :: ms)[j]? with
    | none => rw [hm] at h2; simp at h2
    | some q =>
      rw [hm] at h2
      simp at h2
      exact ⟨q.1, q.2, rfl, h2.symm⟩

theorem delete_at_spec {h : Heap} {T : HTag} {X : List Block} (r : Rep h (T.blocks ++ X)) (id : Bytes) (index : Int) :
    Refines (ID3v2_Tag_delete_frame_at T.addr id index h) (Id3.ID3v2_Tag_delete_frame_at T.value id index)
      (fun v _ h' => ∃ N K, TagRep (N ++ K ++ X) v T.addr h' ∧ AtLeak T id index N K) := by
  unfold ID3v2_Tag_delete_frame_at Id3.ID3v2_Tag_delete_frame_at
  refine .loadTag r (List.mem_append_left _ (mem_tag T)) ?_
  refine .call (get_frames_spec r T.head id T.list (tag_list T X)) ?_
  rintro m sub h1 hmatch ⟨ms, f, rest, rfl, hi, r1, hsp⟩
  refine .fuel r1 fun n hn => ?_
  rw [HeapM.bind_apply]
  have hloop := delete_loop_spec r1 sub (some T.head) index n 0 ((sub, f) :: rest)
    (fun b hb => List.mem_append_left _ hb) (by
      simp only [List.length_append, listNodes_length] at hn; omega)
  dsimp only
  rw [show (some sub : Ptr) = first ((sub, f) :: rest) from rfl, hloop]
  clear hloop
  have hcount : ((sub, f) :: rest).length = max 1 ms.length := by
    have := congrArg List.length hsp
    rw [matchPtrs_length, List.length_map] at this
    simpa using this
  -- nothing selected
  have nothing : ¬ (0 ≤ index ∧ index < (max 1 ms.length : Nat)) →
      Refines ((do ID3v2_FrameList_unlink (← heapFuel) none : HeapM Unit) h1) (.ok T.value) (fun v _ h' => ∃ N K,
        TagRep (N ++ K ++ X) v T.addr h' ∧ AtLeak T id index N K) := by
    intro hno
    refine .fuel r1 fun n hn => ?_
    cases n with
    | zero => omega
    | succ n =>
      refine .pure ⟨listNodes sub ((sub, f) :: rest), [], ⟨T, rfl, rfl, r1.perm (by blocks)⟩, .inl rfl, ?_, ?_, _, hmatch, ?_⟩
      · rw [List.append_nil, listNodes_length, hcount, index_left_none hmatch (.inl (by rw [List.length_map]; exact hno)),
          leakedNodes, List.length_map, if_neg hno]
      · rw [listNodes_eq]; exact nodesTo_only _ _ _
      · rw [listNodes_length, hcount, leakedNodes, List.length_map, if_neg hno]
  have hsel : (if (0 : Int) ≤ index then ((sub, f) :: rest)[(index - 0).toNat]? else none) =
      if 0 ≤ index then ((sub, f) :: rest)[index.toNat]? else none := by rw [Int.sub_zero]
  rw [hsel]
  clear hsel
  by_cases hidx : 0 ≤ index ∧ index < (max 1 ms.length : Nat)
  · obtain ⟨h0, hlt⟩ := hidx
    rw [if_pos h0]
    have hj : index.toNat < ((sub, f) :: rest).length := by omega
    obtain ⟨⟨a, p⟩, hget⟩ : ∃ n, ((sub, f) :: rest)[index.toNat]? = some n := ⟨_, List.getElem?_eq_getElem hj⟩
    rw [hget]
    dsimp only
    have hsplit : (sub, f) :: rest = ((sub, f) :: rest).take index.toNat ++ ((sub, f) :: rest).drop index.toNat :=
      (List.take_append_drop _ _).symm
    have hdrop : ((sub, f) :: rest).drop index.toNat = (a, p) :: ((sub, f) :: rest).drop (index.toNat + 1) := by
      rw [List.drop_eq_getElem_cons hj]
      congr 1
      exact Option.some.inj ((List.getElem?_eq_getElem hj).symm.trans hget)
    rw [hdrop] at hsplit
    have htake : (((sub, f) :: rest).take index.toNat).length = index.toNat := by
      rw [List.length_take]; omega
    generalize ((sub, f) :: rest).take index.toNat = pre at hsplit htake
    generalize ((sub, f) :: rest).drop (index.toNat + 1) = post at hsplit
    have hnodes : listNodes sub ((sub, f) :: rest) = nodesTo sub (some a) pre ++ listNodes sub ((a, p) :: post) := by
      rw [hsplit, listNodes_append]
      rfl
    rw [hnodes] at r1
    have hleak : (nodesTo sub (some a) pre).length = leakedNodes index (ms.map fun p => (p.1, p.2.value)).length := by
      rw [nodesTo_length, htake, leakedNodes, List.length_map, if_pos ⟨h0, hlt⟩]
    have r2 : Rep h1 (listNodes T.head (spine T.list) ++ (frameBlocks T.list ++
        ((T.addr, .tag (some T.hdr) (some T.head) T.padding_size) :: (T.hdr, .tagHeader T.header) ::
          (nodesTo sub (some a) pre ++ listNodes sub ((a, p) :: post) ++ X)))) := by
      refine r1.perm ?_
      unfold HTag.blocks
      blocks
    refine Eq.mp (congrArg (Refines · _ _) (HeapM.bind_apply (deleteAction (some T.head) (a, p))
      (fun rest => heapFuel >>= fun k => ID3v2_FrameList_unlink k rest) h1)) ?_
    rcases matching_getElem (sp := (sub, f) :: rest) hsp hget with ⟨hms, hj0, rfl⟩ | ⟨i, F, hms, rfl⟩
    · subst hms
      have hi0 : index = 0 := by omega
      simp only [List.map_nil, if_pos hi0]
      refine .step (b := ()) (Q := fun _ q h' => q = some a ∧ Rep h' (listNodes T.head (spine (removeNull T.list)) ++
        (frameBlocks T.list ++ ((T.addr, .tag (some T.hdr) (some T.head) T.padding_size) ::
          (T.hdr, .tagHeader T.header) :: (nodesTo sub (some a) pre ++ listNodes sub ((a, none) :: post) ++ X))))) ?_ ?_
      · unfold deleteAction
        refine .fuel r2 fun n hn => ?_
        refine .step (remove_null_spec T.head n T.list _ h1 r2 (by
          simp only [List.length_append, listNodes_length, spine, List.length_map] at hn; omega)) fun _ h2 r3 => ?_
        exact .step (frame_free_null r3) fun _ h3 r4 => .pure ⟨rfl, r4⟩
      · rintro _ h2 ⟨rfl, r3⟩
        obtain ⟨f', rest', hl'⟩ := of_first (first_removeNull T.list)
        have hp := frameBlocks_removeNull T.list
        rw [hl'] at r3 hp
        have r4 : Rep h2 (listNodes sub ((a, none) :: post) ++ ((T.hdr, .tagHeader T.header) ::
            (T.addr, .tag (some T.hdr) (some T.head) T.padding_size) ::
            (listNodes T.head (spine ((T.head, f') :: rest')) ++ (frameBlocks ((T.head, f') :: rest') ++
              (nodesTo sub (some a) pre ++ [] ++ X))))) := by
          refine r3.perm ?_
          blocks_using hp
        refine .fuel r4 fun n hn => ?_
        refine .last (.step (unlink_spec sub n ((a, none) :: post) _ h2 r4 (by
          simp only [List.length_append, listNodes_length] at hn; omega)) fun _ h3 r5 => .pure ?_)
        refine ⟨_, [], tag_of_parts r5 (List.Perm.refl _) ?_, .inl rfl, by
          rw [List.append_nil, hleak, index_left_none hmatch (.inr rfl)], nodesTo_only _ _ _, _, hmatch, hleak⟩
        rw [← hl', vals_removeNull]
        rfl
    · obtain ⟨m, hm⟩ := hi _ (List.mem_of_getElem? hms)
      have hne : ∃ x xs, ms.map (fun p => (p.1, p.2.value)) = x :: xs := by
        cases ms with
        | nil => simp at hms
        | cons x xs => exact ⟨_, _, rfl⟩
      obtain ⟨x, xs, hx⟩ := hne
      rw [hx]
      dsimp only
      rw [if_neg (by omega), ← hx, List.getElem?_map, hms]
      dsimp only [Option.map]
      refine .call (Q := fun _ q h' => q = some a ∧ Rep h' (F.leak ++
        (listNodes T.head (spine (removeAt T.list i)) ++ (frameBlocks (removeAt T.list i) ++
        ((T.addr, .tag (some T.hdr) (some T.head) T.padding_size) ::
          (T.hdr, .tagHeader T.header) ::
            (nodesTo sub (some a) pre ++ listNodes sub ((a, some F.addr) :: post) ++ X)))))) ?_ ?_
      · unfold deleteAction
        refine .fuel r2 fun n hn => ?_
        refine .step (remove_frame_spec T.head n T.list i m F _ h1 r2 hm (by
          simp only [List.length_append, listNodes_length, spine, List.length_map] at hn; omega)) fun _ h2 r3 => ?_
        have hp := frameBlocks_removeAt T.list i m (some F) hm
        have r4 : Rep h2 (F.blocks ++ (listNodes T.head (spine (removeAt T.list i)) ++ (frameBlocks (removeAt T.list i) ++
            ((T.addr, .tag (some T.hdr) (some T.head) T.padding_size) ::
            (T.hdr, .tagHeader T.header) ::
              (nodesTo sub (some a) pre ++ listNodes sub ((a, some F.addr) :: post) ++ X))))) := by
          refine r3.perm ?_
          simp only [nodeBlocks] at hp
          blocks_using hp
        have := (frame_free_spec r4)
        have e : Id3.ID3v2_Frame_free F.value = (Id3.ID3v2_Frame_free F.value >>= fun x => .ok x) := by
          cases Id3.ID3v2_Frame_free F.value <;> rfl
        rw [e]
        exact .call this fun _ _ h3 _ r5 => .pure ⟨rfl, r5⟩
      · rintro _ _ h2 _ ⟨rfl, r3⟩
        obtain ⟨f', rest', hl'⟩ := of_first (first_removeAt T.list i)
        rw [hl'] at r3
        have r4 : Rep h2 (listNodes sub ((a, some F.addr) :: post) ++ ((T.hdr, .tagHeader T.header) ::
            (T.addr, .tag (some T.hdr) (some T.head) T.padding_size) ::
            (listNodes T.head (spine ((T.head, f') :: rest')) ++ (frameBlocks ((T.head, f') :: rest') ++
              (nodesTo sub (some a) pre ++ F.leak ++ X))))) := by
          refine r3.perm ?_
          blocks
        refine .fuel r4 fun n hn => ?_
        refine .last (.step (unlink_spec sub n ((a, some F.addr) :: post) _ h2 r4 (by
          simp only [List.length_append, listNodes_length] at hn; omega)) fun _ h3 r5 => .pure ?_)
        refine ⟨_, F.leak, tag_of_parts r5 (List.Perm.refl _) ?_, .inr ⟨m, F, List.mem_of_getElem? hm, rfl⟩, by
          rw [List.length_append, nodesTo_length, htake, leak_length, index_left_some (x := (i, F.value)) hmatch h0 (by
            rw [List.getElem?_map, hms]; rfl)],
          nodesTo_only _ _ _, _, hmatch, hleak⟩
        rw [← hl', vals_removeAt]
        rfl
  · have hnone : (if 0 ≤ index then ((sub, f) :: rest)[index.toNat]? else none) = none := by
      split
      · exact List.getElem?_eq_none (by omega)
      · rfl
    rw [hnone]
    have hval : ∀ v : Res Tag, v = .ok T.value → Refines ((do ID3v2_FrameList_unlink (← heapFuel) none : HeapM Unit) h1) v
        (fun v _ h' => ∃ N K, TagRep (N ++ K ++ X) v T.addr h' ∧ AtLeak T id index N K) := by
      rintro _ rfl
      exact nothing hidx
    refine hval _ ?_
    cases ms with
    | nil =>
      have : index ≠ 0 := by
        rintro rfl
        exact hidx (by simp)
      simp only [List.map_nil, if_neg this]
      rfl
    | cons x xs =>
      rw [List.map_cons]
      dsimp only
      split
      · rfl
      · rw [List.getElem?_eq_none]
        · rfl
        · simp only [List.length_cons, List.length_map] at hidx ⊢
          omega

end Id3.H
