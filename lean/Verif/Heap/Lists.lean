import Verif.Heap.Logic

/-!
# Proofs about the linked lists
-/

namespace Id3

/-- List nodes with the `next` of the last one given. -/
def nodesTo (head : Nat) (t : Ptr) : List (Nat × Ptr) → List Block
  | [] => []
  | (a, f) :: rest => (a, .node f (match first rest with | none => t | some b => some b) (f.map fun _ => head)) ::
      nodesTo head t rest

theorem listNodes_eq (head : Nat) : ∀ sp, listNodes head sp = nodesTo head none sp
  | [] => rfl
  | (a, f) :: rest => by
    rw [listNodes, nodesTo, listNodes_eq head rest]
    unfold first
    cases rest <;> rfl

/-- The `next` of the node before the nodes `ys`. -/
def linkTo (ys : List (Nat × Ptr)) (t : Ptr) : Ptr := match first ys with | none => t | some b => some b

theorem first_append (xs ys : List (Nat × Ptr)) : first (xs ++ ys) = match first xs with | none => first ys | some b => some b := by
  cases xs <;> simp [first]

theorem nodesTo_append (head : Nat) (t : Ptr) (ys : List (Nat × Ptr)) :
    ∀ xs, nodesTo head t (xs ++ ys) = nodesTo head (linkTo ys t) xs ++ nodesTo head t ys
  | [] => rfl
  | (a, f) :: xs => by
    show nodesTo head t ((a, f) :: (xs ++ ys)) = _
    rw [nodesTo, nodesTo_append head t ys xs, nodesTo, first_append, List.cons_append]
    congr 2
    cases hx : first xs with
    | none => rfl
    | some b => rfl

theorem listNodes_append (head : Nat) (xs ys : List (Nat × Ptr)) :
    listNodes head (xs ++ ys) = nodesTo head (first ys) xs ++ listNodes head ys := by
  rw [listNodes_eq, listNodes_eq, nodesTo_append]
  unfold linkTo
  cases first ys <;> rfl

theorem listNodes_cons (head a : Nat) (f : Ptr) (rest : List (Nat × Ptr)) :
    listNodes head ((a, f) :: rest) = (a, .node f (first rest) (f.map fun _ => head)) :: listNodes head rest := rfl

theorem listNodes_length (head : Nat) : ∀ sp, (listNodes head sp).length = sp.length
  | [] => rfl
  | (a, f) :: rest => by rw [listNodes_cons, List.length_cons, List.length_cons, listNodes_length head rest]

namespace H

/-- The last node of a list. -/
theorem lastNode_spec {h : Heap} {L : List Block} (r : Rep h L) (head : Nat) : ∀ (k a : Nat) (f : Ptr) (rest : List (Nat × Ptr)),
    (∀ b ∈ listNodes head ((a, f) :: rest), b ∈ L) → rest.length < k →
    Refines (lastNode k a h) (.ok ()) (fun _ p h' => h' = h ∧ ∃ init g, (a, f) :: rest = init ++ [(p, g)])
  | 0, _, _, _, _, hk => absurd hk (by omega)
  | k + 1, a, f, [], hm, _ => by
    unfold lastNode
    refine .loadNode r (hm _ List.mem_cons_self) ?_
    exact .pure ⟨rfl, [], f, rfl⟩
  | k + 1, a, f, (b, g) :: rest, hm, hk => by
    unfold lastNode
    refine .loadNode r (hm _ List.mem_cons_self) ?_
    refine (lastNode_spec r head k b g rest (fun x hx => hm x (List.mem_cons_of_mem _ hx))
      (by simp only [List.length_cons] at hk; omega)).mono ?_
    rintro _ p h' _ ⟨e, init, g', hi⟩
    exact ⟨e, (a, f) :: init, g', by rw [hi]; rfl⟩

theorem add_frame_spec {h : Heap} {head : Nat} {f : Ptr} {rest : List (Nat × Ptr)} {R : List Block}
    (r : Rep h (listNodes head ((head, f) :: rest) ++ R)) (p : Nat) :
    Refines (FrameList_add_frame head (some p) h) (.ok ()) (fun _ _ h' => ∃ sp,
      Rep h' (listNodes head sp ++ R) ∧
      match f with
      | none => sp = (head, some p) :: rest
      | some g => ∃ a, sp = (head, some g) :: rest ++ [(a, some p)]) := by
  unfold FrameList_add_frame
  refine .loadNode r (by rw [listNodes_cons]; exact List.mem_cons_self) ?_
  cases f with
  | none =>
    refine .last (.store r (by rw [listNodes_cons]; exact List.Perm.refl _) fun h' r' => .pure ⟨_, ?_, rfl⟩)
    rw [listNodes_cons]
    exact r'
  | some g =>
    unfold FrameList_new
    refine .malloc r fun c h1 r1 => ?_
    refine .store r1 (List.Perm.refl _) fun h2 r2 => ?_
    refine .fuel r2 fun n hn => ?_
    refine .step (lastNode_spec r2 head n head (some g) rest (fun b hb =>
      List.mem_cons_of_mem _ (List.mem_append_left _ hb)) (by
        simp only [List.length_cons, List.length_append, listNodes_length] at hn; omega)) ?_
    rintro q h3 ⟨rfl, init, g', hi⟩
    rw [hi, listNodes_append] at r2
    have r3 : Rep h3 ((q, .node g' none (g'.map fun _ => head)) ::
        ((c, .node (some p) none (some head)) :: nodesTo head (some q) init ++ R)) := by
      refine r2.perm ?_
      rw [listNodes_cons]
      simp only [first, listNodes, List.head?, Option.map]
      blocks
    refine .loadNode r3 List.mem_cons_self ?_
    refine .last (.store r3 (List.Perm.refl _) fun h4 r4 => .pure ⟨_, ?_, c, rfl⟩)
    rw [hi]
    refine r4.perm ?_
    rw [listNodes_append, listNodes_cons, nodesTo_append]
    simp only [first, listNodes, nodesTo, linkTo, List.head?, Option.map]
    blocks

/-! ### Finding frames -/

theorem mem_frame (F : HFrame) : (F.addr, Cell.frame (some F.hdr) (some F.data)) ∈ F.blocks := List.mem_cons_self
theorem mem_header (F : HFrame) : (F.hdr, Cell.frameHeader F.header) ∈ F.blocks :=
  List.mem_cons_of_mem _ List.mem_cons_self
theorem mem_data (F : HFrame) : (F.data, F.payload.cell) ∈ F.blocks :=
  List.mem_cons_of_mem _ (List.mem_cons_of_mem _ List.mem_cons_self)

theorem idMatches_spec {h : Heap} {L : List Block} (r : Rep h L) {F : HFrame} (hF : ∀ b ∈ F.blocks, b ∈ L)
    (id : Bytes) : Refines (idMatches (some F.addr) id h) (Id3.idMatches F.value id)
      (fun b a h' => a = b ∧ h' = h) := by
  unfold idMatches
  refine .loadFrame r (hF _ (mem_frame F)) ?_
  refine .loadFrameHeader r (hF _ (mem_header F)) ?_
  show Refines (lift (Id3.idMatches F.value id) h) _ _
  unfold lift
  cases Id3.idMatches F.value id with
  | ok b => exact ⟨b, h, rfl, rfl, rfl⟩
  | ub k => rfl
  | exit => rfl
  | diverge => rfl

theorem spine_cons (a : Nat) (f : Option HFrame) (l : List (Nat × Option HFrame)) :
    spine ((a, f) :: l) = (a, f.map (·.addr)) :: spine l := rfl

theorem frameBlocks_some (a : Nat) (F : HFrame) (l : List (Nat × Option HFrame)) :
    frameBlocks ((a, some F) :: l) = F.blocks ++ frameBlocks l := rfl

theorem frameBlocks_none (a : Nat) (l : List (Nat × Option HFrame)) :
    frameBlocks ((a, none) :: l) = frameBlocks l := rfl

theorem frameBlocks_append (l l' : List (Nat × Option HFrame)) :
    frameBlocks (l ++ l') = frameBlocks l ++ frameBlocks l' := List.flatMap_append

theorem get_frame_spec {h : Heap} {L : List Block} (r : Rep h L) (head : Nat) (id : Bytes) :
    ∀ (k : Nat) (l : List (Nat × Option HFrame)), (∀ b ∈ listNodes head (spine l), b ∈ L) →
      (∀ b ∈ frameBlocks l, b ∈ L) → l.length < k →
      Refines (FrameList_get_frame_by_id k (first (spine l)) id h) (Id3.FrameList_get_frame_by_id (vals l) id)
        (fun b a h' => h' = h ∧ match b with
          | none => a = none
          | some (i, f) => ∃ n F, l[i]? = some (n, some F) ∧ F.value = f ∧ a = some F.addr)
  | 0, _, _, _, hk => absurd hk (by omega)
  | k + 1, [], _, _, _ => .pure ⟨rfl, rfl⟩
  | k + 1, (a, none) :: l, hn, _, _ => by
    show Refines (FrameList_get_frame_by_id (k + 1) (some a) id h) _ _
    unfold FrameList_get_frame_by_id
    refine .loadNode r (hn _ List.mem_cons_self) ?_
    exact .pure ⟨rfl, rfl⟩
  | k + 1, (a, some F) :: l, hn, hf, hk => by
    show Refines (FrameList_get_frame_by_id (k + 1) (some a) id h)
      (Id3.FrameList_get_frame_by_id (some F.value :: vals l) id) _
    unfold FrameList_get_frame_by_id Id3.FrameList_get_frame_by_id
    refine .loadNode r (hn _ List.mem_cons_self) ?_
    refine .call (idMatches_spec r (fun b hb => hf b (by rw [frameBlocks_some]; exact List.mem_append_left _ hb)) id) ?_
    rintro _ b h _ ⟨rfl, rfl⟩
    cases b with
    | true => exact .pure ⟨rfl, a, F, rfl, rfl, rfl⟩
    | false =>
      simp only [Bool.false_eq_true, if_false]
      have ih := get_frame_spec r head id k l (fun b hb => hn b (List.mem_cons_of_mem _ hb))
        (fun b hb => hf b (by rw [frameBlocks_some]; exact List.mem_append_right _ hb))
        (by simp only [List.length_cons] at hk; omega)
      refine ih.vmap ?_
      rintro b p h' _ ⟨rfl, hb⟩
      cases b with
      | none => exact ⟨_, rfl, rfl, hb⟩
      | some b =>
        obtain ⟨n, G, hi, hv, hp⟩ := hb
        exact ⟨_, rfl, rfl, n, G, hi, hv, hp⟩

/-! ### The list of matches -/

/-- `FrameList_add_frame` on the frame pointers of a list. -/
def addPtr (l : List Ptr) (p : Nat) : List Ptr :=
  match l with
  | [] => []
  | none :: rest => some p :: rest
  | some f :: rest => some f :: rest ++ [some p]

theorem collect_spec (head sub : Nat) (id : Bytes) (R : List Block) :
    ∀ (k : Nat) (l : List (Nat × Option HFrame)) (f : Ptr) (rest : List (Nat × Ptr)) (h : Heap),
      Rep h (listNodes sub ((sub, f) :: rest) ++ R) → (∀ b ∈ listNodes head (spine l), b ∈ R) →
      (∀ b ∈ frameBlocks l, b ∈ R) → l.length < k →
      Refines (collect k (first (spine l)) id sub h) (FrameList_matching (vals l) id)
        (fun m _ h' => ∃ (ms : List (Nat × HFrame)) (f' : Ptr) (rest' : List (Nat × Ptr)),
          m = ms.map (fun p => (p.1, p.2.value)) ∧ (∀ p ∈ ms, ∃ n, l[p.1]? = some (n, some p.2)) ∧
          Rep h' (listNodes sub ((sub, f') :: rest') ++ R) ∧
          f' :: rest'.map (·.2) = (ms.map (·.2.addr)).foldl addPtr (f :: rest.map (·.2)))
  | 0, _, _, _, _, _, _, _, hk => absurd hk (by omega)
  | k + 1, [], f, rest, h, r, _, _, _ => .pure ⟨[], f, rest, rfl, by simp, r, rfl⟩
  | k + 1, (a, none) :: l, f, rest, h, r, hn, _, _ => by
    show Refines (collect (k + 1) (some a) id sub h) _ _
    unfold collect
    refine .loadNode r (List.mem_append_right _ (hn _ List.mem_cons_self)) ?_
    exact .pure ⟨[], f, rest, rfl, by simp, r, rfl⟩
  | k + 1, (a, some F) :: l, f, rest, h, r, hn, hf, hk => by
    show Refines (collect (k + 1) (some a) id sub h) (FrameList_matching (some F.value :: vals l) id) _
    unfold collect FrameList_matching
    refine .loadNode r (List.mem_append_right _ (hn _ List.mem_cons_self)) ?_
    have hF : ∀ b ∈ F.blocks, b ∈ R := fun b hb => hf b (by rw [frameBlocks_some]; exact List.mem_append_left _ hb)
    have hn' : ∀ b ∈ listNodes head (spine l), b ∈ R := fun b hb => hn b (List.mem_cons_of_mem _ hb)
    have hf' : ∀ b ∈ frameBlocks l, b ∈ R := fun b hb =>
      hf b (by rw [frameBlocks_some]; exact List.mem_append_right _ hb)
    have hk' : l.length < k := by simp only [List.length_cons] at hk; omega
    refine .call (idMatches_spec r (fun b hb => List.mem_append_right _ (hF b hb)) id) ?_
    rintro _ b h _ ⟨rfl, rfl⟩
    cases b with
    | false =>
      refine (collect_spec head sub id R k l f rest h r hn' hf' hk').vmap ?_
      rintro m _ h' _ ⟨ms, f', rest', hm, hi, r', hp⟩
      refine ⟨_, rfl, ms.map (fun p => (p.1 + 1, p.2)), f', rest', ?_, ?_, r', ?_⟩
      · subst hm; simp
      · intro p hp'
        obtain ⟨q, hq, rfl⟩ := List.mem_map.mp hp'
        simpa using hi q hq
      · rw [hp]; simp [Function.comp_def]
    | true =>
      simp only [if_true]
      refine .step (add_frame_spec r F.addr) ?_
      rintro _ h1 ⟨sp, r1, hsp⟩
      have : ∃ f1 rest1, sp = (sub, f1) :: rest1 ∧
          f1 :: rest1.map (·.2) = addPtr (f :: rest.map (·.2)) F.addr := by
        cases f with
        | none => exact ⟨_, _, hsp, rfl⟩
        | some g => obtain ⟨c, hsp⟩ := hsp; exact ⟨_, _, hsp, by simp [addPtr]⟩
      obtain ⟨f1, rest1, rfl, hp1⟩ := this
      refine (collect_spec head sub id R k l f1 rest1 h1 r1 hn' hf' hk').vmap ?_
      rintro m _ h' _ ⟨ms, f', rest', hm, hi, r', hp⟩
      refine ⟨_, rfl, (0, F) :: ms.map (fun p => (p.1 + 1, p.2)), f', rest', ?_, ?_, r', ?_⟩
      · subst hm; simp
      · intro p hp'
        rcases List.mem_cons.mp hp' with rfl | hp'
        · exact ⟨a, rfl⟩
        · obtain ⟨q, hq, rfl⟩ := List.mem_map.mp hp'
          simpa using hi q hq
      · rw [hp, hp1]; simp [Function.comp_def]

theorem foldl_addPtr : ∀ (ps : List Nat) (l : List Nat) (p : Nat),
    ps.foldl addPtr (some p :: l.map some) = some p :: (l ++ ps).map some
  | [], l, p => by simp
  | q :: ps, l, p => by
    rw [List.foldl_cons]
    show ps.foldl addPtr (some p :: l.map some ++ [some q]) = _
    have := foldl_addPtr ps (l ++ [q]) p
    simp only [List.map_append, List.map_cons, List.map_nil] at this
    rw [List.cons_append, this]
    simp

/-- The frame pointers of the list of matches. -/
def matchPtrs : List Nat → List Ptr
  | [] => [none]
  | ps => ps.map some

theorem foldl_addPtr_new (ps : List Nat) : ps.foldl addPtr [none] = matchPtrs ps := by
  cases ps with
  | nil => rfl
  | cons p ps =>
    have := foldl_addPtr ps [] p
    simpa [matchPtrs, addPtr] using this

/-- `FrameList_get_frames_by_id`: a new list of nodes, which point to the matching frames of the list. -/
theorem get_frames_spec {h : Heap} {R X : List Block} (r : Rep h R) (head : Nat) (id : Bytes)
    (l : List (Nat × Option HFrame)) (hR : R.Perm (listNodes head (spine l) ++ (frameBlocks l ++ X))) :
    Refines (FrameList_get_frames_by_id (first (spine l)) id h) (FrameList_matching (vals l) id)
      (fun m sub h' => ∃ (ms : List (Nat × HFrame)) (f : Ptr) (rest : List (Nat × Ptr)),
        m = ms.map (fun p => (p.1, p.2.value)) ∧ (∀ p ∈ ms, ∃ n, l[p.1]? = some (n, some p.2)) ∧
        Rep h' (listNodes sub ((sub, f) :: rest) ++ R) ∧ f :: rest.map (·.2) = matchPtrs (ms.map (·.2.addr))) := by
  unfold FrameList_get_frames_by_id FrameList_new
  refine .malloc r fun sub h1 r1 => ?_
  refine .fuel r1 fun n hn' => ?_
  have hlen := hR.length_eq
  have hn : ∀ b ∈ listNodes head (spine l), b ∈ R := fun b hb => hR.mem_iff.mpr (List.mem_append_left _ hb)
  have hf : ∀ b ∈ frameBlocks l, b ∈ R := fun b hb =>
    hR.mem_iff.mpr (List.mem_append_right _ (List.mem_append_left _ hb))
  have e : FrameList_matching (vals l) id = (FrameList_matching (vals l) id >>= fun m => .ok m) := by
    cases FrameList_matching (vals l) id <;> rfl
  rw [e]
  refine .call (collect_spec head sub id R n l none [] h1 r1 hn hf ?_) ?_
  · simp only [listNodes_length, List.length_cons, List.length_append] at hlen hn'
    simp only [spine, List.length_map] at hlen
    omega
  · rintro m _ h' _ ⟨ms, f', rest', hm, hi, r', hp⟩
    refine .pure ⟨ms, f', rest', hm, hi, r', ?_⟩
    rw [hp]
    exact foldl_addPtr_new _

/-! ### Removing and replacing -/

/-- The list without node `i`: the next node moves into its place. -/
def removeAt : List (Nat × Option HFrame) → Nat → List (Nat × Option HFrame)
  | [], _ => []
  | [(a, _)], 0 => [(a, none)]
  | (a, _) :: (_, f) :: rest, 0 => (a, f) :: rest
  | x :: rest, i + 1 => x :: removeAt rest i

theorem vals_removeAt : ∀ (l : List (Nat × Option HFrame)) (i : Nat),
    vals (removeAt l i) = Id3.FrameList_remove_frame (vals l) i
  | [], _ => rfl
  | [(a, _)], 0 => rfl
  | (a, _) :: (_, f) :: rest, 0 => rfl
  | [x], i + 1 => by
    show x.2.map HFrame.value :: vals (removeAt [] i) = _
    rw [vals_removeAt [] i]
    rfl
  | x :: y :: rest, i + 1 => by
    show x.2.map HFrame.value :: vals (removeAt (y :: rest) i) = _
    rw [vals_removeAt (y :: rest) i]
    rfl

theorem removeAt_succ (x : Nat × Option HFrame) (l : List (Nat × Option HFrame)) (i : Nat) :
    removeAt (x :: l) (i + 1) = x :: removeAt l i := by
  cases l <;> rfl

theorem first_removeAt : ∀ (l : List (Nat × Option HFrame)) (i : Nat),
    first (spine (removeAt l i)) = first (spine l)
  | [], _ => rfl
  | [(a, _)], 0 => rfl
  | (a, _) :: (_, f) :: rest, 0 => rfl
  | x :: l, i + 1 => by rw [removeAt_succ]; rfl

/-- The blocks of the frame of a node, if there is one. -/
def nodeBlocks : Option HFrame → List Block
  | none => []
  | some F => F.blocks

theorem frameBlocks_cons (x : Nat × Option HFrame) (l : List (Nat × Option HFrame)) :
    frameBlocks (x :: l) = nodeBlocks x.2 ++ frameBlocks l := by
  obtain ⟨a, f⟩ := x
  cases f <;> rfl

theorem frameBlocks_removeAt : ∀ (l : List (Nat × Option HFrame)) (i : Nat) (n : Nat) (f : Option HFrame),
    l[i]? = some (n, f) → (frameBlocks l).Perm (nodeBlocks f ++ frameBlocks (removeAt l i))
  | [], _, _, _, h => by simp at h
  | [(a, g)], 0, n, f, h => by
    simp only [List.getElem?_cons_zero, Option.some.injEq, Prod.mk.injEq] at h
    obtain ⟨rfl, rfl⟩ := h
    rw [frameBlocks_cons]
    exact List.Perm.refl _
  | (a, g) :: (b, g') :: rest, 0, n, f, h => by
    simp only [List.getElem?_cons_zero, Option.some.injEq, Prod.mk.injEq] at h
    obtain ⟨rfl, rfl⟩ := h
    rw [frameBlocks_cons]
    exact List.Perm.refl _
  | x :: l, i + 1, n, f, h => by
    rw [removeAt_succ, frameBlocks_cons, frameBlocks_cons]
    have ih := frameBlocks_removeAt l i n f (by simpa using h)
    refine (ih.append_left _).trans ?_
    blocks

theorem unlinkNode_spec {h : Heap} {head a : Nat} {f : Option HFrame} {rest : List (Nat × Option HFrame)}
    {X : List Block} (r : Rep h (listNodes head (spine ((a, f) :: rest)) ++ X)) :
    Refines (unlinkNode a (first (spine rest)) h) (.ok ())
      (fun _ _ h' => Rep h' (listNodes head (spine (removeAt ((a, f) :: rest) 0)) ++ X)) := by
  unfold unlinkNode
  cases rest with
  | nil =>
    show Refines ((FrameList_new >>= _) h) _ _
    unfold FrameList_new
    refine .malloc r fun c h1 r1 => ?_
    refine .loadNode r1 List.mem_cons_self ?_
    refine .store (a := a) (c := .node (f.map (·.addr)) none ((f.map (·.addr)).map fun _ => head))
      (L' := (c, Cell.node none none none) :: X) r1 ?_ fun h2 r2 => ?_
    · exact List.Perm.swap _ _ _
    refine .last (.free r2 (List.Perm.swap _ _ _) fun h3 r3 => .pure ?_)
    exact r3
  | cons x rest =>
    obtain ⟨b, g⟩ := x
    show Refines (((pure b : HeapM Nat) >>= _) h) _ _
    refine .step (b := ()) (Q := fun _ a' h' => a' = b ∧ h' = h) (.pure ⟨rfl, rfl⟩) ?_
    rintro _ _ ⟨rfl, rfl⟩
    rw [spine_cons, spine_cons, listNodes_cons, listNodes_cons] at r
    refine .loadNode r (List.mem_cons_of_mem _ List.mem_cons_self) ?_
    refine .store r (List.Perm.refl _) fun h2 r2 => ?_
    refine .last (.free (a := _) r2 (List.Perm.swap _ _ _) fun h3 r3 => .pure ?_)
    exact r3

theorem remove_by_id_spec (head : Nat) (id : Bytes) :
    ∀ (k : Nat) (l : List (Nat × Option HFrame)) (X : List Block) (h : Heap),
      Rep h (listNodes head (spine l) ++ X) → (∀ b ∈ frameBlocks l, b ∈ X) → l.length < k →
      Refines (FrameList_remove_frame_by_id k (first (spine l)) id h)
        (Id3.FrameList_remove_frame_by_id (vals l) id)
        (fun b a h' => ∃ l', Rep h' (listNodes head (spine l') ++ X) ∧ vals l' = b.2 ∧
          first (spine l') = first (spine l) ∧
          match b.1 with
          | none => a = none ∧ l' = l
          | some f => ∃ i n F, l[i]? = some (n, some F) ∧ l' = removeAt l i ∧ F.value = f ∧ a = some F.addr)
  | 0, _, _, _, _, _, hk => absurd hk (by omega)
  | k + 1, [], X, h, r, _, _ => .pure ⟨[], r, rfl, rfl, rfl, rfl⟩
  | k + 1, (a, none) :: l, X, h, r, _, _ => by
    show FrameList_remove_frame_by_id (k + 1) (some a) id h = .ub .nullDeref
    unfold FrameList_remove_frame_by_id
    have : Refines ((Id3.loadNode (some a) >>= fun n => (do
        if ← idMatches n.frame id then
          unlinkNode a n.next
          return n.frame
        FrameList_remove_frame_by_id k n.next id)) h) (.ub .nullDeref) (fun (_ : Unit) (_ : Ptr) _ => False) := by
      refine .loadNode r (List.mem_append_left _ List.mem_cons_self) ?_
      rfl
    exact this
  | k + 1, (a, some F) :: l, X, h, r, hf, hk => by
    show Refines (FrameList_remove_frame_by_id (k + 1) (some a) id h)
      (Id3.FrameList_remove_frame_by_id (some F.value :: vals l) id) _
    unfold FrameList_remove_frame_by_id Id3.FrameList_remove_frame_by_id
    refine .loadNode r (List.mem_append_left _ List.mem_cons_self) ?_
    refine .call (idMatches_spec r (F := F) (fun b hb => List.mem_append_right _
      (hf b (by rw [frameBlocks_some]; exact List.mem_append_left _ hb))) id) ?_
    rintro _ b h _ ⟨rfl, rfl⟩
    cases b with
    | true =>
      simp only [if_true]
      refine .step (unlinkNode_spec r) fun _ h' r' => ?_
      refine .pure ⟨_, r', ?_, first_removeAt _ 0, 0, a, F, rfl, rfl, rfl, rfl⟩
      rw [vals_removeAt]
      rfl
    | false =>
      rw [spine_cons, listNodes_cons] at r
      have r' : Rep h (listNodes head (spine l) ++ ((a, .node (some F.addr) (first (spine l)) (some head)) :: X)) :=
        r.perm (by simp only [Option.map]; blocks)
      refine (remove_by_id_spec head id k l _ h r' (fun b hb => List.mem_cons_of_mem _
        (hf b (by rw [frameBlocks_some]; exact List.mem_append_right _ hb)))
        (by simp only [List.length_cons] at hk; omega)).vmap ?_
      rintro ⟨fr, vl⟩ p h' _ ⟨l', r1, hv, hfirst, hm⟩
      refine ⟨_, rfl, (a, some F) :: l', ?_, ?_, rfl, ?_⟩
      · rw [spine_cons, listNodes_cons, hfirst]
        exact r1.perm (by simp only [Option.map]; blocks)
      · dsimp only at hv ⊢
        rw [← hv]; rfl
      · cases fr with
        | none => exact ⟨hm.1, by rw [hm.2]⟩
        | some fv =>
          obtain ⟨i, n, G, hi, hl', hG, hp⟩ := hm
          exact ⟨i + 1, n, G, by simpa using hi, by rw [removeAt_succ, hl'], hG, hp⟩

theorem addr_ne {h : Heap} {G : HFrame} {Z : List Block} (r : Rep h (G.blocks ++ Z)) {a : Nat} {c : Cell}
    (hm : (a, c) ∈ Z) : G.addr ≠ a := by
  intro e
  subst e
  have r' : Rep h ((G.addr, Cell.frame (some G.hdr) (some G.data)) ::
      (((G.hdr, Cell.frameHeader G.header) :: (G.data, G.payload.cell) :: G.payload.buffers) ++ Z)) := r
  exact r'.fresh c (List.mem_append_right _ hm)

theorem mem_frameBlocks {l : List (Nat × Option HFrame)} {i n : Nat} {F : HFrame}
    (hi : l[i]? = some (n, some F)) : ∀ b ∈ F.blocks, b ∈ frameBlocks l := by
  intro b hb
  unfold frameBlocks
  exact List.mem_flatMap.mpr ⟨_, List.mem_of_getElem? hi, hb⟩

/-- No node before the one of a frame points to it. -/
theorem ptr_ne {h : Heap} {head a : Nat} {g : Option HFrame} {l : List (Nat × Option HFrame)} {Y : List Block}
    (r : Rep h (listNodes head (spine ((a, g) :: l)) ++ (frameBlocks ((a, g) :: l) ++ Y))) {i n : Nat} {F : HFrame}
    (hi : l[i]? = some (n, some F)) : g.map (·.addr) ≠ some F.addr := by
  cases g with
  | none => simp
  | some G =>
    intro e
    simp only [Option.map, Option.some.injEq] at e
    have r' : Rep h (G.blocks ++ (frameBlocks l ++ (listNodes head (spine ((a, some G) :: l)) ++ Y))) :=
      r.perm (by rw [frameBlocks_some]; blocks)
    exact addr_ne r' (List.mem_append_left _ (mem_frameBlocks hi _ (mem_frame F))) e

theorem remove_frame_spec (head : Nat) : ∀ (k : Nat) (l : List (Nat × Option HFrame)) (i n : Nat) (F : HFrame)
    (Y : List Block) (h : Heap), Rep h (listNodes head (spine l) ++ (frameBlocks l ++ Y)) → l[i]? = some (n, some F) →
    l.length < k →
    Refines (FrameList_remove_frame k (first (spine l)) (some F.addr) h) (.ok ())
      (fun _ _ h' => Rep h' (listNodes head (spine (removeAt l i)) ++ (frameBlocks l ++ Y)))
  | 0, _, _, _, _, _, _, _, _, hk => absurd hk (by omega)
  | _ + 1, [], _, _, _, _, _, _, hi, _ => by simp at hi
  | k + 1, (a, g) :: l, 0, n, F, Y, h, r, hi, _ => by
    simp only [List.getElem?_cons_zero, Option.some.injEq, Prod.mk.injEq] at hi
    obtain ⟨rfl, rfl⟩ := hi
    show Refines (FrameList_remove_frame (k + 1) (some a) (some F.addr) h) _ _
    unfold FrameList_remove_frame
    refine .loadNode r (List.mem_append_left _ List.mem_cons_self) ?_
    dsimp only [Option.map]
    rw [if_pos rfl]
    refine .step (unlinkNode_spec r) fun _ h' r' => .pure r'
  | k + 1, (a, g) :: l, i + 1, n, F, Y, h, r, hi, hk => by
    have hi' : l[i]? = some (n, some F) := by simpa using hi
    have hne := ptr_ne r hi'
    show Refines (FrameList_remove_frame (k + 1) (some a) (some F.addr) h) _ _
    unfold FrameList_remove_frame
    refine .loadNode r (List.mem_append_left _ List.mem_cons_self) ?_
    dsimp only
    rw [if_neg hne]
    have r' : Rep h (listNodes head (spine l) ++ (frameBlocks l ++
        ((a, .node (g.map (·.addr)) (first (spine l)) ((g.map (·.addr)).map fun _ => head)) ::
          (nodeBlocks g ++ Y)))) := r.perm (by rw [frameBlocks_cons, spine_cons, listNodes_cons]; blocks)
    refine (remove_frame_spec head k l i n F _ h r' hi' (by simp only [List.length_cons] at hk; omega)).mono ?_
    intro _ _ h' _ r1
    refine r1.perm ?_
    rw [removeAt_succ, frameBlocks_cons, spine_cons, listNodes_cons, first_removeAt]
    blocks

/-- The index of the first node without a frame. -/
def nullIndex : List (Nat × Option HFrame) → Option Nat
  | [] => none
  | (_, none) :: _ => some 0
  | (_, some _) :: l => (nullIndex l).map (· + 1)

/-- Removing the pointer NULL removes the first node without a frame. -/
def removeNull (l : List (Nat × Option HFrame)) : List (Nat × Option HFrame) :=
  match nullIndex l with
  | none => l
  | some i => removeAt l i

theorem removeNull_some (a : Nat) (G : HFrame) (l : List (Nat × Option HFrame)) :
    removeNull ((a, some G) :: l) = (a, some G) :: removeNull l := by
  unfold removeNull
  show (match (nullIndex l).map (· + 1) with | none => (a, some G) :: l | some i => removeAt ((a, some G) :: l) i) = _
  cases nullIndex l with
  | none => rfl
  | some i => exact removeAt_succ _ _ _

theorem vals_removeNull : ∀ l : List (Nat × Option HFrame), vals (removeNull l) = FrameList_remove_null (vals l)
  | [] => rfl
  | (a, none) :: l => vals_removeAt ((a, none) :: l) 0
  | (a, some G) :: l => by
    rw [removeNull_some]
    show some G.value :: vals (removeNull l) = some G.value :: FrameList_remove_null (vals l)
    rw [vals_removeNull l]

theorem first_removeNull (l : List (Nat × Option HFrame)) : first (spine (removeNull l)) = first (spine l) := by
  unfold removeNull
  cases nullIndex l with
  | none => rfl
  | some i => exact first_removeAt l i

theorem frameBlocks_removeNull : ∀ l : List (Nat × Option HFrame),
    (frameBlocks l).Perm (frameBlocks (removeNull l))
  | [] => List.Perm.refl _
  | (a, none) :: l => frameBlocks_removeAt ((a, none) :: l) 0 a none rfl
  | (a, some G) :: l => by
    rw [removeNull_some, frameBlocks_some, frameBlocks_some]
    exact (frameBlocks_removeNull l).append_left _

theorem remove_null_spec (head : Nat) : ∀ (k : Nat) (l : List (Nat × Option HFrame)) (Y : List Block) (h : Heap),
    Rep h (listNodes head (spine l) ++ Y) → l.length < k →
    Refines (FrameList_remove_frame k (first (spine l)) none h) (.ok ())
      (fun _ _ h' => Rep h' (listNodes head (spine (removeNull l)) ++ Y))
  | 0, _, _, _, _, hk => absurd hk (by omega)
  | _ + 1, [], Y, h, r, _ => .pure r
  | k + 1, (a, none) :: l, Y, h, r, _ => by
    show Refines (FrameList_remove_frame (k + 1) (some a) none h) _ _
    unfold FrameList_remove_frame
    refine .loadNode r (List.mem_append_left _ List.mem_cons_self) ?_
    dsimp only [Option.map]
    rw [if_pos rfl]
    refine .step (unlinkNode_spec r) fun _ h' r' => .pure r'
  | k + 1, (a, some G) :: l, Y, h, r, hk => by
    show Refines (FrameList_remove_frame (k + 1) (some a) none h) _ _
    unfold FrameList_remove_frame
    refine .loadNode r (List.mem_append_left _ List.mem_cons_self) ?_
    dsimp only [Option.map]
    rw [if_neg (by simp)]
    have r' : Rep h (listNodes head (spine l) ++
        ((a, .node (some G.addr) (first (spine l)) (some head)) :: Y)) :=
      r.perm (by rw [spine_cons, listNodes_cons]; simp only [Option.map]; blocks)
    refine (remove_null_spec head k l _ h r' (by simp only [List.length_cons] at hk; omega)).mono ?_
    intro _ _ h' _ r1
    refine r1.perm ?_
    rw [removeNull_some, spine_cons, listNodes_cons, first_removeNull]
    simp only [Option.map]
    blocks

/-- The list with another frame in node `i`. -/
def replaceAt : List (Nat × Option HFrame) → Nat → HFrame → List (Nat × Option HFrame)
  | [], _, _ => []
  | (a, _) :: l, 0, G => (a, some G) :: l
  | x :: l, i + 1, G => x :: replaceAt l i G

theorem vals_replaceAt : ∀ (l : List (Nat × Option HFrame)) (i : Nat) (G : HFrame),
    vals (replaceAt l i G) = Id3.FrameList_replace_frame (vals l) i G.value
  | [], _, _ => rfl
  | (a, _) :: l, 0, G => rfl
  | x :: l, i + 1, G => by
    show x.2.map HFrame.value :: vals (replaceAt l i G) = _
    rw [vals_replaceAt l i G]
    rfl

theorem first_replaceAt : ∀ (l : List (Nat × Option HFrame)) (i : Nat) (G : HFrame),
    first (spine (replaceAt l i G)) = first (spine l)
  | [], _, _ => rfl
  | (_, _) :: _, 0, _ => rfl
  | _ :: _, _ + 1, _ => rfl

theorem frameBlocks_replaceAt : ∀ (l : List (Nat × Option HFrame)) (i n : Nat) (f : Option HFrame) (G : HFrame),
    l[i]? = some (n, f) → (nodeBlocks f ++ frameBlocks (replaceAt l i G)).Perm (G.blocks ++ frameBlocks l)
  | [], _, _, _, _, hi => by simp at hi
  | (a, g) :: l, 0, n, f, G, hi => by
    simp only [List.getElem?_cons_zero, Option.some.injEq, Prod.mk.injEq] at hi
    obtain ⟨rfl, rfl⟩ := hi
    rw [replaceAt, frameBlocks_cons, frameBlocks_cons]
    show (nodeBlocks g ++ (G.blocks ++ frameBlocks l)).Perm (G.blocks ++ (nodeBlocks g ++ frameBlocks l))
    blocks
  | x :: l, i + 1, n, f, G, hi => by
    rw [replaceAt, frameBlocks_cons, frameBlocks_cons]
    have ih := (frameBlocks_replaceAt l i n f G (by simpa using hi)).append_left (nodeBlocks x.2)
    refine List.Perm.trans ?_ (ih.trans ?_)
    · blocks
    · blocks

theorem replace_frame_spec (head : Nat) : ∀ (k : Nat) (l : List (Nat × Option HFrame)) (i n : Nat) (F G : HFrame)
    (Y : List Block) (h : Heap), Rep h (listNodes head (spine l) ++ (frameBlocks l ++ Y)) → l[i]? = some (n, some F) →
    l.length < k →
    Refines (FrameList_replace_frame k (first (spine l)) (some F.addr) (some G.addr) h) (.ok ())
      (fun _ _ h' => Rep h' (listNodes head (spine (replaceAt l i G)) ++ (frameBlocks l ++ Y)))
  | 0, _, _, _, _, _, _, _, _, _, hk => absurd hk (by omega)
  | _ + 1, [], _, _, _, _, _, _, _, hi, _ => by simp at hi
  | k + 1, (a, g) :: l, 0, n, F, G, Y, h, r, hi, _ => by
    simp only [List.getElem?_cons_zero, Option.some.injEq, Prod.mk.injEq] at hi
    obtain ⟨rfl, rfl⟩ := hi
    show Refines (FrameList_replace_frame (k + 1) (some a) (some F.addr) (some G.addr) h) _ _
    unfold FrameList_replace_frame
    refine .loadNode r (List.mem_append_left _ List.mem_cons_self) ?_
    dsimp only [Option.map]
    rw [if_pos rfl]
    exact .last (.store r (List.Perm.refl _) fun h' r' => .pure r')
  | k + 1, (a, g) :: l, i + 1, n, F, G, Y, h, r, hi, hk => by
    have hi' : l[i]? = some (n, some F) := by simpa using hi
    have hne := ptr_ne r hi'
    show Refines (FrameList_replace_frame (k + 1) (some a) (some F.addr) (some G.addr) h) _ _
    unfold FrameList_replace_frame
    refine .loadNode r (List.mem_append_left _ List.mem_cons_self) ?_
    dsimp only
    rw [if_neg hne]
    have r' : Rep h (listNodes head (spine l) ++ (frameBlocks l ++
        ((a, .node (g.map (·.addr)) (first (spine l)) ((g.map (·.addr)).map fun _ => head)) ::
          (nodeBlocks g ++ Y)))) := r.perm (by rw [frameBlocks_cons, spine_cons, listNodes_cons]; blocks)
    refine (replace_frame_spec head k l i n F G _ h r' hi' (by simp only [List.length_cons] at hk; omega)).mono ?_
    intro _ _ h' _ r1
    refine r1.perm ?_
    rw [replaceAt, frameBlocks_cons, spine_cons, listNodes_cons, first_replaceAt]
    blocks

/-! ### Freeing -/

theorem unlink_spec (head : Nat) : ∀ (k : Nat) (sp : List (Nat × Ptr)) (X : List Block) (h : Heap),
    Rep h (listNodes head sp ++ X) → sp.length < k →
    Refines (ID3v2_FrameList_unlink k (first sp) h) (.ok ()) (fun _ _ h' => Rep h' X)
  | 0, _, _, _, _, hk => absurd hk (by omega)
  | _ + 1, [], X, h, r, _ => .pure r
  | k + 1, (a, f) :: sp, X, h, r, hk => by
    show Refines (ID3v2_FrameList_unlink (k + 1) (some a) h) _ _
    unfold ID3v2_FrameList_unlink
    refine .loadNode r (List.mem_append_left _ List.mem_cons_self) ?_
    refine .free r (List.Perm.refl _) fun h' r' => ?_
    exact unlink_spec head k sp X h' r' (by simp only [List.length_cons] at hk; omega)

theorem starts_ok {x : FrameHeader} {c : UInt8} {b : Bool} (h : idStartsWith x c = .ok b) :
    (b = true ↔ x.id.head? = some (some c)) := by
  unfold idStartsWith at h
  cases hx : x.id with
  | nil => rw [hx] at h; cases h
  | cons y ys =>
    rw [hx] at h
    cases y with
    | none => cases h
    | some v =>
      have h' : Res.ok (v == c) = Res.ok b := h
      cases h'
      simp

/-- The data of a frame, and the header, without the frame itself. -/
theorem blocks_hdr (F : HFrame) (X : List Block) : (F.blocks ++ X).Perm ((F.hdr, .frameHeader F.header) ::
    ((F.data, F.payload.cell) :: (F.addr, .frame (some F.hdr) (some F.data)) :: F.payload.buffers ++ X)) := by
  unfold HFrame.blocks
  blocks

theorem text_free_spec {h : Heap} {F : HFrame} {X : List Block} (r : Rep h (F.blocks ++ X)) :
    Refines (TextFrame_free F.addr h) (match F.payload with | .text _ _ => Res.ok () | _ => .ub .typeConfusion)
      (fun _ _ h' => Rep h' X) := by
  unfold TextFrame_free
  refine .loadFrame r (List.mem_append_left _ (mem_frame F)) ?_
  refine .free r (blocks_hdr F X) fun h1 r1 => ?_
  refine .load r1 List.mem_cons_self ?_
  cases hp : F.payload with
  | text d t =>
    rw [hp] at r1
    refine .free (a := t) (c := .bytes d.text) r1 (L' := (F.data, HPayload.cell (.text d t)) ::
      (F.addr, .frame (some F.hdr) (some F.data)) :: X) ?_ fun h2 r2 => ?_
    · simp only [HPayload.buffers]; blocks
    refine .free r2 (List.Perm.refl _) fun h3 r3 => ?_
    exact .last (.free r3 (List.Perm.refl _) fun h4 r4 => .pure r4)
  | comment d s c => rfl
  | apic d m de p => rfl
  | raw b => rfl

theorem comment_free_spec {h : Heap} {F : HFrame} {X : List Block} (r : Rep h (F.blocks ++ X)) :
    Refines (CommentFrame_free F.addr h) (match F.payload with | .comment _ _ _ => Res.ok () | _ => .ub .typeConfusion)
      (fun _ _ h' => Rep h' X) := by
  unfold CommentFrame_free
  refine .loadFrame r (List.mem_append_left _ (mem_frame F)) ?_
  refine .free r (blocks_hdr F X) fun h1 r1 => ?_
  refine .load r1 List.mem_cons_self ?_
  cases hp : F.payload with
  | text d t => rfl
  | comment d s c =>
    rw [hp] at r1
    refine .free (a := c) (c := .bytes d.comment) r1 (L' := (s, .bytes d.short_description) ::
      (F.data, HPayload.cell (.comment d s c)) :: (F.addr, .frame (some F.hdr) (some F.data)) :: X) ?_ fun h2 r2 => ?_
    · simp only [HPayload.buffers]; blocks
    refine .free r2 (List.Perm.refl _) fun h3 r3 => ?_
    refine .free r3 (List.Perm.refl _) fun h4 r4 => ?_
    exact .last (.free r4 (List.Perm.refl _) fun h4 r4 => .pure r4)
  | apic d m de p => rfl
  | raw b => rfl

theorem apic_free_spec {h : Heap} {F : HFrame} {X : List Block} (r : Rep h (F.blocks ++ X)) :
    Refines (ApicFrame_free F.addr h) (match F.payload with | .apic _ _ _ _ => Res.ok () | _ => .ub .typeConfusion)
      (fun _ _ h' => Rep h' X) := by
  unfold ApicFrame_free
  refine .loadFrame r (List.mem_append_left _ (mem_frame F)) ?_
  refine .free r (blocks_hdr F X) fun h1 r1 => ?_
  refine .load r1 List.mem_cons_self ?_
  cases hp : F.payload with
  | text d t => rfl
  | comment d s c => rfl
  | apic d m de p =>
    rw [hp] at r1
    refine .free (a := p) (c := .bytes d.data) r1 (L' := (de, .bytes d.description) :: (m, .bytes d.mime_type) ::
      (F.data, HPayload.cell (.apic d m de p)) :: (F.addr, .frame (some F.hdr) (some F.data)) :: X) ?_ fun h2 r2 => ?_
    · simp only [HPayload.buffers]; blocks
    refine .free r2 (List.Perm.refl _) fun h3 r3 => ?_
    refine .free r3 (List.Perm.refl _) fun h4 r4 => ?_
    refine .free r4 (List.Perm.refl _) fun h5 r5 => ?_
    exact .last (.free r5 (List.Perm.refl _) fun h4 r4 => .pure r4)
  | raw b => rfl

theorem frame_free_spec {h : Heap} {F : HFrame} {X : List Block} (r : Rep h (F.blocks ++ X)) :
    Refines (ID3v2_Frame_free (some F.addr) h) (Id3.ID3v2_Frame_free F.value)
      (fun _ _ h' => Rep h' (F.leak ++ X)) := by
  unfold ID3v2_Frame_free Id3.ID3v2_Frame_free FrameHeader_isTextFrame FrameHeader_isCommentFrame
    FrameHeader_isApicFrame
  refine .loadFrame r (List.mem_append_left _ (mem_frame F)) ?_
  refine .loadFrameHeader r (List.mem_append_left _ (mem_header F)) ?_
  refine .lift fun b hb => ?_
  have hb := starts_ok hb
  cases b with
  | true =>
    simp only [if_true, HFrame.value]
    have hl : F.leak = [] := by unfold HFrame.leak; rw [if_pos (.inl (hb.mp rfl))]
    rw [hl]
    have := text_free_spec r
    cases hp : F.payload <;> rw [hp] at this <;> exact this
  | false =>
    simp only [Bool.false_eq_true, if_false]
    refine .lift fun b' hb' => ?_
    have hb' := starts_ok hb'
    cases b' with
    | true =>
      simp only [if_true, HFrame.value]
      have hl : F.leak = [] := by unfold HFrame.leak; rw [if_pos (.inr (.inl (hb'.mp rfl)))]
      rw [hl]
      have := comment_free_spec r
      cases hp : F.payload <;> rw [hp] at this <;> exact this
    | false =>
      simp only [Bool.false_eq_true, if_false]
      refine .lift fun b'' hb'' => ?_
      have hb'' := starts_ok hb''
      cases b'' with
      | true =>
        simp only [if_true, HFrame.value]
        have hl : F.leak = [] := by unfold HFrame.leak; rw [if_pos (.inr (.inr (hb''.mp rfl)))]
        rw [hl]
        have := apic_free_spec r
        cases hp : F.payload <;> rw [hp] at this <;> exact this
      | false =>
        simp only [Bool.false_eq_true, if_false]
        have hl : F.leak = (F.addr, .frame (some F.hdr) (some F.data)) :: F.payload.buffers := by
          unfold HFrame.leak
          rw [if_neg]
          simp only [Bool.false_eq_true, false_iff] at hb hb' hb''
          rintro (e | e | e)
          · exact hb e
          · exact hb' e
          · exact hb'' e
        rw [hl]
        refine .free r (blocks_hdr F X) fun h1 r1 => ?_
        exact .last (.free r1 (List.Perm.refl _) fun h2 r2 => .pure r2)

/-- What is left of the frames of a list. -/
def leaks (l : List (Nat × Option HFrame)) : List Block :=
  l.flatMap fun n => match n.2 with
    | none => []
    | some f => f.leak

/-- `ID3v2_Frame_free` on every frame of a list, as values. -/
def freeAll : FrameList → Res Unit
  | [] => .ok ()
  | none :: l => freeAll l
  | some f :: l => do
    Id3.ID3v2_Frame_free f
    freeAll l

theorem list_free_spec (head : Nat) : ∀ (k : Nat) (l : List (Nat × Option HFrame)) (X : List Block) (h : Heap),
    Rep h (listNodes head (spine l) ++ (frameBlocks l ++ X)) → l.length < k →
    Refines (ID3v2_FrameList_free k (first (spine l)) h) (freeAll (vals l)) (fun _ _ h' => Rep h' (leaks l ++ X))
  | 0, _, _, _, _, hk => absurd hk (by omega)
  | _ + 1, [], X, h, r, _ => .pure r
  | k + 1, (a, none) :: l, X, h, r, hk => by
    show Refines (ID3v2_FrameList_free (k + 1) (some a) h) (freeAll (vals l)) _
    unfold ID3v2_FrameList_free
    refine .loadNode r (List.mem_append_left _ List.mem_cons_self) ?_
    refine .step (b := ()) (Q := fun _ _ h' => h' = h) (.pure rfl) ?_
    rintro _ _ rfl
    refine .loadNode r (List.mem_append_left _ List.mem_cons_self) ?_
    refine .free r (List.Perm.refl _) fun h' r' => ?_
    exact list_free_spec head k l X h' r' (by simp only [List.length_cons] at hk; omega)
  | k + 1, (a, some F) :: l, X, h, r, hk => by
    show Refines (ID3v2_FrameList_free (k + 1) (some a) h) (freeAll (some F.value :: vals l)) _
    unfold ID3v2_FrameList_free freeAll
    refine .loadNode r (List.mem_append_left _ List.mem_cons_self) ?_
    refine .call (frame_free_spec (F := F) (X := listNodes head (spine ((a, some F) :: l)) ++ (frameBlocks l ++ X))
      (r.perm (by rw [frameBlocks_some]; blocks))) fun _ _ h1 _ r1 => ?_
    refine .loadNode r1 (List.mem_append_right _ (List.mem_append_left _ List.mem_cons_self)) ?_
    refine .free (c := .node (some F.addr) (first (spine l)) (some head))
      (L' := listNodes head (spine l) ++ (frameBlocks l ++ (F.leak ++ X))) r1
      (by rw [spine_cons, listNodes_cons]; simp only [Option.map]; blocks) fun h' r' => ?_
    refine (list_free_spec head k l _ h' r' (by simp only [List.length_cons] at hk; omega)).mono ?_
    intro _ _ h2 _ r2
    refine r2.perm ?_
    show (leaks l ++ (F.leak ++ X)).Perm (F.leak ++ leaks l ++ X)
    blocks

end H

end Id3
