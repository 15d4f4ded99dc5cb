import Verif.Heap.CompatRep
import Verif.Heap.Write

/-!
# Proofs about the lists of the compatibility API on the heap
-/

namespace Id3.H

open Id3

/-! ### Nodes -/

theorem cnodes_cons (head : Nat) (last : Option Ptr) (a : Nat) (f : Ptr) (rest : List (Nat × Ptr)) :
    cnodes head last ((a, f) :: rest) =
      (a, .cnode f (first rest) (f.map fun _ => head) last) :: cnodes head none rest := rfl

theorem cnodes_length (head : Nat) : ∀ (last : Option Ptr) sp, (cnodes head last sp).length = sp.length
  | _, [] => rfl
  | _, (a, f) :: rest => by rw [cnodes_cons, List.length_cons, List.length_cons, cnodes_length head none rest]

theorem cspine_cons (a : Nat) (f : Option HCFrame) (l : List (Nat × Option HCFrame)) :
    cspine ((a, f) :: l) = (a, f.map (·.addr)) :: cspine l := rfl

theorem centries_some (a : Nat) (c : HCFrame) (l : List (Nat × Option HCFrame)) :
    centries ((a, some c) :: l) = c.blocks ++ centries l := rfl

theorem centries_none (a : Nat) (l : List (Nat × Option HCFrame)) : centries ((a, none) :: l) = centries l := rfl

theorem centries_append (l l' : List (Nat × Option HCFrame)) : centries (l ++ l') = centries l ++ centries l' :=
  List.flatMap_append

theorem cspine_append (l l' : List (Nat × Option HCFrame)) : cspine (l ++ l') = cspine l ++ cspine l' :=
  List.map_append

theorem mem_cframe (c : HCFrame) :
    (c.addr, Cell.cframe c.frame_id c.size c.flags (some c.data) (some c.frame.addr)) ∈ c.blocks := List.mem_cons_self

theorem mem_cdata (c : HCFrame) : (c.data, Cell.bytes c.bytes) ∈ c.blocks :=
  List.mem_cons_of_mem _ List.mem_cons_self

/-- The nodes of a list that ends in the node `z`, with that node apart: its `next` can be changed. -/
theorem cnodes_snoc (head z : Nat) (f : Ptr) : ∀ (init : List (Nat × Ptr)), ∃ M : List Block,
    (cnodes head none (init ++ [(z, f)])).Perm ((z, .cnode f none (f.map fun _ => head) none) :: M) ∧
    ∀ (c : Nat) (g : Ptr), (cnodes head none (init ++ [(z, f), (c, g)])).Perm
      ((z, .cnode f (some c) (f.map fun _ => head) none) :: (c, .cnode g none (g.map fun _ => head) none) :: M)
  | [] => ⟨[], List.Perm.refl _, fun c g => List.Perm.refl _⟩
  | (a, x) :: init => by
    obtain ⟨M, h1, h2⟩ := cnodes_snoc head z f init
    have e : ∀ c g, first (init ++ [(z, f), (c, g)]) = first (init ++ [(z, f)]) := by
      intro c g
      cases init <;> rfl
    refine ⟨(a, .cnode x (first (init ++ [(z, f)])) (x.map fun _ => head) none) :: M, ?_, fun c g => ?_⟩
    · rw [List.cons_append, cnodes_cons]
      blocks_using h1
    · rw [List.cons_append, cnodes_cons, e]
      blocks_using (h2 c g)

/-! ### Entries -/

theorem compat_frame_spec [Platform] {h : Heap} {X : List Block} (r : Rep h X) {F : HFrame} (hF : ∀ b ∈ F.blocks, b ∈ X) :
    Refines (frame_to_compat_frame (some F.addr) h) (Id3.frame_to_compat_frame (some F.value))
      (fun v a h' => ∃ (c : HCFrame) (K : List Block), c.addr = a ∧ c.value = v ∧ c.frame = F ∧
        memcpySrc F.header.id 4 = .ok c.frame_id ∧ Streams (frameStreams F.value) K ∧ Rep h' (c.blocks ++ (K ++ X))) := by
  unfold frame_to_compat_frame Id3.frame_to_compat_frame
  refine .malloc r fun a h1 r1 => ?_
  dsimp only
  refine .loadFrame r1 (List.mem_cons_of_mem _ (hF _ (mem_frame F))) ?_
  refine .loadFrameHeader r1 (List.mem_cons_of_mem _ (hF _ (mem_header F))) ?_
  refine .lift fun id hid => .lift fun fl _ => ?_
  refine .call (frame_out_spec r1 fun b hb => List.mem_cons_of_mem _ (hF b hb)) ?_
  rintro cs ⟨p, cs'⟩ h2 _ ⟨rfl, s, K, hK, r2⟩
  dsimp only at r2 ⊢
  refine .lift fun cs1 _ => .lift fun d _ => ?_
  obtain ⟨d, cs2⟩ := d
  dsimp only
  refine .malloc r2 fun b h3 r3 => ?_
  refine .store (c := .cframe [] 0 [] none none) (L' := (b, .bytes (intoArray F.header.size d)) ::
    (p, .charStream (some s)) :: (s, .bytes []) :: (K ++ X)) r3 (by blocks) fun h4 r4 => ?_
  refine .step (cs_free_spec (a := p) (s := s) (X := (a, .cframe id F.header.size (intoArray 2 fl) (some b)
    (some F.addr)) :: (b, .bytes (intoArray F.header.size d)) :: (K ++ X))
    (r4.perm (by blocks))) fun _ h5 r5 => ?_
  exact .pure ⟨⟨a, b, id, F.header.size, intoArray 2 fl, intoArray F.header.size d, F⟩, K, rfl, rfl, rfl, hid, hK, r5⟩

theorem compat_frame_null [Platform] {h : Heap} {X : List Block} (r : Rep h X) {Q : CFrame → Nat → Heap → Prop} :
    Refines (frame_to_compat_frame none h) (Id3.frame_to_compat_frame none) Q := by
  unfold frame_to_compat_frame Id3.frame_to_compat_frame
  refine .malloc r fun a h1 r1 => ?_
  rfl

theorem free_frame_spec {h : Heap} {c : HCFrame} {X : List Block} (r : Rep h (c.blocks ++ X)) :
    Refines (free_frame (some c.addr) h) (.ok ()) (fun _ _ h' => Rep h' X) := by
  unfold free_frame
  refine .loadCFrame r (List.mem_append_left _ (mem_cframe c)) ?_
  refine .free (c := .bytes c.bytes)
    (L' := (c.addr, .cframe c.frame_id c.size c.flags (some c.data) (some c.frame.addr)) :: X) r
    (by unfold HCFrame.blocks; blocks) fun h1 r1 => ?_
  exact .last (.free r1 (List.Perm.refl _) fun h2 r2 => .pure r2)

/-! ### Adding to a list -/

/-- The first entry. -/
theorem add_first_spec {h : Heap} {head : Nat} {last : Option Ptr} {R : List Block} (p : Nat)
    (r : Rep h (cnodes head last [(head, none)] ++ R)) :
    Refines (add_to_list head p h) (.ok ()) (fun _ _ h' =>
      Rep h' (cnodes head (some (some head)) [(head, some p)] ++ R)) := by
  unfold add_to_list
  refine .loadCNode r List.mem_cons_self ?_
  exact .last (.store r (List.Perm.refl _) fun h' r' => .pure r')

/-- Another entry: the node `z` is the last one. -/
theorem add_more_spec {h : Heap} {head z : Nat} {q : Nat} {f : Ptr} {rest : List (Nat × Ptr)} {R : List Block} (p : Nat)
    (hz : (∃ init, rest = init ++ [(z, f)]) ∨ (rest = [] ∧ z = head))
    (r : Rep h (cnodes head (some (some z)) ((head, some q) :: rest) ++ R)) :
    Refines (add_to_list head p h) (.ok ()) (fun _ _ h' => ∃ c,
      Rep h' (cnodes head (some (some c)) ((head, some q) :: (rest ++ [(c, some p)])) ++ R)) := by
  unfold add_to_list new_frame_list
  refine .loadCNode r List.mem_cons_self ?_
  dsimp only [Option.map_some]
  refine .malloc r fun c h1 r1 => ?_
  refine .store r1 (List.Perm.refl _) fun h2 r2 => ?_
  rcases hz with ⟨init, rfl⟩ | ⟨rfl, rfl⟩
  · obtain ⟨M, hM, hM'⟩ := cnodes_snoc head z f init
    rw [cnodes_cons] at r2
    have r3 : Rep h2 ((z, .cnode f none (f.map fun _ => head) none) ::
        ((c, .cnode (some p) none (some head) none) ::
          (head, .cnode (some q) (first (init ++ [(z, f)])) (some head) (some (some z))) :: (M ++ R))) := by
      refine r2.perm ?_
      simp only [Option.map_some]
      blocks_using hM
    refine .loadCNode r3 List.mem_cons_self ?_
    refine .store r3 (List.Perm.refl _) fun h4 r4 => ?_
    refine .loadCNode r4 (List.mem_cons_of_mem _ (List.mem_cons_of_mem _ List.mem_cons_self)) ?_
    refine .last (.store (c := .cnode (some q) (first (init ++ [(z, f)])) (some head) (some (some z)))
      (L' := (z, .cnode f (some c) (f.map fun _ => head) none) :: (c, .cnode (some p) none (some head) none) ::
        (M ++ R)) r4 (by blocks) fun h5 r5 => .pure ⟨c, r5.perm ?_⟩)
    have e : first (init ++ [(z, f)] ++ [(c, some p)]) = first (init ++ [(z, f)]) := by cases init <;> rfl
    rw [cnodes_cons, e]
    have := hM' c (some p)
    simp only [List.append_assoc, List.cons_append, List.nil_append, Option.map_some] at this ⊢
    blocks_using this
  · have r3 : Rep h2 ((z, .cnode (some q) none (some z) (some (some z))) ::
        ((c, .cnode (some p) none (some z) none) :: R)) := r2.perm (by rw [cnodes_cons]; simp only [first, cnodes, List.head?, Option.map]; blocks)
    refine .loadCNode r3 List.mem_cons_self ?_
    refine .store r3 (List.Perm.refl _) fun h4 r4 => ?_
    refine .loadCNode r4 List.mem_cons_self ?_
    exact .last (.store r4 (List.Perm.refl _) fun h5 r5 => .pure ⟨c, r5⟩)

/-- The frames that the entries of a list point to. -/
def linkOf (l : List (Nat × Option HCFrame)) : List (Option HFrame) := l.map fun n => n.2.map (·.frame)

/-- Every entry has the id of its frame. -/
def IdsOf (l : List (Nat × Option HCFrame)) : Prop :=
  ∀ n e, (n, some e) ∈ l → memcpySrc e.frame.header.id 4 = .ok e.frame_id

/-- The loop of `load_tag_with_buffer`, when there is an entry already. -/
theorem load_more_spec [Platform] (node head : Nat) (X : List Block) :
    ∀ (k : Nat) (l : List (Nat × Option HFrame)) (c0 : HCFrame) (rest : List (Nat × Option HCFrame)) (z : Nat)
      (K0 : List Block) (h : Heap), ((∃ init f, rest = init ++ [(z, f)]) ∨ (rest = [] ∧ z = head)) →
      IdsOf ((head, some c0) :: rest) →
      Rep h (cnodes head (some (some z)) (cspine ((head, some c0) :: rest)) ++
        (centries ((head, some c0) :: rest) ++ (K0 ++ X))) →
      (∀ b ∈ listNodes node (spine l), b ∈ X) → (∀ b ∈ frameBlocks l, b ∈ X) → l.length < k →
      Refines (load_frames k (first (spine l)) head h)
        (Id3.load_frames (cvals ((head, some c0) :: rest)) (vals l))
        (fun v _ h' => ∃ rest' last K, v = cvals ((head, some c0) :: rest') ∧
          linkOf ((head, some c0) :: rest') = linkOf ((head, some c0) :: rest) ++ l.map (·.2) ∧
          IdsOf ((head, some c0) :: rest') ∧ Streams (listStreams (vals l)) K ∧
          Rep h' (cnodes head last (cspine ((head, some c0) :: rest')) ++
            (centries ((head, some c0) :: rest') ++ (K ++ (K0 ++ X)))))
  | 0, _, _, _, _, _, _, _, _, _, _, _, hk => absurd hk (by omega)
  | _ + 1, [], c0, rest, z, K0, h, _, hi, r, _, _, _ =>
    .pure ⟨rest, _, [], rfl, by simp, hi, .nil, r⟩
  | k + 1, (a, none) :: l, c0, rest, z, K0, h, _, _, r, hn, _, _ => by
    show Refines (load_frames (k + 1) (some a) head h) (Id3.load_frames _ (none :: vals l)) _
    unfold load_frames Id3.load_frames
    refine .loadNode r (List.mem_append_right _ (List.mem_append_right _ (List.mem_append_right _
      (hn _ List.mem_cons_self)))) ?_
    exact .call (Q := fun _ _ _ => False) (compat_frame_null r) fun _ _ _ _ hf => hf.elim
  | k + 1, (a, some F) :: l, c0, rest, z, K0, h, hz, hi, r, hn, hf, hk => by
    show Refines (load_frames (k + 1) (some a) head h) (Id3.load_frames _ (some F.value :: vals l)) _
    unfold load_frames Id3.load_frames
    refine .loadNode r (List.mem_append_right _ (List.mem_append_right _ (List.mem_append_right _
      (hn _ List.mem_cons_self)))) ?_
    have hF : ∀ b ∈ F.blocks, b ∈ X := fun b hb => hf b (by rw [frameBlocks_some]; exact List.mem_append_left _ hb)
    refine .call (compat_frame_spec r fun b hb => List.mem_append_right _ (List.mem_append_right _
      (List.mem_append_right _ (hF b hb)))) ?_
    rintro _ _ h1 _ ⟨c, K1, rfl, rfl, rfl, hid, hK1, r1⟩
    have hz' : (∃ init, cspine rest = init ++ [(z, match rest.getLast? with | some (_, some e) => some e.addr | _ => none)]) ∨
        (cspine rest = [] ∧ z = head) := by
      rcases hz with ⟨init, f, rfl⟩ | ⟨rfl, rfl⟩
      · refine .inl ⟨cspine init, ?_⟩
        rw [cspine_append]
        cases f <;> simp [cspine]
      · exact .inr ⟨rfl, rfl⟩
    refine .step (add_more_spec (q := c0.addr) c.addr hz' (R := centries ((head, some c0) :: rest) ++
      (c.blocks ++ (K1 ++ (K0 ++ X)))) (r1.perm (by rw [cspine_cons]; simp only [Option.map_some]; blocks))) ?_
    rintro _ h2 ⟨d, r2⟩
    have r3 : Rep h2 (cnodes head (some (some d)) (cspine ((head, some c0) :: (rest ++ [(d, some c)]))) ++
        (centries ((head, some c0) :: (rest ++ [(d, some c)])) ++ ((K1 ++ K0) ++ X))) := by
      refine r2.perm ?_
      rw [cspine_cons, cspine_append, centries_some, centries_some, centries_append, centries_some]
      show (cnodes head (some (some d)) ((head, some c0.addr) :: (cspine rest ++ [(d, some c.addr)])) ++ _).Perm
        (cnodes head (some (some d)) ((head, some c0.addr) :: (cspine rest ++ [(d, some c.addr)])) ++ _)
      refine List.Perm.append_left _ ?_
      show List.Perm _ (c0.blocks ++ (centries rest ++ (c.blocks ++ [])) ++ _)
      blocks
    refine .loadNode r3 (List.mem_append_right _ (List.mem_append_right _ (List.mem_append_right _
      (hn _ List.mem_cons_self)))) ?_
    have hids : IdsOf ((head, some c0) :: (rest ++ [(d, some c)])) := by
      intro n e he
      rw [← List.cons_append] at he
      rcases List.mem_append.mp he with he | he
      · exact hi n e he
      · simp only [List.mem_singleton, Prod.mk.injEq, Option.some.injEq] at he
        obtain ⟨_, rfl⟩ := he
        exact hid
    have ih := load_more_spec node head X k l c0 (rest ++ [(d, some c)]) d (K1 ++ K0) h2 (.inl ⟨rest, _, rfl⟩) hids r3
      (fun b hb => hn b (List.mem_cons_of_mem _ hb))
      (fun b hb => hf b (by rw [frameBlocks_some]; exact List.mem_append_right _ hb))
      (by simp only [List.length_cons] at hk; omega)
    have e : Id3.add_to_list (cvals ((head, some c0) :: rest)) c.value =
        cvals ((head, some c0) :: (rest ++ [(d, some c)])) := by
      simp [cvals, Id3.add_to_list]
    rw [e]
    refine ih.mono ?_
    rintro v _ h' _ ⟨rest', last, K, hv, hl, hi', hK, r'⟩
    refine ⟨rest', last, K1 ++ K, hv, ?_, hi', hK1.append hK, r'.perm (by blocks)⟩
    rw [hl]
    simp [linkOf]

/-- The whole loop, for a list with at least one node. -/
theorem load_frames_spec [Platform] {h : Heap} {X : List Block} (node head : Nat) (k : Nat) (a : Nat) (f : Option HFrame)
    (l : List (Nat × Option HFrame)) (r : Rep h ((head, .cnode none none none none) :: X))
    (hn : ∀ b ∈ listNodes node (spine ((a, f) :: l)), b ∈ X) (hf : ∀ b ∈ frameBlocks ((a, f) :: l), b ∈ X)
    (hk : ((a, f) :: l).length < k) :
    Refines (load_frames k (some a) head h) (Id3.load_frames Id3.new_frame_list (vals ((a, f) :: l)))
      (fun v _ h' => ∃ c rest last K, v = cvals ((head, some c) :: rest) ∧
        linkOf ((head, some c) :: rest) = ((a, f) :: l).map (·.2) ∧ IdsOf ((head, some c) :: rest) ∧
        Streams (listStreams (vals ((a, f) :: l))) K ∧
        Rep h' (cnodes head last (cspine ((head, some c) :: rest)) ++
          (centries ((head, some c) :: rest) ++ (K ++ X)))) := by
  cases k with
  | zero => exact absurd hk (by omega)
  | succ k =>
    cases f with
    | none =>
      show Refines (load_frames (k + 1) (some a) head h) (Id3.load_frames _ (none :: vals l)) _
      unfold load_frames Id3.load_frames
      refine .loadNode r (List.mem_cons_of_mem _ (hn _ List.mem_cons_self)) ?_
      exact .call (Q := fun _ _ _ => False) (compat_frame_null r) fun _ _ _ _ hf => hf.elim
    | some F =>
      show Refines (load_frames (k + 1) (some a) head h) (Id3.load_frames _ (some F.value :: vals l)) _
      unfold load_frames Id3.load_frames
      refine .loadNode r (List.mem_cons_of_mem _ (hn _ List.mem_cons_self)) ?_
      have hF : ∀ b ∈ F.blocks, b ∈ X := fun b hb => hf b (by rw [frameBlocks_some]; exact List.mem_append_left _ hb)
      refine .call (compat_frame_spec r fun b hb => List.mem_cons_of_mem _ (hF b hb)) ?_
      rintro _ _ h1 _ ⟨c, K1, rfl, rfl, rfl, hid, hK1, r1⟩
      refine .step (add_first_spec c.addr (head := head) (last := none) (R := c.blocks ++ (K1 ++ X)) (r1.perm (by
        simp only [cnodes, List.head?, Option.map]; blocks))) fun _ h2 r2 => ?_
      refine .loadNode r2 (List.mem_append_right _ (List.mem_append_right _ (List.mem_append_right _
        (hn _ List.mem_cons_self)))) ?_
      have hids : IdsOf [(head, some c)] := by
        intro n e he
        simp only [List.mem_singleton, Prod.mk.injEq, Option.some.injEq] at he
        obtain ⟨_, rfl⟩ := he
        exact hid
      have ih := load_more_spec node head X k l c [] head K1 h2 (.inr ⟨rfl, rfl⟩) hids
        (r2.perm (by
          show List.Perm _ (cnodes head (some (some head)) [(head, some c.addr)] ++ ((c.blocks ++ []) ++ (K1 ++ X)))
          blocks))
        (fun b hb => hn b (List.mem_cons_of_mem _ hb))
        (fun b hb => hf b (by rw [frameBlocks_some]; exact List.mem_append_right _ hb))
        (by simp only [List.length_cons] at hk; omega)
      refine ih.mono ?_
      rintro v _ h' _ ⟨rest', last, K, hv, hl, hi', hK, r'⟩
      refine ⟨c, rest', last, K1 ++ K, hv, ?_, hi', hK1.append hK, r'.perm (by blocks)⟩
      rw [hl]
      simp [linkOf]

/-! ### Replacing an entry -/

/-- The list with the entry of node `i` replaced. -/
def cput : List (Nat × Option HCFrame) → Nat → HCFrame → List (Nat × Option HCFrame)
  | [], _, _ => []
  | (a, _) :: l, 0, c => (a, some c) :: l
  | x :: l, i + 1, c => x :: cput l i c

theorem first_cput : ∀ (l : List (Nat × Option HCFrame)) (i : Nat) (c : HCFrame),
    first (cspine (cput l i c)) = first (cspine l)
  | [], _, _ => rfl
  | _ :: _, 0, _ => rfl
  | _ :: _, _ + 1, _ => rfl

theorem add_uniq_spec (head : Nat) (c : HCFrame) : ∀ (k : Nat) (last : Option Ptr) (l : List (Nat × Option HCFrame))
    (X : List Block) (h : Heap), Rep h (cnodes head last (cspine l) ++ (centries l ++ (c.blocks ++ X))) → l.length < k →
    Refines (add_uniq_to_list k (first (cspine l)) c.addr h) (Id3.add_uniq_to_list (cvals l) c.value)
      (fun v _ h' => ∃ i n d, l[i]? = some (n, some d) ∧ idEq d.frame_id c.frame_id = .ok true ∧
        (∀ j, j < i → ∃ m e, l[j]? = some (m, some e) ∧ idEq e.frame_id c.frame_id = .ok false) ∧
        v = cvals (cput l i c) ∧
        d.addr ∉ (cnodes head last (cspine (cput l i c)) ++ (centries (cput l i c) ++ X)).map (·.1) ∧
        Rep h' (cnodes head last (cspine (cput l i c)) ++ (centries (cput l i c) ++ X)))
  | 0, _, _, _, _, _, hk => absurd hk (by omega)
  | _ + 1, _, [], X, h, r, _ => rfl
  | k + 1, last, (a, none) :: l, X, h, r, _ => by
    show Refines (add_uniq_to_list (k + 1) (some a) c.addr h) (.ub .nullDeref) _
    unfold add_uniq_to_list
    refine .loadCNode r (List.mem_append_left _ List.mem_cons_self) ?_
    rfl
  | k + 1, last, (a, some d) :: l, X, h, r, hk => by
    show Refines (add_uniq_to_list (k + 1) (some a) c.addr h)
      (Id3.add_uniq_to_list (some d.value :: cvals l) c.value) _
    unfold add_uniq_to_list Id3.add_uniq_to_list
    refine .loadCNode r (List.mem_append_left _ List.mem_cons_self) ?_
    refine .loadCFrame r (List.mem_append_right _ (List.mem_append_left _ (List.mem_append_left _ (mem_cframe d)))) ?_
    refine .loadCFrame r (List.mem_append_right _ (List.mem_append_right _ (List.mem_append_left _ (mem_cframe c)))) ?_
    refine .lift (r := idEq d.frame_id c.frame_id) fun b hb => ?_
    cases b with
    | true =>
      simp only [if_true]
      refine .step (free_frame_spec (c := d) (X := cnodes head last (cspine ((a, some d) :: l)) ++
        (centries l ++ (c.blocks ++ X))) (r.perm (by rw [centries_some]; blocks))) fun _ h1 r1 => ?_
      refine .last (.store r1 (List.Perm.refl _) fun h2 r2 => .pure ⟨0, a, d, rfl, hb, ?_, rfl, ?_, r2.perm ?_⟩)
      · intro j hj
        omega
      · have hn := (r.perm (L' := (d.addr, .cframe d.frame_id d.size d.flags (some d.data) (some d.frame.addr)) ::
          ((a, .cnode (some d.addr) (first (cspine l)) (some head) last) :: cnodes head none (cspine l) ++
            ((c.blocks ++ centries l) ++ ((d.data, .bytes d.bytes) :: X)))) (by
              rw [cspine_cons, cnodes_cons, centries_some]
              simp only [Option.map_some]
              unfold HCFrame.blocks
              blocks)).nodup
        rw [List.map_cons, List.nodup_cons] at hn
        intro hm
        apply hn.1
        have e : cnodes head last (cspine (cput ((a, some d) :: l) 0 c)) =
            (a, .cnode (some c.addr) (first (cspine l)) (some head) last) :: cnodes head none (cspine l) := rfl
        rw [e] at hm
        have e2 : centries (cput ((a, some d) :: l) 0 c) = c.blocks ++ centries l := rfl
        rw [e2] at hm
        simp only [List.map_append, List.map_cons, List.mem_append, List.mem_cons] at hm ⊢
        rcases hm with (hm | hm) | (hm | hm) | hm
        · exact .inl (.inl hm)
        · exact .inl (.inr hm)
        · exact .inr (.inl (.inl hm))
        · exact .inr (.inl (.inr hm))
        · exact .inr (.inr (.inr hm))
      · show List.Perm _ ((a, .cnode (some c.addr) (first (cspine l)) (some head) last) :: cnodes head none (cspine l) ++
          ((c.blocks ++ centries l) ++ X))
        show ((a, Cell.cnode (some c.addr) (first (cspine l)) (some head) last) :: (cnodes head none (cspine l) ++
          (centries l ++ (c.blocks ++ X)))).Perm _
        blocks
    | false =>
      simp only [Bool.false_eq_true, if_false]
      have r1 : Rep h (cnodes head none (cspine l) ++ (centries l ++ (c.blocks ++
          ((a, .cnode (some d.addr) (first (cspine l)) (some head) last) :: (d.blocks ++ X))))) := by
        refine r.perm ?_
        rw [cspine_cons, cnodes_cons, centries_some]
        simp only [Option.map_some]
        blocks
      refine (add_uniq_spec head c k none l _ h r1 (by simp only [List.length_cons] at hk; omega)).vmap ?_
      rintro v _ h' _ ⟨i, n, e, hi, he, hj, rfl, hno, r'⟩
      have hp : (cnodes head none (cspine (cput l i c)) ++ (centries (cput l i c) ++
          ((a, .cnode (some d.addr) (first (cspine l)) (some head) last) :: (d.blocks ++ X)))).Perm
          (cnodes head last (cspine (cput ((a, some d) :: l) (i + 1) c)) ++ (centries (cput ((a, some d) :: l) (i + 1) c) ++ X)) := ?_
      refine ⟨_, rfl, i + 1, n, e, by simpa using hi, he, ?_, rfl, fun hm => hno ((hp.map _).mem_iff.mpr hm), r'.perm hp⟩
      · intro j hj'
        cases j with
        | zero => exact ⟨a, d, rfl, hb⟩
        | succ j => simpa using hj j (by omega)
      · show List.Perm _ (cnodes head last ((a, some d.addr) :: cspine (cput l i c)) ++ ((d.blocks ++ centries (cput l i c)) ++ X))
        rw [cnodes_cons, first_cput]
        simp only [Option.map_some]
        blocks

/-! ### Finding an entry -/

theorem get_entry_spec {h : Heap} {L : List Block} (r : Rep h L) (head : Nat) (id : Bytes) :
    ∀ (k : Nat) (last : Option Ptr) (l : List (Nat × Option HCFrame)), (∀ b ∈ cnodes head last (cspine l), b ∈ L) →
      (∀ b ∈ centries l, b ∈ L) → l.length < k →
      Refines (get_from_list k (first (cspine l)) id h) (Id3.get_from_list (cvals l) id)
        (fun b a h' => h' = h ∧ match b with
          | none => a = none
          | some v => ∃ (i n : Nat) (c : HCFrame), l[i]? = some (n, some c) ∧
            (∀ j, j < i → ∃ m e, l[j]? = some (m, some (e : HCFrame)) ∧ strncmpEq 4 e.frame_id id = .ok false) ∧ c.value = v ∧
            a = some c.addr)
  | 0, _, _, _, _, hk => absurd hk (by omega)
  | _ + 1, _, [], _, _, _ => .pure ⟨rfl, rfl⟩
  | k + 1, last, (a, none) :: l, hn, _, _ => by
    show Refines (get_from_list (k + 1) (some a) id h) _ _
    unfold get_from_list
    refine .loadCNode r (hn _ List.mem_cons_self) ?_
    exact .pure ⟨rfl, rfl⟩
  | k + 1, last, (a, some c) :: l, hn, hf, hk => by
    show Refines (get_from_list (k + 1) (some a) id h) (Id3.get_from_list (some c.value :: cvals l) id) _
    unfold get_from_list Id3.get_from_list
    refine .loadCNode r (hn _ List.mem_cons_self) ?_
    dsimp only [Option.map_some]
    refine .loadCFrame r (hf _ (List.mem_append_left _ (mem_cframe c))) ?_
    refine .lift (r := strncmpEq 4 c.frame_id id) fun b hb' => ?_
    cases b with
    | true => exact .pure ⟨rfl, 0, a, c, rfl, fun j hj => absurd hj (by omega), rfl, rfl⟩
    | false =>
      simp only [Bool.false_eq_true, if_false]
      refine (get_entry_spec r head id k none l (fun b hb => hn b (List.mem_cons_of_mem _ hb))
        (fun b hb => hf b (List.mem_append_right _ hb)) (by simp only [List.length_cons] at hk; omega)).mono ?_
      rintro b p h' _ ⟨rfl, hb⟩
      refine ⟨rfl, ?_⟩
      cases b with
      | none => exact hb
      | some v =>
        obtain ⟨i, n, e, hi, hj, hv, hp⟩ := hb
        refine ⟨i + 1, n, e, by simpa using hi, ?_, hv, hp⟩
        intro j hj'
        cases j with
        | zero => exact ⟨a, c, rfl, hb'⟩
        | succ j => simpa using hj j (by omega)

/-! ### Freeing -/

theorem free_list_spec (head : Nat) : ∀ (k : Nat) (last : Option Ptr) (l : List (Nat × Option HCFrame)) (X : List Block)
    (h : Heap), Rep h (cnodes head last (cspine l) ++ (centries l ++ X)) → l.length < k →
    Refines (free_list k (first (cspine l)) h) (Id3.free_compat_frames (cvals l)) (fun _ _ h' => Rep h' X)
  | 0, _, _, _, _, _, hk => absurd hk (by omega)
  | _ + 1, _, [], X, h, r, _ => .pure r
  | k + 1, last, (a, none) :: l, X, h, r, hk => by
    show Refines (free_list (k + 1) (some a) h) (.ub .nullDeref) _
    unfold free_list
    refine .loadCNode r (List.mem_append_left _ List.mem_cons_self) ?_
    rfl
  | k + 1, last, (a, some c) :: l, X, h, r, hk => by
    show Refines (free_list (k + 1) (some a) h) (Id3.free_compat_frames (cvals l)) _
    unfold free_list
    refine .loadCNode r (List.mem_append_left _ List.mem_cons_self) ?_
    refine .step (free_frame_spec (c := c) (X := cnodes head last (cspine ((a, some c) :: l)) ++ (centries l ++ X))
      (r.perm (by rw [centries_some]; blocks))) fun _ h1 r1 => ?_
    refine .loadCNode r1 (List.mem_append_left _ List.mem_cons_self) ?_
    refine .free r1 (List.Perm.refl _) fun h2 r2 => ?_
    exact free_list_spec head k none l X h2 r2 (by simp only [List.length_cons] at hk; omega)

end Id3.H
