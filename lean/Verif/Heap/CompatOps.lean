import Verif.Heap.CompatLists
import Verif.Proof.CompatIds

/-!
# Proofs about the functions of the compatibility API on the heap
-/

namespace Id3.H

open Id3 Spec

/-! ### The blocks of a compat tag -/

/-- The blocks of a compat tag without those of the tag it wraps. -/
def own (C : HCTag) : List Block :=
  (C.addr, .ctag (C.raw.map fun p => some p.1) (some C.hdr) (some C.head) (some C.tag.addr)) ::
    (C.hdr, .cheader C.header) :: (C.rawBlock ++ (cnodes C.head C.last (cspine C.list) ++ centries C.list))

theorem tag_out (C : HCTag) (X : List Block) : (C.blocks ++ X).Perm (C.tag.blocks ++ (own C ++ X)) := by
  unfold HCTag.blocks own
  blocks

theorem mem_own (C : HCTag) : ∀ b ∈ own C, b ∈ C.blocks := by
  intro b hb
  have := (tag_out C []).mem_iff (a := b)
  simp only [List.append_nil] at this
  exact this.mpr (List.mem_append_right _ hb)

theorem mem_inner (C : HCTag) : ∀ b ∈ C.tag.blocks, b ∈ C.blocks := by
  intro b hb
  have := (tag_out C []).mem_iff (a := b)
  simp only [List.append_nil] at this
  exact this.mpr (List.mem_append_left _ hb)

theorem mem_ctag (C : HCTag) :
    (C.addr, Cell.ctag (C.raw.map fun p => some p.1) (some C.hdr) (some C.head) (some C.tag.addr)) ∈ C.blocks :=
  List.mem_cons_self

theorem mem_cnodes (C : HCTag) : ∀ b ∈ cnodes C.head C.last (cspine C.list), b ∈ C.blocks := fun b hb =>
  mem_own C b (by unfold own; simp [hb])

theorem mem_centries (C : HCTag) : ∀ b ∈ centries C.list, b ∈ C.blocks := fun b hb =>
  mem_own C b (by unfold own; simp [hb])

theorem clist_length (C : HCTag) (X : List Block) : C.list.length < (C.blocks ++ X).length := by
  have h : (cnodes C.head C.last (cspine C.list)).length = C.list.length := by
    rw [cnodes_length]
    simp [cspine]
  unfold HCTag.blocks
  simp only [List.length_append, List.length_cons, h]
  omega

/-- The tag pointer `a` is a compat tag with value `v`, and the other blocks are `X`. -/
def CTagRep (X : List Block) (v : CTag) (a : Nat) (h : Heap) : Prop :=
  ∃ C : HCTag, C.addr = a ∧ C.value = v ∧ C.Linked ∧ Rep h (C.blocks ++ X)

/-! ### Making tags -/

theorem new_tag_spec {h : Heap} {X : List Block} (r : Rep h X) :
    Refines (new_tag h) (.ok Id3.new_tag) (fun v a h' => CTagRep X v a h') := by
  unfold new_tag new_frame_list
  refine .malloc r fun a h1 r1 => ?_
  refine .malloc r1 fun b h2 r2 => ?_
  refine .malloc r2 fun c h3 r3 => ?_
  refine .step (tag_new_empty_spec r3) ?_
  rintro _ h4 ⟨T, rfl, hT, r4⟩
  refine .store (c := .ctag none none none none) (L' := (b, .cheader Id3.new_tag.tag_header) ::
    (c, .cnode none none none none) :: (T.blocks ++ X)) r4 (by blocks) fun h5 r5 => ?_
  refine .pure ⟨⟨a, b, none, Id3.new_tag.tag_header, c, none, none, [], T⟩, rfl, ?_, ⟨?_, ?_⟩, r5.perm ?_⟩
  · unfold HCTag.value
    dsimp only
    rw [hT]
    rfl
  · have : vals T.list = [none] := congrArg Tag.frames hT
    show [none] = T.list.map (·.2)
    have this : T.frame.map HFrame.value :: vals T.rest = [none] := this
    simp only [List.cons.injEq, Option.map_eq_none_iff, vals, List.map_eq_nil_iff] at this
    show _ = T.frame :: T.rest.map (·.2)
    rw [this.1, this.2]
    rfl
  · intro n e he
    simp [HCTag.list] at he
  · show List.Perm _ ((a, Cell.ctag none (some b) (some c) (some T.addr)) :: (b, .cheader Id3.new_tag.tag_header) :: ([] ++
      ([(c, Cell.cnode none none none none)] ++ ([] ++ T.blocks))) ++ X)
    blocks

/-- The header of a compat tag. -/
def hx (T : HTag) : CHeader :=
  { tag := T.header.identifier, major_version := some T.header.major_version,
    minor_version := some T.header.minor_version, flags := some T.header.flags,
    tag_size := some (toInt32 T.header.tag_size),
    extended_header_size := T.header.extended_header_size.map toInt32 }

/-- The blocks of a tag, if there is one. -/
def OptTag (Y : List Block) (p : Ptr) (t : Option Tag) : Prop :=
  match t with
  | none => p = none
  | some t => ∃ T : HTag, p = some T.addr ∧ T.value = t ∧ Y = T.blocks

theorem load_buffer_spec [Platform] {h : Heap} {X : List Block} (r : Rep h X) (s : Src) (b : Bytes) (n : Int)
    (hs : s.At X b) :
    Refines (load_tag_with_buffer s n h) (Id3.load_tag_with_buffer b n)
      (fun v a h' => ∃ K, Streams (listStreams v.tag.frames) K ∧ CTagRep (K ++ X) v a h') := by
  unfold load_tag_with_buffer Id3.load_tag_with_buffer
  refine .call (read_buffer_spec r s b n hs) ?_
  intro t p h1 _ ht
  obtain ⟨Y, rY, hY⟩ : ∃ Y, Rep h1 (Y ++ X) ∧ OptTag Y p t := by
    cases t with
    | none => exact ⟨[], ht.2, ht.1⟩
    | some t =>
      obtain ⟨_, rfl, T, rfl, e, r1⟩ := ht
      exact ⟨T.blocks, r1, T, rfl, e, rfl⟩
  clear ht
  refine .malloc rY fun a h2 r2 => ?_
  refine .malloc r2 fun hd h3 r3 => ?_
  have sub : ∀ b ∈ X, b ∈ (hd, Cell.cheader Id3.new_tag.tag_header) :: (a, .ctag none none none none) :: (Y ++ X) := by
    intro b hb
    simp [hb]
  have hs3 : s.At ((hd, Cell.cheader Id3.new_tag.tag_header) :: (a, .ctag none none none none) :: (Y ++ X)) b := by
    cases s with
    | literal b' => exact hs
    | block a => exact sub _ hs
    | frameId a => obtain ⟨x, hx, e⟩ := hs; exact ⟨x, sub _ hx, e⟩
  refine src_read r3 hs3 ?_
  refine .lift fun raw _ => ?_
  refine .malloc r3 fun rw' h4 r4 => ?_
  cases t with
  | none =>
    obtain rfl : p = none := hY
    rfl
  | some t =>
    obtain ⟨T, rfl, rfl, rfl⟩ := hY
    dsimp only
    have hm : ∀ b ∈ T.blocks, b ∈ (rw', Cell.bytes raw) :: (hd, Cell.cheader Id3.new_tag.tag_header) ::
        (a, .ctag none none none none) :: (T.blocks ++ X) := by
      intro b hb
      simp [hb]
    refine .loadTag r4 (hm _ (mem_tag T)) ?_
    refine .loadTagHeader r4 (hm _ (mem_tagHeader T)) ?_
    refine .store (c := .cheader Id3.new_tag.tag_header) (L' := (rw', .bytes raw) :: (a, .ctag none none none none) ::
      (T.blocks ++ X)) r4 (by blocks) fun h5 r5 => ?_
    have r5 : Rep h5 ((hd, .cheader (hx T)) :: (rw', .bytes raw) :: (a, .ctag none none none none) :: (T.blocks ++ X)) := r5
    unfold new_frame_list
    refine .malloc r5 fun fr h6 r6 => ?_
    refine .fuel r6 fun k hk => ?_
    refine .call (load_frames_spec T.head fr k T.head T.frame T.rest r6
      (fun b hb => by have := mem_nodes T b hb; simp [this])
      (fun b hb => by have := mem_frames T b hb; simp [this]) ?_) ?_
    · have := list_length T X
      have e : T.list.length = ((T.head, T.frame) :: T.rest).length := rfl
      simp only [List.length_cons] at hk e ⊢
      omega
    · rintro v _ h7 _ ⟨c, rest, last, K, rfl, hl, hi, hK, r7⟩
      refine .store (c := .ctag none none none none) (L' := cnodes fr last (cspine ((fr, some c) :: rest)) ++
        (centries ((fr, some c) :: rest) ++ (K ++ ((hd, Cell.cheader (hx T)) ::
          (rw', .bytes raw) :: (T.blocks ++ X))))) r7 (by blocks) fun h8 r8 => ?_
      refine .pure ⟨K, hK, ⟨a, hd, some (rw', raw), hx T, fr, last, some c, rest, T⟩, rfl, rfl, ⟨hl, hi⟩, r8.perm ?_⟩
      unfold HCTag.blocks HCTag.rawBlock HCTag.list
      simp only [Option.map_some]
      blocks

theorem load_tag_spec [Platform] {h : Heap} {X : List Block} (r : Rep h X) (file : File) :
    Refines (load_tag file h) (Id3.load_tag file)
      (fun v a h' => ∃ K, Streams (listStreams v.tag.frames) K ∧ CTagRep (K ++ X) v a h') := by
  unfold load_tag Id3.load_tag
  refine .call (read_header_spec r file) ?_
  intro x p h1 _ hp
  cases x with
  | none =>
    obtain ⟨rfl, r1⟩ := hp
    rfl
  | some x =>
    obtain ⟨a, rfl, r1⟩ := hp
    cases file with
    | none => rfl
    | some c =>
      dsimp only
      refine .loadTagHeader r1 List.mem_cons_self ?_
      refine .malloc r1 fun b h2 r2 => ?_
      have e : ∀ v : Res CTag, v = (v >>= fun x => .ok x) := by intro v; cases v <;> rfl
      rw [e (Id3.load_tag_with_buffer _ _)]
      refine .call (load_buffer_spec r2 (.block b) _ _ List.mem_cons_self) ?_
      rintro v p h3 _ ⟨K, hK, C, rfl, rfl, hl, r3⟩
      generalize intoArray _ _ = z at r3
      refine .free (c := .bytes z) (L' := (a, .tagHeader x) :: (C.blocks ++ (K ++ X))) r3 (by blocks) fun h4 r4 => ?_
      exact .free r4 (List.Perm.refl _) fun h5 r5 => .pure ⟨K, hK, C, rfl, rfl, hl, r5⟩

/-! ### Files -/

theorem tagOf_spec {γ δ : Type} {h : Heap} {C : HCTag} {L : List Block} (r : Rep h L) (hm : ∀ b ∈ C.blocks, b ∈ L)
    {k : Nat → HeapM γ} {v : Res δ} {Q : δ → γ → Heap → Prop} (hk : Refines (k C.tag.addr h) v Q) :
    Refines ((tagOf C.addr >>= k) h) v Q := by
  have e : tagOf C.addr h = .ok (C.tag.addr, h) := by
    have e : loadCTag (some C.addr) h =
        .ok (⟨C.raw.map fun p => some p.1, some C.hdr, some C.head, some C.tag.addr⟩, h) := by
      unfold loadCTag
      rw [HeapM.bind_apply, r.load (hm _ (mem_ctag C))]
      rfl
    unfold tagOf
    rw [HeapM.bind_apply, e]
    rfl
  rw [HeapM.bind_apply, e]
  exact hk

theorem own_tag (C : HCTag) (T : HTag) (h : T.addr = C.tag.addr) : own { C with tag := T } = own C := by
  unfold own
  dsimp only
  rw [h]
  rfl

theorem set_tag_spec [Platform] {h : Heap} {C : HCTag} {X : List Block} (hl : C.Linked) (r : Rep h (C.blocks ++ X))
    (file : File) :
    Refines (set_tag file C.addr h) (Id3.set_tag file C.value)
      (fun v a h' => a = v.1 ∧ ∃ (K : List Block) (n : Nat) (C' : HCTag), Streams n K ∧ n ≤ listStreams C.value.tag.frames ∧
        (C.tag.frame ≠ none → n = listStreams C.value.tag.frames) ∧ (C.tag.frame = none → n = 0) ∧ C'.addr = C.addr ∧
        C'.value = v.2 ∧ C'.Linked ∧ C'.list = C.list ∧ Rep h' (C'.blocks ++ (K ++ X))) := by
  unfold set_tag Id3.set_tag
  refine tagOf_spec r (fun b hb => List.mem_append_left _ hb) ?_
  refine (write_at (r.perm (tag_out C X)) file).vmap ?_
  rintro ⟨f, t⟩ a h' _ ⟨rfl, K, n, hK, h1, h2, h3, T, ha, hv, hlst, r'⟩
  refine ⟨_, rfl, rfl, K, n, { C with tag := T }, hK, h1, h2, h3, rfl, ?_, ⟨?_, hl.ids⟩, rfl, r'.perm ?_⟩
  · show { C.value with tag := T.value } = _
    rw [hv]
  · show C.list.map _ = T.list.map _
    rw [hlst]
    exact hl.frames
  · refine List.Perm.trans ?_ (tag_out { C with tag := T } _).symm
    rw [own_tag C T ha]
    show List.Perm _ (T.blocks ++ _)
    blocks

/-! ### Freeing -/

theorem freeAll_eq : ∀ l : FrameList, Id3.FrameList_free l = freeAll l
  | [] => rfl
  | none :: l => freeAll_eq l
  | some f :: l => by
    unfold Id3.FrameList_free freeAll
    rw [freeAll_eq l]

theorem free_tag_spec {h : Heap} {C : HCTag} {X : List Block} (r : Rep h (C.blocks ++ X)) :
    Refines (free_tag C.addr h) (Id3.free_tag C.value) (fun _ _ h' => Rep h' (leaks C.tag.list ++ X)) := by
  unfold free_tag Id3.free_tag
  refine .loadCTag r (List.mem_append_left _ (mem_ctag C)) ?_
  obtain ⟨a, hdr, raw, header, head, last, entry, rest, T⟩ := C
  cases raw with
  | none => rfl
  | some p =>
    obtain ⟨rp, rb⟩ := p
    dsimp only [HCTag.value, Option.map_some]
    refine .free (c := .bytes rb) (L' := (hdr, .cheader header) :: (T.blocks ++
      ((a, .ctag (some (some rp)) (some hdr) (some head) (some T.addr)) ::
        (cnodes head last (cspine ((head, entry) :: rest)) ++ (centries ((head, entry) :: rest) ++ X))))) r (by
          unfold HCTag.blocks HCTag.rawBlock HCTag.list
          simp only [Option.map_some]
          blocks) fun h1 r1 => ?_
    refine .free r1 (List.Perm.refl _) fun h2 r2 => ?_
    refine .step (b := ()) (Q := fun _ x h' => x = T.addr ∧ h' = h2) ?_ ?_
    · unfold tagOf
      refine .loadCTag r2 (List.mem_append_right _ List.mem_cons_self) ?_
      exact .pure ⟨rfl, rfl⟩
    rintro _ _ ⟨rfl, rfl⟩
    rw [freeAll_eq]
    refine .call (tag_free_spec r2) fun _ _ h3 _ r3 => ?_
    refine .loadCTag r3 (List.mem_append_right _ List.mem_cons_self) ?_
    refine .fuel r3 fun k hk => ?_
    have hlen : ((head, entry) :: rest).length < k := by
      have : (cnodes head last (cspine ((head, entry) :: rest))).length = ((head, entry) :: rest).length := by
        rw [cnodes_length]
        simp [cspine]
      simp only [List.length_append, List.length_cons, this] at hk ⊢
      omega
    have e : Id3.free_compat_frames (cvals ((head, entry) :: rest)) =
        (Id3.free_compat_frames (cvals ((head, entry) :: rest)) >>= fun x => .ok x) := by
      cases Id3.free_compat_frames (cvals ((head, entry) :: rest)) <;> rfl
    show Refines _ (Id3.free_compat_frames (cvals ((head, entry) :: rest))) _
    rw [e]
    refine .call (free_list_spec head k last ((head, entry) :: rest)
      ((a, .ctag (some (some rp)) (some hdr) (some head) (some T.addr)) :: (leaks T.list ++ X)) h3
      (r3.perm (by blocks)) hlen) fun _ _ h4 _ r4 => ?_
    exact .last (.free r4 (List.Perm.refl _) fun h5 r5 => .pure r5)

/-! ### Getting -/

theorem tag_get_spec {h : Heap} {C : HCTag} {X : List Block} (r : Rep h (C.blocks ++ X)) (id : Bytes) :
    Refines (tag_get id C.addr h) (Id3.get_from_list C.value.frames id)
      (fun b a h' => h' = h ∧ match b with
        | none => a = none
        | some v => ∃ (i n : Nat) (c : HCFrame), C.list[i]? = some (n, some c) ∧
            (∀ j, j < i → ∃ m e, C.list[j]? = some (m, some (e : HCFrame)) ∧ strncmpEq 4 e.frame_id id = .ok false) ∧ c.value = v ∧
            a = some c.addr) := by
  unfold tag_get
  refine .loadCTag r (List.mem_append_left _ (mem_ctag C)) ?_
  refine .fuel r fun k hk => ?_
  exact get_entry_spec r C.head id k C.last C.list (fun b hb => List.mem_append_left _ (mem_cnodes C b hb))
    (fun b hb => List.mem_append_left _ (mem_centries C b hb)) (Nat.lt_trans (clist_length C X) hk)

end Id3.H
