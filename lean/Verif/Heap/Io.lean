import Verif.Heap.DeleteAt

/-!
# Proofs about making, reading, writing and freeing tags on the heap
-/

namespace Id3.H

open Id3

/-! ### Freeing -/

theorem tag_free_spec {h : Heap} {T : HTag} {X : List Block} (r : Rep h (T.blocks ++ X)) :
    Refines (ID3v2_Tag_free T.addr h) (freeAll T.value.frames) (fun _ _ h' => Rep h' (leaks T.list ++ X)) := by
  unfold ID3v2_Tag_free
  refine .loadTag r (List.mem_append_left _ (mem_tag T)) ?_
  refine .free (c := .tagHeader T.header) (L' := listNodes T.head (spine T.list) ++ (frameBlocks T.list ++
    ((T.addr, .tag (some T.hdr) (some T.head) T.padding_size) :: X))) r (by unfold HTag.blocks; blocks) fun h1 r1 => ?_
  refine .fuel r1 fun n hn => ?_
  have e : freeAll T.value.frames = (freeAll T.value.frames >>= fun x => .ok x) := by
    cases freeAll T.value.frames <;> rfl
  rw [e]
  refine .call (list_free_spec T.head n T.list _ h1 r1 (by
    simp only [List.length_append, listNodes_length, spine, List.length_map] at hn; omega)) fun _ _ h2 _ r2 => ?_
  exact .last (.free (c := .tag (some T.hdr) (some T.head) T.padding_size) (L' := leaks T.list ++ X) r2 (by blocks)
    fun h3 r3 => .pure r3)

/-! ### Making -/

theorem tag_new_empty_spec {h : Heap} {X : List Block} (r : Rep h X) :
    Refines (ID3v2_Tag_new none h) (.ok Id3.ID3v2_Tag_new_empty) (fun v a h' => TagRep X v a h') := by
  unfold ID3v2_Tag_new FrameList_new
  refine .malloc r fun a h1 r1 => ?_
  refine .malloc r1 fun b h2 r2 => ?_
  refine .malloc r2 fun c h3 r3 => ?_
  refine .store (c := .tag none none 0) (L' := (c, .node none none none) :: (b, .tagHeader TagHeader_new_empty) :: X) r3
    (by blocks) fun h4 r4 => ?_
  refine .pure ⟨⟨a, b, TagHeader_new_empty, 0, c, none, []⟩, rfl, rfl, r4.perm ?_⟩
  show ((a, Cell.tag (some b) (some c) 0) :: (c, Cell.node none none none) :: (b, Cell.tagHeader TagHeader_new_empty) :: X).Perm
    ((a, Cell.tag (some b) (some c) 0) :: (b, Cell.tagHeader TagHeader_new_empty) :: ([(c, Cell.node none none none)] ++ [] ++ X))
  blocks

theorem tag_new_spec {h : Heap} {X : List Block} {b : Nat} {x : TagHeader} (r : Rep h ((b, .tagHeader x) :: X)) :
    Refines (ID3v2_Tag_new (some b) h) (.ok ()) (fun _ a h' => ∃ c, Rep h' (HTag.blocks ⟨a, b, x, 0, c, none, []⟩ ++ X)) := by
  unfold ID3v2_Tag_new FrameList_new
  refine .malloc r fun a h1 r1 => ?_
  dsimp only
  refine .step (b := ()) (Q := fun _ q h' => b = q ∧ h' = h1) (.pure ⟨rfl, rfl⟩) ?_
  rintro _ _ ⟨rfl, rfl⟩
  refine .malloc r1 fun c h3 r3 => ?_
  refine .store (c := .tag none none 0) (L' := (c, .node none none none) :: (b, .tagHeader x) :: X) r3
    (by blocks) fun h4 r4 => ?_
  refine .pure ⟨c, r4.perm ?_⟩
  show ((a, Cell.tag (some b) (some c) 0) :: (c, Cell.node none none none) :: (b, Cell.tagHeader x) :: X).Perm
    ((a, Cell.tag (some b) (some c) 0) :: (b, Cell.tagHeader x) :: ([(c, Cell.node none none none)] ++ [] ++ X))
  blocks

/-! ### Reading -/

theorem parse_loop_spec [Platform] (ts : Nat) (mv : UInt8) (head : Nat) (X : List Block) :
    ∀ (k : Nat) (cs : CharStream) (f : Option HFrame) (rest : List (Nat × Option HFrame)) (h : Heap),
      Rep h (listNodes head (spine ((head, f) :: rest)) ++ (frameBlocks ((head, f) :: rest) ++ X)) →
      Refines (Tag_parse_loop k cs ts mv head h) (Id3.Tag_parse_loop k cs ts mv (vals ((head, f) :: rest)))
        (fun p a h' => a = p.2 ∧ ∃ f' rest', vals ((head, f') :: rest') = p.1 ∧
          Rep h' (listNodes head (spine ((head, f') :: rest')) ++ (frameBlocks ((head, f') :: rest') ++ X)))
  | 0, cs, f, rest, h, r => rfl
  | k + 1, cs, f, rest, h, r => by
    unfold Tag_parse_loop Id3.Tag_parse_loop
    by_cases hc : u32 cs.cursor < ts
    · rw [if_pos hc, if_pos hc]
      refine .call (frame_parse_spec r cs mv) ?_
      rintro ⟨p, c⟩ ⟨q, d⟩ h1 _ ⟨e, hp⟩
      dsimp only at e
      subst e
      cases p with
      | none =>
        obtain ⟨e1, r1⟩ := hp
        dsimp only at e1
        subst e1
        exact .pure ⟨rfl, f, rest, rfl, r1⟩
      | some g =>
        obtain ⟨F, e1, rfl, r1⟩ := hp
        dsimp only at e1
        subst e1
        dsimp only
        refine .step (add_spec (l := (head, f) :: rest) (F := F) (X := X) rfl (r1.perm (by blocks))) ?_
        rintro _ h2 ⟨f', rest', hv, _, r2⟩
        rw [← hv]
        exact parse_loop_spec ts mv head X k d f' rest' h2 r2
    · rw [if_neg hc, if_neg hc]
      exact .pure ⟨rfl, f, rest, rfl, r⟩

/-- A tag pointer that may be NULL. -/
def TagRep? (X : List Block) (v : Option Tag) (p : Ptr) (h : Heap) : Prop :=
  match v with
  | none => p = none ∧ Rep h X
  | some t => ∃ a, p = some a ∧ TagRep X t a h

theorem tag_parse_spec [Platform] {h : Heap} {X : List Block} (r : Rep h X) (cs : CharStream) :
    Refines (Tag_parse cs h) (Id3.Tag_parse cs) (TagRep? X) := by
  unfold Tag_parse Id3.Tag_parse
  refine .lift fun p _ => ?_
  obtain ⟨x, cs⟩ := p
  cases x with
  | none => exact .pure ⟨rfl, r⟩
  | some x =>
    dsimp only
    refine .malloc r fun b h1 r1 => ?_
    refine .step (tag_new_spec r1) ?_
    rintro a h2 ⟨c, r2⟩
    have tail : ∀ cs : CharStream, Refines ((do
        let t ← loadTag (some a)
        match t.frames with
        | none => lift (.ub .nullDeref)
        | some frames =>
          let cs ← Tag_parse_loop (cs.stream.length + 1) cs x.tag_size x.major_version frames
          let padding ← lift (ck (cs.size - cs.cursor))
          storeCell (some a) (.tag t.header t.frames padding)
          return some a : HeapM Ptr) h2) (do
        let (frames, cs) ← Id3.Tag_parse_loop (cs.stream.length + 1) cs x.tag_size x.major_version
          (Id3.ID3v2_Tag_new (some x) 0).frames
        return some { Id3.ID3v2_Tag_new (some x) 0 with
          frames := frames, padding_size := ← ck (cs.size - cs.cursor) }) (TagRep? X) := by
      intro cs
      refine .loadTag r2 (List.mem_append_left _ List.mem_cons_self) ?_
      dsimp only
      refine .call (parse_loop_spec x.tag_size x.major_version c
        ((a, .tag (some b) (some c) 0) :: (b, .tagHeader x) :: X) _ cs none [] h2 (r2.perm (by
          unfold HTag.blocks HTag.list
          blocks))) ?_
      rintro ⟨fs, cs⟩ _ h3 _ ⟨rfl, f', rest', rfl, r3⟩
      dsimp only
      refine .lift fun pad _ => ?_
      refine .store (c := .tag (some b) (some c) 0) (L' := (b, .tagHeader x) :: (listNodes c (spine ((c, f') :: rest')) ++
        (frameBlocks ((c, f') :: rest') ++ X))) r3 (by blocks) fun h4 r4 => ?_
      exact .pure ⟨a, rfl, tag_of_parts r4 (List.Perm.swap _ _ _) rfl⟩
    cases x.extended_header_size with
    | none => rfl
    | some ext =>
      dsimp only
      split
      · exact .lift fun cs _ => tail cs
      · exact .lift (r := .ok cs) fun cs _ => tail cs

theorem cs_new_spec {h : Heap} {X : List Block} (r : Rep h X) :
    Refines (CharStream_new h) (.ok ()) (fun _ a h' => ∃ s, Rep h' ((a, .charStream (some s)) :: (s, .bytes []) :: X)) := by
  unfold CharStream_new
  refine .malloc r fun a h1 r1 => ?_
  refine .malloc r1 fun s h2 r2 => ?_
  exact .store r2 (List.Perm.swap _ _ _) fun h3 r3 => .pure ⟨s, r3⟩

theorem cs_free_spec {h : Heap} {X : List Block} {a s : Nat}
    (r : Rep h ((a, .charStream (some s)) :: (s, .bytes []) :: X)) :
    Refines (CharStream_free a h) (.ok ()) (fun _ _ h' => Rep h' X) := by
  unfold CharStream_free
  refine .load r List.mem_cons_self ?_
  refine .free r (List.Perm.swap _ _ _) fun h1 r1 => ?_
  exact .last (.free r1 (List.Perm.refl _) fun h2 r2 => .pure r2)

theorem itob_spec {h : Heap} {X : List Block} (r : Rep h X) :
    Refines (itobBlock h) (.ok ()) (fun _ _ h' => Rep h' X) := by
  unfold itobBlock
  refine .malloc r fun a h1 r1 => ?_
  exact .last (.free r1 (List.Perm.refl _) fun h2 r2 => .pure r2)

theorem TagRep?.perm {X Y : List Block} {v : Option Tag} {p : Ptr} {h : Heap} (t : TagRep? X v p h)
    (hp : X.Perm Y) : TagRep? Y v p h := by
  cases v with
  | none => exact ⟨t.1, t.2.perm hp⟩
  | some v =>
    obtain ⟨a, rfl, T, rfl, rfl, r⟩ := t
    exact ⟨T.addr, rfl, T, rfl, rfl, r.perm (hp.append_left _)⟩

/-- The other blocks of a tag pointer. -/
theorem TagRep?.out {X Y : List Block} {v : Option Tag} {p : Ptr} {h : Heap} (t : TagRep? (Y ++ X) v p h) :
    ∃ Z, Rep h (Y ++ (Z ++ X)) ∧ ∀ h', Rep h' (Z ++ X) → TagRep? X v p h' := by
  cases v with
  | none =>
    obtain ⟨rfl, r⟩ := t
    exact ⟨[], r, fun h' r' => ⟨rfl, r'⟩⟩
  | some v =>
    obtain ⟨a, rfl, T, rfl, rfl, r⟩ := t
    exact ⟨T.blocks, r.perm (by blocks), fun h' r' => ⟨_, rfl, T, rfl, rfl, r'⟩⟩

theorem read_buffer_spec [Platform] {h : Heap} {X : List Block} (r : Rep h X) (s : Src) (b : Bytes) (n : Int)
    (hs : s.At X b) : Refines (ID3v2_read_tag_from_buffer s n h) (Id3.ID3v2_read_tag_from_buffer b n) (TagRep? X) := by
  unfold ID3v2_read_tag_from_buffer Id3.ID3v2_read_tag_from_buffer
  refine src_read r hs ?_
  refine .lift fun cs _ => ?_
  refine .step (cs_new_spec r) ?_
  rintro a h1 ⟨st, r1⟩
  have e : Id3.Tag_parse cs = (Id3.Tag_parse cs >>= fun x => .ok x) := by cases Id3.Tag_parse cs <;> rfl
  rw [e]
  refine .call (tag_parse_spec r1 cs) ?_
  intro v p h2 _ t
  obtain ⟨Z, r2, hz⟩ := TagRep?.out (Y := [(a, .charStream (some st)), (st, .bytes [])]) t
  exact .step (cs_free_spec r2) fun _ h3 r3 => .pure (hz h3 r3)

/-- A tag header pointer that may be NULL. -/
def HeaderRep (X : List Block) (v : Option TagHeader) (p : Ptr) (h : Heap) : Prop :=
  match v with
  | none => p = none ∧ Rep h X
  | some x => ∃ a, p = some a ∧ Rep h ((a, .tagHeader x) :: X)

theorem read_header_buffer_spec [Platform] {h : Heap} {X : List Block} (r : Rep h X) (s : Src) (b : Bytes)
    (hs : s.At X b) :
    Refines (ID3v2_read_tag_header_from_buffer s h) (Id3.ID3v2_read_tag_header_from_buffer b) (HeaderRep X) := by
  unfold ID3v2_read_tag_header_from_buffer Id3.ID3v2_read_tag_header_from_buffer
  refine src_read r hs ?_
  refine .lift fun cs _ => ?_
  refine .step (cs_new_spec r) ?_
  rintro a h1 ⟨st, r1⟩
  refine .lift fun p _ => ?_
  obtain ⟨x, cs⟩ := p
  cases x with
  | none =>
    refine .step (b := ()) (Q := fun _ q h' => q = none ∧ h' = h1) (.pure ⟨rfl, rfl⟩) ?_
    rintro _ _ ⟨rfl, rfl⟩
    exact .step (cs_free_spec r1) fun _ h3 r3 => .pure ⟨rfl, r3⟩
  | some x =>
    refine .step (b := ()) (Q := fun _ q h' => ∃ b, q = some b ∧ Rep h' ((b, .tagHeader x) ::
      (a, .charStream (some st)) :: (st, .bytes []) :: X))
      (.malloc r1 fun b h2 r2 => .pure ⟨b, rfl, r2⟩) ?_
    rintro _ h2 ⟨b, rfl, r2⟩
    refine .step (cs_free_spec (a := a) (s := st) (X := (b, .tagHeader x) :: X) (r2.perm (by blocks))) fun _ h3 r3 => ?_
    exact .pure ⟨b, rfl, r3⟩

theorem read_header_spec [Platform] {h : Heap} {X : List Block} (r : Rep h X) (file : File) :
    Refines (ID3v2_read_tag_header file h) (Id3.ID3v2_read_tag_header file) (HeaderRep X) := by
  unfold ID3v2_read_tag_header Id3.ID3v2_read_tag_header
  cases file with
  | none => exact .pure ⟨rfl, r⟩
  | some c =>
    dsimp only
    split
    · exact .pure ⟨rfl, r⟩
    · exact read_header_buffer_spec r _ _ rfl

theorem read_tag_spec [Platform] {h : Heap} {X : List Block} (r : Rep h X) (file : File) :
    Refines (ID3v2_read_tag file h) (Id3.ID3v2_read_tag file) (TagRep? X) := by
  unfold ID3v2_read_tag Id3.ID3v2_read_tag
  refine .call (read_header_spec r file) ?_
  intro x p h1 hx hp
  cases x with
  | none =>
    obtain ⟨rfl, r1⟩ := hp
    exact .pure ⟨rfl, r1⟩
  | some x =>
    obtain ⟨a, rfl, r1⟩ := hp
    cases file with
    | none => cases hx
    | some c =>
      dsimp only
      refine .loadTagHeader r1 List.mem_cons_self ?_
      refine .malloc r1 fun b h2 r2 => ?_
      have e : ∀ v : Res (Option Tag), v = (v >>= fun x => .ok x) := by intro v; cases v <;> rfl
      rw [e (Id3.ID3v2_read_tag_from_buffer _ _)]
      refine .call (read_buffer_spec r2 (.block b) _ _ List.mem_cons_self) ?_
      intro v p h3 _ t
      obtain ⟨Z, r3, hz⟩ := TagRep?.out (Y := [(b, _), (a, .tagHeader x)]) t
      refine .free r3 (List.Perm.refl _) fun h4 r4 => ?_
      exact .free r4 (List.Perm.refl _) fun h5 r5 => .pure (hz h5 r5)

end Id3.H
