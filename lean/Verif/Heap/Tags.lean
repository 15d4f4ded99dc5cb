import Verif.Heap.Ops
import Verif.Spec.Session

/-!
# Proofs about the tag operations on the heap, continued
-/

namespace Id3.H

open Id3

/-- The tag pointer `a` is a tag with value `v`, and the other blocks are `X`. -/
def TagRep (X : List Block) (v : Tag) (a : Nat) (h : Heap) : Prop :=
  ∃ T : HTag, T.addr = a ∧ T.value = v ∧ Rep h (T.blocks ++ X)

/-- The tag pointer `a` is a tag with value `v` and list `l`, and the other blocks are `X`. -/
def TagAt (X : List Block) (v : Tag) (a : Nat) (l : List (Nat × Option HFrame)) (h : Heap) : Prop :=
  ∃ T : HTag, T.addr = a ∧ T.value = v ∧ T.list = l ∧ Rep h (T.blocks ++ X)

theorem TagAt.rep {X : List Block} {v : Tag} {a : Nat} {l : List (Nat × Option HFrame)} {h : Heap}
    (t : TagAt X v a l h) : TagRep X v a h := by
  obtain ⟨T, h1, h2, _, h3⟩ := t
  exact ⟨T, h1, h2, h3⟩

theorem mem_tag (T : HTag) : (T.addr, Cell.tag (some T.hdr) (some T.head) T.padding_size) ∈ T.blocks :=
  List.mem_cons_self
theorem mem_tagHeader (T : HTag) : (T.hdr, Cell.tagHeader T.header) ∈ T.blocks :=
  List.mem_cons_of_mem _ List.mem_cons_self
theorem mem_nodes (T : HTag) : ∀ b ∈ listNodes T.head (spine T.list), b ∈ T.blocks := fun _ hb =>
  List.mem_cons_of_mem _ (List.mem_cons_of_mem _ (List.mem_append_left _ hb))
theorem mem_frames (T : HTag) : ∀ b ∈ frameBlocks T.list, b ∈ T.blocks := fun _ hb =>
  List.mem_cons_of_mem _ (List.mem_cons_of_mem _ (List.mem_append_right _ hb))

/-- The list of a tag, and the rest. -/
theorem tag_list (T : HTag) (X : List Block) : (T.blocks ++ X).Perm (listNodes T.head (spine T.list) ++
    (frameBlocks T.list ++ ((T.addr, .tag (some T.hdr) (some T.head) T.padding_size) ::
      (T.hdr, .tagHeader T.header) :: X))) := by
  unfold HTag.blocks
  blocks

theorem list_length (T : HTag) (X : List Block) : T.list.length < (T.blocks ++ X).length := by
  have := (tag_list T X).length_eq
  simp only [List.length_append, listNodes_length, spine, List.length_map, List.length_cons] at this
  rw [List.length_append] at *
  omega

/-- Adding a frame to a list, with the frames. -/
theorem add_spec {h : Heap} {l : List (Nat × Option HFrame)} {head : Nat} {f : Option HFrame}
    {rest : List (Nat × Option HFrame)} {X : List Block} {F : HFrame} (hl : l = (head, f) :: rest)
    (r : Rep h (listNodes head (spine l) ++ (frameBlocks l ++ (F.blocks ++ X)))) :
    Refines (FrameList_add_frame head (some F.addr) h) (.ok ()) (fun _ _ h' => ∃ f' rest',
      vals ((head, f') :: rest') = Id3.FrameList_add_frame (vals l) F.value ∧
      (frameBlocks l ++ F.blocks).Perm (frameBlocks ((head, f') :: rest')) ∧
      Rep h' (listNodes head (spine ((head, f') :: rest')) ++ (frameBlocks ((head, f') :: rest') ++ X))) := by
  subst hl
  rw [spine_cons] at r
  refine (add_frame_spec r F.addr).mono ?_
  rintro _ _ h' _ ⟨sp, r', hsp⟩
  cases f with
  | none =>
    dsimp only [Option.map] at hsp
    have hp : (frameBlocks ((head, none) :: rest) ++ F.blocks).Perm (frameBlocks ((head, some F) :: rest)) := by
      rw [frameBlocks_none, frameBlocks_some]
      exact List.perm_append_comm
    refine ⟨some F, rest, rfl, hp, ?_⟩
    subst hsp
    refine r'.perm (List.Perm.append_left _ ?_)
    rw [← List.append_assoc]
    exact hp.append_right _
  | some G =>
    dsimp only [Option.map] at hsp
    obtain ⟨a, hsp⟩ := hsp
    have hp : (frameBlocks ((head, some G) :: rest) ++ F.blocks).Perm
        (frameBlocks ((head, some G) :: (rest ++ [(a, some F)]))) := by
      rw [frameBlocks_some, frameBlocks_some, frameBlocks_append, frameBlocks_some]
      show (G.blocks ++ frameBlocks rest ++ F.blocks).Perm (G.blocks ++ (frameBlocks rest ++ (F.blocks ++ [])))
      blocks
    refine ⟨some G, rest ++ [(a, some F)], ?_, hp, ?_⟩
    · simp [vals, Id3.FrameList_add_frame]
    · subst hsp
      have e : spine ((head, some G) :: (rest ++ [(a, some F)])) =
          (head, some G.addr) :: spine rest ++ [(a, some F.addr)] := by simp [spine]
      rw [e]
      refine r'.perm (List.Perm.append_left _ ?_)
      rw [← List.append_assoc]
      exact hp.append_right _

theorem set_tag_size_spec {h : Heap} {a : Nat} {x : TagHeader} {X : List Block} (r : Rep h ((a, .tagHeader x) :: X))
    (n : Nat) : Refines (setTagSize (some a) n h) (.ok ())
      (fun _ _ h' => Rep h' ((a, .tagHeader { x with tag_size := n }) :: X)) := by
  unfold setTagSize
  refine .loadTagHeader r List.mem_cons_self ?_
  exact .last (.store r (List.Perm.refl _) fun h' r' => .pure r')

/-- A tag made of its parts. -/
theorem tag_at_parts {h : Heap} {a hdr head : Nat} {x : TagHeader} {pad : Int} {f : Option HFrame}
    {rest : List (Nat × Option HFrame)} {X L : List Block} (r : Rep h L)
    (p : L.Perm ((hdr, .tagHeader x) :: (a, .tag (some hdr) (some head) pad) ::
      (listNodes head (spine ((head, f) :: rest)) ++ (frameBlocks ((head, f) :: rest) ++ X)))) {v : Tag}
    (hv : v = { header := x, frames := vals ((head, f) :: rest), padding_size := pad }) :
    TagAt X v a ((head, f) :: rest) h := by
  refine ⟨⟨a, hdr, x, pad, head, f, rest⟩, rfl, hv.symm, rfl, r.perm (p.trans ?_)⟩
  unfold HTag.blocks HTag.list
  blocks

theorem tag_of_parts {h : Heap} {a hdr head : Nat} {x : TagHeader} {pad : Int} {f : Option HFrame}
    {rest : List (Nat × Option HFrame)} {X L : List Block} (r : Rep h L)
    (p : L.Perm ((hdr, .tagHeader x) :: (a, .tag (some hdr) (some head) pad) ::
      (listNodes head (spine ((head, f) :: rest)) ++ (frameBlocks ((head, f) :: rest) ++ X)))) {v : Tag}
    (hv : v = { header := x, frames := vals ((head, f) :: rest), padding_size := pad }) : TagRep X v a h :=
  (tag_at_parts r p hv).rep

theorem append_spec {h : Heap} {T : HTag} {F : HFrame} {X : List Block} (r : Rep h (T.blocks ++ (F.blocks ++ X))) :
    Refines (Tag_append T.addr F.addr h) (.ok (Id3.Tag_append T.value F.value))
      (fun v _ h' => TagRep X v T.addr h') := by
  unfold Tag_append
  refine .loadTag r (List.mem_append_left _ (mem_tag T)) ?_
  dsimp only
  have r0 : Rep h (listNodes T.head (spine T.list) ++ (frameBlocks T.list ++ (F.blocks ++
      ((T.addr, .tag (some T.hdr) (some T.head) T.padding_size) :: (T.hdr, .tagHeader T.header) :: X)))) :=
    r.perm ((tag_list T _).trans (by blocks))
  refine .step (add_spec (l := T.list) (F := F) rfl r0) ?_
  rintro _ h1 ⟨f', rest', hv, hp, r1⟩
  have hF : ∀ b ∈ F.blocks, b ∈ listNodes T.head (spine ((T.head, f') :: rest')) ++
      (frameBlocks ((T.head, f') :: rest') ++ ((T.addr, .tag (some T.hdr) (some T.head) T.padding_size) ::
        (T.hdr, .tagHeader T.header) :: X)) := fun b hb =>
    List.mem_append_right _ (List.mem_append_left _ (hp.mem_iff.mp (List.mem_append_right _ hb)))
  refine .loadFrame r1 (hF _ (mem_frame F)) ?_
  refine .loadFrameHeader r1 (hF _ (mem_header F)) ?_
  have r2 : Rep h1 ((T.hdr, .tagHeader T.header) :: (T.addr, .tag (some T.hdr) (some T.head) T.padding_size) ::
      (listNodes T.head (spine ((T.head, f') :: rest')) ++ (frameBlocks ((T.head, f') :: rest') ++ X))) :=
    r1.perm (by blocks)
  refine .loadTagHeader r2 List.mem_cons_self ?_
  refine .last (.step (set_tag_size_spec r2 _) fun _ h3 r3 => .pure ?_)
  refine tag_of_parts r3 (List.Perm.refl _) ?_
  rw [hv]
  rfl

/-! ### Setters -/

theorem part_out (a b : Block) (N M G X : List Block) :
    (a :: b :: (N ++ (M ++ (G ++ X)))).Perm (G ++ (a :: b :: (N ++ (M ++ X)))) := by
  blocks

theorem of_first {l' : List (Nat × Option HFrame)} {head : Nat} {f : Option HFrame}
    {rest : List (Nat × Option HFrame)} (h : first (spine l') = first (spine ((head, f) :: rest))) :
    ∃ f' rest', l' = (head, f') :: rest' := by
  cases l' with
  | nil => cases h
  | cons x xs =>
    obtain ⟨a, g⟩ := x
    cases h
    exact ⟨_, _, rfl⟩

theorem leak_length (F : HFrame) : F.leak.length = Spec.frameLeft F.value := by
  obtain ⟨a, b, c, d, p⟩ := F
  unfold HFrame.leak Spec.frameLeft HFrame.value
  dsimp only
  split
  · rfl
  · cases p <;> rfl

/-- What a setter leaves behind: nothing, or what is left of a replaced frame. -/
def SetLeak (T : HTag) (K : List Block) : Prop := K = [] ∨ ∃ n G, (n, some G) ∈ T.list ∧ K = G.leak

theorem found_none {T : HTag} {id : Bytes} (h : Id3.FrameList_get_frame_by_id (vals T.list) id = .ok none) :
    Spec.foundLeft T.value id = 0 := by
  unfold Spec.foundLeft Id3.ID3v2_Tag_get_frame
  rw [show T.value.frames = vals T.list from rfl, h]
  rfl

theorem found_some {T : HTag} {id : Bytes} {i : Nat} {G : HFrame}
    (h : Id3.FrameList_get_frame_by_id (vals T.list) id = .ok (some (i, G.value))) :
    Spec.foundLeft T.value id = G.leak.length := by
  unfold Spec.foundLeft Id3.ID3v2_Tag_get_frame
  rw [show T.value.frames = vals T.list from rfl, h, leak_length]
  rfl

theorem removed_found {id : Bytes} {f : Frame} : ∀ {l l' : FrameList},
    Id3.FrameList_remove_frame_by_id l id = .ok (some f, l') → ∃ i, Id3.FrameList_get_frame_by_id l id = .ok (some (i, f))
  | [], _, h => by cases h
  | none :: l, _, h => by cases h
  | some g :: l, l', h => by
    unfold Id3.FrameList_remove_frame_by_id at h
    obtain ⟨b, hb, h⟩ := Res.bind_eq_ok.mp h
    unfold Id3.FrameList_get_frame_by_id
    rw [hb]
    cases b with
    | true => cases h; exact ⟨0, rfl⟩
    | false =>
      obtain ⟨⟨r, rest⟩, hr, h⟩ := Res.bind_eq_ok.mp h
      cases h
      obtain ⟨i, hi⟩ := removed_found hr
      refine ⟨i + 1, ?_⟩
      show (Id3.FrameList_get_frame_by_id l id >>= _) = _
      rw [hi]
      rfl

/-- Where a setter puts the frame `F`: in place of the first frame with the id, if there is one. `K` is what is left of
that frame. -/
def SetAt (l : List (Nat × Option HFrame)) (id : Bytes) (F : HFrame) (l' : List (Nat × Option HFrame))
    (K : List Block) : Prop :=
  Id3.FrameList_get_frame_by_id (vals l) id = .ok none ∨
  ∃ i n G, Id3.FrameList_get_frame_by_id (vals l) id = .ok (some (i, G.value)) ∧ l[i]? = some (n, some G) ∧
    l' = replaceAt l i F ∧ K = G.leak

theorem set_frame_at {h : Heap} {T : HTag} {F : HFrame} {X : List Block} (id : Bytes)
    (r : Rep h (T.blocks ++ (F.blocks ++ X))) :
    Refines (Tag_set_frame T.addr id F.addr h) (Id3.Tag_set_frame T.value id F.value)
      (fun v _ h' => ∃ K l', TagAt (K ++ X) v T.addr l' h' ∧ SetLeak T K ∧ K.length = Spec.foundLeft T.value id ∧ SetAt T.list id F l' K) := by
  unfold Tag_set_frame Id3.Tag_set_frame
  refine .loadTag r (List.mem_append_left _ (mem_tag T)) ?_
  refine .fuel r fun n hn => ?_
  have hl : T.list.length < n := Nat.lt_trans (list_length T _) hn
  refine .call (get_frame_spec r T.head id n T.list (fun b hb => List.mem_append_left _ (mem_nodes T b hb))
    (fun b hb => List.mem_append_left _ (mem_frames T b hb)) hl) ?_
  rintro b a h hv ⟨rfl, hb⟩
  cases b with
  | none =>
    subst hb
    dsimp only
    refine (append_spec r).mono ?_
    rintro v _ h' _ ⟨T', e1, e2, r'⟩
    exact ⟨[], T'.list, ⟨T', e1, e2, rfl, r'⟩, .inl rfl, (found_none hv).symm, .inl hv⟩
  | some b =>
    obtain ⟨i, f⟩ := b
    obtain ⟨m, G, hi, rfl, rfl⟩ := hb
    dsimp only
    refine .fuel r fun n hn => ?_
    have hl : T.list.length < n := Nat.lt_trans (list_length T _) hn
    refine .step (replace_frame_spec T.head n T.list i m G F _ h (r.perm (tag_list T _)) hi hl) ?_
    intro _ h1 r1
    have hp := frameBlocks_replaceAt T.list i m (some G) F hi
    obtain ⟨f', rest', hl'⟩ := of_first (first_replaceAt T.list i F)
    rw [hl'] at r1 hp
    have hp' : (listNodes T.head (spine ((T.head, f') :: rest')) ++ (frameBlocks T.list ++
        ((T.addr, .tag (some T.hdr) (some T.head) T.padding_size) :: (T.hdr, .tagHeader T.header) ::
          (F.blocks ++ X)))).Perm ((T.hdr, .tagHeader T.header) ::
        (T.addr, .tag (some T.hdr) (some T.head) T.padding_size) ::
        (listNodes T.head (spine ((T.head, f') :: rest')) ++ (frameBlocks ((T.head, f') :: rest') ++ (G.blocks ++ X)))) := by
      simp only [nodeBlocks] at hp
      blocks_using hp
    have r2 := r1.perm hp'
    have hF : ∀ b ∈ F.blocks, b ∈ listNodes T.head (spine ((T.head, f') :: rest')) ++ (frameBlocks T.list ++
        ((T.addr, .tag (some T.hdr) (some T.head) T.padding_size) :: (T.hdr, .tagHeader T.header) ::
          (F.blocks ++ X))) := fun b hb => by simp [hb]
    have hG : ∀ b ∈ G.blocks, b ∈ ((T.hdr, .tagHeader T.header) ::
        (T.addr, .tag (some T.hdr) (some T.head) T.padding_size) ::
        (listNodes T.head (spine ((T.head, f') :: rest')) ++
          (frameBlocks ((T.head, f') :: rest') ++ (G.blocks ++ X)))) := fun b hb => by simp [hb]
    refine .loadFrame r1 (hF _ (mem_frame F)) ?_
    refine .loadFrameHeader r1 (hF _ (mem_header F)) ?_
    refine .loadFrame r2 (hG _ (mem_frame G)) ?_
    refine .loadFrameHeader r2 (hG _ (mem_header G)) ?_
    refine .lift fun diff _ => ?_
    refine .loadTagHeader r2 List.mem_cons_self ?_
    refine .step (set_tag_size_spec r2 _) fun _ h3 r3 => ?_
    refine (frame_free_spec (F := G) (r3.perm (part_out _ _ _ _ _ _))).vmap ?_
    intro _ _ h4 _ r4
    refine ⟨_, rfl, G.leak, _, tag_at_parts r4 (part_out _ _ _ _ _ _).symm ?_,
      .inr ⟨m, G, List.mem_of_getElem? hi, rfl⟩, (found_some hv).symm, .inr ⟨i, m, G, hv, hi, hl'.symm, rfl⟩⟩
    rw [← hl', vals_replaceAt]
    rfl

theorem src_read {γ δ : Type} {s : Src} {b : Bytes} {k : Bytes → HeapM γ} {v : Res δ} {h : Heap} {L : List Block}
    {Q : δ → γ → Heap → Prop} (r : Rep h L) (hs : s.At L b) (hk : Refines (k b h) v Q) :
    Refines ((s.read >>= k) h) v Q := by
  cases s with
  | literal b' => cases hs; exact hk
  | block a => exact .loadBytes r hs hk
  | frameId a =>
    obtain ⟨x, hx, rfl⟩ := hs
    have e : (Src.frameId a).read h = .ok (x.id, h) := by
      have e : loadFrameHeader (some a) h = .ok (x, h) := by
        unfold loadFrameHeader
        rw [HeapM.bind_apply, r.load hx]
        rfl
      show (loadFrameHeader (some a) >>= fun y => pure y.id) h = _
      rw [HeapM.bind_apply, e]
      rfl
    rw [HeapM.bind_apply, e]
    exact hk

/-- The state after a setter that made the frame `f`. -/
def SetPost (T : HTag) (X : List Block) (id : Bytes) (f : Res Frame) (v : Tag) (h' : Heap) : Prop :=
  ∃ K l' F, TagAt (K ++ X) v T.addr l' h' ∧ SetLeak T K ∧ K.length = Spec.foundLeft T.value id ∧ SetAt T.list id F l' K ∧
    f = .ok F.value

theorem SetPost.rep {T : HTag} {X : List Block} {id : Bytes} {f : Res Frame} {v : Tag} {h' : Heap}
    (q : SetPost T X id f v h') :
    ∃ K, TagRep (K ++ X) v T.addr h' ∧ SetLeak T K ∧ K.length = Spec.foundLeft T.value id := by
  obtain ⟨K, _, _, t, hl, hk, _⟩ := q
  exact ⟨K, t.rep, hl, hk⟩

theorem set_frame_post {h : Heap} {T : HTag} {F : HFrame} {X : List Block} (id : Bytes) {f : Res Frame}
    (r : Rep h (T.blocks ++ (F.blocks ++ X))) (hf : f = .ok F.value) :
    Refines (Tag_set_frame T.addr id F.addr h) (Id3.Tag_set_frame T.value id F.value)
      (fun v _ h' => SetPost T X id f v h') :=
  (set_frame_at id r).mono fun _ _ _ _ q => by
    obtain ⟨K, l', t, hl, hk, ha⟩ := q
    exact ⟨K, l', F, t, hl, hk, ha, hf⟩

theorem set_text_at [Platform] {h : Heap} {T : HTag} {X : List Block} (r : Rep h (T.blocks ++ X))
    (i : TextFrameInput) (v : Id3.TextFrameInput) (h1 : i.id.At (T.blocks ++ X) v.id)
    (h2 : i.flags.At (T.blocks ++ X) v.flags) (h3 : i.text.At (T.blocks ++ X) v.text) :
    Refines (ID3v2_Tag_set_text_frame T.addr i h) (Id3.ID3v2_Tag_set_text_frame T.value v)
      (fun t _ h' => SetPost T X v.id (Id3.TextFrame_new v.id v.flags v.text) t h') := by
  unfold ID3v2_Tag_set_text_frame Id3.ID3v2_Tag_set_text_frame
  refine src_read r h1 (src_read r h2 (src_read r h3 ?_))
  refine .call (text_new_spec r v.id v.flags v.text) ?_
  rintro f a h' hf ⟨F, rfl, rfl, r'⟩
  exact set_frame_post v.id (r'.perm (by blocks)) hf

theorem set_text_spec [Platform] {h : Heap} {T : HTag} {X : List Block} (r : Rep h (T.blocks ++ X))
    (i : TextFrameInput) (v : Id3.TextFrameInput) (h1 : i.id.At (T.blocks ++ X) v.id)
    (h2 : i.flags.At (T.blocks ++ X) v.flags) (h3 : i.text.At (T.blocks ++ X) v.text) :
    Refines (ID3v2_Tag_set_text_frame T.addr i h) (Id3.ID3v2_Tag_set_text_frame T.value v)
      (fun t _ h' => ∃ K, TagRep (K ++ X) t T.addr h' ∧ SetLeak T K ∧ K.length = Spec.foundLeft T.value v.id) :=
  (set_text_at r i v h1 h2 h3).mono fun _ _ _ _ q => q.rep

theorem comment_input_spec [Platform] {γ δ : Type} {h : Heap} {L : List Block} (r : Rep h L)
    (i : CommentFrameInput) (v : Id3.CommentFrameInput) (h1 : i.flags.At L v.flags)
    (h2 : i.language.At L v.language) (h3 : i.short_description.At L v.short_description)
    (h4 : i.comment.At L v.comment) {k : Nat → HeapM γ} {g : Frame → Res δ} {Q : δ → γ → Heap → Prop}
    (hk : ∀ (F : HFrame) h', Id3.CommentFrame_new v.flags v.language v.short_description v.comment = .ok F.value →
      Rep h' (F.blocks ++ L) → Refines (k F.addr h') (g F.value) Q) :
    Refines ((do
      let flags ← i.flags.read
      let language ← i.language.read
      let short_description ← i.short_description.read
      let comment ← i.comment.read
      let new_frame ← CommentFrame_new flags language short_description comment
      k new_frame : HeapM γ) h)
      (Id3.CommentFrame_new v.flags v.language v.short_description v.comment >>= g) Q := by
  refine src_read r h1 (src_read r h2 (src_read r h3 (src_read r h4 ?_)))
  refine .call (comment_new_spec r v.flags v.language v.short_description v.comment) ?_
  rintro f a h' hf ⟨F, rfl, rfl, r'⟩
  exact hk F h' hf r'

theorem set_comment_at [Platform] {h : Heap} {T : HTag} {X : List Block} (r : Rep h (T.blocks ++ X))
    (i : CommentFrameInput) (v : Id3.CommentFrameInput) (h1 : i.flags.At (T.blocks ++ X) v.flags)
    (h2 : i.language.At (T.blocks ++ X) v.language)
    (h3 : i.short_description.At (T.blocks ++ X) v.short_description) (h4 : i.comment.At (T.blocks ++ X) v.comment) :
    Refines (ID3v2_Tag_set_comment_frame T.addr i h) (Id3.ID3v2_Tag_set_comment_frame T.value v)
      (fun t _ h' => SetPost T X COMMENT_ID
        (Id3.CommentFrame_new v.flags v.language v.short_description v.comment) t h') := by
  unfold ID3v2_Tag_set_comment_frame Id3.ID3v2_Tag_set_comment_frame
  exact comment_input_spec r i v h1 h2 h3 h4 fun F h' hf r' => set_frame_post COMMENT_ID (r'.perm (by blocks)) hf

theorem set_comment_spec [Platform] {h : Heap} {T : HTag} {X : List Block} (r : Rep h (T.blocks ++ X))
    (i : CommentFrameInput) (v : Id3.CommentFrameInput) (h1 : i.flags.At (T.blocks ++ X) v.flags)
    (h2 : i.language.At (T.blocks ++ X) v.language)
    (h3 : i.short_description.At (T.blocks ++ X) v.short_description) (h4 : i.comment.At (T.blocks ++ X) v.comment) :
    Refines (ID3v2_Tag_set_comment_frame T.addr i h) (Id3.ID3v2_Tag_set_comment_frame T.value v)
      (fun v _ h' => ∃ K, TagRep (K ++ X) v T.addr h' ∧ SetLeak T K ∧ K.length = Spec.foundLeft T.value COMMENT_ID) :=
  (set_comment_at r i v h1 h2 h3 h4).mono fun _ _ _ _ q => q.rep

theorem add_comment_spec [Platform] {h : Heap} {T : HTag} {X : List Block} (r : Rep h (T.blocks ++ X))
    (i : CommentFrameInput) (v : Id3.CommentFrameInput) (h1 : i.flags.At (T.blocks ++ X) v.flags)
    (h2 : i.language.At (T.blocks ++ X) v.language)
    (h3 : i.short_description.At (T.blocks ++ X) v.short_description) (h4 : i.comment.At (T.blocks ++ X) v.comment) :
    Refines (ID3v2_Tag_add_comment_frame T.addr i h) (Id3.ID3v2_Tag_add_comment_frame T.value v)
      (fun v _ h' => TagRep X v T.addr h') := by
  unfold ID3v2_Tag_add_comment_frame Id3.ID3v2_Tag_add_comment_frame
  exact comment_input_spec r i v h1 h2 h3 h4 fun F h' _ r' => append_spec (r'.perm (by blocks))

theorem apic_input_spec [Platform] {h : Heap} {L : List Block} (r : Rep h L)
    (i : ApicFrameInput) (v : Id3.ApicFrameInput) (h1 : i.flags.At L v.flags)
    (h2 : i.mime_type.At L v.mime_type) (h3 : i.description.At L v.description)
    (h4 : i.data.At L v.data) (h5 : i.picture_type = v.picture_type) (h6 : i.picture_size = v.picture_size) :
    Refines (ApicFrame_of_input i h) (Id3.ApicFrame_of_input v) (NewFrame L) := by
  unfold ApicFrame_of_input Id3.ApicFrame_of_input
  refine src_read r h1 (src_read r h2 (src_read r h3 (src_read r h4 ?_)))
  rw [h5, h6]
  exact apic_new_spec r _ _ _ _ _ _

theorem set_apic_at [Platform] {h : Heap} {T : HTag} {X : List Block} (r : Rep h (T.blocks ++ X))
    (i : ApicFrameInput) (v : Id3.ApicFrameInput) (h1 : i.flags.At (T.blocks ++ X) v.flags)
    (h2 : i.mime_type.At (T.blocks ++ X) v.mime_type) (h3 : i.description.At (T.blocks ++ X) v.description)
    (h4 : i.data.At (T.blocks ++ X) v.data) (h5 : i.picture_type = v.picture_type)
    (h6 : i.picture_size = v.picture_size) :
    Refines (ID3v2_Tag_set_apic_frame T.addr i h) (Id3.ID3v2_Tag_set_apic_frame T.value v)
      (fun t _ h' => SetPost T X ALBUM_COVER_ID (Id3.ApicFrame_of_input v) t h') := by
  unfold ID3v2_Tag_set_apic_frame Id3.ID3v2_Tag_set_apic_frame
  refine .call (apic_input_spec r i v h1 h2 h3 h4 h5 h6) ?_
  rintro f a h' hf ⟨F, rfl, rfl, r'⟩
  exact set_frame_post ALBUM_COVER_ID (r'.perm (by blocks)) hf

theorem set_apic_spec [Platform] {h : Heap} {T : HTag} {X : List Block} (r : Rep h (T.blocks ++ X))
    (i : ApicFrameInput) (v : Id3.ApicFrameInput) (h1 : i.flags.At (T.blocks ++ X) v.flags)
    (h2 : i.mime_type.At (T.blocks ++ X) v.mime_type) (h3 : i.description.At (T.blocks ++ X) v.description)
    (h4 : i.data.At (T.blocks ++ X) v.data) (h5 : i.picture_type = v.picture_type)
    (h6 : i.picture_size = v.picture_size) :
    Refines (ID3v2_Tag_set_apic_frame T.addr i h) (Id3.ID3v2_Tag_set_apic_frame T.value v)
      (fun v _ h' => ∃ K, TagRep (K ++ X) v T.addr h' ∧ SetLeak T K ∧ K.length = Spec.foundLeft T.value ALBUM_COVER_ID) :=
  (set_apic_at r i v h1 h2 h3 h4 h5 h6).mono fun _ _ _ _ q => q.rep

theorem add_apic_spec [Platform] {h : Heap} {T : HTag} {X : List Block} (r : Rep h (T.blocks ++ X))
    (i : ApicFrameInput) (v : Id3.ApicFrameInput) (h1 : i.flags.At (T.blocks ++ X) v.flags)
    (h2 : i.mime_type.At (T.blocks ++ X) v.mime_type) (h3 : i.description.At (T.blocks ++ X) v.description)
    (h4 : i.data.At (T.blocks ++ X) v.data) (h5 : i.picture_type = v.picture_type)
    (h6 : i.picture_size = v.picture_size) :
    Refines (ID3v2_Tag_add_apic_frame T.addr i h) (Id3.ID3v2_Tag_add_apic_frame T.value v)
      (fun v _ h' => TagRep X v T.addr h') := by
  unfold ID3v2_Tag_add_apic_frame Id3.ID3v2_Tag_add_apic_frame
  refine .call (apic_input_spec r i v h1 h2 h3 h4 h5 h6) ?_
  rintro f a h' _ ⟨F, rfl, rfl, r'⟩
  exact append_spec (r'.perm (by blocks))

/-! ### Deleters -/

theorem delete_spec {h : Heap} {T : HTag} {X : List Block} (r : Rep h (T.blocks ++ X)) (s : Src) (id : Bytes)
    (hs : s.At (T.blocks ++ X) id) :
    Refines (ID3v2_Tag_delete_frame T.addr s h) (Id3.ID3v2_Tag_delete_frame T.value id)
      (fun v _ h' => ∃ K, TagRep (K ++ X) v T.addr h' ∧ SetLeak T K ∧ K.length = Spec.foundLeft T.value id) := by
  unfold ID3v2_Tag_delete_frame Id3.ID3v2_Tag_delete_frame
  refine src_read r hs ?_
  refine .loadTag r (List.mem_append_left _ (mem_tag T)) ?_
  refine .fuel r fun n hn => ?_
  have hl : T.list.length < n := Nat.lt_trans (list_length T _) hn
  refine .call (remove_by_id_spec T.head id n T.list _ h (r.perm (tag_list T _))
    (fun b hb => List.mem_append_left _ hb) hl) ?_
  rintro ⟨fr, vl⟩ a h1 hrem ⟨l', r1, hv, hfirst, hm⟩
  cases fr with
  | none =>
    obtain ⟨rfl, _⟩ := hm
    rfl
  | some fv =>
    obtain ⟨i, m, G, hi, hl', rfl, rfl⟩ := hm
    obtain ⟨f', rest', hl''⟩ := of_first hfirst
    have hp := frameBlocks_removeAt T.list i m (some G) hi
    rw [← hl', hl''] at hp
    rw [hl''] at r1
    have r2 : Rep h1 ((T.hdr, .tagHeader T.header) :: (T.addr, .tag (some T.hdr) (some T.head) T.padding_size) ::
        (listNodes T.head (spine ((T.head, f') :: rest')) ++
          (frameBlocks ((T.head, f') :: rest') ++ (G.blocks ++ X)))) := by
      refine r1.perm ?_
      simp only [nodeBlocks] at hp
      blocks_using hp
    have hG : ∀ b ∈ G.blocks, b ∈ ((T.hdr, .tagHeader T.header) ::
        (T.addr, .tag (some T.hdr) (some T.head) T.padding_size) ::
        (listNodes T.head (spine ((T.head, f') :: rest')) ++
          (frameBlocks ((T.head, f') :: rest') ++ (G.blocks ++ X)))) := fun b hb => by simp [hb]
    refine .loadFrame r2 (hG _ (mem_frame G)) ?_
    refine .loadFrameHeader r2 (hG _ (mem_header G)) ?_
    refine .lift fun d _ => ?_
    refine .loadTagHeader r2 List.mem_cons_self ?_
    refine .step (set_tag_size_spec r2 _) fun _ h3 r3 => ?_
    refine (frame_free_spec (F := G) (r3.perm (part_out _ _ _ _ _ _))).vmap ?_
    intro _ _ h4 _ r4
    refine ⟨_, rfl, G.leak, tag_of_parts r4 (part_out _ _ _ _ _ _).symm ?_,
      .inr ⟨m, G, List.mem_of_getElem? hi, rfl⟩, ?_⟩
    · dsimp only at hv
      rw [← hl'', hv]
      rfl
    · obtain ⟨j, hj⟩ := removed_found hrem
      exact (found_some hj).symm

end Id3.H
