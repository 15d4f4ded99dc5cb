import Verif.Heap.CompatSet
import Verif.Heap.Holds
import Verif.Spec.CompatSession

/-!
# Proofs about the contents of frames, and about reading through pointers
-/

namespace Id3.H

open Id3 Spec

/-! ### Reading -/

theorem load_cell {h : Heap} {a : Nat} {c : Cell} (e : h.cells a = some c) : loadCell (some a) h = .ok (c, h) := by
  show (match h.cells a with | none => _ | some c => _) = _
  rw [e]

theorem load_bytes {h : Heap} {a : Nat} {b : Bytes} (e : h.cells a = some (.bytes b)) :
    loadBytes (some a) h = .ok (b, h) := by
  unfold loadBytes
  rw [HeapM.bind_apply, load_cell e]
  rfl

theorem load_frame {h : Heap} {a : Nat} {x y : Ptr} (e : h.cells a = some (.frame x y)) :
    loadFrame (some a) h = .ok (⟨x, y⟩, h) := by
  unfold loadFrame
  rw [HeapM.bind_apply, load_cell e]
  rfl

theorem load_frameHeader {h : Heap} {a : Nat} {x : FrameHeader} (e : h.cells a = some (.frameHeader x)) :
    loadFrameHeader (some a) h = .ok (x, h) := by
  unfold loadFrameHeader
  rw [HeapM.bind_apply, load_cell e]
  rfl

theorem load_cframe {h : Heap} {a : Nat} {i f : Bytes} {n : Int} {d g : Ptr} (e : h.cells a = some (.cframe i n f d g)) :
    loadCFrame (some a) h = .ok (⟨i, n, f, d, g⟩, h) := by
  unfold loadCFrame
  rw [HeapM.bind_apply, load_cell e]
  rfl

theorem fetch_frame {h : Heap} {F : HFrame} (hF : Has h.cells F.blocks) :
    fetchFrame (some F.addr) h = .ok (F.value, h) := by
  obtain ⟨a, x, d, hd, pl⟩ := F
  have h1 := hF.head
  have h2 := hF.tail.head
  have h3 := hF.tail.tail.head
  have h4 := hF.tail.tail.tail
  unfold fetchFrame
  rw [HeapM.bind_apply, load_frame h1, Res.bind_ok, HeapM.bind_apply, load_frameHeader h2, Res.bind_ok,
    HeapM.bind_apply, load_cell h3, Res.bind_ok]
  cases pl with
  | text d t =>
    show (loadBytes (some t) >>= _) h = _
    rw [HeapM.bind_apply, load_bytes h4.head]
    rfl
  | comment d s c =>
    show (loadBytes (some s) >>= _) h = _
    rw [HeapM.bind_apply, load_bytes h4.head, Res.bind_ok, HeapM.bind_apply, load_bytes h4.tail.head]
    rfl
  | apic d m de q =>
    show (loadBytes (some m) >>= _) h = _
    rw [HeapM.bind_apply, load_bytes h4.head, Res.bind_ok, HeapM.bind_apply, load_bytes h4.tail.head, Res.bind_ok,
      HeapM.bind_apply, load_bytes h4.tail.tail.head]
    rfl
  | raw b => rfl

theorem fetch_entry {h : Heap} {c : HCFrame} (hc : Has h.cells c.blocks) (hF : Has h.cells c.frame.blocks) :
    fetchEntry c.addr h = .ok (c.value, h) := by
  unfold fetchEntry
  rw [HeapM.bind_apply, load_cframe hc.head, Res.bind_ok, HeapM.bind_apply, load_bytes hc.tail.head, Res.bind_ok]
  show (fetchFrame (some c.frame.addr) >>= _) h = _
  rw [HeapM.bind_apply, fetch_frame hF]
  rfl

theorem fetch_text {h : Heap} {a d : Nat} {n : Int} {e : UInt8} {b : Bytes}
    (h1 : h.cells a = some (.textContent n e (some d))) (h2 : h.cells d = some (.bytes b)) :
    fetchText (some a) h = .ok (⟨n, e, b⟩, h) := by
  unfold fetchText
  rw [HeapM.bind_apply, load_cell h1, Res.bind_ok]
  show (loadBytes (some d) >>= _) h = _
  rw [HeapM.bind_apply, load_bytes h2]
  rfl

/-! ### The `parse` functions -/

theorem parse_text_spec {h : Heap} {c : HCFrame} {X : List Block} (r : Rep h X) (hc : ∀ b ∈ c.blocks, b ∈ X)
    (hF : ∀ b ∈ c.frame.blocks, b ∈ X) :
    Refines (parse_text_frame_content c.addr h) (Id3.parse_text_frame_content c.value)
      (fun v a h' => ∃ d, Rep h' ((HThing.text a d v).blocks ++ X)) := by
  obtain ⟨ca, cd, i, n, fl, bs, ⟨fa, fh, fd, hd, pl⟩⟩ := c
  unfold parse_text_frame_content Id3.parse_text_frame_content
  refine .malloc r fun a h1 r1 => ?_
  refine .loadCFrame r1 (List.mem_cons_of_mem _ (hc _ (mem_cframe _))) ?_
  refine .loadFrame r1 (List.mem_cons_of_mem _ (hF _ (mem_frame _))) ?_
  refine .load r1 (List.mem_cons_of_mem _ (hF _ (mem_data _))) ?_
  cases pl with
  | text d t =>
    dsimp only [HPayload.cell, HCFrame.value, HFrame.value, HPayload.value]
    refine .loadBytes r1 (b := d.text) (List.mem_cons_of_mem _ (hF _ (by
      show _ ∈ _ :: _ :: _ :: [(t, Cell.bytes d.text)]
      simp))) ?_
    refine .lift fun b _ => ?_
    refine .malloc r1 fun p h2 r2 => ?_
    refine .store (c := .textContent 0 0 none) (L' := (p, .bytes b) :: X) r2 (by blocks) fun h3 r3 => ?_
    exact .pure ⟨p, r3⟩
  | comment d s c => rfl
  | apic d m de q => rfl
  | raw b => rfl

/-- The contents of a comment point into its frame. -/
def CommentOf (F : HFrame) (v : CommentContent) (O : HThing) : Prop :=
  ∃ d s c, F.payload = .comment d s c ∧ v = ⟨d.language, d.short_description, ⟨d.size, d.encoding, d.comment⟩⟩ ∧
    ∃ a t, O = .comment a t (some F.data) (some s) d.size d.encoding (some c)

theorem parse_comment_spec {h : Heap} {c : HCFrame} {X : List Block} (r : Rep h X) (hc : ∀ b ∈ c.blocks, b ∈ X)
    (hF : ∀ b ∈ c.frame.blocks, b ∈ X) :
    Refines (parse_comment_frame_content c.addr h) (Id3.parse_comment_frame_content c.value)
      (fun v a h' => ∃ O, O.addr = a ∧ CommentOf c.frame v O ∧ Rep h' (O.blocks ++ X)) := by
  obtain ⟨ca, cd, i, n, fl, bs, ⟨fa, fh, fd, hd, pl⟩⟩ := c
  unfold parse_comment_frame_content Id3.parse_comment_frame_content
  refine .malloc r fun a h1 r1 => ?_
  refine .loadCFrame r1 (List.mem_cons_of_mem _ (hc _ (mem_cframe _))) ?_
  refine .loadFrame r1 (List.mem_cons_of_mem _ (hF _ (mem_frame _))) ?_
  refine .load r1 (List.mem_cons_of_mem _ (hF _ (mem_data _))) ?_
  cases pl with
  | text d t => rfl
  | comment d s c =>
    dsimp only [HPayload.cell, HCFrame.value, HFrame.value, HPayload.value]
    refine .malloc r1 fun p h2 r2 => ?_
    refine .store (c := .commentContent none none none) (L' := (p, .textContent d.size d.encoding (some c)) :: X) r2
      (by blocks) fun h3 r3 => ?_
    exact .pure ⟨.comment a p (some fd) (some s) d.size d.encoding (some c), rfl, ⟨d, s, c, rfl, rfl, a, p, rfl⟩, r3⟩
  | apic d m de q => rfl
  | raw b => rfl

/-- The contents of a picture point into its frame. -/
def PictureOf (F : HFrame) (v : ApicContent) (O : HThing) : Prop :=
  ∃ d m de q, F.payload = .apic d m de q ∧
    v = ⟨d.encoding, d.mime_type, d.picture_type, d.description, d.picture_size, d.data⟩ ∧
    ∃ a, O = .picture a d.encoding (some m) d.picture_type (some de) d.picture_size (some q)

theorem parse_picture_spec {h : Heap} {c : HCFrame} {X : List Block} (r : Rep h X) (hc : ∀ b ∈ c.blocks, b ∈ X)
    (hF : ∀ b ∈ c.frame.blocks, b ∈ X) :
    Refines (parse_apic_frame_content c.addr h) (Id3.parse_apic_frame_content c.value)
      (fun v a h' => ∃ O, O.addr = a ∧ PictureOf c.frame v O ∧ Rep h' (O.blocks ++ X)) := by
  obtain ⟨ca, cd, i, n, fl, bs, ⟨fa, fh, fd, hd, pl⟩⟩ := c
  unfold parse_apic_frame_content Id3.parse_apic_frame_content
  refine .malloc r fun a h1 r1 => ?_
  refine .loadCFrame r1 (List.mem_cons_of_mem _ (hc _ (mem_cframe _))) ?_
  refine .loadFrame r1 (List.mem_cons_of_mem _ (hF _ (mem_frame _))) ?_
  refine .load r1 (List.mem_cons_of_mem _ (hF _ (mem_data _))) ?_
  cases pl with
  | text d t => rfl
  | comment d s c => rfl
  | apic d m de q =>
    dsimp only [HPayload.cell, HCFrame.value, HFrame.value, HPayload.value]
    refine .store (c := .apicContent 0 none 0 none 0 none) (L' := X) r1 (by blocks) fun h3 r3 => ?_
    exact .pure ⟨.picture a d.encoding (some m) d.picture_type (some de) d.picture_size (some q), rfl,
      ⟨d, m, de, q, rfl, rfl, a, rfl⟩, r3⟩
  | raw b => rfl

theorem fetch_comment {h : Heap} {F : HFrame} {v : CommentContent} {O : HThing} (ho : CommentOf F v O)
    (hO : Has h.cells O.blocks) (hF : Has h.cells F.blocks) : fetchComment O.addr h = .ok (v, h) := by
  obtain ⟨d, s, c, hp, rfl, a, t, rfl⟩ := ho
  obtain ⟨fa, fh, fd, hd, pl⟩ := F
  obtain rfl : pl = .comment d s c := hp
  have h3 := hF.tail.tail.head
  have h4 := hF.tail.tail.tail
  show fetchComment a h = _
  unfold fetchComment
  rw [HeapM.bind_apply, load_cell hO.head, Res.bind_ok]
  show (loadCell (some fd) >>= _) h = _
  rw [HeapM.bind_apply, load_cell h3, Res.bind_ok]
  show (loadBytes (some s) >>= _) h = _
  rw [HeapM.bind_apply, load_bytes h4.head, Res.bind_ok, HeapM.bind_apply, fetch_text hO.tail.head h4.tail.head]
  rfl

theorem fetch_picture {h : Heap} {F : HFrame} {v : ApicContent} {O : HThing} (ho : PictureOf F v O)
    (hO : Has h.cells O.blocks) (hF : Has h.cells F.blocks) : fetchPicture O.addr h = .ok (v, h) := by
  obtain ⟨d, m, de, q, hp, rfl, a, rfl⟩ := ho
  obtain ⟨fa, fh, fd, hd, pl⟩ := F
  obtain rfl : pl = .apic d m de q := hp
  have h4 := hF.tail.tail.tail
  show fetchPicture a h = _
  unfold fetchPicture
  rw [HeapM.bind_apply, load_cell hO.head, Res.bind_ok]
  show (loadBytes (some m) >>= _) h = _
  rw [HeapM.bind_apply, load_bytes h4.head, Res.bind_ok, HeapM.bind_apply, load_bytes h4.tail.head, Res.bind_ok,
    HeapM.bind_apply, load_bytes h4.tail.tail.head]
  rfl

/-! ### Freeing -/

theorem release_spec {h : Heap} {O : HThing} {X : List Block} (r : Rep h (O.blocks ++ X)) :
    Refines (releaseThing O.value.kind O.addr h) (.ok ()) (fun _ _ h' => Rep h' X) := by
  cases O with
  | text a d c =>
    show Refines (releaseThing .text a h) _ _
    unfold releaseThing
    refine .load r List.mem_cons_self ?_
    refine .free (c := .bytes c.data) (L' := (a, .textContent c.size c.encoding (some d)) :: X) r
      (List.Perm.swap _ _ _) fun h1 r1 => ?_
    exact .last (.free r1 (List.Perm.refl _) fun h2 r2 => .pure r2)
  | comment a t l s n e c =>
    show Refines (releaseThing .comment a h) _ _
    unfold releaseThing
    refine .load r List.mem_cons_self ?_
    refine .free (c := .textContent n e c) (L' := (a, .commentContent l s (some t)) :: X) r
      (List.Perm.swap _ _ _) fun h1 r1 => ?_
    exact .last (.free r1 (List.Perm.refl _) fun h2 r2 => .pure r2)
  | picture a e m t d n p =>
    show Refines (releaseThing .picture a h) _ _
    exact .last (.free r (List.Perm.refl _) fun h2 r2 => .pure r2)
  | buffer a b =>
    show Refines (releaseThing .buffer a h) _ _
    exact .last (.free r (List.Perm.refl _) fun h2 r2 => .pure r2)

/-! ### Which blocks are entries -/

theorem quiet_nodes (k : Nat) : ∀ l : List (Nat × Ptr), Quiet (listNodes k l)
  | [] => .nil
  | _ :: l => .cons id (quiet_nodes k l)

theorem quiet_cnodes (k : Nat) : ∀ (last : Option Ptr) (l : List (Nat × Ptr)), Quiet (cnodes k last l)
  | _, [] => .nil
  | _, _ :: l => .cons id (quiet_cnodes k _ l)

theorem quiet_tag (T : HTag) : Quiet T.blocks := by
  unfold HTag.blocks
  refine .cons id (.cons id ((quiet_nodes _ _).append ?_))
  intro b hb
  obtain ⟨⟨n, f⟩, _, hb⟩ := List.mem_flatMap.mp hb
  cases f with
  | none => cases hb
  | some F => exact quiet_frame F b hb

theorem quiet_thing (O : HThing) : Quiet O.blocks := by
  cases O with
  | text a d c => exact .cons id (.cons id .nil)
  | comment a t l s n e c => exact .cons id (.cons id .nil)
  | picture a e m t d n p => exact .cons id .nil
  | buffer a b => exact .cons id .nil

/-- An entry among the blocks of a compat tag is one of its entries. -/
theorem entry_of_blocks {C : HCTag} {b : Block} (hb : b ∈ C.blocks) (he : isEntry b.2) :
    ∃ n c, (n, some c) ∈ C.list ∧ c.addr = b.1 := by
  unfold HCTag.blocks at hb
  rcases List.mem_cons.mp hb with rfl | hb
  · exact he.elim
  rcases List.mem_cons.mp hb with rfl | hb
  · exact he.elim
  rcases List.mem_append.mp hb with hb | hb
  · unfold HCTag.rawBlock at hb
    cases hr : C.raw with
    | none => rw [hr] at hb; cases hb
    | some p =>
      rw [hr] at hb
      cases List.mem_singleton.mp hb
      exact he.elim
  rcases List.mem_append.mp hb with hb | hb
  · exact absurd he (quiet_cnodes _ _ _ b hb)
  rcases List.mem_append.mp hb with hb | hb
  · obtain ⟨⟨n, f⟩, hm, hb⟩ := List.mem_flatMap.mp hb
    cases f with
    | none => cases hb
    | some c =>
      refine ⟨n, c, hm, ?_⟩
      rcases List.mem_cons.mp hb with rfl | hb
      · rfl
      · cases List.mem_singleton.mp hb
        exact he.elim
  · exact absurd he (quiet_tag _ b hb)

/-- The blocks of an entry, and of its frame. -/
theorem entry_blocks {C : HCTag} (hl : C.Linked) {n : Nat} {c : HCFrame} (h : (n, some c) ∈ C.list) :
    (∀ b ∈ c.blocks, b ∈ C.blocks) ∧ ∀ b ∈ c.frame.blocks, b ∈ C.blocks := by
  constructor
  · intro b hb
    exact mem_centries C b (List.mem_flatMap.mpr ⟨_, h, hb⟩)
  · intro b hb
    obtain ⟨i, hi⟩ := List.getElem?_of_mem h
    obtain ⟨m, hm, _⟩ := linked_entry hl hi
    exact mem_inner C b (mem_frames C.tag b (List.mem_flatMap.mpr ⟨_, List.mem_of_getElem? hm, hb⟩))

end Id3.H
