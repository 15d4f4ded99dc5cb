import Verif.Heap.Lists

/-!
# Proofs about the tag operations on the heap
-/

namespace Id3.H

open Id3

/-! ### New frames -/

/-- A new frame with its own blocks. -/
def NewFrame (X : List Block) (f : Frame) (a : Nat) (h' : Heap) : Prop :=
  ∃ F : HFrame, F.addr = a ∧ F.value = f ∧ Rep h' (F.blocks ++ X)

theorem text_new_spec [Platform] {h : Heap} {X : List Block} (r : Rep h X) (id flags text : Bytes) :
    Refines (TextFrame_new id flags text h) (Id3.TextFrame_new id flags text) (NewFrame X) := by
  unfold TextFrame_new Id3.TextFrame_new
  refine .malloc r fun fp h1 r1 => ?_
  refine .lift fun d _ => ?_
  refine .malloc r1 fun dp h2 r2 => ?_
  refine .malloc r2 fun tp h3 r3 => ?_
  refine .store (c := .textData 0 0 none) (L' := (tp, .bytes d.text) :: (fp, .frame none none) :: X) r3
    (List.Perm.swap _ _ _) fun h4 r4 => ?_
  refine .lift fun n _ => ?_
  unfold FrameHeader_new
  refine .call (Q := fun x a h' => Rep h' ((a, .frameHeader x) :: (dp, .textData d.size d.encoding (some tp)) ::
    (tp, .bytes d.text) :: (fp, .frame none none) :: X)) ?_ ?_
  · refine .lift' fun x _ => .last (.malloc r4 fun hp h5 r5 => .pure r5)
  · intro x hp h5 _ r5
    refine .store (c := .frame none none) (L' := (hp, .frameHeader x) :: (dp, .textData d.size d.encoding (some tp)) ::
      (tp, .bytes d.text) :: X) r5 (by blocks) fun h6 r6 => ?_
    refine .pure ⟨⟨fp, hp, dp, x, .text d tp⟩, rfl, rfl, r6⟩

theorem comment_new_spec [Platform] {h : Heap} {X : List Block} (r : Rep h X) (flags lang sd c : Bytes) :
    Refines (CommentFrame_new flags lang sd c h) (Id3.CommentFrame_new flags lang sd c) (NewFrame X) := by
  unfold CommentFrame_new Id3.CommentFrame_new
  refine .malloc r fun fp h1 r1 => ?_
  refine .lift fun d _ => ?_
  refine .malloc r1 fun dp h2 r2 => ?_
  refine .malloc r2 fun cp h3 r3 => ?_
  refine .malloc r3 fun sp h3' r3' => ?_
  refine .store (c := .commentData 0 0 [] none none) (L' := (sp, .bytes d.short_description) :: (cp, .bytes d.comment) ::
    (fp, .frame none none) :: X) r3' (by blocks) fun h4 r4 => ?_
  refine .lift fun m _ => ?_
  refine .lift fun n _ => ?_
  unfold FrameHeader_new
  refine .call (Q := fun x a h' => Rep h' ((a, .frameHeader x) ::
    (dp, .commentData d.size d.encoding d.language (some sp) (some cp)) ::
    (sp, .bytes d.short_description) :: (cp, .bytes d.comment) :: (fp, .frame none none) :: X)) ?_ ?_
  · refine .lift' fun x _ => .last (.malloc r4 fun hp h5 r5 => .pure r5)
  · intro x hp h5 _ r5
    refine .store (c := .frame none none) (L' := (hp, .frameHeader x) ::
      (dp, .commentData d.size d.encoding d.language (some sp) (some cp)) ::
      (sp, .bytes d.short_description) :: (cp, .bytes d.comment) :: X) r5 (by blocks) fun h6 r6 => ?_
    refine .pure ⟨⟨fp, hp, dp, x, .comment d sp cp⟩, rfl, rfl, r6⟩

theorem apic_new_spec [Platform] {h : Heap} {X : List Block} (r : Rep h X) (flags desc : Bytes) (pt : UInt8)
    (mime : Bytes) (ps : Int) (pic : Bytes) :
    Refines (ApicFrame_new flags desc pt mime ps pic h) (Id3.ApicFrame_new flags desc pt mime ps pic)
      (NewFrame X) := by
  unfold ApicFrame_new Id3.ApicFrame_new
  refine .malloc r fun fp h1 r1 => ?_
  refine .lift fun d _ => ?_
  refine .malloc r1 fun dp h2 r2 => ?_
  refine .malloc r2 fun de h3 r3 => ?_
  refine .malloc r3 fun mp h3' r3' => ?_
  refine .malloc r3' fun pp h3'' r3'' => ?_
  refine .store (c := .apicData 0 none 0 none none 0) (L' := (mp, .bytes d.mime_type) :: (de, .bytes d.description) ::
    (pp, .bytes d.data) :: (fp, .frame none none) :: X) r3'' (by blocks) fun h4 r4 => ?_
  refine .lift fun m _ => ?_
  refine .lift fun m' _ => ?_
  refine .lift fun n _ => ?_
  unfold FrameHeader_new
  refine .call (Q := fun x a h' => Rep h' ((a, .frameHeader x) ::
    (dp, .apicData d.encoding (some mp) d.picture_type (some de) (some pp) d.picture_size) ::
    (mp, .bytes d.mime_type) :: (de, .bytes d.description) ::
    (pp, .bytes d.data) :: (fp, .frame none none) :: X)) ?_ ?_
  · refine .lift' fun x _ => .last (.malloc r4 fun hp h5 r5 => .pure r5)
  · intro x hp h5 _ r5
    refine .store (c := .frame none none) (L' := (hp, .frameHeader x) ::
      (dp, .apicData d.encoding (some mp) d.picture_type (some de) (some pp) d.picture_size) ::
      (mp, .bytes d.mime_type) :: (de, .bytes d.description) ::
      (pp, .bytes d.data) :: X) r5 (by blocks) fun h6 r6 => ?_
    refine .pure ⟨⟨fp, hp, dp, x, .apic d mp de pp⟩, rfl, rfl, r6⟩

theorem alloc_spec {h : Heap} {X : List Block} (r : Rep h X) (f : Frame) :
    Refines (allocFrame f h) (.ok f) (NewFrame X) := by
  obtain ⟨x, d⟩ := f
  unfold allocFrame
  cases d with
  | text d =>
    refine .malloc r fun fp h1 r1 => ?_
    refine .malloc r1 fun dp h2 r2 => ?_
    refine .malloc r2 fun tp h3 r3 => ?_
    refine .store (c := .textData 0 0 none) (L' := (tp, .bytes d.text) :: (fp, .frame none none) :: X) r3
      (List.Perm.swap _ _ _) fun h4 r4 => ?_
    refine .malloc r4 fun hp h5 r5 => ?_
    refine .store (c := .frame none none) (L' := (hp, .frameHeader x) :: (dp, .textData d.size d.encoding (some tp)) ::
      (tp, .bytes d.text) :: X) r5 (by blocks) fun h6 r6 => ?_
    refine .pure ⟨⟨fp, hp, dp, x, .text d tp⟩, rfl, rfl, r6⟩
  | comment d =>
    refine .malloc r fun fp h1 r1 => ?_
    refine .malloc r1 fun dp h2 r2 => ?_
    refine .malloc r2 fun cp h3 r3 => ?_
    refine .malloc r3 fun sp h3' r3' => ?_
    refine .store (c := .commentData 0 0 [] none none) (L' := (sp, .bytes d.short_description) ::
      (cp, .bytes d.comment) :: (fp, .frame none none) :: X) r3' (by blocks) fun h4 r4 => ?_
    refine .malloc r4 fun hp h5 r5 => ?_
    refine .store (c := .frame none none) (L' := (hp, .frameHeader x) ::
      (dp, .commentData d.size d.encoding d.language (some sp) (some cp)) ::
      (sp, .bytes d.short_description) :: (cp, .bytes d.comment) :: X) r5 (by blocks) fun h6 r6 => ?_
    refine .pure ⟨⟨fp, hp, dp, x, .comment d sp cp⟩, rfl, rfl, r6⟩
  | apic d =>
    refine .malloc r fun fp h1 r1 => ?_
    refine .malloc r1 fun dp h2 r2 => ?_
    refine .malloc r2 fun de h3 r3 => ?_
    refine .malloc r3 fun mp h3' r3' => ?_
    refine .malloc r3' fun pp h3'' r3'' => ?_
    refine .store (c := .apicData 0 none 0 none none 0) (L' := (mp, .bytes d.mime_type) ::
      (de, .bytes d.description) :: (pp, .bytes d.data) :: (fp, .frame none none) :: X) r3'' (by blocks) fun h4 r4 => ?_
    refine .malloc r4 fun hp h5 r5 => ?_
    refine .store (c := .frame none none) (L' := (hp, .frameHeader x) ::
      (dp, .apicData d.encoding (some mp) d.picture_type (some de) (some pp) d.picture_size) ::
      (mp, .bytes d.mime_type) :: (de, .bytes d.description) ::
      (pp, .bytes d.data) :: X) r5 (by blocks) fun h6 r6 => ?_
    refine .pure ⟨⟨fp, hp, dp, x, .apic d mp de pp⟩, rfl, rfl, r6⟩
  | raw d =>
    refine .malloc r fun hp h1 r1 => ?_
    refine .malloc r1 fun fp h2 r2 => ?_
    refine .malloc r2 fun dp h3 r3 => ?_
    refine .store (c := .frame (some hp) none) (L' := (hp, .frameHeader x) :: (dp, .bytes d) :: X) r3 (by blocks)
      fun h4 r4 => ?_
    exact .pure ⟨⟨fp, hp, dp, x, .raw d⟩, rfl, rfl, r4⟩

theorem frame_parse_spec [Platform] {h : Heap} {X : List Block} (r : Rep h X) (cs : CharStream) (v : UInt8) :
    Refines (Frame_parse cs v h) (Id3.Frame_parse cs v)
      (fun p a h' => a.2 = p.2 ∧ match p.1 with
        | none => a.1 = none ∧ Rep h' X
        | some f => ∃ F : HFrame, a.1 = some F.addr ∧ F.value = f ∧ Rep h' (F.blocks ++ X)) := by
  unfold Frame_parse
  refine .lift' fun p _ => ?_
  obtain ⟨f, cs'⟩ := p
  cases f with
  | none => exact .pure ⟨rfl, rfl, r⟩
  | some f =>
    have known : Refines ((do
        let header ← Id3.malloc (.frameHeader f.header)
        Id3.free (some header)
        let header ← Id3.malloc (.frameHeader f.header)
        let frame ← allocFrame f
        Id3.free (some header)
        return (some frame, cs') : HeapM (Option Nat × CharStream)) h) (.ok (some f, cs'))
        (fun p a h' => a.2 = p.2 ∧ match p.1 with
          | none => a.1 = none ∧ Rep h' X
          | some f => ∃ F : HFrame, a.1 = some F.addr ∧ F.value = f ∧ Rep h' (F.blocks ++ X)) := by
      refine .malloc r fun hp h1 r1 => ?_
      refine .free r1 (List.Perm.refl _) fun h2 r2 => ?_
      refine .malloc r2 fun hp' h3 r3 => ?_
      refine .step (alloc_spec r3 f) ?_
      rintro a h4 ⟨F, rfl, hv, r4⟩
      refine .free (c := .frameHeader f.header) (L' := F.blocks ++ X) r4 (by blocks) fun h5 r5 => ?_
      exact .pure ⟨rfl, F, rfl, hv, r5⟩
    cases hd : f.data with
    | raw b =>
      dsimp only
      rw [hd]
      refine .step (alloc_spec r f) ?_
      rintro a h1 ⟨F, rfl, hv, r1⟩
      exact .pure ⟨rfl, F, rfl, hv, r1⟩
    | text d => dsimp only; rw [hd]; exact known
    | comment d => dsimp only; rw [hd]; exact known
    | apic d => dsimp only; rw [hd]; exact known

end Id3.H
