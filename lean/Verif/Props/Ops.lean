import Verif.Spec.Api
import Verif.Spec.Effects
import Verif.Proof.Ops
import Verif.Props.Tag

/-!
# C25 - C30, C34, C35, C43: operations on tags

`tag.Holds fs` says that the tag holds exactly the frames `fs`, in this order, that each of them has a four-byte id and
a payload of the kind its id tells. Every tag made by `ID3v2_Tag_new` and every tag read from a well-formed file is of
this form (`new_holds`, `read_holds`), and the operations below keep it, with one exception: removing the last of
several frames leaves a node without a frame at the end (`delete_tail_leaves_hole`), after which most of these
properties fail (C34).
-/

namespace Id3.Props

open Id3 Spec

/-! ## Where tags come from -/

/-- A new tag holds no frames. -/
theorem new_holds (h : Option TagHeader) (p : Int) : (ID3v2_Tag_new h p).Holds [] := ⟨rfl, by simp⟩

/-- A tag read from a well-formed tag holds what is kept of its frames. -/
theorem read_holds [Platform] (version minor flags : UInt8) (ws : List Wire) (padding : Nat)
    (hv : version = 3 ∨ version = 4) (hflag : flags &&& 0x40 = 0) (hR : ∀ w ∈ ws, w.Readable version)
    (hs : (ws.flatMap (Wire.bytes version)).length + padding < 2 ^ 28) (hlast : lastSeen ws padding) :
    ∃ t, ID3v2_read_tag_from_buffer (ofB (wireTagBytes version minor flags ws padding))
        (10 + (ws.flatMap (Wire.bytes version)).length + padding : Nat) = .ok (some t) ∧
      t.Holds ((ws.map Wire.kept).map SFrame.toFrame) := by
  have h1 := beyond_length_ignored version minor flags ws padding [] hv hflag hR hs hlast
  rw [List.append_nil] at h1
  refine ⟨_, h1, toTag_holds _ _ _ _ _ _ ?_⟩
  intro f hf
  obtain ⟨w, hw, rfl⟩ := List.mem_map.mp hf
  exact (hR w hw).1.2.1

/-- A tag with the four frames of `sampleFrames`. -/
def sampleTag : Tag := toTag 3 0 0 200 sampleFrames 0

theorem sample_holds : sampleTag.Holds (sampleFrames.map SFrame.toFrame) :=
  @toTag_holds strict _ _ _ _ _ _ (by decide)

/-! ## C28: lookup -/

/-- **C28**: the first frame with the id, or NULL. -/
theorem get_first (tag : Tag) (fs : List Frame) (k : List UInt8) (rest : Bytes) (h : tag.Holds fs) (hk : ValidId k) :
    ID3v2_Tag_get_frame tag (ofB k ++ rest) = .ok (first Frame.key k fs) := by
  unfold ID3v2_Tag_get_frame
  obtain ⟨l, hl, hs⟩ := nodes_stops fs
  rw [h.1, hl]
  rcases split_first fs k with hm | ⟨a, f, b, rfl, hf, ha⟩
  · rw [get_miss fs l k rest hk (fun f hf => ⟨h.2 f hf, hm f hf⟩) hs, first_miss k fs hm]
    rfl
  · simp only [List.map_append, List.map_cons, List.append_assoc, List.cons_append]
    rw [get_hit a f _ k rest hk (fun g hg => ⟨h.2 g (by simp [hg]), ha g hg⟩) (h.2 f (by simp)) hf,
      first_hit k a f b ha hf]
    rfl

/-- **C28**: all the frames with the id, in order. -/
theorem get_all (tag : Tag) (fs : List Frame) (k : List UInt8) (rest : Bytes) (h : tag.Holds fs) (hk : ValidId k) :
    ID3v2_Tag_get_frames tag (ofB k ++ rest) = .ok (nodes (all Frame.key k fs)) := by
  unfold ID3v2_Tag_get_frames
  obtain ⟨l, hl, hs⟩ := nodes_stops fs
  rw [h.1, hl]
  exact get_frames_eq fs l k rest hk h.2 hs

/-- **C28**, for arbitrary strings as ids, for example three letters and a terminator: the first frame whose id is the same
C string, as far as its first four characters. -/
theorem get_first_any (tag : Tag) (fs : List Frame) (k : List UInt8) (rest : Bytes) (h : tag.Holds fs)
    (hk : 4 ≤ k.length ∨ 0 ∈ k) :
    ID3v2_Tag_get_frame tag (ofB k ++ rest) = .ok (fs.find? (fun f => idString f.key = idString k)) := by
  unfold ID3v2_Tag_get_frame
  obtain ⟨l, hl, hs⟩ := nodes_stops fs
  rw [h.1, hl]
  have hfs := h.2
  clear hl h
  have := get_any fs l k rest hk hfs hs
  obtain ⟨r, e, hr⟩ := this
  rw [e, ← hr]
  cases r <;> rfl

/-- **C28**, for arbitrary strings as ids: all the frames whose id is the same C string. -/
theorem get_all_any (tag : Tag) (fs : List Frame) (k : List UInt8) (rest : Bytes) (h : tag.Holds fs)
    (hk : 4 ≤ k.length ∨ 0 ∈ k) :
    ID3v2_Tag_get_frames tag (ofB k ++ rest) = .ok (nodes (fs.filter (fun f => idString f.key = idString k))) := by
  unfold ID3v2_Tag_get_frames
  obtain ⟨l, hl, hs⟩ := nodes_stops fs
  rw [h.1, hl]
  exact get_frames_any fs l k rest hk h.2 hs

/-- A tag with a frame of version 2.2, whose id has three letters. -/
example : ∃ f, ID3v2_Tag_get_frame (toTag 3 0 0 100 (sampleFrames ++ [.other [0x55, 0x4C, 0x54, 0] [0, 0] [1, 2]]) 0)
      (lit [0x55, 0x4C, 0x54]) = .ok (some f) ∧ f.data = .raw (ofB [1, 2]) := by
  have h := get_first_any _ _ [0x55, 0x4C, 0x54, 0] [] (@toTag_holds strict 3 0 0 100
    (sampleFrames ++ [.other [0x55, 0x4C, 0x54, 0] [0, 0] [1, 2]]) 0 (by decide)) (by decide)
  exact ⟨_, h.trans rfl, rfl⟩

example : ID3v2_Tag_get_comment_frame sampleTag = .ok (some (SFrame.comment [0, 0] [0x65, 0x6E, 0x67] (.utf16 true [])
    (.utf16 true [(0x48, 0), (0x00, 0x30)])).toFrame) := by
  have := get_first sampleTag _ commId (ofB [0]) sample_holds (by decide)
  exact this.trans (by decide)

/-! ## C25, C26: setters -/

theorem put_effect (k : List UInt8) (new : Frame) (fs : List Frame) (hn : new.key = k) :
    SetEffect k new fs (put Frame.key k new fs) := by
  rcases split_first fs k with hm | ⟨a, f, b, rfl, hf, ha⟩
  · rw [put_miss k new fs hm]
    have e : all Frame.key k fs = [] := by
      simp only [all, List.filter_eq_nil_iff, decide_eq_true_eq]; exact hm
    refine ⟨first_hit k fs new [] hm hn, ?_, ?_, (put_miss k new fs hm).symm, ?_⟩
    · intro j hj
      simp [all, List.filter_append, hn, hj.symm]
    · simp only [all, List.filter_append] at *
      simp [e, hn]
    · simp only [all, List.filter_append] at *
      simp [e, hn]
  · rw [put_hit k new a f b ha hf]
    have e : a.filter (fun x => decide (x.key = k)) = [] := by
      simp only [List.filter_eq_nil_iff, decide_eq_true_eq]; exact ha
    refine ⟨first_hit k a new b ha hn, ?_, ?_, (put_hit k new a f b ha hf).symm, ?_⟩
    · intro j hj
      simp [all, List.filter_append, hn, hf, hj.symm]
    · simp [all, List.filter_append, e, hn, hf]
    · simp only [all, List.filter_append, e, List.nil_append, List.filter_cons, hn, hf, decide_true, if_true,
        List.length_cons]
      omega

/-- The common part of the setters. -/
theorem set_frame [Platform] (tag : Tag) (fs : List Frame) (k : List UInt8) (rest : Bytes) (new : SFrame)
    (h : tag.Holds fs) (hk : ValidId k) (hn : new.Usable) :
    ∃ tag', Tag_set_frame tag (ofB k ++ rest) new.toFrame = .ok tag' ∧
      tag'.Holds (put Frame.key k new.toFrame fs) ∧ tag'.padding_size = tag.padding_size := by
  have hs := SFrame.sound new hn
  rcases split_first fs k with hm | ⟨a, f, b, rfl, hf, ha⟩
  · obtain ⟨l, hl, hst⟩ := nodes_stops fs
    refine ⟨_, set_frame_miss tag fs l k rest new.toFrame (h.1.trans hl) hst hk
      (fun f hf => ⟨h.2 f hf, hm f hf⟩), ⟨?_, ?_⟩, rfl⟩
    · rw [put_miss k _ fs hm, ← add_nodes, ← h.1]; rfl
    · rw [put_miss k _ fs hm]
      intro f hf
      rcases List.mem_append.mp hf with hf | hf
      · exact h.2 f hf
      · rw [List.mem_singleton] at hf; rw [hf]; exact hs
  · have e : tag.frames = a.map some ++ some f :: b.map some := by
      rw [h.1, nodes_eq _ (by simp)]; simp
    refine ⟨_, set_frame_hit tag a f (b.map some) k rest new.toFrame e hk
      (fun g hg => ⟨h.2 g (by simp [hg]), ha g hg⟩) (h.2 f (by simp)) hf hs.2.2.1 (by have := hs.2.2.2; omega),
      ⟨?_, ?_⟩, rfl⟩
    · rw [put_hit k _ a f b ha hf, nodes_eq _ (by simp)]
      simp [Tag.withSize]
    · rw [put_hit k _ a f b ha hf]
      intro g hg
      simp only [List.mem_append, List.mem_cons] at hg
      rcases hg with hg | rfl | hg
      · exact h.2 g (by simp [hg])
      · exact hs
      · exact h.2 g (by simp [hg])

/-- **C25, C26** for `ID3v2_Tag_set_text_frame`, on every tag without a hole (see C34 for the other tags). -/
theorem set_text_frame_partial [Platform] (tag : Tag) (fs : List Frame) (k fl : List UInt8) (s : Str) (r1 r2 r3 r4 : Bytes)
    (h : tag.Holds fs) (hk : ValidId k) (hu : (SFrame.text k fl s).Usable) :
    ∃ tag' fs', ID3v2_Tag_set_text_frame tag (textInput k fl s r1 r2 r3) = .ok tag' ∧ tag'.Holds fs' ∧
      SetEffect k (SFrame.text k fl s).toFrame fs fs' ∧
      ID3v2_Tag_get_frame tag' (ofB k ++ r4) = .ok (some (SFrame.text k fl s).toFrame) ∧
      ∀ j, ValidId j → j ≠ k → ID3v2_Tag_get_frames tag' (ofB j ++ r4) = ID3v2_Tag_get_frames tag (ofB j ++ r4) := by
  obtain ⟨tag', h1, h2, -⟩ := set_frame tag fs k r1 _ h hk hu
  have he := put_effect k (SFrame.text k fl s).toFrame fs (toFrame_key _)
  refine ⟨tag', _, ?_, h2, he, ?_, ?_⟩
  · unfold ID3v2_Tag_set_text_frame textInput Str.inMemory
    rw [text_new hu]
    exact h1
  · rw [get_first tag' _ k r4 h2 hk, he.stored]
  · intro j hj hne
    rw [get_all tag' _ j r4 h2 hj, get_all tag _ j r4 h hj, he.others j hne]

/-- **C25, C26** for the nine named text setters. -/
theorem named_text_setters_partial [Platform] (p : (Tag → Bytes → Res Tag) × (Tag → Res (Option Frame)) × List UInt8)
    (hp : p ∈ textApi) (tag : Tag) (fs : List Frame) (s : Str) (rest : Bytes) (h : tag.Holds fs)
    (hu : (SFrame.text p.2.2 [0, 0] s).Usable) :
    ∃ tag' fs', p.1 tag (s.inMemory rest) = .ok tag' ∧ tag'.Holds fs' ∧
      SetEffect p.2.2 (SFrame.text p.2.2 [0, 0] s).toFrame fs fs' ∧
      p.2.1 tag' = .ok (some (SFrame.text p.2.2 [0, 0] s).toFrame) := by
  have main : ∀ (k : List UInt8), ValidId k → (SFrame.text k [0, 0] s).Usable →
      ∃ tag' fs', ID3v2_Tag_set_text_frame tag { id := lit k, flags := NO_FLAGS, text := s.inMemory rest } = .ok tag' ∧
        tag'.Holds fs' ∧ SetEffect k (SFrame.text k [0, 0] s).toFrame fs fs' ∧
        ID3v2_Tag_get_frame tag' (lit k) = .ok (some (SFrame.text k [0, 0] s).toFrame) := by
    intro k hk hu
    obtain ⟨tag', fs', h1, h2, h3, h4, -⟩ :=
      set_text_frame_partial tag fs k [0, 0] s (ofB [0]) (ofB [0]) rest (ofB [0]) h hk hu
    refine ⟨tag', fs', ?_, h2, h3, ?_⟩
    · rw [lit_eq]; exact h1
    · rw [lit_eq]; exact h4
  simp only [textApi, List.mem_cons, List.not_mem_nil, or_false] at hp
  rcases hp with rfl | rfl | rfl | rfl | rfl | rfl | rfl | rfl | rfl
  all_goals exact main _ (by decide) hu

example : (@SFrame.Usable strict (.text [0x54, 0x49, 0x54, 0x32] [0, 0] (.utf16 true [(0x41, 0)]))) ∧
    ValidId [0x54, 0x49, 0x54, 0x32] := by decide

/-- **C25, C26** for `ID3v2_Tag_set_comment_frame`. -/
theorem set_comment_frame_partial [Platform] (tag : Tag) (fs : List Frame) (fl lang : List UInt8) (desc txt : Str)
    (r1 r2 r3 r4 : Bytes) (h : tag.Holds fs) (hu : (SFrame.comment fl lang desc txt).Usable) :
    ∃ tag' fs', ID3v2_Tag_set_comment_frame tag (commentInput fl lang desc txt r1 r2 r3 r4) = .ok tag' ∧ tag'.Holds fs' ∧
      SetEffect commId (SFrame.comment fl lang desc txt).toFrame fs fs' ∧
      ID3v2_Tag_get_comment_frame tag' = .ok (some (SFrame.comment fl lang desc txt).toFrame) := by
  obtain ⟨tag', h1, h2, -⟩ := set_frame tag fs commId (ofB [0]) _ h (by decide) hu
  have he := put_effect commId (SFrame.comment fl lang desc txt).toFrame fs (toFrame_key _)
  refine ⟨tag', _, ?_, h2, he, ?_⟩
  · unfold ID3v2_Tag_set_comment_frame commentInput Str.inMemory
    dsimp only
    rw [comment_new hu]
    exact h1
  · have := get_first tag' _ commId (ofB [0]) h2 (by decide)
    rw [he.stored] at this
    exact this

/-- **C25, C26** for `ID3v2_Tag_set_comment`: the short description is the empty UTF-16 string. -/
theorem set_comment_partial [Platform] (tag : Tag) (fs : List Frame) (lang : List UInt8) (txt : Str) (r1 r2 : Bytes)
    (h : tag.Holds fs) (hu : (SFrame.comment [0, 0] lang (.utf16 true []) txt).Usable) :
    ∃ tag' fs', ID3v2_Tag_set_comment tag (ofB lang ++ r1) (txt.inMemory r2) = .ok tag' ∧ tag'.Holds fs' ∧
      SetEffect commId (SFrame.comment [0, 0] lang (.utf16 true []) txt).toFrame fs fs' ∧
      ID3v2_Tag_get_comment_frame tag' = .ok (some (SFrame.comment [0, 0] lang (.utf16 true []) txt).toFrame) :=
  set_comment_frame_partial tag fs [0, 0] lang (.utf16 true []) txt (ofB [0]) r1 (ofB [0]) r2 h hu

/-- **C25, C26** for `ID3v2_Tag_set_apic_frame`. -/
theorem set_apic_frame_partial [Platform] (tag : Tag) (fs : List Frame) (fl : List UInt8) (mime : Str) (pt : UInt8)
    (desc : Str) (pic : List UInt8) (r1 r2 r3 r4 : Bytes) (h : tag.Holds fs)
    (hu : (SFrame.apic fl mime pt desc pic).Usable) :
    ∃ tag' fs', ID3v2_Tag_set_apic_frame tag (apicInput fl mime pt desc pic r1 r2 r3 r4) = .ok tag' ∧ tag'.Holds fs' ∧
      SetEffect apicId (SFrame.apic fl mime pt desc pic).toFrame fs fs' ∧
      ID3v2_Tag_get_album_cover_frame tag' = .ok (some (SFrame.apic fl mime pt desc pic).toFrame) := by
  obtain ⟨tag', h1, h2, -⟩ := set_frame tag fs apicId (ofB [0]) _ h (by decide) hu
  have he := put_effect apicId (SFrame.apic fl mime pt desc pic).toFrame fs (toFrame_key _)
  refine ⟨tag', _, ?_, h2, he, ?_⟩
  · unfold ID3v2_Tag_set_apic_frame ApicFrame_of_input apicInput Str.inMemory
    dsimp only
    rw [apic_new hu _ _ _ _ _ rfl]
    exact h1
  · have := get_first tag' _ apicId (ofB [0]) h2 (by decide)
    rw [he.stored] at this
    exact this

/-- **C25, C26** for `ID3v2_Tag_set_album_cover`: a front cover (picture type 3) with an empty UTF-16 description. -/
theorem set_album_cover_partial [Platform] (tag : Tag) (fs : List Frame) (mime : Str) (pic : List UInt8) (r1 r2 : Bytes)
    (h : tag.Holds fs) (hu : (SFrame.apic [0, 0] mime 3 (.utf16 true []) pic).Usable) :
    ∃ tag' fs', ID3v2_Tag_set_album_cover tag (mime.inMemory r1) pic.length (ofB pic ++ r2) = .ok tag' ∧ tag'.Holds fs' ∧
      SetEffect apicId (SFrame.apic [0, 0] mime 3 (.utf16 true []) pic).toFrame fs fs' ∧
      ID3v2_Tag_get_album_cover_frame tag' = .ok (some (SFrame.apic [0, 0] mime 3 (.utf16 true []) pic).toFrame) :=
  set_apic_frame_partial tag fs [0, 0] mime 3 (.utf16 true []) pic (ofB [0]) r1 (ofB [0]) r2 h hu

/-! ## C27: adders -/

theorem append_holds [Platform] (tag : Tag) (fs : List Frame) (new : SFrame) (h : tag.Holds fs) (hu : new.Usable) :
    (Tag_append tag new.toFrame).Holds (fs ++ [new.toFrame]) := by
  refine ⟨?_, ?_⟩
  · rw [← add_nodes, ← h.1]; rfl
  · intro f hf
    rcases List.mem_append.mp hf with hf | hf
    · exact h.2 f hf
    · rw [List.mem_singleton] at hf; rw [hf]; exact SFrame.sound new hu

/-- **C27** for comments: the new frame comes after all existing ones. -/
theorem add_comment_appends_partial [Platform] (tag : Tag) (fs : List Frame) (fl lang : List UInt8) (desc txt : Str)
    (r1 r2 r3 r4 : Bytes) (h : tag.Holds fs) (hu : (SFrame.comment fl lang desc txt).Usable) :
    ∃ tag', ID3v2_Tag_add_comment_frame tag (commentInput fl lang desc txt r1 r2 r3 r4) = .ok tag' ∧
      tag'.Holds (fs ++ [(SFrame.comment fl lang desc txt).toFrame]) ∧
      ID3v2_Tag_get_comment_frames tag' =
        .ok (nodes (all Frame.key commId fs ++ [(SFrame.comment fl lang desc txt).toFrame])) := by
  have h2 := append_holds tag fs _ h hu
  refine ⟨_, ?_, h2, ?_⟩
  · unfold ID3v2_Tag_add_comment_frame commentInput Str.inMemory
    dsimp only
    rw [comment_new hu]
    rfl
  · refine (get_all _ _ commId (ofB [0]) h2 (by decide)).trans ?_
    have : (SFrame.comment fl lang desc txt).toFrame.key = commId := toFrame_key _
    simp [all, List.filter_append, this]

/-- **C27** for pictures. -/
theorem add_apic_appends_partial [Platform] (tag : Tag) (fs : List Frame) (fl : List UInt8) (mime : Str) (pt : UInt8)
    (desc : Str) (pic : List UInt8) (r1 r2 r3 r4 : Bytes) (h : tag.Holds fs)
    (hu : (SFrame.apic fl mime pt desc pic).Usable) :
    ∃ tag', ID3v2_Tag_add_apic_frame tag (apicInput fl mime pt desc pic r1 r2 r3 r4) = .ok tag' ∧
      tag'.Holds (fs ++ [(SFrame.apic fl mime pt desc pic).toFrame]) ∧
      ID3v2_Tag_get_apic_frames tag' =
        .ok (nodes (all Frame.key apicId fs ++ [(SFrame.apic fl mime pt desc pic).toFrame])) := by
  have h2 := append_holds tag fs _ h hu
  refine ⟨_, ?_, h2, ?_⟩
  · unfold ID3v2_Tag_add_apic_frame ApicFrame_of_input apicInput Str.inMemory
    dsimp only
    rw [apic_new hu _ _ _ _ _ rfl]
    rfl
  · refine (get_all _ _ apicId (ofB [0]) h2 (by decide)).trans ?_
    have : (SFrame.apic fl mime pt desc pic).toFrame.key = apicId := toFrame_key _
    simp [all, List.filter_append, this]

/-! ## C29: delete by id -/

theorem removesTail_iff (k : List UInt8) (a : List Frame) (f : Frame) (n : Nat) (hf : f.key = k) (ha : a ≠ [])
    (hn : (all Frame.key k a).length = n) : removesTail Frame.key k n (a ++ [f]) := by
  refine ⟨?_, by simp [hn], ?_⟩
  · have := List.length_pos_iff.mpr ha
    simp; omega
  · simp only [all] at *
    simp [List.filter_append, hf, hn]

theorem holds_of_split (a b : List Frame) (h : b ≠ [] ∨ a = []) : a.map some ++ unlinkNode (b.map some) = nodes (a ++ b) := by
  cases b with
  | nil =>
    rcases h with h | rfl
    · exact absurd rfl h
    · rfl
  | cons x xs => rw [nodes_eq _ (by simp)]; simp [unlinkNode]

/-- **C29**: if there is a frame with the id, and it is not the last of several frames, exactly the first one is
removed, and the tag size shrinks by its size with header. -/
theorem delete_first_partial (tag : Tag) (fs : List Frame) (k : List UInt8) (rest : Bytes) (h : tag.Holds fs)
    (hk : ValidId k) (hin : all Frame.key k fs ≠ []) (ht : ¬ removesTail Frame.key k 0 fs) :
    ∃ tag' f, ID3v2_Tag_delete_frame tag (ofB k ++ rest) = .ok tag' ∧ tag'.Holds (eraseFirst Frame.key k fs) ∧
      first Frame.key k fs = some f ∧
      tag'.header.tag_size = u32 (tag.header.tag_size - (f.header.size + 10)) ∧ tag'.padding_size = tag.padding_size := by
  rcases split_first fs k with hm | ⟨a, f, b, rfl, hf, ha⟩
  · exact absurd (by simp only [all, List.filter_eq_nil_iff, decide_eq_true_eq]; exact hm) hin
  · have hb : b ≠ [] ∨ a = [] := by
      by_cases hb : b = []
      · right
        subst hb
        by_cases hA : a = []
        · exact hA
        · refine absurd (removesTail_iff k a f 0 hf hA ?_) ht
          rw [List.length_eq_zero_iff]
          simp only [all, List.filter_eq_nil_iff, decide_eq_true_eq]; exact ha
      · exact Or.inl hb
    have e : tag.frames = a.map some ++ some f :: b.map some := by
      rw [h.1, nodes_eq _ (by simp)]; simp
    refine ⟨_, f, delete_hit tag a f (b.map some) k rest e hk (fun g hg => ⟨h.2 g (by simp [hg]), ha g hg⟩)
      (h.2 f (by simp)) hf, ⟨?_, ?_⟩, first_hit k a f b ha hf, rfl, rfl⟩
    · rw [eraseFirst_hit k a f b ha hf]
      exact holds_of_split a b hb
    · rw [eraseFirst_hit k a f b ha hf]
      intro g hg
      refine h.2 g ?_
      simp only [List.mem_append, List.mem_cons] at *
      rcases hg with hg | hg
      · exact Or.inl hg
      · exact Or.inr (Or.inr hg)

/-- **C29**, the other case: removing the last of several frames leaves a node without a frame at its place. -/
theorem delete_tail_leaves_hole (tag : Tag) (a : List Frame) (f : Frame) (k : List UInt8) (rest : Bytes)
    (h : tag.Holds (a ++ [f])) (hk : ValidId k) (hf : f.key = k) (ha : ∀ g ∈ a, g.key ≠ k) :
    ∃ tag', ID3v2_Tag_delete_frame tag (ofB k ++ rest) = .ok tag' ∧ tag'.frames = a.map some ++ [none] := by
  have e : tag.frames = a.map some ++ some f :: [] := by
    rw [h.1, nodes_eq _ (by simp)]; simp
  exact ⟨_, delete_hit tag a f [] k rest e hk (fun g hg => ⟨h.2 g (by simp [hg]), ha g hg⟩) (h.2 f (by simp)) hf, rfl⟩

/-- **C29**: deleting a frame that is not there is a null pointer dereference, in every tag. -/
theorem delete_absent_crashes (tag : Tag) (fs : List Frame) (k : List UInt8) (rest : Bytes) (h : tag.Holds fs)
    (hk : ValidId k) (ha : all Frame.key k fs = []) : ID3v2_Tag_delete_frame tag (ofB k ++ rest) = .ub .nullDeref := by
  refine delete_miss tag fs k rest h hk ?_
  simpa only [all, List.filter_eq_nil_iff, decide_eq_true_eq] using ha

/-- The claim of C29. -/
def C29_claim : Prop :=
  ∀ (tag : Tag) (fs : List Frame) (k : List UInt8), tag.Holds fs → ValidId k →
    ∃ tag', ID3v2_Tag_delete_frame tag (ofB k) = .ok tag' ∧ tag'.Holds (eraseFirst Frame.key k fs)

/-- **C29** is false: deleting from a new tag. -/
theorem C29_false : ¬ C29_claim := by
  intro h
  obtain ⟨t, h1, -⟩ := h ID3v2_Tag_new_empty [] [0x54, 0x49, 0x54, 0x32] (new_holds _ _) (by decide)
  have := delete_absent_crashes ID3v2_Tag_new_empty [] [0x54, 0x49, 0x54, 0x32] [] (new_holds _ _) (by decide) rfl
  rw [List.append_nil] at this
  rw [this] at h1
  exact absurd h1 (by simp)

example : all Frame.key commId (sampleFrames.map SFrame.toFrame) ≠ [] ∧
    ¬ removesTail Frame.key commId 0 (sampleFrames.map SFrame.toFrame) := by decide

/-! ## C30: delete by index -/

/-- **C30**: an index out of range (negative or at least the number of frames of the kind) changes nothing. -/
theorem delete_at_out_of_range (tag : Tag) (fs : List Frame) (k : List UInt8) (rest : Bytes) (index : Int)
    (h : tag.Holds fs) (hk : ValidId k) (hi : index < 0 ∨ (all Frame.key k fs).length ≤ index) :
    ID3v2_Tag_delete_frame_at tag (ofB k ++ rest) index = .ok tag := by
  unfold ID3v2_Tag_delete_frame_at
  obtain ⟨l, hl, hst⟩ := nodes_stops fs
  have hm : FrameList_matching tag.frames (ofB k ++ rest) = .ok (matchesFrom k 0 fs) := by
    rw [h.1, hl]; exact matching_eq fs l k rest hk h.2 hst
  rw [hm]
  simp only [Res.bind_ok]
  have hlen : (matchesFrom k 0 fs).length = (all Frame.key k fs).length := by
    rw [← matchesFrom_frames k 0 fs, List.length_map]
  generalize matchesFrom k 0 fs = ms at *
  cases ms with
  | nil =>
    dsimp only
    split
    · rw [h.1, remove_null_clean, ← h.1]; rfl
    · rfl
  | cons m ms =>
    dsimp only
    by_cases hn : index < 0
    · rw [if_pos hn]; rfl
    · rw [if_neg hn]
      have : (m :: ms)[index.toNat]? = none := by
        rw [List.getElem?_eq_none_iff, hlen]; omega
      rw [this]
      rfl

/-- **C30**: an index in range removes exactly that frame, provided it is not the last of several frames. The tag size
is not changed (so the room of the frame becomes padding). -/
theorem delete_at_partial (tag : Tag) (fs : List Frame) (k : List UInt8) (rest : Bytes) (n : Nat)
    (h : tag.Holds fs) (hk : ValidId k) (hi : n < (all Frame.key k fs).length) (ht : ¬ removesTail Frame.key k n fs) :
    ∃ tag', ID3v2_Tag_delete_frame_at tag (ofB k ++ rest) n = .ok tag' ∧ tag'.Holds (eraseNth Frame.key k n fs) ∧
      tag'.header = tag.header ∧ tag'.padding_size = tag.padding_size := by
  unfold ID3v2_Tag_delete_frame_at
  obtain ⟨l, hl, hst⟩ := nodes_stops fs
  have hm : FrameList_matching tag.frames (ofB k ++ rest) = .ok (matchesFrom k 0 fs) := by
    rw [h.1, hl]; exact matching_eq fs l k rest hk h.2 hst
  rw [hm]
  simp only [Res.bind_ok]
  have hlen : (matchesFrom k 0 fs).length = (all Frame.key k fs).length := by
    rw [← matchesFrom_frames k 0 fs, List.length_map]
  obtain ⟨⟨i, f⟩, hget⟩ : ∃ p, (matchesFrom k 0 fs)[n]? = some p := ⟨_, List.getElem?_eq_getElem (by omega)⟩
  obtain ⟨a, b, hfs, hf, hi', herase, hcount⟩ := matchesFrom_get k 0 n fs i f hget
  generalize matchesFrom k 0 fs = ms at *
  subst hfs
  have hb : b ≠ [] ∨ a = [] := by
    by_cases hb : b = []
    · right
      subst hb
      by_cases hA : a = []
      · exact hA
      · exact absurd (removesTail_iff k a f n hf hA hcount) ht
    · exact Or.inl hb
  cases ms with
  | nil => simp at hget
  | cons m ms =>
    dsimp only
    rw [if_neg (by omega), Int.toNat_natCast, hget]
    dsimp only
    have e : tag.frames = a.map some ++ some f :: b.map some := by
      rw [h.1, nodes_eq _ (by simp)]; simp
    rw [e, remove_at (a.map some) (b.map some) (some f) i (by simp [hi']), holds_of_split a b hb,
      (h.2 f (by simp)).2.1]
    refine ⟨_, rfl, ⟨by rw [herase], ?_⟩, rfl, rfl⟩
    rw [herase]
    intro g hg
    refine h.2 g ?_
    simp only [List.mem_append, List.mem_cons] at *
    rcases hg with hg | hg
    · exact Or.inl hg
    · exact Or.inr (Or.inr hg)

/-- Removing the last of several frames by index leaves a node without a frame. -/
theorem delete_at_tail_leaves_hole (tag : Tag) (a : List Frame) (f : Frame) (k : List UInt8) (rest : Bytes)
    (h : tag.Holds (a ++ [f])) (hk : ValidId k) (hf : f.key = k) :
    ∃ tag', ID3v2_Tag_delete_frame_at tag (ofB k ++ rest) (all Frame.key k a).length = .ok tag' ∧
      tag'.frames = a.map some ++ [none] := by
  unfold ID3v2_Tag_delete_frame_at
  have e : tag.frames = (a ++ [f]).map some ++ [] := by rw [h.1, nodes_eq _ (by simp)]; simp
  have hm : FrameList_matching tag.frames (ofB k ++ rest) = .ok (matchesFrom k 0 (a ++ [f])) := by
    rw [e]; exact matching_eq _ [] k rest hk h.2 (Or.inl rfl)
  have hsplit : ∀ (a : List Frame) (m : Nat), matchesFrom k m (a ++ [f]) = matchesFrom k m a ++ [(m + a.length, f)] := by
    intro a
    induction a with
    | nil => intro m; simp [matchesFrom, hf]
    | cons x xs ih =>
      intro m
      simp only [List.cons_append, matchesFrom, ih, List.length_cons]
      split <;> simp [Nat.add_assoc, Nat.add_comm 1]
  have hlen : (all Frame.key k a).length = (matchesFrom k 0 a).length := by
    rw [← matchesFrom_frames k 0 a, List.length_map]
  rw [hm, hlen, hsplit]
  simp only [Res.bind_ok, Nat.zero_add]
  have hget : (matchesFrom k 0 a ++ [(a.length, f)])[(matchesFrom k 0 a).length]? = some (a.length, f) := by simp
  generalize hms : matchesFrom k 0 a ++ [(a.length, f)] = ms at *
  cases ms with
  | nil => simp at hms
  | cons m ms =>
    dsimp only
    rw [if_neg (by omega), Int.toNat_natCast, hget]
    dsimp only
    rw [(h.2 f (by simp)).2.1]
    refine ⟨_, rfl, ?_⟩
    have := remove_at (a.map some) [] (some f) a.length (by simp)
    rw [e]
    simpa [unlinkNode] using this

/-- The claim of C30. -/
def C30_claim : Prop :=
  ∀ (tag : Tag) (fs : List Frame) (k : List UInt8) (n : Nat), tag.Holds fs → ValidId k →
    n < (all Frame.key k fs).length →
    ∃ tag', ID3v2_Tag_delete_frame_at tag (ofB k) n = .ok tag' ∧ tag'.Holds (eraseNth Frame.key k n fs)

theorem nodes_no_hole (fs a : List Frame) (h : nodes fs = a.map some ++ [none]) : a = [] := by
  cases fs with
  | nil =>
    cases a with
    | nil => rfl
    | cons x xs => simp [nodes] at h
  | cons y ys =>
    have : none ∈ nodes (y :: ys) := by rw [h]; simp
    simp [nodes] at this

/-- **C30** (like C29) is false: deleting the last of several frames leaves a node that holds no frame. -/
theorem C30_false : ¬ C30_claim := by
  intro h
  let f : SFrame := .text [0x54, 0x49, 0x54, 0x32] [0, 0] (.latin [0x48, 0x69])
  let c : SFrame := .comment [0, 0] [0x65, 0x6E, 0x67] (.latin [0x61]) (.latin [0x62])
  have hh : (toTag 3 0 0 0 [f, c] 0).Holds ([f.toFrame] ++ [c.toFrame]) := @toTag_holds strict _ _ _ _ [f, c] _ (by decide)
  obtain ⟨t, h1, h2, -⟩ := h _ _ commId 0 hh (by decide) (by decide)
  obtain ⟨t', h3, h4⟩ := delete_at_tail_leaves_hole _ [f.toFrame] c.toFrame commId [] hh (by decide) (by decide)
  rw [List.append_nil] at h3
  have : t = t' := by
    have := h1.symm.trans h3
    simpa using this
  subst this
  rw [h4] at h2
  have := nodes_no_hole _ [f.toFrame] h2.symm
  simp at this

example : (all Frame.key commId (sampleFrames.map SFrame.toFrame)).length = 1 := by decide

/-! ## C34: after a deletion -/

/-- **C34** fails in every tag with a hole: a text frame with a new id is stored, but no getter finds it. -/
theorem set_after_hole_invisible [Platform] (tag : Tag) (a : List Frame) (t : FrameList) (k fl : List UInt8) (s : Str)
    (r1 r2 r3 r4 : Bytes) (h : Tag.Holed tag a t) (hk : ValidId k) (hu : (SFrame.text k fl s).Usable)
    (hnew : all Frame.key k a = []) :
    ∃ tag', ID3v2_Tag_set_text_frame tag (textInput k fl s r1 r2 r3) = .ok tag' ∧
      Tag.Holed tag' a (t ++ [some (SFrame.text k fl s).toFrame]) ∧
      ID3v2_Tag_get_frame tag' (ofB k ++ r4) = .ok none ∧
      ID3v2_Tag_get_frames tag' (ofB k ++ r4) = .ok (nodes []) := by
  obtain ⟨h1, h2, h3⟩ := h
  have hmiss : ∀ f ∈ a, f.Sound ∧ f.key ≠ k := by
    simp only [all, List.filter_eq_nil_iff, decide_eq_true_eq] at hnew
    exact fun f hf => ⟨h3 f hf, hnew f hf⟩
  have hset := set_frame_miss tag a (none :: t) k r1 (SFrame.text k fl s).toFrame h1 (Or.inr ⟨t, rfl⟩) hk hmiss
  have hfr : (Tag_append tag (SFrame.text k fl s).toFrame).frames =
      a.map some ++ none :: (t ++ [some (SFrame.text k fl s).toFrame]) := by
    show FrameList_add_frame tag.frames _ = _
    rw [h1]
    cases a with
    | nil => exact absurd rfl h2
    | cons x xs => simp [FrameList_add_frame]
  refine ⟨_, ?_, ⟨hfr, h2, h3⟩, ?_, ?_⟩
  · unfold ID3v2_Tag_set_text_frame textInput Str.inMemory
    rw [text_new hu]
    exact hset
  · unfold ID3v2_Tag_get_frame
    rw [hfr, get_miss a _ k r4 hk hmiss (Or.inr ⟨_, rfl⟩)]
    rfl
  · unfold ID3v2_Tag_get_frames
    rw [hfr, get_frames_eq a _ k r4 hk h3 (Or.inr ⟨_, rfl⟩), hnew]

/-- **C34**: deleting a frame that no getter finds crashes in every tag with a hole, even if the frame is behind it. -/
theorem delete_after_hole_crashes (tag : Tag) (a : List Frame) (t : FrameList) (k : List UInt8) (rest : Bytes)
    (h : Tag.Holed tag a t) (hk : ValidId k) (hnew : all Frame.key k a = []) :
    ID3v2_Tag_delete_frame tag (ofB k ++ rest) = .ub .nullDeref := by
  obtain ⟨h1, h2, h3⟩ := h
  have hmiss : ∀ f ∈ a, f.Sound ∧ f.key ≠ k := by
    simp only [all, List.filter_eq_nil_iff, decide_eq_true_eq] at hnew
    exact fun f hf => ⟨h3 f hf, hnew f hf⟩
  unfold ID3v2_Tag_delete_frame
  rw [h1, remove_hole a t k rest hk hmiss]
  rfl

/-- **C34**: writing any tag with a hole terminates the process with `exit(1)` (if the frames before the hole fit the
tag size; otherwise it overflows the buffer). -/
theorem write_after_hole_exits [Platform] (version minor flags : UInt8) (size : Nat) (a : List SFrame) (t : FrameList)
    (p : Int) (tag : Tag) (ht : tag = { toTag version minor flags size [] p with
      frames := (a.map SFrame.toFrame).map some ++ none :: t }) (ha : a ≠ [])
    (hu : ∀ f ∈ a, f.Usable) (hfit : framesSize a ≤ size) (hs : size < 2 ^ 28) :
    Tag_to_char_stream tag = .exit := by
  obtain ⟨f, fs, rfl⟩ : ∃ f fs, a = f :: fs := by
    cases a with
    | nil => exact absurd rfl ha
    | cons f fs => exact ⟨f, fs, rfl⟩
  have hh : tag.header.tag_size = size := by rw [ht]; rfl
  have hfr : tag.frames = (f :: fs).map (fun f => some f.toFrame) ++ none :: t := by rw [ht]; simp
  rw [tag_header_out tag (by rw [ht]; rfl) (by omega), hfr]
  have h1 := write_frames_fit (f :: fs) hu (ofB (headerOut tag.header)) tag.header.tag_size (by simp; omega) (by omega)
  have h2 := write_frames_append (csOut (ofB (headerOut tag.header)) tag.header.tag_size)
    ((f :: fs).map (fun f => some f.toFrame)) (none :: t)
  rw [h1] at h2
  simp only [List.map_cons, List.cons_append] at h2 ⊢
  rw [h2]
  rfl

/-- The claim of C34: whatever was deleted, a frame set afterwards is found. -/
def C34_claim : Prop :=
  ∀ [Platform] (tag tag' : Tag) (fs : List Frame) (j k fl : List UInt8) (s : Str), tag.Holds fs → ValidId j → ValidId k →
    (SFrame.text k fl s).Usable → ID3v2_Tag_delete_frame tag (ofB j) = .ok tag' →
    ∃ tag'', ID3v2_Tag_set_text_frame tag' (textInput k fl s [] [] []) = .ok tag'' ∧
      ID3v2_Tag_get_frame tag'' (ofB k) = .ok (some (SFrame.text k fl s).toFrame)

/-- **C34** is false. -/
theorem C34_false : ¬ C34_claim := by
  intro h
  let f : SFrame := .text [0x54, 0x49, 0x54, 0x32] [0, 0] (.latin [0x48, 0x69])
  let g : SFrame := .text [0x54, 0x50, 0x45, 0x31] [0, 0] (.latin [0x48, 0x6F])
  have hh : (toTag 3 0 0 0 [f, g] 0).Holds ([f.toFrame] ++ [g.toFrame]) := @toTag_holds strict _ _ _ _ [f, g] _ (by decide)
  obtain ⟨t', h3, h4⟩ := delete_tail_leaves_hole _ [f.toFrame] g.toFrame g.id [] hh (by decide) (by decide) (by decide)
  rw [List.append_nil] at h3
  have hu : @SFrame.Usable strict (.text [0x54, 0x41, 0x4C, 0x42] [0, 0] (.latin [0x48, 0x61])) := by decide
  obtain ⟨t'', h5, h6⟩ := @h strict _ t' _ g.id [0x54, 0x41, 0x4C, 0x42] [0, 0] (.latin [0x48, 0x61]) hh (by decide)
    (by decide) hu h3
  have hole : Tag.Holed t' [f.toFrame] [] := ⟨h4, by simp, fun x hx => hh.2 x (by simp at hx; simp [hx])⟩
  obtain ⟨u, h7, -, h8, -⟩ := @set_after_hole_invisible strict t' _ _ [0x54, 0x41, 0x4C, 0x42] [0, 0] (.latin [0x48, 0x61])
    [] [] [] [] hole (by decide) hu (by decide)
  have : t'' = u := by simpa using h5.symm.trans h7
  subst this
  rw [List.append_nil, h6] at h8
  exact absurd h8 (by simp)

/-- **C34**, what holds: after deleting a frame that is not the last of several, a frame set afterwards is found, and
all the other frames are still there. -/
theorem usable_after_delete_partial [Platform] (tag : Tag) (fs : List Frame) (j k fl : List UInt8) (s : Str)
    (h : tag.Holds fs) (hj : ValidId j) (hk : ValidId k) (hu : (SFrame.text k fl s).Usable)
    (hin : all Frame.key j fs ≠ []) (ht : ¬ removesTail Frame.key j 0 fs) :
    ∃ tag' tag'', ID3v2_Tag_delete_frame tag (ofB j) = .ok tag' ∧
      ID3v2_Tag_set_text_frame tag' (textInput k fl s [] [] []) = .ok tag'' ∧
      tag''.Holds (put Frame.key k (SFrame.text k fl s).toFrame (eraseFirst Frame.key j fs)) ∧
      ID3v2_Tag_get_frame tag'' (ofB k) = .ok (some (SFrame.text k fl s).toFrame) := by
  obtain ⟨tag', f, h1, h2, -⟩ := delete_first_partial tag fs j [] h hj hin ht
  obtain ⟨tag'', fs'', h3, h4, h5, h6, -⟩ := set_text_frame_partial tag' _ k fl s [] [] [] [] h2 hk hu
  rw [List.append_nil] at h1 h6
  rw [h5.places] at h4
  exact ⟨tag', tag'', h1, h3, h4, h6⟩

/-- The same sequence of calls from an empty tag: title and artist set, artist deleted, album set; the album is then
not found. -/
theorem album_lost : (do
    let t ← @ID3v2_Tag_set_title strict ID3v2_Tag_new_empty (lit [0x48, 0x69])
    let t ← @ID3v2_Tag_set_artist strict t (lit [0x48, 0x6F])
    let t ← ID3v2_Tag_delete_artist t
    let t ← @ID3v2_Tag_set_album strict t (lit [0x48, 0x61])
    ID3v2_Tag_get_album_frame t) = .ok none := by decide

/-! ## C35: declared encodings -/

/-- The claim of C35 for comments: the bytes after the language are two strings in the encoding announced by the first
byte of the body. -/
def C35_claim : Prop :=
  ∀ [Platform] (lang : List UInt8) (txt : Str), (SFrame.comment [0, 0] lang (.utf16 true []) txt).Usable →
    ∃ tag, ID3v2_Tag_set_comment ID3v2_Tag_new_empty (ofB lang) (txt.inMemory []) = .ok tag ∧
    ∃ f cs enc desc' txt', ID3v2_Tag_get_comment_frame tag = .ok (some f) ∧ Frame_to_char_stream f = .ok cs ∧
      cs.stream.drop 10 = ofB (enc :: lang ++ Str.bytes desc' ++ Str.bytes txt') ∧
      desc'.WF ∧ txt'.WF ∧ desc'.encoding = enc ∧ txt'.encoding = enc

/-- The encodings of the two strings of a comment are those given, whatever they are; the encoding byte is that of the
comment. `ID3v2_Tag_set_comment` always stores a UTF-16 short description, so every ISO-8859-1 comment it stores
announces the wrong encoding for it. -/
theorem set_comment_wrong_encoding [Platform] (lang txt : List UInt8)
    (hu : (SFrame.comment [0, 0] lang (.utf16 true []) (.latin txt)).Usable) :
    ∃ tag f cs, ID3v2_Tag_set_comment ID3v2_Tag_new_empty (ofB lang) (ofB (txt ++ [0])) = .ok tag ∧
      ID3v2_Tag_get_comment_frame tag = .ok (some f) ∧ Frame_to_char_stream f = .ok cs ∧
      cs.stream.drop 10 = ofB ([0] ++ lang ++ [0xFF, 0xFE, 0, 0] ++ txt ++ [0]) := by
  obtain ⟨tag, fs, h1, -, -, h2⟩ := set_comment_partial ID3v2_Tag_new_empty [] lang (.latin txt) [] [] (new_holds _ _) hu
  refine ⟨tag, _, _, ?_, h2, frame_out _ hu, ?_⟩
  · simpa [Str.inMemory, Str.bytes, Str.content, Str.terminator] using h1
  · simp [csOut, SFrame.bytes, SFrame.id, SFrame.flags, SFrame.body, commId, be32, Str.bytes, Str.content, Str.terminator,
      Str.encoding, Str.bom, ofB]

/-- **C35** is false. -/
theorem C35_false : ¬ C35_claim := by
  intro h
  have hu : @SFrame.Usable strict (.comment [0, 0] [0x65, 0x6E, 0x67] (.utf16 true []) (.latin [0x48, 0x69])) := by decide
  obtain ⟨tag, h1, f, cs, enc, d, t, h2, h3, h4, h5, h6, h7, h8⟩ := @h strict [0x65, 0x6E, 0x67] (.latin [0x48, 0x69]) hu
  obtain ⟨tag', f', cs', g1, g2, g3, g4⟩ := @set_comment_wrong_encoding strict [0x65, 0x6E, 0x67] [0x48, 0x69] hu
  have e1 : tag = tag' := by
    have := h1.symm.trans g1
    simpa using this
  subst e1
  have e2 : f = f' := by simpa using h2.symm.trans g2
  subst e2
  have e3 : cs = cs' := by simpa using h3.symm.trans g3
  subst e3
  rw [h4] at g4
  have e := ofB_injective g4
  simp only [List.cons_append, List.nil_append, List.cons.injEq] at e
  obtain ⟨rfl, -, -, -, e⟩ := e
  cases d with
  | utf16 => simp [Str.encoding] at h7
  | latin c =>
    obtain ⟨h0, hb, -⟩ := h5
    match c, h0, hb, e with
    | [], _, _, e => simp [Str.bytes, Str.content, Str.terminator] at e
    | [x], _, _, e => simp [Str.bytes, Str.content, Str.terminator] at e
    | x :: y :: c, _, hb, e =>
      simp [Str.bytes, Str.content, Str.terminator] at e
      simp [Str.bom, e.1, e.2.1] at hb

/-- **C35**, what holds: the encoding byte of a text frame, and the one of a comment for the comment string, and the one
of a picture for the description, is the encoding of the string. -/
theorem declared_encoding_partial [Platform] (f : SFrame) (hu : f.Usable) :
    ∃ cs, Frame_to_char_stream f.toFrame = .ok cs ∧
      match f with
      | .text _ _ s => cs.stream.drop 10 = ofB (s.encoding :: s.bytes)
      | .comment _ lang desc txt => cs.stream.drop 10 = ofB (txt.encoding :: lang ++ desc.bytes ++ txt.bytes)
      | .apic _ mime pt desc pic => cs.stream.drop 10 = ofB (desc.encoding :: mime.bytes ++ pt :: desc.bytes ++ pic)
      | .other _ _ _ => True := by
  refine ⟨_, frame_out f hu, ?_⟩
  have hd : (csOut (ofB f.bytes) 0).stream.drop 10 = ofB f.body := by
    have hl : (f.id ++ be32 f.body.length ++ f.flags).length = 10 := by
      have := SFrame.bytes_length f hu.1
      simp only [SFrame.bytes, List.length_append] at *
      omega
    rw [csOut_stream, List.replicate_zero, List.append_nil, SFrame.bytes, ofB_append, List.drop_append_of_le_length (by rw [ofB_length, hl]; exact Nat.le_refl _)]
    rw [List.drop_eq_nil_of_le (by rw [ofB_length, hl]; exact Nat.le_refl _), List.nil_append]
  cases f <;> first | exact hd | trivial

/-- A string in the file starts with a byte order mark exactly when it is in UTF-16: what precedes decides the encoding. -/
theorem encoding_of_bytes (s s' : Str) (a b : List UInt8) (h : s.WF) (h' : s'.WF) (e : s.bytes ++ a = s'.bytes ++ b) :
    s.encoding = s'.encoding := by
  have aux : ∀ (c : List UInt8) (be : Bool) (u : List (UInt8 × UInt8)) (a b : List UInt8), (Str.latin c).WF →
      (Str.latin c).bytes ++ a = (Str.utf16 be u).bytes ++ b → False := by
    intro c be u a b hw e
    obtain ⟨-, hb, hn⟩ := hw
    match c, hb, hn, e with
    | [], _, _, e => cases be <;> simp [Str.bytes, Str.content, Str.terminator, Str.bom] at e
    | [x], _, _, e => cases be <;> simp [Str.bytes, Str.content, Str.terminator, Str.bom] at e
    | x :: y :: c, hb, hn, e =>
      cases be <;> simp [Str.bytes, Str.content, Str.terminator, Str.bom] at e hb hn
      · exact hn e.1 e.2.1
      · exact hb e.1 e.2.1
  cases s with
  | latin c =>
    cases s' with
    | latin c' => rfl
    | utf16 be u => exact (aux c be u a b h e).elim
  | utf16 be u =>
    cases s' with
    | latin c' => exact (aux c' be u b a h' e.symm).elim
    | utf16 be' u' => rfl

/-- **C35** for comments, exactly: what is written after the header of the frame can be understood as an encoding byte, a
language and two strings in the encoding announced if and only if the description and the text given have the same
encoding. -/
theorem comment_encoding_iff [Platform] (fl lang : List UInt8) (desc txt : Str)
    (hu : (SFrame.comment fl lang desc txt).Usable) :
    ∃ cs, Frame_to_char_stream (SFrame.comment fl lang desc txt).toFrame = .ok cs ∧
      ((∃ enc lang' desc' txt', cs.stream.drop 10 = ofB (enc :: lang' ++ Str.bytes desc' ++ Str.bytes txt') ∧
          lang'.length = 3 ∧ desc'.WF ∧ txt'.WF ∧ desc'.encoding = enc ∧ txt'.encoding = enc) ↔
        desc.encoding = txt.encoding) := by
  obtain ⟨cs, h1, h2⟩ := declared_encoding_partial _ hu
  refine ⟨cs, h1, ?_⟩
  obtain ⟨-, hl, hd, ht⟩ := hu.1
  dsimp only at h2
  constructor
  · rintro ⟨enc, lang', desc', txt', g, gl, gd, gt, ed, et⟩
    rw [h2] at g
    have e := ofB_injective g
    simp only [List.cons_append, List.cons.injEq, List.append_assoc] at e
    obtain ⟨rfl, e⟩ := e
    have e' := (List.append_inj e (by rw [hl, gl])).2
    rw [← ed]
    exact encoding_of_bytes _ _ _ _ hd gd e'
  · intro h
    exact ⟨txt.encoding, lang, desc, txt, h2, hl, hd, ht, h, rfl⟩

example : @SFrame.Usable strict (.comment [0, 0] [0x65, 0x6E, 0x67] (.latin [0x41]) (.latin [0x48, 0x69])) ∧
    (Str.latin [0x41]).encoding = (Str.latin [0x48, 0x69]).encoding ∧
    (Str.utf16 true []).encoding ≠ (Str.latin [0x48, 0x69]).encoding := by decide

/-- **C35** for `ID3v2_Tag_set_comment`, exactly: the comment it stores is written in the encoding it announces if and
only if the text is in UTF-16. -/
theorem set_comment_encoding_iff [Platform] (lang : List UInt8) (txt : Str)
    (hu : (SFrame.comment [0, 0] lang (.utf16 true []) txt).Usable) :
    ∃ tag f cs, ID3v2_Tag_set_comment ID3v2_Tag_new_empty (ofB lang) (txt.inMemory []) = .ok tag ∧
      ID3v2_Tag_get_comment_frame tag = .ok (some f) ∧ Frame_to_char_stream f = .ok cs ∧
      ((∃ enc lang' desc' txt', cs.stream.drop 10 = ofB (enc :: lang' ++ Str.bytes desc' ++ Str.bytes txt') ∧
          lang'.length = 3 ∧ desc'.WF ∧ txt'.WF ∧ desc'.encoding = enc ∧ txt'.encoding = enc) ↔
        txt.encoding = 1) := by
  obtain ⟨tag, fs, h1, -, -, h2⟩ := set_comment_partial ID3v2_Tag_new_empty [] lang txt [] [] (new_holds _ _) hu
  obtain ⟨cs, h3, h4⟩ := comment_encoding_iff [0, 0] lang (.utf16 true []) txt hu
  refine ⟨tag, _, cs, by simpa using h1, h2, h3, h4.trans ?_⟩
  exact eq_comm

example : @SFrame.Usable strict (.comment [0, 0] [0x65, 0x6E, 0x67] (.utf16 true []) (.utf16 true [(0x48, 0x00)])) ∧
    (Str.utf16 true [(0x48, 0x00)]).encoding = 1 := by decide

/-! ## C43: ID3v2_Tag_new -/

/-- The claim of C43. -/
def C43_claim : Prop := ∀ (h : Option TagHeader) (p : Int), (ID3v2_Tag_new h p).padding_size = p

/-- **C43** is false: the argument is ignored. -/
theorem C43_false : ¬ C43_claim := fun h => absurd (h none 1) (by decide)

/-- **C43**, what holds: the tag is empty, has the given header or a fresh version 2.3 header, and padding size 0. -/
theorem tag_new_partial (p : Int) :
    (∀ h, (ID3v2_Tag_new (some h) p).header = h) ∧
    (ID3v2_Tag_new none p).header = TagHeader.mk (identifier := ofB [0x49, 0x44, 0x33]) (major_version := 3)
      (minor_version := 0) (flags := 0) (tag_size := 0) (extended_header_size := some 0) ∧
    (∀ h, (ID3v2_Tag_new h p).Holds [] ∧ (ID3v2_Tag_new h p).padding_size = 0) :=
  ⟨fun _ => rfl, rfl, fun _ => ⟨new_holds _ _, rfl⟩⟩

end Id3.Props
