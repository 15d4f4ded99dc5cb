import Verif.Proof.TimeCompat
import Verif.Props.Time
import Verif.Props.CompatHeap
import Verif.Props.CompatFile

/-!
# How many memory accesses the compatibility API takes (C95)
-/

namespace Id3.Props

open Id3 Id3.Spec Id3.H

/-- **C95**: every call of the compatibility API, at any time in any program, ends after a number of accesses that is bounded by
the number of entries of its tag, or by the number of bytes that are read. It depends neither on the sizes of the frames nor on
what else is allocated. -/
theorem C95 [Platform] {w : CWorld} (h : CReachable w) (c : CCall) (ha : c.Allowed w) (s : CAbs) (hs : w.Holds s) :
    (c.prog ⟨w.disk, w.tags, w.things⟩).accesses w.heap ≤ c.most s := by
  obtain ⟨Cs, Os, K, i⟩ := creachable_inv h
  have fin : ∀ {α β : Type} (x : Prog α) (f : α → β) (h : Heap), (x >>= fun a => pure (f a)).accesses h = x.accesses h := by
    intro α β x f h
    rw [Prog.accesses_bind]
    split <;> rfl
  have go : ∀ t, t ∈ w.tags → ∃ (C : HCTag) (X : List Block), C.addr = t ∧ C.Linked ∧ entriesOf s t = C.list.length ∧
      Rep w.heap (C.blocks ++ X) := by
    intro t ht
    obtain ⟨A, C, B, rfl, rfl, hl, hA, hB, r⟩ := i.tag ht
    refine ⟨C, _, rfl, hl, ?_, r⟩
    unfold entriesOf
    rw [i.eq hs, show (cabs w (A ++ C :: B) Os).tags.lookup C.addr = some C.value from cabs_lookup hA]
    show (cvals C.list).length = _
    simp [cvals]
  have get : ∀ t id, t ∈ w.tags → (T.tag_get id t).accesses w.heap ≤ 2 * entriesOf s t + 1 := by
    intro t id ht
    obtain ⟨C, X, rfl, hl, e, r⟩ := go t ht
    rw [e]
    exact T.bound_cget r id
  have set : ∀ t id b, t ∈ w.tags → Src.Live w.heap b → (T.tag_set_text id b t).accesses w.heap ≤ 10 * entriesOf s t + 64 := by
    intro t id b ht hb
    obtain ⟨C, X, rfl, hl, e, r⟩ := go t ht
    rw [e]
    exact T.bound_cset_text id hl r b _ (src_at r hb)
  cases c with
  | newTag => exact Nat.le_trans (Nat.le_of_eq (fin _ _ _)) (_root_.Id3.T.AtMost.compatNew w.heap)
  | loadTag =>
    have hd : s.disk = w.disk := by rw [i.eq hs]; rfl
    refine Nat.le_trans (Nat.le_of_eq (fin _ _ _)) ?_
    show _ ≤ loadFileMost s.disk
    rw [hd]
    exact T.bound_load_file i.rep w.disk
  | loadTagWithBuffer b n =>
    exact Nat.le_trans (Nat.le_of_eq (fin _ _ _)) (T.bound_load_buffer i.rep b _ n (src_at i.rep ha))
  | setText f b e t =>
    refine Nat.le_trans (Nat.le_of_eq (fin _ _ _)) ?_
    cases f <;> exact set t _ b ha.1 ha.2
  | setComment b e t =>
    obtain ⟨C, X, rfl, hl, e', r⟩ := go t ha.1
    refine Nat.le_trans (Nat.le_of_eq (fin _ _ _)) ?_
    simp only [CCall.most]
    rw [e']
    exact T.bound_cset_comment hl r b _ (src_at r ha.2) e
  | setCoverFromBytes b m n t =>
    obtain ⟨C, X, rfl, hl, e', r⟩ := go t ha.1
    refine Nat.le_trans (Nat.le_of_eq (fin _ _ _)) ?_
    simp only [CCall.most]
    rw [e']
    exact T.bound_cset_cover hl r b _ (src_at r ha.2.1) m _ (src_at r ha.2.2) n
  | setCover name image t =>
    obtain ⟨C, X, rfl, hl, e', r⟩ := go t ha
    refine Nat.le_trans (Nat.le_of_eq (fin _ _ _)) ?_
    simp only [CCall.most]
    rw [e']
    exact T.bound_cset_cover_file hl r name image
  | getText f t =>
    refine Nat.le_trans (Nat.le_of_eq (fin _ _ _)) ?_
    cases f <;> exact get t _ ha
  | getComment t => exact Nat.le_trans (Nat.le_of_eq (fin _ _ _)) (get t _ ha)
  | getCover t => exact Nat.le_trans (Nat.le_of_eq (fin _ _ _)) (get t _ ha)
  | parseText p => exact Nat.le_trans (Nat.le_of_eq (fin _ _ _)) (_root_.Id3.T.AtMost.parseText p w.heap)
  | parseComment p => exact Nat.le_trans (Nat.le_of_eq (fin _ _ _)) (_root_.Id3.T.AtMost.parseComment p w.heap)
  | parsePicture p => exact Nat.le_trans (Nat.le_of_eq (fin _ _ _)) (_root_.Id3.T.AtMost.parsePicture p w.heap)
  | setTag t =>
    obtain ⟨C, X, rfl, hl, e', r⟩ := go t ha
    refine Nat.le_trans (Nat.le_of_eq (fin _ _ _)) ?_
    simp only [CCall.most]
    rw [e']
    exact T.bound_cset_tag hl r w.disk
  | removeTag => exact Nat.le_trans (Nat.le_of_eq (fin _ _ _)) (_root_.Id3.T.AtMost.deleteTag w.disk w.heap)
  | freeTag t =>
    obtain ⟨C, X, rfl, hl, e', r⟩ := go t ha
    refine Nat.le_trans (Nat.le_of_eq (fin _ _ _)) ?_
    simp only [CCall.most]
    rw [e']
    exact T.bound_cfree hl r
  | release k a => exact Nat.le_trans (Nat.le_of_eq (fin _ _ _)) (_root_.Id3.T.AtMost.release k a w.heap)
  | alloc b => exact Nat.le_trans (Nat.le_of_eq (fin _ _ _)) (_root_.Id3.T.AtMost.malloc _ w.heap)
  | overwrite p b => exact Nat.le_trans (Nat.le_of_eq (fin _ _ _)) (_root_.Id3.T.AtMost.store _ _ w.heap)
  | changeDisk f => exact Nat.le_refl _

/-- The bound for loading is met up to a factor: a tag with `n` frames takes at least one access for each pair of frames. -/
theorem load_quadratic [Platform] (h : Heap) (X : List Block) (r : Rep h X) (n : Nat) (hn : 0 < n) (hs : 11 * n < 2 ^ 28) :
    18 + 18 * n + n * (n - 1) ≤
      2 * (T.load_tag_with_buffer (.literal (ofB (manyFrames n))) (manyFrames n).length).accesses h := by
  rw [← (read_quadratic h X r n hn hs).2]
  refine Nat.mul_le_mul_left 2 ?_
  show _ ≤ (T.ID3v2_read_tag_from_buffer _ _ >>= _).accesses h
  rw [Prog.accesses_bind]
  exact Nat.le_add_right _ _

/-- What a getter takes if the first entry with its id is behind `pre` others, or if there is none: two accesses for each
entry that it looks at, and one for the tag. -/
theorem get_exact {h : Heap} {L : List Block} (r : Rep h L) (head : Nat) (id : Bytes) :
    ∀ (k : Nat) (last : Option Ptr) (l : List (Nat × Option HCFrame)) (pre post : CList),
      (∀ b ∈ cnodes head last (cspine l), b ∈ L) → (∀ b ∈ centries l, b ∈ L) → l.length < k → cvals l = pre ++ post →
      (∀ x ∈ pre, ∃ e : CFrame, x = some e ∧ strncmpEq 4 e.frame_id id = .ok false) →
      (post = [] ∨ ∃ e rest, post = some e :: rest ∧ strncmpEq 4 e.frame_id id = .ok true) →
      (T.get_from_list k (first (cspine l)) id).accesses h = 2 * (pre.length + min post.length 1)
  | 0, _, _, _, _, _, _, hk, _, _, _ => absurd hk (by omega)
  | _ + 1, _, [], pre, post, _, _, _, hv, _, _ => by
    obtain ⟨rfl, rfl⟩ := List.append_eq_nil_iff.mp hv.symm
    rfl
  | k + 1, last, (a, none) :: l, pre, post, hn, _, _, hv, hp, hq => by
    cases pre with
    | nil =>
      rcases hq with rfl | ⟨e, rest, rfl, _⟩
      · cases hv
      · cases hv
    | cons x pre =>
      obtain ⟨e, rfl, _⟩ := hp x List.mem_cons_self
      cases hv
  | k + 1, last, (a, some c) :: l, pre, post, hn, hf, hk, hv, hp, hq => by
    show (T.get_from_list (k + 1) (some a) id).accesses h = _
    unfold T.get_from_list
    rw [T.acc_loadCNode r (hn _ List.mem_cons_self)]
    dsimp only [Option.map]
    rw [T.acc_loadCFrame r (hf _ (List.mem_append_left _ (mem_cframe c)))]
    have hw : some c.value :: cvals l = pre ++ post := hv
    clear hv
    cases pre with
    | nil =>
      rcases hq with rfl | ⟨e, rest, rfl, he⟩
      · cases hw
      · simp only [List.nil_append, List.cons.injEq, Option.some.injEq] at hw
        obtain ⟨rfl, -⟩ := hw
        have he : strncmpEq 4 c.frame_id id = .ok true := he
        rw [show ((T.lift (strncmpEq 4 c.frame_id id) : Prog Bool)) = T.lift (.ok true) from by rw [he]]
        show 1 + (1 + 0) = _
        simp
    | cons x pre =>
      simp only [List.cons_append, List.cons.injEq] at hw
      obtain ⟨rfl, hw⟩ := hw
      obtain ⟨e, he, hm⟩ := hp _ List.mem_cons_self
      cases he
      have hm : strncmpEq 4 c.frame_id id = .ok false := hm
      have := get_exact r head id k none l pre post (fun b hb => hn b (List.mem_cons_of_mem _ hb))
        (fun b hb => hf b (List.mem_append_right _ hb)) (by simp only [List.length_cons] at hk; omega) hw
        (fun x hx => hp x (List.mem_cons_of_mem _ hx)) hq
      rw [show ((T.lift (strncmpEq 4 c.frame_id id) : Prog Bool)) = T.lift (.ok false) from by rw [hm]]
      show 1 + (1 + (T.get_from_list k (first (cspine l)) id).accesses h) = _
      rw [this, List.length_cons]
      omega

/-- **C95**, exactly, for the getters: one access for the tag and two for each entry up to the first one with the id, or for all
entries if there is none. -/
theorem C95_get [Platform] {w : CWorld} (h : CReachable w) (s : CAbs) (hs : w.Holds s) (t : Nat) (v : CTag)
    (hv : s.tags.lookup t = some v) (id : Bytes) (pre post : CList) (hf : v.frames = pre ++ post)
    (hp : ∀ x ∈ pre, ∃ e : CFrame, x = some e ∧ strncmpEq 4 e.frame_id id = .ok false)
    (hq : post = [] ∨ ∃ e rest, post = some e :: rest ∧ strncmpEq 4 e.frame_id id = .ok true) :
    (T.tag_get id t).accesses w.heap = 1 + 2 * (pre.length + min post.length 1) := by
  obtain ⟨Cs, Os, K, i⟩ := creachable_inv h
  have ht : t ∈ w.tags := by
    rw [cholds_tags hs]
    exact List.mem_map.mpr ⟨(t, v), lookup_mem hv, rfl⟩
  obtain ⟨A, C, B, rfl, rfl, hl, hA, hB, r⟩ := i.tag ht
  rw [i.eq hs, show (cabs w (A ++ C :: B) Os).tags.lookup C.addr = some C.value from cabs_lookup hA] at hv
  cases hv
  unfold T.tag_get
  rw [T.acc_loadCTag r (List.mem_append_left _ (mem_ctag C))]
  obtain ⟨k, hk, e⟩ := Prog.acc_fuel r (fun k => T.get_from_list k (some C.head) id)
  have := get_exact r C.head id k C.last C.list pre post (fun b hb => List.mem_append_left _ (mem_cnodes C b hb))
    (fun b hb => List.mem_append_left _ (mem_centries C b hb)) (Nat.lt_trans (clist_length C _) hk) hf hp hq
  have e1 : first (cspine C.list) = some C.head := rfl
  rw [e1] at this
  exact congrArg (1 + ·) (e.trans this)

/-- A program that loaded a tag with a title: `C95` and `C95_get` apply to it. Getting the title takes three accesses, and
getting the artist, which is not there, three too. -/
example : ∃ w s t, @CReachable strict w ∧ w.Holds s ∧ (@CCall.Allowed w (.getText .title t)) ∧ entriesOf s t = 1 ∧
    (T.tag_get TITLE_ID t).accesses w.heap = 3 ∧ (T.tag_get ARTIST_ID t).accesses w.heap = 3 := by
  have hl : ∃ v, @load_tag_with_buffer strict (ofB titled) 34 = .ok v ∧ ∃ e, v.frames = [some e] ∧
      strncmpEq 4 e.frame_id TITLE_ID = .ok true ∧ strncmpEq 4 e.frame_id ARTIST_ID = .ok false :=
    ⟨_, rfl, _, rfl, by decide +kernel, by decide +kernel⟩
  obtain ⟨v, hv, e, hf, h1, h2⟩ := hl
  obtain ⟨w, t, -, hreach, hw⟩ := @cload strict _ _ _ hv
  have ht : t ∈ w.tags := by rw [cholds_tags hw]; exact List.mem_cons_self
  have hlook : (⟨[(t, v)], [], none⟩ : CAbs).tags.lookup t = some v := by simp
  refine ⟨w, _, t, hreach, hw, ht, ?_, ?_, ?_⟩
  · unfold entriesOf
    rw [hlook]
    show v.frames.length = 1
    rw [hf]
    rfl
  · exact @C95_get strict w hreach _ hw t v hlook TITLE_ID [] [some e] hf (by simp) (.inr ⟨e, [], rfl, h1⟩)
  · exact @C95_get strict w hreach _ hw t v hlook ARTIST_ID [some e] [] hf (by simp [h2]) (.inl rfl)

end Id3.Props
