import Verif.Proof.TimeOps
import Verif.Props.Heap
import Verif.Proof.Wire

/-!
# How many memory accesses reading a tag takes (C91)
-/

namespace Id3.Props

open Id3 Id3.Spec Id3.H

theorem le_framesAccesses (fs : List Frame) : ∀ n, fs.length * (2 * n + fs.length - 1) ≤ 2 * framesAccesses n fs := by
  induction fs with
  | nil => intro n; simp
  | cons f fs ih =>
    intro n
    have h1 : 4 ≤ parseAccesses f := by unfold parseAccesses; split <;> decide
    have h2 : n ≤ appendAccesses n := by unfold appendAccesses; split <;> omega
    have h3 := ih (n + 1)
    have e : (fs.length + 1) * (2 * n + (fs.length + 1) - 1) =
        fs.length * (2 * (n + 1) + fs.length - 1) + 2 * n := by
      rw [show 2 * n + (fs.length + 1) - 1 = 2 * n + fs.length from by omega,
        show 2 * (n + 1) + fs.length - 1 = 2 * n + fs.length + 1 from by omega]
      simp only [Nat.add_mul, Nat.mul_add]
      omega
    rw [List.length_cons, e]
    show _ ≤ 2 * (parseAccesses f + appendAccesses n + framesAccesses (n + 1) fs)
    omega

/-- What reading takes, for every buffer and length, in every heap, and however it ends: no more than grows with the
square of the number of bytes. If it returns a tag, the number of accesses is exactly that for its frames, one after the other,
where appending a frame looks at all frames before it. It depends on nothing else. -/
theorem C91_exact [Platform] (h : Heap) (X : List Block) (r : Rep h X) (b : Bytes) (n : Int) :
    let cost := (T.ID3v2_read_tag_from_buffer (.literal b) n).accesses h
    72 * (cost : Int) ≤ max n 0 * (max n 0 + 198) + 864 ∧
    (ID3v2_read_tag_from_buffer b n = .ok none → cost = 6) ∧
    ∀ t, ID3v2_read_tag_from_buffer b n = .ok (some t) →
      cost = 12 + framesAccesses 0 (framesOf t) ∧
      (framesOf t).length * ((framesOf t).length - 1) ≤ 2 * cost ∧
      2 * cost ≤ (framesOf t).length * ((framesOf t).length + 33) + 24 := by
  intro cost
  obtain ⟨fs, hf, hle, h0, hs⟩ := T.acc_read_buffer r b n
  have hu := T.framesAccesses_le fs 0
  refine ⟨?_, h0, fun t ht => ?_⟩
  · have h1 : 2 * cost ≤ fs.length * (fs.length + 33) + 24 := by
      rw [Nat.mul_zero, Nat.zero_add] at hu
      show 2 * (T.ID3v2_read_tag_from_buffer (.literal b) n).accesses h ≤ _
      omega
    generalize max n 0 = m at *
    generalize cost = c at *
    obtain ⟨k, rfl⟩ : ∃ k : Nat, (k : Int) = m := ⟨m.toNat, by omega⟩
    have hk : 6 * fs.length ≤ k := by omega
    have h2 : (6 * fs.length) * (6 * fs.length + 198) ≤ k * (k + 198) := Nat.mul_le_mul hk (by omega)
    have h3 : (6 * fs.length) * (6 * fs.length + 198) = 36 * (fs.length * (fs.length + 33)) := by
      rw [show 6 * fs.length + 198 = 6 * (fs.length + 33) from by omega]
      rw [Nat.mul_assoc, Nat.mul_left_comm fs.length 6, ← Nat.mul_assoc]
    have h4 : 72 * c ≤ k * (k + 198) + 864 := by
      rw [h3] at h2
      omega
    have h5 : ((k * (k + 198) + 864 : Nat) : Int) = (k : Int) * ((k : Int) + 198) + 864 := by
      rw [Int.natCast_add, Int.natCast_mul, Int.natCast_add]; rfl
    rw [← h5]
    omega
  · obtain ⟨rfl, e⟩ := hs t ht
    have hl := le_framesAccesses (framesOf t) 0
    rw [Nat.mul_zero, Nat.zero_add] at hu hl
    refine ⟨e, ?_, ?_⟩
    · show _ ≤ 2 * (T.ID3v2_read_tag_from_buffer (.literal b) n).accesses h
      omega
    · show 2 * (T.ID3v2_read_tag_from_buffer (.literal b) n).accesses h ≤ _
      omega

theorem framesAccesses_raw (f : Frame) (hf : parseAccesses f = 4) :
    ∀ k n, 2 * framesAccesses (n + 1) (List.replicate k f) = k * (2 * n + k + 19)
  | 0, n => by simp [framesAccesses]
  | k + 1, n => by
    rw [List.replicate_succ]
    show 2 * (parseAccesses f + (n + 6) + framesAccesses (n + 1 + 1) (List.replicate k f)) = _
    have := framesAccesses_raw f hf k (n + 1)
    have e : (k + 1) * (2 * n + (k + 1) + 19) = k * (2 * (n + 1) + k + 19) + (2 * n + 20) := by
      simp only [Nat.add_mul, Nat.mul_add]
      omega
    rw [e, hf]
    omega

/-- A tag with `n` unknown frames of one byte. -/
def manyFrames (n : Nat) : List UInt8 :=
  wireTagBytes 3 0 0 (List.replicate n (.other [0x50, 0x52, 0x49, 0x56] [0, 0] [0])) 0

theorem manyFrames_size (n : Nat) : ((List.replicate n (Wire.other [0x50, 0x52, 0x49, 0x56] [0, 0] [0])).flatMap (Wire.bytes 3)).length =
    11 * n := by
  induction n with
  | zero => rfl
  | succ n ih => rw [List.replicate_succ, List.flatMap_cons, List.length_append, ih]; show 11 + 11 * n = _; omega

theorem manyFrames_length (n : Nat) : (manyFrames n).length = 10 + 11 * n := by
  unfold manyFrames wireTagBytes
  simp only [List.length_append, manyFrames_size, List.length_replicate]
  rfl

/-- The bound is met: a tag of `10 + 11 * n` bytes with `n` frames can be read, and that takes `9 + 9 * n` accesses and one for
each pair of frames. -/
theorem read_quadratic [Platform] (h : Heap) (X : List Block) (r : Rep h X) (n : Nat) (hn : 0 < n) (hs : 11 * n < 2 ^ 28) :
    (∃ t, ID3v2_read_tag_from_buffer (ofB (manyFrames n)) (manyFrames n).length = .ok (some t) ∧ (framesOf t).length = n) ∧
    2 * (T.ID3v2_read_tag_from_buffer (.literal (ofB (manyFrames n))) (manyFrames n).length).accesses h =
      18 + 18 * n + n * (n - 1) := by
  have hread := read_wire 3 0 0 (List.replicate n (.other [0x50, 0x52, 0x49, 0x56] [0, 0] [0])) 0 [] []
    (manyFrames n).length (.inl rfl) rfl (by
      intro w hw
      rw [List.eq_of_mem_replicate hw]
      exact ⟨⟨by decide, ⟨by decide, by decide, trivial⟩, trivial⟩, by decide⟩) (by rw [manyFrames_size]; omega) (by rw [manyFrames_size]; simp; omega) (.inr (by
      intro w hw
      rw [List.eq_of_mem_replicate (List.mem_of_getLast? hw)]
      decide)) (by rw [manyFrames_length, manyFrames_size]; simp)
  rw [List.append_nil, List.append_nil] at hread
  obtain ⟨e, -, -⟩ := (C91_exact h X r (ofB (manyFrames n)) (manyFrames n).length).2.2 _ hread
  have hf : ∀ z m, framesOf (toTag 3 0 0 z ((List.replicate n (Wire.other [0x50, 0x52, 0x49, 0x56] [0, 0] [0])).map Wire.kept) m) =
      List.replicate n (SFrame.toFrame (.other [0x50, 0x52, 0x49, 0x56] [0, 0] [0])) := by
    intro z m
    unfold framesOf toTag toFrameList
    obtain ⟨n, rfl⟩ : ∃ k, n = k + 1 := ⟨n - 1, by omega⟩
    simp [List.replicate_succ, Wire.kept]
  refine ⟨⟨_, hread, by rw [hf, List.length_replicate]⟩, ?_⟩
  rw [hf] at e
  rw [e]
  obtain ⟨k, rfl⟩ : ∃ k, n = k + 1 := ⟨n - 1, by omega⟩
  have hr := framesAccesses_raw (SFrame.toFrame (.other [0x50, 0x52, 0x49, 0x56] [0, 0] [0])) rfl k 0
  rw [List.replicate_succ]
  show 2 * (12 + (4 + 2 + framesAccesses 1 (List.replicate k (SFrame.toFrame (.other [0x50, 0x52, 0x49, 0x56] [0, 0] [0]))))) = _
  have e2 : (k + 1) * (k + 1 - 1) = k * k + k := by rw [Nat.add_sub_cancel, Nat.add_mul, Nat.one_mul]
  have e3 : k * (2 * 0 + k + 19) = k * k + 19 * k := by rw [Nat.mul_zero, Nat.zero_add, Nat.mul_add, Nat.mul_comm k 19]
  rw [e3, show 0 + 1 = 1 from rfl] at hr
  rw [e2]
  omega

theorem empty_rep : Rep { cells := fun _ => none, next := 0, picks := id } [] :=
  ⟨fun a c => by simp, by simp, by simp⟩

/-- Not even a million accesses for each byte are enough. -/
theorem linear_reading_false [Platform] (c : Nat) (hc : c ≤ 1000000) : ¬ LinearReading c := by
  intro hcl
  have := hcl _ [] empty_rep (manyFrames 24000000) (by rw [manyFrames_length]; omega)
  obtain ⟨-, e⟩ := read_quadratic _ [] empty_rep 24000000 (by decide) (by decide)
  rw [manyFrames_length] at *
  have h2 : c * (10 + 11 * 24000000 + 1) ≤ 1000000 * (10 + 11 * 24000000 + 1) := Nat.mul_le_mul_right _ hc
  omega

theorem nodup_subset_length : ∀ (l B : List Nat), l.Nodup → (∀ x ∈ l, x ∈ B) → l.length ≤ B.length
  | [], _, _, _ => Nat.zero_le _
  | a :: l, B, hn, hs => by
    rw [List.nodup_cons] at hn
    have ha := hs a List.mem_cons_self
    have := nodup_subset_length l (B.erase a) hn.2 fun x hx =>
      (List.mem_erase_of_ne (by rintro rfl; exact hn.1 hx)).mpr (hs x (List.mem_cons_of_mem _ hx))
    rw [List.length_erase_of_mem ha] at this
    have := List.length_pos_of_mem ha
    rw [List.length_cons]
    omega

theorem unlink_most {w : World} {Ts : List HTag} {Ls : List HList} {Hs : List (Nat × TagHeader)} {Us : List (Nat × Bytes)}
    {K : List Block} (i : Inv w Ts Ls Hs Us K) (l : Nat) (ha : l ∈ w.lists) (B : List Nat)
    (hB : ∀ a, w.heap.cells a ≠ none → a ∈ B) :
    (T.heapFuel >>= fun m => T.ID3v2_FrameList_unlink m (some l)).accesses w.heap ≤ 2 * B.length := by
  rw [i.lists] at ha
  obtain ⟨A, ⟨a, f, sp⟩, C, rfl, rfl⟩ := of_map_mid ha
  have r := i.rep.perm (L' := listNodes a ((a, f) :: sp) ++ (Ts.flatMap HTag.blocks ++ H.rest (A ++ C) Hs Us K)) (by
    unfold H.rest
    simp only [List.flatMap_append, List.flatMap_cons]
    show List.Perm (_ ++ (_ ++ (listNodes a ((a, f) :: sp) ++ _) ++ _)) _
    blocks)
  obtain ⟨m, hm, e⟩ := Prog.acc_fuel r (fun m => T.ID3v2_FrameList_unlink m (some a))
  rw [show ((a, f, sp) : Nat × Ptr × List (Nat × Ptr)).1 = a from rfl, e]
  have := T.bound_unlink a m ((a, f) :: sp) _ _ r (by simp only [List.length_append, listNodes_length] at hm; omega)
  refine Nat.le_trans this (Nat.mul_le_mul_left _ ?_)
  have hn : ((listNodes a ((a, f) :: sp)).map (·.1)).Nodup := by
    have := r.nodup
    rw [List.map_append] at this
    exact (List.nodup_append.mp this).1
  have hs : ∀ x ∈ (listNodes a ((a, f) :: sp)).map (·.1), x ∈ B := by
    intro x hx
    obtain ⟨b, hb, rfl⟩ := List.mem_map.mp hx
    refine hB _ ?_
    rw [(r.cells b.1 b.2).mpr (List.mem_append_left _ hb)]
    exact Option.some_ne_none _
  have := nodup_subset_length _ B hn hs
  rwa [List.length_map, listNodes_length] at this

/-- **C91**: every call, at any time in any program, ends after a number of accesses that is bounded by the number of frames of
its tag, or by the number of bytes that are read. It depends neither on the sizes of the frames nor on what else is allocated. -/
theorem C91 [Platform] {w : World} (h : Reachable w) (c : Call) (ha : c.Allowed w) (s : Abs) (hs : w.Holds s)
    (B : List Nat) (hB : ∀ a, w.heap.cells a ≠ none → a ∈ B) :
    (c.prog ⟨w.disk, w.tags, w.lists, w.headers, w.buffers⟩).accesses w.heap ≤ c.most s B.length := by
  obtain ⟨Ts, Ls, Hs, Us, K, i⟩ := reachable_inv h
  have fin : ∀ {α β : Type} (x : Prog α) (f : α → β) (h : Heap), (x >>= fun a => pure (f a)).accesses h = x.accesses h := by
    intro α β x f h
    rw [Prog.accesses_bind]
    split <;> rfl
  have go : ∀ t, t ∈ w.tags → ∃ (T : HTag) (X : List Block), T.addr = t ∧ nodesOf s t = T.list.length ∧
      Rep w.heap (T.blocks ++ X) := by
    intro t ht
    obtain ⟨A, T, B, rfl, rfl, hA, hB, r⟩ := i.tag ht
    refine ⟨T, _, rfl, ?_, r⟩
    unfold nodesOf
    rw [i.eq hs, show (absOf w (A ++ T :: B) Us).tags.lookup T.addr = some T.value from abs_lookup hA]
    show (vals T.list).length = _
    simp [vals]
  cases c with
  | newTag => exact Nat.le_trans (Nat.le_of_eq (fin _ _ _)) (_root_.Id3.T.AtMost.tagNew w.heap)
  | readTagFromBuffer b n =>
    exact Nat.le_trans (Nat.le_of_eq (fin _ _ _)) (_root_.Id3.T.bound_read i.rep b _ n (src_at i.rep ha))
  | readTag =>
    have hd : s.disk = w.disk := by rw [i.eq hs]; rfl
    refine Nat.le_trans (Nat.le_of_eq (fin _ _ _)) ?_
    show _ ≤ fileMost s.disk
    rw [hd]
    exact _root_.Id3.T.bound_read_file i.rep w.disk
  | setTextFrame a x =>
    obtain ⟨ht, h1, h2, h3⟩ := ha
    obtain ⟨T, X, rfl, e, r⟩ := go a ht
    refine Nat.le_trans (Nat.le_of_eq (fin _ _ _)) ?_
    simp only [Call.most]
    rw [e]
    exact _root_.Id3.T.bound_set_text r x (textValue w.heap x) (src_at r h1) (src_at r h2) (src_at r h3)
  | setCommentFrame a x =>
    obtain ⟨ht, h1, h2, h3, h4⟩ := ha
    obtain ⟨T, X, rfl, e, r⟩ := go a ht
    refine Nat.le_trans (Nat.le_of_eq (fin _ _ _)) ?_
    simp only [Call.most]
    rw [e]
    exact _root_.Id3.T.bound_set_comment r x (commentValue w.heap x) (src_at r h1) (src_at r h2) (src_at r h3) (src_at r h4)
  | addCommentFrame a x =>
    obtain ⟨ht, h1, h2, h3, h4⟩ := ha
    obtain ⟨T, X, rfl, e, r⟩ := go a ht
    refine Nat.le_trans (Nat.le_of_eq (fin _ _ _)) ?_
    simp only [Call.most]
    rw [e]
    exact _root_.Id3.T.bound_add_comment r x (commentValue w.heap x) (src_at r h1) (src_at r h2) (src_at r h3) (src_at r h4)
  | setApicFrame a x =>
    obtain ⟨ht, h1, h2, h3, h4⟩ := ha
    obtain ⟨T, X, rfl, e, r⟩ := go a ht
    refine Nat.le_trans (Nat.le_of_eq (fin _ _ _)) ?_
    simp only [Call.most]
    rw [e]
    exact _root_.Id3.T.bound_set_apic r x (apicValue w.heap x) (src_at r h1) (src_at r h2) (src_at r h3) (src_at r h4) rfl rfl
  | addApicFrame a x =>
    obtain ⟨ht, h1, h2, h3, h4⟩ := ha
    obtain ⟨T, X, rfl, e, r⟩ := go a ht
    refine Nat.le_trans (Nat.le_of_eq (fin _ _ _)) ?_
    simp only [Call.most]
    rw [e]
    exact _root_.Id3.T.bound_add_apic r x (apicValue w.heap x) (src_at r h1) (src_at r h2) (src_at r h3) (src_at r h4) rfl rfl
  | deleteFrame a x =>
    obtain ⟨ht, h1⟩ := ha
    obtain ⟨T, X, rfl, e, r⟩ := go a ht
    refine Nat.le_trans (Nat.le_of_eq (fin _ _ _)) ?_
    simp only [Call.most]
    rw [e]
    exact _root_.Id3.T.bound_delete r x _ (src_at r h1)
  | deleteFrameAt a id ix =>
    obtain ⟨T, X, rfl, e, r⟩ := go a ha
    refine Nat.le_trans (Nat.le_of_eq (fin _ _ _)) ?_
    simp only [Call.most]
    rw [e]
    exact _root_.Id3.T.bound_delete_at r id ix
  | getFrame a x =>
    obtain ⟨ht, h1⟩ := ha
    obtain ⟨T, X, rfl, e, r⟩ := go a ht
    refine Nat.le_trans (Nat.le_of_eq (fin _ _ _)) ?_
    simp only [Call.most]
    rw [e]
    exact _root_.Id3.T.bound_tag_get r x _ (src_at r h1)
  | getFrames a x =>
    obtain ⟨ht, h1⟩ := ha
    obtain ⟨T, X, rfl, e, r⟩ := go a ht
    refine Nat.le_trans (Nat.le_of_eq (fin _ _ _)) ?_
    simp only [Call.most]
    rw [e]
    exact _root_.Id3.T.bound_tag_get_frames r x _ (src_at r h1)
  | writeTag a =>
    obtain ⟨T, X, rfl, e, r⟩ := go a ha
    refine Nat.le_trans (Nat.le_of_eq (fin _ _ _)) ?_
    simp only [Call.most]
    rw [e]
    exact _root_.Id3.T.bound_write r w.disk
  | freeTag a =>
    obtain ⟨T, X, rfl, e, r⟩ := go a ha
    refine Nat.le_trans (Nat.le_of_eq (fin _ _ _)) ?_
    simp only [Call.most]
    rw [e]
    exact _root_.Id3.T.bound_free r
  | unlinkList l =>
    refine Nat.le_trans (Nat.le_of_eq ?_) (unlink_most i l ha B hB)
    show (T.heapFuel >>= fun m => T.ID3v2_FrameList_unlink m (some l) >>= fun _ => pure _).accesses w.heap = _
    rw [← T.bind_assoc]
    exact fin _ _ _
  | readHeaderFromBuffer b => exact Nat.le_trans (Nat.le_of_eq (fin _ _ _)) (_root_.Id3.T.AtMost.readHeader b w.heap)
  | readHeader => exact Nat.le_trans (Nat.le_of_eq (fin _ _ _)) (_root_.Id3.T.AtMost.readHeaderFile w.disk w.heap)
  | freeHeader p => exact Nat.le_trans (Nat.le_of_eq (fin _ _ _)) (_root_.Id3.T.AtMost.free _ w.heap)
  | deleteTag => exact Nat.le_trans (Nat.le_of_eq (fin _ _ _)) (_root_.Id3.T.AtMost.deleteTag w.disk w.heap)
  | alloc b => exact Nat.le_trans (Nat.le_of_eq (fin _ _ _)) (_root_.Id3.T.AtMost.malloc _ w.heap)
  | overwrite p b => exact Nat.le_trans (Nat.le_of_eq (fin _ _ _)) (_root_.Id3.T.AtMost.store _ _ w.heap)
  | dispose p => exact Nat.le_trans (Nat.le_of_eq (fin _ _ _)) (_root_.Id3.T.AtMost.free _ w.heap)
  | changeDisk f => exact Nat.le_refl _
/-- Reading a file takes 12 accesses more than reading the tag from memory: its header is read twice. -/
theorem C91_file [Platform] (h : Heap) (X : List Block) (r : Rep h X) (file : File) (t : Tag)
    (ht : ID3v2_read_tag file = .ok (some t)) :
    (T.ID3v2_read_tag file).accesses h = 24 + framesAccesses 0 (framesOf t) := T.acc_read_file r file t ht

/-- Three frames: 39 accesses. -/
example : (@T.ID3v2_read_tag_from_buffer strict (.literal (ofB (manyFrames 3))) (manyFrames 3).length).accesses
    { cells := fun _ => none, next := 0, picks := id } = 39 := by
  have := (@read_quadratic strict _ [] empty_rep 3 (by decide) (by decide)).2
  omega

/-- A call in a program, for which `C91` gives a bound. -/
example [Platform] : ∃ w s t v, Reachable w ∧ w.Holds s ∧ s.tags.lookup t = some v ∧
    (Call.getFrame t (.literal COMMENT_ID)).Allowed w ∧ ∃ B : List Nat, ∀ a, w.heap.cells a ≠ none → a ∈ B := by
  obtain ⟨w, a, v, m, hreach, hw, _⟩ := make_comment
  have ht : a ∈ w.tags := by rw [holds_tags hw]; exact List.mem_cons_self
  obtain ⟨Ts, Ls, Hs, Us, K, i⟩ := reachable_inv hreach
  refine ⟨w, _, a, v, hreach, hw, by simp, ⟨ht, trivial⟩, (Ts.flatMap HTag.blocks ++ H.rest Ls Hs Us K).map (·.1), ?_⟩
  intro a ha
  cases hc : w.heap.cells a with
  | none => exact absurd hc ha
  | some c => exact List.mem_map.mpr ⟨_, (i.rep.cells a c).mp hc, rfl⟩

end Id3.Props
