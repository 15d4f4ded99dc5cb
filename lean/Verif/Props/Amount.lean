import Verif.Spec.Amount
import Verif.Props.Any

/-!
# How much memory a tag that was read takes (C89)
-/

namespace Id3.Props

open Id3 Id3.Spec

variable [p : Platform]

omit p in
theorem written_le (f : Frame) : written f ≤ held f := by
  unfold written held
  generalize contents f.data = l
  induction l with
  | nil => exact Nat.le_refl _
  | cons x l ih => simp only [List.map_cons, List.sum_cons]; have := List.countP_le_length (p := Option.isSome) (l := x); omega

omit p in
theorem countP_ofB (l : List UInt8) : (ofB l).countP Option.isSome = l.length := by
  induction l with
  | nil => rfl
  | cons x l ih => show (some x :: ofB l).countP _ = _; simp [ih]

omit p in
theorem countP_form (d : List UInt8) (k : Nat) : (ofB d ++ List.replicate k (none : MByte)).countP Option.isSome = d.length := by
  rw [List.countP_append, countP_ofB]
  simp [List.countP_replicate]

omit p in
theorem frameSize_lt (v : UInt8) (s : List UInt8) : frameSize v s < 2 ^ 31 := by
  unfold frameSize
  split
  · unfold looseSize
    split
    next a b c d =>
      have ha := a.toNat_lt; have hb := b.toNat_lt; have hc := c.toNat_lt; have hd := d.toNat_lt
      have h1 : d.toNat ||| c.toNat * 2 ^ 7 ||| b.toNat * 2 ^ 14 ||| a.toNat * 2 ^ 21 < 2 ^ 31 :=
        Nat.or_lt_two_pow (Nat.or_lt_two_pow (Nat.or_lt_two_pow (by omega) (by omega)) (by omega)) (by omega)
      exact Int.ofNat_lt.mpr h1
    next => decide
  · unfold plainSize
    split
    · dsimp only
      split
      · omega
      next a b c d _ =>
        have ha := a.toNat_lt; have hb := b.toNat_lt; have hc := c.toNat_lt; have hd := d.toNat_lt
        omega
    · decide

omit p in
/-- What is left of a buffer, if there is still something with a value, is inside of its first part. -/
theorem rest_form {d : List UInt8} {k m : Nat} {b : UInt8} {r : Bytes}
    (h : (ofB d ++ List.replicate k (none : MByte)).drop m = some b :: r) :
    m < d.length ∧ (ofB d ++ List.replicate k (none : MByte)).drop m = ofB (d.drop m) ++ List.replicate k none := by
  have hm : m < d.length := by
    refine Nat.lt_of_not_le fun hm => ?_
    rw [List.drop_append, List.drop_eq_nil_of_le (by simpa using hm), List.nil_append] at h
    have : some b ∈ (List.replicate k (none : MByte)).drop (m - (ofB d).length) := by rw [h]; exact List.mem_cons_self
    have := List.eq_of_mem_replicate (List.mem_of_mem_drop this)
    cases this
  refine ⟨hm, ?_⟩
  rw [List.drop_append_of_le_length (by simp; omega)]
  simp [ofB]

omit p in
theorem countP_take_drop (n : Nat) (r : Bytes) : (padTo n r).countP Option.isSome + (r.drop n).countP Option.isSome =
    r.countP Option.isSome := by
  unfold padTo
  rw [List.countP_append]
  have := congrArg (List.countP Option.isSome) (List.take_append_drop n r)
  rw [List.countP_append] at this
  simp only [List.countP_replicate]
  simpa using this

/-- What one frame takes from the bytes. -/
theorem item_amount {v : UInt8} {r r' : Bytes} {f : Frame} (h : Item v r f r') (hr : r.length ≤ 2147483647) :
    (∃ m, r' = r.drop m ∧ held f + 10 ≤ m) ∧ written f + 8 ≤ r.countP Option.isSome ∧ held f ≤ 2147483647 ∧
      ∃ b q, r = some b :: q := by
  have hcons : ∀ (l : List UInt8) (q : Bytes), l.length = 4 → ∃ b q', ofB l ++ q = some b :: q' := by
    intro l q hl
    match l, hl with
    | a :: l, _ => exact ⟨a, ofB l ++ q, rfl⟩
  have hdrop : ∀ (l q : Bytes) (n : Nat), q.drop n = (l ++ q).drop (l.length + n) := by
    intro l q n
    rw [← List.drop_drop, List.drop_left]
  cases h with
  | text id size flags enc s more n hid hz hf hn hst hs hfit hcmp =>
    have hlt := frameSize_lt v size
    obtain ⟨hid, -⟩ := hid
    refine ⟨⟨11 + n, ?_, ?_⟩, ?_, ?_, ?_⟩
    · have := hdrop (ofB (id ++ size ++ flags) ++ [some enc]) (ofB s.bytes ++ more) n
      have e : (ofB (id ++ size ++ flags) ++ [some enc]).length = 11 := by simp; omega
      rw [e] at this
      rw [List.append_cons, this]
    · simp [held, contents, SFrame.toFrame]; omega
    · simp [written, contents, SFrame.toFrame, List.countP_append, countP_ofB]; omega
    · simp [held, contents, SFrame.toFrame]; omega
    · rw [ofB_append, ofB_append, List.append_assoc, List.append_assoc]; exact hcons _ _ hid
  | comment id size flags enc lang desc txt more hid hz hf hl hd ht hst =>
    obtain ⟨hid, -⟩ := hid
    refine ⟨⟨14 + desc.bytes.length + txt.bytes.length, ?_, ?_⟩, ?_, ?_, ?_⟩
    · have := hdrop (ofB (id ++ size ++ flags) ++ some enc :: (ofB lang ++ (ofB desc.bytes ++ ofB txt.bytes))) r' 0
      have e : (ofB (id ++ size ++ flags) ++ some enc :: (ofB lang ++ (ofB desc.bytes ++ ofB txt.bytes))).length =
          14 + desc.bytes.length + txt.bytes.length := by simp; omega
      rw [e, List.drop_zero] at this
      simpa using this
    · simp [held, contents, SFrame.toFrame]; omega
    · simp [written, contents, SFrame.toFrame, List.countP_append, countP_ofB]; omega
    · simp at hr
      simp [held, contents, SFrame.toFrame]; omega
    · rw [ofB_append, ofB_append, List.append_assoc, List.append_assoc]; exact hcons _ _ hid
  | apic id size flags enc mime pt desc more n hid hz hf hm hd hst hn hn' =>
    have hlt := frameSize_lt v size
    obtain ⟨hid, -⟩ := hid
    have hc := countP_take_drop n more
    refine ⟨⟨12 + mime.bytes.length + desc.bytes.length + n, ?_, ?_⟩, ?_, ?_, ?_⟩
    · have := hdrop (ofB (id ++ size ++ flags) ++ some enc :: (ofB mime.bytes ++ (some pt :: ofB desc.bytes))) more n
      have e : (ofB (id ++ size ++ flags) ++ some enc :: (ofB mime.bytes ++ (some pt :: ofB desc.bytes))).length =
          12 + mime.bytes.length + desc.bytes.length := by simp; omega
      rw [e] at this
      simpa using this
    · simp [held, contents, padTo_length]; omega
    · simp [written, contents, List.countP_append, countP_ofB]; omega
    · simp [held, contents, padTo_length]; omega
    · rw [ofB_append, ofB_append, List.append_assoc, List.append_assoc]; exact hcons _ _ hid
  | other id size more hid hz hT hC hA h0 =>
    have hlt := frameSize_lt v size
    have hc := countP_take_drop (frameSize v size).toNat (more.drop 2)
    have hc' := countP_take_drop 2 more
    refine ⟨⟨10 + (frameSize v size).toNat, ?_, ?_⟩, ?_, ?_, ?_⟩
    · have := hdrop (ofB (id ++ size)) more (2 + (frameSize v size).toNat)
      have e : (ofB (id ++ size)).length = 8 := by simp; omega
      rw [e, ← Nat.add_assoc] at this
      rw [List.drop_drop]
      exact this
    · simp [held, contents, padTo_length]; omega
    · simp [written, contents, List.countP_append, countP_ofB]; omega
    · simp [held, contents, padTo_length]; omega
    · rw [ofB_append, List.append_assoc]; exact hcons _ _ hid

/-- What a row of frames takes from the bytes: all but the last one lie inside of the bytes that have a value. -/
theorem items_amount {v : UInt8} {size c c' : Nat} {r : Bytes} {fs : List Frame} (h : Items v size c r fs c') :
    ∀ {d : List UInt8} {k : Nat}, r = ofB d ++ List.replicate k none → r.length ≤ 2147483647 → ∀ f, fs.getLast? = some f →
      (fs.dropLast.map held).sum + 10 * (fs.length - 1) + written f + 8 ≤ d.length ∧ held f ≤ 2147483647 := by
  induction h with
  | stop c r h => intro d k _ _ f hf; cases hf
  | padding c r h => intro d k _ _ f hf; cases hf
  | frame c r f r' fs c' h hi hs ih =>
    intro d k hr hl g hg
    obtain ⟨⟨m, hm, hm'⟩, hw, hh, -⟩ := item_amount hi hl
    cases fs with
    | nil =>
      have e : f = g := by simpa using hg
      subst e
      rw [hr, countP_form] at hw
      simp only [List.dropLast_singleton, List.map_nil, List.sum_nil, List.length_singleton]
      exact ⟨by omega, hh⟩
    | cons f' fs =>
      have hl' : r'.length ≤ 2147483647 := by rw [hm, List.length_drop]; omega
      cases hs with
      | frame _ _ _ r'' _ _ _ hi' _ =>
        obtain ⟨-, -, -, b, q, hq⟩ := item_amount hi' hl'
        rw [hm, hr] at hq
        obtain ⟨hlt, hform⟩ := rest_form hq
        rw [← hr, ← hm] at hform
        obtain ⟨h1, h2⟩ := ih hform hl' g (by simpa using hg)
        refine ⟨?_, h2⟩
        rw [List.dropLast_cons_cons, List.map_cons, List.sum_cons]
        simp only [List.length_cons, List.length_drop] at h1 ⊢
        omega

omit p in
theorem framesOf_nodes (fs : List Frame) : (nodes fs).filterMap id = fs := by
  cases fs with
  | nil => rfl
  | cons f fs => show (List.map some (f :: fs)).filterMap id = _; rw [List.filterMap_map]; simp

/-- The tag that is in a buffer. -/
theorem tag_amount {d : List UInt8} {k : Nat} {t : Tag} (h : TagIn (ofB d ++ List.replicate k none) t)
    (hl : d.length + k ≤ 2147483647) (f : Frame) (hf : (framesOf t).getLast? = some f) :
    ((framesOf t).dropLast.map held).sum + 10 * ((framesOf t).length - 1) + written f + 8 ≤ d.length ∧ held f ≤ 2147483647 := by
  obtain ⟨v, minor, flags, size, rest, ext, start, fs, stop, -, hz, hb, -, hi, rfl⟩ := h
  simp only [framesOf, framesOf_nodes] at hf ⊢
  have hl' : ((ofB d ++ List.replicate k (none : MByte)).drop start).length ≤ 2147483647 := by simp; omega
  cases fs with
  | nil => cases hf
  | cons f' fs =>
    have hc : ∃ b q, (ofB d ++ List.replicate k (none : MByte)).drop start = some b :: q := by
      generalize (ofB d ++ List.replicate k (none : MByte)).drop start = r at hi hl'
      cases hi with | frame _ _ _ _ _ _ _ hi' _ => exact (item_amount hi' hl').2.2.2
    obtain ⟨b, q, hq⟩ := hc
    obtain ⟨h1, h2⟩ := rest_form hq
    obtain ⟨h3, h4⟩ := items_amount hi h2 hl' f hf
    rw [List.length_drop] at h3
    exact ⟨by omega, h4⟩

omit p in
theorem dropLast_last {fs : List Frame} {f : Frame} (h : fs.getLast? = some f) (g : Frame → Nat) :
    (fs.map g).sum = (fs.dropLast.map g).sum + g f := by
  have : fs = fs.dropLast ++ [f] := by
    cases fs with
    | nil => cases h
    | cons x xs =>
      rw [List.getLast?_eq_some_getLast (by simp)] at h
      cases h
      exact (List.dropLast_concat_getLast _).symm
  rw [congrArg (fun l => (List.map g l).sum) this, List.map_append, List.sum_append]
  simp

omit p in
theorem sum_le (fs : List Frame) : (fs.map written).sum ≤ (fs.map held).sum := by
  induction fs with
  | nil => exact Nat.le_refl _
  | cons f fs ih => simp only [List.map_cons, List.sum_cons]; have := written_le f; omega

theorem amount_of {d : List UInt8} {k : Nat} {t : Tag} (h : TagIn (ofB d ++ List.replicate k none) t)
    (hl : d.length + k ≤ 2147483647) : Amount d.length t := by
  cases hf : (framesOf t).getLast? with
  | none =>
    have e : framesOf t = [] := List.getLast?_eq_none_iff.mp hf
    constructor <;> simp [heldBy, e]
  | some f =>
    obtain ⟨h1, h2⟩ := tag_amount h hl f hf
    have h3 := dropLast_last hf written
    have h4 := dropLast_last hf held
    have h5 := sum_le (framesOf t).dropLast
    constructor
    · omega
    · omega
    · omega
    · unfold heldBy; omega
    · intro hw; have := hw f hf; unfold heldBy; omega

/-- **C89** (without the last frame): a tag that was read from a buffer. -/
theorem C89_buffer_partial (b : List UInt8) (n : Nat) (hn : n ≤ b.length) (hb : n ≤ 2147483647) (t : Tag)
    (h : ID3v2_read_tag_from_buffer (ofB b) n = .ok (some t)) : Amount n t := by
  have := (C67_buffer b n hn hb t).mp h
  have e : (b.take n).length = n := by rw [List.length_take]; omega
  have := amount_of (d := b.take n) (k := 0) (by simpa using this) (by omega)
  rwa [e] at this

/-- **C89** (without the last frame): a tag that was read from a file. -/
theorem C89_file_partial (c : List UInt8) (t : Tag) (h : ID3v2_read_tag (some (ofB c)) = .ok (some t)) :
    Amount c.length t := by
  have h' := (C67_file c t).mp h
  have hl := tagLength_lt c
  have e : padTo (tagLength c) (ofB c) = ofB (c.take (tagLength c)) ++ List.replicate (tagLength c - c.length) none := by
    unfold padTo; simp [ofB]
  rw [e] at h'
  have := amount_of h' (by rw [List.length_take]; omega)
  have hle : (c.take (tagLength c)).length ≤ c.length := by rw [List.length_take]; omega
  obtain ⟨h1, h2, h3, h4, h5⟩ := this
  exact ⟨by omega, by omega, by omega, by omega, fun hw => Nat.le_trans (h5 hw) hle⟩

/-- The claim: the memory for the contents of a tag is at most the bytes that it was read from. -/
def C89_claim : Prop :=
  ∀ (b : List UInt8) (t : Tag), b.length ≤ 2147483647 → ID3v2_read_tag_from_buffer (ofB b) b.length = .ok (some t) →
    heldBy t ≤ b.length

/-- Twenty bytes: a tag with the header of one unknown frame, which claims to have `n` bytes. -/
def bomb (n : Nat) : List UInt8 :=
  [0x49, 0x44, 0x33, 3, 0, 0, 0, 0, 0, 20] ++ [0x58, 0x58, 0x58, 0x58] ++
    [UInt8.ofNat (n / 2 ^ 24), UInt8.ofNat (n / 2 ^ 16), UInt8.ofNat (n / 2 ^ 8), UInt8.ofNat n] ++ [0, 0]

omit p in
theorem bomb_size (n : Nat) (hn : n < 2 ^ 31) :
    frameSize 3 [UInt8.ofNat (n / 2 ^ 24), UInt8.ofNat (n / 2 ^ 16), UInt8.ofNat (n / 2 ^ 8), UInt8.ofNat n] = n := by
  unfold frameSize plainSize
  simp only [UInt8.toNat_ofNat']
  rw [if_neg (by decide), if_pos (by omega)]
  omega

theorem bomb_holds (n k : Nat) (hn : n < 2 ^ 31) :
    ∃ t, TagIn (ofB (bomb n) ++ List.replicate k none) t ∧ (framesOf t).length = 1 ∧ heldBy t = n := by
  have hi := @Item.other p 3 [0x58, 0x58, 0x58, 0x58]
    [UInt8.ofNat (n / 2 ^ 24), UInt8.ofNat (n / 2 ^ 16), UInt8.ofNat (n / 2 ^ 8), UInt8.ofNat n]
    (ofB [0, 0] ++ List.replicate k none) rfl rfl (by decide) (by decide) (by decide) (by decide)
  rw [bomb_size n hn] at hi
  have hs := Items.frame (size := 20) 10 _ _ _ [] _ (by decide) hi (Items.stop _ _ (by simp; omega))
  refine ⟨_, ⟨3, 0, 0, [0, 0, 0, 20], _, 0, 10, _, _, .inl rfl, rfl, rfl, by rw [if_neg (by decide)]; exact ⟨rfl, rfl⟩,
    hs, rfl⟩, ?_, ?_⟩
  · simp [framesOf, nodes]
  · simp [heldBy, framesOf, nodes, held, contents, padTo_length]

/-- **C89** is false: from twenty bytes, a tag with one frame of any size that an `int` can hold is read, from a buffer … -/
theorem C89_bomb (n : Nat) (hn : n < 2 ^ 31) : (bomb n).length = 20 ∧
    (∃ t, ID3v2_read_tag_from_buffer (ofB (bomb n)) 20 = .ok (some t) ∧ (framesOf t).length = 1 ∧ heldBy t = n) ∧
    (∃ t, ID3v2_read_tag (some (ofB (bomb n))) = .ok (some t) ∧ (framesOf t).length = 1 ∧ heldBy t = n) := by
  refine ⟨rfl, ?_, ?_⟩
  · obtain ⟨t, h, h'⟩ := bomb_holds n 0 hn
    exact ⟨t, (C67_buffer (bomb n) 20 (Nat.le_refl _) (by decide) t).mpr (by
      have e : (bomb n).take 20 = bomb n := rfl
      rw [e]; simpa using h), h'⟩
  · obtain ⟨t, h, h'⟩ := bomb_holds n 10 hn
    exact ⟨t, (C67_file (bomb n) t).mpr h, h'⟩

theorem C89_false : ¬ C89_claim := by
  intro h
  obtain ⟨-, ⟨t, ht, -, e⟩, -⟩ := C89_bomb 2147483647 (by decide)
  have := h (bomb 2147483647) t (by decide) ht
  rw [e] at this
  exact absurd this (by decide)

/-- A tag whose only frame was cut: four bytes of memory, one of them with a value. -/
example : heldBy cutRead = 4 ∧ ((framesOf cutRead).map written).sum = 1 ∧ Amount 21 cutRead :=
  ⟨by decide, by decide, @C89_file_partial strict cutTag cutRead ((@C67_file strict cutTag cutRead).mpr cut_holds)⟩

end Id3.Props
