import Verif.Model.Lib

/-!
# Reasoning about all outcomes of a call

`Sat P x`: the call `x` returns a value with `P`, or runs into one of the kinds of undefined behaviour that reading can
cause. It does not exit, diverge, write out of bounds, dereference NULL, or confuse types.
-/

namespace Id3

/-- The kinds of undefined behaviour that a malformed tag can cause. -/
def UB.reading : UB → Bool
  | .oobRead | .uninit | .vlaSize | .stackOverflow | .intOverflow => true
  | _ => false

def Sat {α : Type} (P : α → Prop) (x : Res α) : Prop :=
  match x with
  | .ok a => P a
  | .ub k => k.reading = true
  | .exit => False
  | .diverge => False

theorem Sat.ok {α : Type} {P : α → Prop} {a : α} (h : P a) : Sat P (.ok a) := h

theorem Sat.bind {α β : Type} {P : α → Prop} {Q : β → Prop} {x : Res α} {f : α → Res β} (hx : Sat P x)
    (hf : ∀ a, P a → Sat Q (f a)) : Sat Q (x >>= f) := by
  cases x with
  | ok a => exact hf a hx
  | ub k => exact hx
  | exit => exact hx
  | diverge => exact hx

theorem Sat.mono {α : Type} {P Q : α → Prop} {x : Res α} (hx : Sat P x) (h : ∀ a, P a → Q a) : Sat Q x := by
  cases x with
  | ok a => exact h a hx
  | ub k => exact hx
  | exit => exact hx
  | diverge => exact hx

theorem Sat.and {α : Type} {P Q : α → Prop} {x : Res α} (hx : Sat P x) (hy : Sat Q x) : Sat (fun a => P a ∧ Q a) x := by
  cases x with
  | ok a => exact ⟨hx, hy⟩
  | ub k => exact hx
  | exit => exact hx
  | diverge => exact hx

theorem Sat.of_ok {α : Type} {P : α → Prop} {x : Res α} {a : α} (hx : Sat P x) (h : x = .ok a) : P a := by
  subst h; exact hx

theorem sat_load (b : MByte) : Sat (fun v => b = some v) (load b) := by
  cases b <;> simp [load, Sat, UB.reading]

theorem sat_ck (n : Int) : Sat (fun m => m = n ∧ -2147483648 ≤ n ∧ n ≤ 2147483647) (ck n) := by
  unfold ck
  split
  · next h => exact ⟨rfl, h⟩
  · rfl

theorem sat_vla [Platform] (n : Int) : Sat (fun _ => 0 < n) (vla n) := by
  unfold vla
  split
  · rfl
  · split
    · rfl
    · show 0 < n; omega

theorem sat_memcpySrc (p : Bytes) (n : Int) (h : 0 ≤ n) :
    Sat (fun d => d = p.take n.toNat ∧ n ≤ p.length) (memcpySrc p n) := by
  unfold memcpySrc
  rw [if_neg (by omega)]
  split
  · rfl
  · exact ⟨rfl, by omega⟩

theorem sat_memcmpSeq (p : Bytes) (l : List UInt8) : Sat (fun b => b = true → p.take l.length = ofB l) (memcmpSeq p l) := by
  induction l generalizing p with
  | nil => simp [memcmpSeq, Sat, ofB]
  | cons x xs ih =>
    cases p with
    | nil => simp [memcmpSeq, Sat, UB.reading]
    | cons b bs =>
      unfold memcmpSeq
      refine (sat_load b).bind fun v hv => ?_
      split
      · next he =>
        refine (ih bs).mono fun r hr h => ?_
        rw [hv, he]
        simp only [List.length_cons, List.take_succ_cons, hr h]
        rfl
      · simp [Sat]

theorem sat_memcmpEq [Platform] (p : Bytes) (l : List UInt8) :
    Sat (fun b => b = true → p.take l.length = ofB l) (memcmpEq p l) := by
  unfold memcmpEq
  split
  · exact sat_memcmpSeq p l
  · split
    · rfl
    · split
      · rfl
      · show _ = true → _
        intro h; exact eq_of_beq h

/-- A string that could be compared starts with a determinate byte. -/
theorem sat_memcmpEq_head [Platform] (p : Bytes) (x : UInt8) (l : List UInt8) :
    Sat (fun _ => ∃ b, p.head? = some (some b)) (memcmpEq p (x :: l)) := by
  cases p with
  | nil =>
    unfold memcmpEq memcmpSeq
    split
    · rfl
    · rw [if_pos (by simp)]; rfl
  | cons b bs =>
    cases b with
    | none =>
      unfold memcmpEq memcmpSeq
      split
      · rfl
      · split
        · rfl
        · rw [if_pos (by simp)]; rfl
    | some b => exact (sat_memcmpEq _ _).mono fun _ _ => ⟨b, rfl⟩

theorem sat_string_has_bom [Platform] (s : Bytes) :
    Sat (fun _ => ∃ b, s.head? = some (some b)) (string_has_bom s) := by
  unfold string_has_bom
  refine (sat_memcmpEq_head s _ _).bind fun b h => ?_
  split
  · exact h
  · refine (sat_memcmpEq s _).bind fun b _ => ?_
    split <;> exact h

theorem sat_c_strlen (s : Bytes) : Sat (fun n => n < s.length) (c_strlen s) := by
  induction s with
  | nil => rfl
  | cons b bs ih =>
    unfold c_strlen
    refine (sat_load b).bind fun v _ => ?_
    split
    · show 0 < (b :: bs).length; simp
    · refine ih.bind fun n hn => ?_
      show n + 1 < (b :: bs).length
      rw [List.length_cons]; omega

theorem sat_utf16_scan (s : Bytes) : Sat (fun n => n + 1 < s.length) (utf16_scan s) := by
  match s with
  | [] => rfl
  | [_] => rfl
  | a :: b :: rest =>
    have ih := sat_utf16_scan rest
    unfold utf16_scan
    refine (sat_load a).bind fun va _ => ?_
    refine (sat_load b).bind fun vb _ => ?_
    split
    · show 0 + 1 < (a :: b :: rest).length; simp
    · refine ih.bind fun n hn => ?_
      show n + 2 + 1 < (a :: b :: rest).length
      simp only [List.length_cons]; omega

theorem sat_strlen [Platform] (s : Bytes) : Sat (fun n : Int => 0 ≤ n ∧ n < s.length) (ID3v2_strlen s) := by
  unfold ID3v2_strlen
  refine (sat_string_has_bom s).bind fun b _ => ?_
  split
  · refine (sat_utf16_scan s).bind fun n hn => ?_
    exact (sat_ck _).mono fun m hm => ⟨by omega, by omega⟩
  · refine (sat_c_strlen s).bind fun n hn => ?_
    exact (sat_ck _).mono fun m hm => ⟨by omega, by omega⟩

theorem sat_strlent [Platform] (s : Bytes) : Sat (fun n : Int => 1 ≤ n) (ID3v2_strlent s) := by
  unfold ID3v2_strlent
  refine (sat_string_has_bom s).bind fun b _ => ?_
  refine (sat_strlen s).bind fun n hn => ?_
  refine (sat_ck _).mono fun m hm => ?_
  obtain ⟨rfl, -, -⟩ := hm
  split <;> omega

theorem sat_loadAll (l : Bytes) : Sat (fun _ => True) (loadAll l) := by
  induction l with
  | nil => trivial
  | cons b bs ih =>
    unfold loadAll
    refine (sat_load b).bind fun v _ => ?_
    exact ih.bind fun _ _ => trivial

theorem sat_btoi (p : Bytes) (n : Nat) : Sat (fun _ => n ≤ p.length) (btoi p n) := by
  unfold btoi
  refine (sat_memcpySrc p n (by omega)).bind fun d hd => ?_
  refine (sat_loadAll d).bind fun v _ => ?_
  show n ≤ p.length
  omega

/-! ## Streams -/

/-- A stream over `s` whose cursor is inside. -/
structure Good (s : Bytes) (cs : CharStream) : Prop where
  stream : cs.stream = s
  size : cs.size = s.length
  nonneg : 0 ≤ cs.cursor
  le : cs.cursor ≤ s.length

theorem sat_get_cur (cs : CharStream) :
    Sat (fun p => p = cs.stream.drop cs.cursor.toNat ∧ 0 ≤ cs.cursor ∧ cs.cursor ≤ cs.stream.length) (CharStream_get_cur cs) := by
  unfold CharStream_get_cur
  split
  · next h => exact ⟨rfl, h⟩
  · rfl

/-- Reading from a stream over `s`: also shows that the cursor was inside. -/
theorem sat_read (s : Bytes) (cs : CharStream) (n : Int) (h1 : cs.stream = s) (h2 : cs.size = s.length) (hn : 0 ≤ n) :
    Sat (fun r => Good s r.2 ∧ 0 ≤ cs.cursor ∧ r.2.cursor = cs.cursor + r.1.length ∧
      r.1 = (s.drop cs.cursor.toNat).take n.toNat) (CharStream_read cs n) := by
  unfold CharStream_read
  dsimp only
  refine (sat_get_cur cs).bind fun p hp => ?_
  obtain ⟨rfl, hp1, hp2⟩ := hp
  rw [h1] at hp2 ⊢
  have hc : clamp_int n 0 (cs.size - cs.cursor) = min n (cs.size - cs.cursor) := by
    unfold clamp_int
    rw [if_neg (by omega)]
    split <;> omega
  rw [hc]
  refine (sat_memcpySrc _ _ (by omega)).bind fun d hd => ?_
  obtain ⟨rfl, hd⟩ := hd
  have hmin : (min n (cs.size - cs.cursor)).toNat = min n.toNat (s.drop cs.cursor.toNat).length := by
    rw [List.length_drop]; omega
  refine ⟨⟨rfl, h2, ?_, ?_⟩, hp1, ?_, ?_⟩
  · dsimp only; omega
  · dsimp only; omega
  · dsimp only; rw [List.length_take, List.length_drop]; omega
  · dsimp only; rw [hmin]; exact (List.take_eq_take_min).symm

/-- Reading with a size that may be negative (unknown frames): the clamp gives 0. -/
theorem sat_read_any (s : Bytes) (cs : CharStream) (n : Int) (h : Good s cs) :
    Sat (fun r => Good s r.2 ∧ r.2.cursor = cs.cursor + r.1.length ∧ r.1 = (s.drop cs.cursor.toNat).take n.toNat)
      (CharStream_read cs n) := by
  by_cases hn : 0 ≤ n
  · exact (sat_read s cs n h.stream h.size hn).mono fun r hr => ⟨hr.1, hr.2.2.1, hr.2.2.2⟩
  · unfold CharStream_read
    have hc : clamp_int n 0 (cs.size - cs.cursor) = 0 := by
      unfold clamp_int; rw [if_pos (by omega)]
    dsimp only
    rw [hc]
    refine (sat_get_cur cs).bind fun p hp => ?_
    refine (sat_memcpySrc _ _ (by omega)).bind fun d hd => ?_
    obtain ⟨rfl, -⟩ := hd
    refine ⟨⟨h.stream, h.size, ?_, ?_⟩, ?_, ?_⟩
    · have := h.nonneg; dsimp only; omega
    · have := h.le; dsimp only; omega
    · simp
    · rw [show n.toNat = 0 from by omega]; simp

theorem sat_slice (cs : CharStream) (n : Int) :
    Sat (fun r => r.1 = cs.stream.drop cs.cursor.toNat ∧ r.2 = { cs with cursor := cs.cursor + n }) (CharStream_slice cs n) := by
  unfold CharStream_slice
  refine (sat_get_cur cs).bind fun p hp => ?_
  refine (sat_ck _).bind fun c hc => ?_
  obtain ⟨rfl, -, -⟩ := hc
  exact ⟨hp.1, rfl⟩

theorem sat_getc [Platform] (s : Bytes) (cs : CharStream) (h : Good s cs) :
    Sat (fun r => Good s r.2 ∧ cs.cursor ≤ r.2.cursor) (CharStream_getc cs) := by
  unfold CharStream_getc
  split
  · exact ⟨h, Int.le_refl _⟩
  · refine (sat_get_cur cs).bind fun p hp => ?_
    cases p with
    | nil => rfl
    | cons b bs =>
      refine (sat_load b).bind fun v _ => ?_
      refine ⟨⟨h.stream, h.size, ?_, ?_⟩, ?_⟩
      · have := h.nonneg; dsimp only; omega
      · have := h.size; dsimp only; omega
      · dsimp only; omega

theorem sat_seek_cur (s : Bytes) (cs : CharStream) (n : Int) (h : Good s cs) :
    Sat (fun r => Good s r ∧ (0 ≤ n → cs.cursor ≤ r.cursor ∧ r.cursor = min (cs.cursor + n) s.length) ∧
      (n < 0 → r.cursor ≤ cs.cursor ∧ (r.cursor = cs.cursor + n ∨ r.cursor = 0) ∧ cs.cursor + n ≤ r.cursor))
      (CharStream_seek cs n .cur) := by
  unfold CharStream_seek
  dsimp only
  refine (sat_ck _).bind fun t ht => ?_
  obtain ⟨rfl, -, -⟩ := ht
  have := h.nonneg
  have := h.le
  have := h.size
  have hc : clamp_int (cs.cursor + n) 0 cs.size = max 0 (min (cs.cursor + n) cs.size) := by
    unfold clamp_int
    split
    · omega
    · split <;> omega
  rw [hc]
  refine ⟨⟨h.stream, h.size, ?_, ?_⟩, ?_, ?_⟩
  · dsimp only; omega
  · dsimp only; omega
  · intro hn; dsimp only; omega
  · intro hn; dsimp only; omega

/-! ## Frame headers -/

/-- What a frame header parser guarantees: the stream is still fine; for a header, eight to ten bytes were consumed and
its id is in the stream; without a header, there were four zero bytes. -/
structure HeaderAt (s : Bytes) (c : Int) (h : Option FrameHeader) (cs : CharStream) : Prop where
  good : Good s cs
  start : 0 ≤ c
  some : ∀ x, h = some x → c + 8 ≤ cs.cursor ∧ (cs.cursor = c + 10 ∨ cs.cursor = s.length ∧ cs.cursor ≤ c + 10) ∧
    x.id = (s.drop c.toNat).take 4
  none : h = none → (s.drop c.toNat).take 4 = ofB [0, 0, 0, 0]

theorem sat_frameHeader_new (i f : Bytes) (n : Int) :
    Sat (fun h => h.id = i.take 4 ∧ h.flags = f.take 2 ∧ h.size = n ∧ 4 ≤ i.length ∧ 2 ≤ f.length) (FrameHeader_new i f n) := by
  unfold FrameHeader_new
  refine (sat_memcpySrc _ _ (by omega)).bind fun d hd => ?_
  refine (sat_memcpySrc _ _ (by omega)).bind fun e he => ?_
  exact ⟨hd.1, he.1, rfl, by omega, by omega⟩

theorem sat_frameHeader_parse [Platform] (s : Bytes) (cs : CharStream) (v : UInt8) (h1 : cs.stream = s)
    (h2 : cs.size = s.length) :
    Sat (fun r => HeaderAt s cs.cursor r.1 r.2) (FrameHeader_parse cs v) := by
  unfold FrameHeader_parse
  refine (sat_read s cs 4 h1 h2 (by omega)).bind fun r hr => ?_
  obtain ⟨d, cs1⟩ := r
  obtain ⟨hg, hc0, hc, hd⟩ := hr
  dsimp only at hg hc hd ⊢
  have hdl : d.length ≤ 4 := by rw [hd, List.length_take]; omega
  refine (sat_memcmpEq _ _).bind fun b hb => ?_
  split
  · next hbt =>
    have hid := hb hbt
    have hd4 : d.length = 4 := by
      by_cases h4 : d.length = 4
      · exact h4
      · have h5 := congrArg (fun l => l[d.length]?) hid
        simp only [intoArray] at h5
        rw [List.getElem?_take_of_lt (by simp; omega), List.getElem?_append_right (by omega), Nat.sub_self,
          List.getElem?_replicate, if_pos (by show 0 < (4 : Int).toNat - d.length; simp; omega)] at h5
        have h6 : ∀ i : Nat, (ofB [0, 0, 0, 0])[i]? ≠ some none := by
          intro i; simp only [ofB, List.getElem?_map]; cases ([0, 0, 0, 0] : List UInt8)[i]? <;> simp
        exact absurd h5.symm (h6 _)
    refine (sat_seek_cur s cs1 (-4) hg).bind fun cs2 h => ?_
    refine ⟨h.1, hc0, by simp, fun _ => ?_⟩
    have : intoArray 4 d = d := by
      unfold intoArray; rw [hd4]; simp
    rw [this, List.take_of_length_le (by simp [hd4])] at hid
    rw [← hid, hd]; rfl
  · refine (sat_slice cs1 4).bind fun r hr => ?_
    obtain ⟨p, cs'⟩ := r
    obtain ⟨rfl, rfl⟩ := hr
    dsimp only
    refine (sat_btoi _ _).bind fun sz hsz => ?_
    rw [hg.stream, List.length_drop] at hsz
    have hdlen : d.length = 4 := by
      rw [hd, List.length_take, List.length_drop]
      have := hg.nonneg
      have := hg.le
      have : s.length - cs.cursor.toNat ≥ 4 := by omega
      omega
    refine (sat_read s { cs1 with cursor := cs1.cursor + 4 } 2 hg.stream hg.size (by omega)).bind fun r hr => ?_
    obtain ⟨d2, cs2⟩ := r
    obtain ⟨hg2, -, hc2, hd2⟩ := hr
    dsimp only at hg2 hc2 hd2 ⊢
    have hd2l : d2.length ≤ 2 := by rw [hd2, List.length_take]; omega
    refine (sat_frameHeader_new _ _ _).bind fun hh hhh => ?_
    refine ⟨hg2, hc0, fun x hx => ?_, by simp⟩
    cases hx
    have hd2e : d2.length = min 2 (s.length - (cs1.cursor + 4).toNat) := by
      rw [hd2, List.length_take, List.length_drop]; rfl
    refine ⟨by show cs.cursor + 8 ≤ cs2.cursor; omega, ?_, ?_⟩
    · show cs2.cursor = cs.cursor + 10 ∨ cs2.cursor = s.length ∧ cs2.cursor ≤ cs.cursor + 10
      have := hg.nonneg
      omega
    rw [hhh.1]
    have : intoArray 4 d = d := by unfold intoArray; rw [hdlen]; simp
    rw [this, List.take_of_length_le (by omega), hd]; rfl

theorem sat_idStartsWith (h : FrameHeader) (c : UInt8) :
    Sat (fun b => b = true ↔ h.id.head? = some (some c)) (idStartsWith h c) := by
  unfold idStartsWith
  cases hid : h.id with
  | nil => rfl
  | cons b bs =>
    refine (sat_load b).bind fun v hv => ?_
    show (v == c) = true ↔ _
    rw [hv, List.head?_cons]
    simp

end Id3
