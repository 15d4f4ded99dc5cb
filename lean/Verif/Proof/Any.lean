import Verif.Spec.Grammar
import Verif.Proof.ExtAll
import Verif.Proof.V24

/-!
# Parsing arbitrary bytes: the parser finds a frame exactly where the grammar has one
-/

namespace Id3

open Spec

/-! ## Streams -/

theorem read_cut (pre r : Bytes) (n : Int) :
    CharStream_read (csAt pre r) n = .ok (r.take n.toNat, csAt (pre ++ r.take n.toNat) (r.drop n.toNat)) := by
  unfold CharStream_read
  have hs : (csAt pre r).size - (csAt pre r).cursor = r.length := by simp [csAt]; omega
  have hc : clamp_int n 0 ((csAt pre r).size - (csAt pre r).cursor) = (r.take n.toNat).length := by
    rw [hs, List.length_take]; unfold clamp_int
    split
    · omega
    · split <;> omega
  have hr : r = r.take n.toNat ++ r.drop n.toNat := (List.take_append_drop _ _).symm
  have hm : memcpySrc r ((r.take n.toNat).length : Int) = .ok (r.take n.toNat) := by
    have := memcpySrc_append (r.take n.toNat) (r.drop n.toNat) _ rfl
    rwa [← hr] at this
  simp only [hc, get_cur_csAt, Res.bind_ok, hm]
  simp [csAt]

theorem seek_one_cut (pre r : Bytes) (hb : pre.length + 1 ≤ 2147483647) :
    CharStream_seek (csAt pre r) 1 .cur = .ok (csAt (pre ++ r.take 1) (r.drop 1)) := by
  cases r with
  | nil =>
    unfold CharStream_seek
    simp only [csAt]
    rw [ck_ok (by omega) (by omega)]
    simp only [Res.bind_ok, Res.pure_eq, List.append_nil, clamp_int, List.take_nil, List.drop_nil]
    rw [if_neg (by omega), if_pos (by omega)]
  | cons x xs => exact seek_fwd_csAt pre [x] xs 1 rfl hb

theorem seek_back_cut (pre r : Bytes) (m : Nat) (hm : m ≤ pre.length) (hb : pre.length ≤ 2147483647) :
    CharStream_seek (csAt pre r) (-(m : Int)) .cur =
      .ok (csAt (pre.take (pre.length - m)) (pre.drop (pre.length - m) ++ r)) := by
  have h := seek_back_csAt (pre.take (pre.length - m)) (pre.drop (pre.length - m)) r (-(m : Int))
    (by rw [List.length_drop]; omega) (by rw [List.length_take, List.length_drop]; omega)
  rwa [List.take_append_drop] at h

theorem intoArray_padTo (n : Int) (r : Bytes) : intoArray n (r.take n.toNat) = padTo n.toNat r := by
  unfold intoArray padTo
  rw [List.length_take]
  congr 2
  omega

theorem loadAll_inv {p : Bytes} {v : List UInt8} (h : loadAll p = .ok v) : p = ofB v := by
  induction p generalizing v with
  | nil => cases h; rfl
  | cons b bs ih =>
    unfold loadAll at h
    obtain ⟨x, hx, h⟩ := Res.bind_eq_ok.mp h
    obtain ⟨xs, hxs, h⟩ := Res.bind_eq_ok.mp h
    cases h
    cases b with
    | none => cases hx
    | some y => cases hx; rw [ih hxs]; rfl

theorem btoi_inv {p : Bytes} {n : Nat} {v : BitVec 32} (h : btoi p n = .ok v) :
    ∃ szb rest, p = ofB szb ++ rest ∧ szb.length = n ∧ v = btoi_loop 0 szb := by
  unfold btoi at h
  obtain ⟨bs, hbs, h⟩ := Res.bind_eq_ok.mp h
  obtain ⟨vs, hvs, h⟩ := Res.bind_eq_ok.mp h
  cases h
  unfold memcpySrc at hbs
  rw [if_neg (by omega)] at hbs
  split at hbs
  · cases hbs
  · next hl =>
    cases hbs
    have := loadAll_inv hvs
    refine ⟨vs, p.drop n, ?_, ?_, rfl⟩
    · rw [← this, Int.toNat_natCast, List.take_append_drop]
    · have := congrArg List.length this
      rw [ofB_length, Int.toNat_natCast, List.length_take] at this
      omega

/-! ## Bytes that end in indeterminate ones -/

/-- Known bytes, and then unknown ones. -/
def Tail (r : Bytes) : Prop := ∃ b k, r = ofB b ++ List.replicate k none

theorem Tail.drop {r : Bytes} (h : Tail r) (n : Nat) : Tail (r.drop n) := by
  obtain ⟨b, k, rfl⟩ := h
  refine ⟨b.drop n, k - (n - b.length), ?_⟩
  rw [List.drop_append, ofB_drop, ofB_length, List.drop_replicate]

theorem Tail.of_append {a b : Bytes} (h : Tail (a ++ b)) : Tail b := by
  have := h.drop a.length
  rwa [List.drop_left] at this

/-- What comes before a known byte is known. -/
theorem Tail.known {a : Bytes} {v : UInt8} {b : Bytes} (h : Tail (a ++ some v :: b)) : ∃ x, a = ofB x := by
  induction a with
  | nil => exact ⟨[], rfl⟩
  | cons y ys ih =>
    obtain ⟨x, hx⟩ := ih (h.drop 1)
    obtain ⟨l, k, hl⟩ := h
    cases l with
    | nil =>
      exfalso
      have : some v ∈ List.replicate k (none : MByte) := by
        rw [ofB_nil, List.nil_append] at hl
        rw [← hl]; simp
      exact absurd (List.eq_of_mem_replicate this) (by simp)
    | cons z zs =>
      rw [ofB_cons] at hl
      simp only [List.cons_append, List.cons.injEq] at hl
      exact ⟨z :: x, by rw [hl.1, hx]; rfl⟩

/-! ## Sizes -/

theorem decSize_frameSize (version : UInt8) (szb : List UInt8) (h : szb.length = 4) :
    decSize version szb = frameSize version szb := by
  obtain ⟨a, b, c, d, rfl⟩ : ∃ a b c d, szb = [a, b, c, d] := by
    match szb, h with
    | [a, b, c, d], _ => exact ⟨a, b, c, d, rfl⟩
  unfold frameSize
  by_cases hv : version = 4
  · rw [if_pos hv, hv, decSize_four, syncint_decode_bytes]; rfl
  · rw [if_neg hv]
    unfold decSize
    rw [if_neg hv]
    have ha := a.toNat_lt; have hb := b.toNat_lt; have hc := c.toNat_lt; have hd := d.toNat_lt
    have e := btoi_loop_toNat [a, b, c, d] 0
    rw [BitVec.toInt_eq_toNat_cond, e]
    simp only [List.foldl_cons, List.foldl_nil, plainSize]
    simp
    omega

theorem padTo_cons (n : Nat) (x : MByte) (d : Bytes) : padTo (n + 1) (x :: d) = x :: padTo n d := by
  simp [padTo]

theorem padTo_prefix {n : Nat} {d : Bytes} {a : List UInt8} {rest : Bytes} (h : padTo n d = ofB a ++ rest) :
    ∃ more, d = ofB a ++ more ∧ a.length ≤ n ∧ rest = padTo (n - a.length) more := by
  induction a generalizing n d with
  | nil => exact ⟨d, rfl, by simp, h.symm⟩
  | cons x xs ih =>
    cases n with
    | zero => simp [padTo] at h
    | succ n =>
      cases d with
      | nil => simp [padTo, List.replicate_succ] at h
      | cons y ys =>
        rw [padTo_cons, ofB_cons, List.cons_append] at h
        obtain ⟨rfl, h'⟩ := List.cons.inj h
        obtain ⟨more, h1, h2, h3⟩ := ih h'
        refine ⟨more, by rw [h1]; rfl, by simpa using h2, ?_⟩
        rw [h3]; simp

theorem padTo_known {n : Nat} {d : Bytes} {b : UInt8} {r : Bytes} (h : padTo n d = some b :: r) :
    0 < n ∧ ∃ r', d = some b :: r' := by
  obtain ⟨more, h1, h2, -⟩ := padTo_prefix (a := [b]) (rest := r) h
  exact ⟨by simp at h2; omega, more, h1⟩

/-! ## Frame headers -/

theorem header_cut [Platform] (version : UInt8) (id szb : List UInt8) (pre r : Bytes)
    (hi : id.length = 4) (h0 : id ≠ [0, 0, 0, 0]) (hz : szb.length = 4) (hb : pre.length + 8 ≤ 2147483647) :
    FrameHeader_parse (csAt pre (ofB (id ++ szb) ++ r)) version =
      .ok (some { id := ofB id, size := frameSize version szb, flags := padTo 2 r },
           csAt (pre ++ ofB (id ++ szb) ++ r.take 2) (r.drop 2)) := by
  unfold FrameHeader_parse
  have e : ofB (id ++ szb) ++ r = ofB id ++ (ofB szb ++ r) := by simp
  rw [e, read_csAt _ _ _ _ (by simp [hi])]
  simp only [Res.bind_ok]
  rw [intoArray_full _ _ (by simp [hi])]
  have hm := memcmpEq_ofB id [0, 0, 0, 0] [] hi
  rw [List.append_nil] at hm
  rw [hm, decide_eq_false h0]
  simp only [Res.bind_ok, Bool.false_eq_true, if_false]
  rw [slice_csAt _ _ _ _ (by simp [hz]) (by simp [hi, hz]; omega)]
  simp only [Res.bind_ok]
  have hs := btoi_ofB szb 4 r hz.symm
  rw [hs]
  simp only [Res.bind_ok]
  rw [read_cut]
  simp only [Res.bind_ok]
  rw [intoArray_padTo]
  unfold FrameHeader_new
  rw [memcpySrc_self _ _ (by simp [hi]), memcpySrc_self _ _ (by simp [padTo]; omega)]
  simp only [Res.bind_ok, Res.pure_eq]
  rw [← decSize_frameSize version szb hz]
  simp [decSize]

/-- The shape of the bytes where a frame header was read. -/
theorem header_inv [Platform] {version : UInt8} {pre r : Bytes} {h : Option FrameHeader} {cs' : CharStream} (ht : Tail r)
    (e : FrameHeader_parse (csAt pre r) version = .ok (h, cs')) :
    (h = none ∧ ∃ r', r = ofB [0, 0, 0, 0] ++ r') ∨
    ∃ id szb r', r = ofB (id ++ szb) ++ r' ∧ id.length = 4 ∧ szb.length = 4 ∧ id ≠ [0, 0, 0, 0] := by
  unfold FrameHeader_parse at e
  rw [read_cut] at e
  simp only [Res.bind_ok] at e
  obtain ⟨b, hb, e⟩ := Res.bind_eq_ok.mp e
  cases b with
  | true =>
    left
    simp only [if_true] at e
    obtain ⟨c, hc, e⟩ := Res.bind_eq_ok.mp e
    cases e
    refine ⟨rfl, ?_⟩
    obtain ⟨rest, hr⟩ := memcmpEq_inv _ _ hb
    rw [intoArray_padTo] at hr
    obtain ⟨more, h1, -, -⟩ := padTo_prefix hr
    exact ⟨more, h1⟩
  | false =>
    right
    simp only [Bool.false_eq_true, if_false] at e
    obtain ⟨⟨p, c⟩, hp, e⟩ := Res.bind_eq_ok.mp e
    dsimp only at e
    obtain ⟨v, hv, e⟩ := Res.bind_eq_ok.mp e
    unfold CharStream_slice at hp
    rw [get_cur_csAt] at hp
    simp only [Res.bind_ok] at hp
    obtain ⟨_, -, hp⟩ := Res.bind_eq_ok.mp hp
    cases hp
    obtain ⟨szb, rest, h1, h2, -⟩ := btoi_inv hv
    have h1' : r.drop 4 = ofB szb ++ rest := h1
    have hr : r = r.take 4 ++ (ofB szb ++ rest) := by rw [← h1', List.take_append_drop]
    have hl : 8 ≤ r.length := by
      have := congrArg List.length h1'
      rw [List.length_drop, List.length_append, ofB_length] at this
      omega
    obtain ⟨id, hid⟩ : ∃ id, r.take 4 = ofB id := by
      cases szb with
      | nil => cases h2
      | cons z zs =>
        rw [hr] at ht
        exact Tail.known (b := ofB zs ++ rest) ht
    have hil : id.length = 4 := by
      have := congrArg List.length hid
      rw [List.length_take, ofB_length] at this
      omega
    refine ⟨id, szb, rest, by rw [hr, hid]; simp, hil, h2, ?_⟩
    intro h0
    rw [intoArray_full _ _ (by show (4 : Int) = ((r.take 4).length : Int); rw [List.length_take]; omega)] at hb
    have hid' : List.take (Int.toNat 4) r = ofB id := hid
    rw [hid'] at hb
    have hm := memcmpEq_ofB id [0, 0, 0, 0] [] hil
    rw [List.append_nil, hb, h0] at hm
    simp at hm

/-! ## Strings -/

theorem bom_two [Platform] {p : Bytes} {b : Bool} (h : string_has_bom p = .ok b) :
    Platform.memcmpLenient = true ∨ ∃ x y r, p = some x :: some y :: r := by
  by_cases hl : Platform.memcmpLenient = true
  · exact .inl hl
  · right
    unfold string_has_bom memcmpEq at h
    simp only [hl, Bool.false_eq_true, if_false] at h
    obtain ⟨c, hc, -⟩ := Res.bind_eq_ok.mp h
    split at hc
    · cases hc
    · next hlen =>
      split at hc
      · cases hc
      · next hn =>
        match p with
        | [] => simp at hlen
        | [_] => simp at hlen
        | x :: y :: r =>
          simp at hn
          cases x with
          | none => exact absurd rfl hn.1
          | some x =>
            cases y with
            | none => exact absurd rfl hn.2
            | some y => exact ⟨x, y, r, rfl⟩

theorem strlent_bom [Platform] {p : Bytes} {n : Int} (h : ID3v2_strlent p = .ok n) : ∃ b, string_has_bom p = .ok b := by
  unfold ID3v2_strlent at h
  obtain ⟨b, hb, -⟩ := Res.bind_eq_ok.mp h
  exact ⟨b, hb⟩

/-- A string in an object of its own size. -/
theorem usable_of_strlent [Platform] {s : Str} {n : Int} (hw : s.WF) (hl : s.bytes.length ≤ 2147483647)
    (h : ID3v2_strlent (ofB s.bytes) = .ok n) : s.Usable := by
  refine ⟨hw, hl, ?_⟩
  obtain ⟨b, hb⟩ := strlent_bom h
  rcases bom_two hb with h | ⟨x, y, r, h⟩
  · exact .inl h
  · right
    intro e
    rw [e] at h
    simp [Str.bytes, Str.content, Str.terminator] at h

theorem frameHeader_new_fields {i f : Bytes} {n : Int} {h : FrameHeader} (e : FrameHeader_new i f n = .ok h) :
    h = { id := i.take 4, size := n, flags := f.take 2 } := by
  unfold FrameHeader_new memcpySrc at e
  obtain ⟨a, ha, e⟩ := Res.bind_eq_ok.mp e
  obtain ⟨b, hb, e⟩ := Res.bind_eq_ok.mp e
  rw [if_neg (by omega)] at ha hb
  split at ha
  · cases ha
  · split at hb
    · cases hb
    · cases ha; cases hb; cases e; rfl

theorem memcpySrc_inv_take {p a : Bytes} {n : Int} (h : memcpySrc p n = .ok a) : a = p.take n.toNat ∧ 0 ≤ n ∧ n ≤ p.length := by
  unfold memcpySrc at h
  split at h
  · cases h
  · split at h
    · cases h
    · cases h; exact ⟨rfl, by omega, by omega⟩

theorem text_new_inv [Platform] {i fl text : Bytes} {f : Frame} (h : TextFrame_new i fl text = .ok f) :
    ∃ (s : Str) (rest : Bytes), text = ofB s.bytes ++ rest ∧ s.WF ∧
      (Platform.memcmpLenient = true ∨ s ≠ .latin [] ∨ ∃ b r, rest = some b :: r) ∧
      f = { header := { id := i.take 4, size := 1 + s.bytes.length, flags := fl.take 2 }
            data := .text { size := s.bytes.length, encoding := s.encoding, text := ofB s.bytes } } := by
  unfold TextFrame_new TextFrameData_new at h
  obtain ⟨d, hd, h⟩ := Res.bind_eq_ok.mp h
  obtain ⟨b, hb, hd⟩ := Res.bind_eq_ok.mp hd
  obtain ⟨m, hm, hd⟩ := Res.bind_eq_ok.mp hd
  obtain ⟨sz, hsz, hd⟩ := Res.bind_eq_ok.mp hd
  obtain ⟨t, ht, hd⟩ := Res.bind_eq_ok.mp hd
  obtain ⟨k, hk, h⟩ := Res.bind_eq_ok.mp h
  obtain ⟨hh, hhh, h⟩ := Res.bind_eq_ok.mp h
  cases h
  cases hd
  obtain ⟨s, rest, h1, h2, h3, h4⟩ := strlen_inv text m hm
  rw [hb] at h4
  cases h4
  rw [Str.encoding_ite] at hsz
  have e : m + (if s.encoding = 0 then (1 : Int) else 2) = ((s.bytes.length : Nat) : Int) := by
    rw [h3, Str.bytes_length]
    rcases Str.encoding_cases s with h | h <;> rw [h.1, h.2] <;> simp
  rw [e] at hsz
  obtain ⟨rfl, -, -⟩ := ck_inv hsz
  obtain ⟨rfl, -, -⟩ := ck_inv hk
  have ht' := (memcpySrc_inv_take ht).1
  refine ⟨s, rest, h1, h2, ?_, ?_⟩
  · rcases bom_two hb with h | ⟨x, y, r, h⟩
    · exact .inl h
    · right
      by_cases hs : s = .latin []
      · right
        rw [hs] at h1
        rw [h] at h1
        simp [Str.bytes, Str.content, Str.terminator] at h1
        exact ⟨y, r, h1.2.symm⟩
      · exact .inl hs
  · rw [frameHeader_new_fields hhh, ht', h1, Str.encoding_ite]
    simp

theorem padTo_length (n : Nat) (d : Bytes) : (padTo n d).length = n := by simp [padTo]; omega

theorem vla_inv [Platform] {n : Int} {u : Unit} (h : vla n = .ok u) : 0 < n ∧ n ≤ Platform.stack := by
  unfold vla at h
  split at h
  · cases h
  · split at h
    · cases h
    · exact ⟨by omega, by omega⟩

theorem seek_one_inv {pre r : Bytes} {c : CharStream} (h : CharStream_seek (csAt pre r) 1 .cur = .ok c) :
    c = csAt (pre ++ r.take 1) (r.drop 1) := by
  have h' := h
  unfold CharStream_seek at h'
  obtain ⟨x, hx, -⟩ := Res.bind_eq_ok.mp h'
  have hc : pre.length + 1 ≤ 2147483647 := by
    have := (ck_inv hx).2.2
    simp only [csAt] at this
    omega
  rw [seek_one_cut _ _ hc] at h
  cases h; rfl

/-! ## From the parser to the grammar -/

/-- The `k` bytes before a known one. -/
theorem known_before {r : Bytes} {k : Nat} {a : List UInt8} {more : Bytes} (ht : Tail r) (ha : a ≠ [])
    (h : r.drop k = ofB a ++ more) : ∃ x : List UInt8, x.length = k ∧ r = ofB x ++ (ofB a ++ more) := by
  cases a with
  | nil => exact absurd rfl ha
  | cons z zs =>
    have hr : r = r.take k ++ (ofB (z :: zs) ++ more) := by rw [← h, List.take_append_drop]
    have hl : k ≤ r.length := by
      have := congrArg List.length h
      simp at this
      omega
    obtain ⟨x, hx⟩ : ∃ x, r.take k = ofB x := by
      rw [hr] at ht
      exact Tail.known (b := ofB zs ++ more) ht
    refine ⟨x, ?_, by rw [← hx]; exact hr⟩
    have := congrArg List.length hx
    rw [List.length_take, ofB_length] at this
    omega

theorem bytes_ne_nil (s : Str) : s.bytes ≠ [] := by
  have := Str.bytes_pos s
  intro e; rw [e] at this; simp at this

theorem three_of {x : List UInt8} (h : x.length = 3) : ∃ a b c, x = [a, b, c] := by
  match x, h with
  | [a, b, c], _ => exact ⟨a, b, c, rfl⟩

theorem text_parse_inv [Platform] {version : UInt8} {pre r : Bytes} {f : Frame} {cs' : CharStream} (ht : Tail r)
    (hb : pre.length + r.length ≤ 2147483647) (e : TextFrame_parse (csAt pre r) version = .ok (f, cs')) :
    ∃ (id szb flags : List UInt8) (enc : UInt8) (s : Str) (more : Bytes) (n : Nat),
      r = ofB (id ++ szb ++ flags) ++ some enc :: (ofB s.bytes ++ more) ∧ id.length = 4 ∧ szb.length = 4 ∧
      flags.length = 2 ∧ frameSize version szb = 1 + n ∧ n ≤ Platform.stack ∧ s.WF ∧ s.bytes.length ≤ n ∧
      (Platform.memcmpLenient = true ∨ s ≠ .latin [] ∨ (2 ≤ n ∧ ∃ b r, more = some b :: r)) ∧
      f = (SFrame.text id flags s).toFrame ∧
      cs' = csAt (pre ++ (ofB (id ++ szb ++ flags) ++ some enc :: (ofB s.bytes ++ more).take n))
        ((ofB s.bytes ++ more).drop n) := by
  unfold TextFrame_parse at e
  obtain ⟨⟨h, c⟩, hh, e⟩ := Res.bind_eq_ok.mp e
  rcases header_inv ht hh with ⟨rfl, -⟩ | ⟨id, szb, r0, rfl, hi, hz, h0⟩
  · dsimp only at e
    obtain ⟨_, -, e⟩ := Res.bind_eq_ok.mp e
    cases e
  have hb8 : pre.length + 8 ≤ 2147483647 := by simp [hi, hz] at hb; omega
  rw [header_cut version id szb pre r0 hi h0 hz hb8] at hh
  cases hh
  dsimp only at e
  obtain ⟨c2, hc2, e⟩ := Res.bind_eq_ok.mp e
  rw [seek_one_inv hc2] at e
  obtain ⟨m, hm, e⟩ := Res.bind_eq_ok.mp e
  obtain ⟨rfl, -, -⟩ := ck_inv hm
  obtain ⟨_, hv, e⟩ := Res.bind_eq_ok.mp e
  obtain ⟨hv1, hv2⟩ := vla_inv hv
  rw [read_cut] at e
  simp only [Res.bind_ok] at e
  rw [intoArray_padTo] at e
  obtain ⟨g, hg, e⟩ := Res.bind_eq_ok.mp e
  cases e
  obtain ⟨s, rest, h1, h2, h3, rfl⟩ := text_new_inv hg
  generalize hn : (frameSize version szb - 1).toNat = n at *
  obtain ⟨more, k1, k2, k3⟩ := padTo_prefix h1
  rw [List.drop_drop] at k1
  obtain ⟨x, hx, hr0⟩ := known_before (Tail.of_append ht) (bytes_ne_nil s) k1
  obtain ⟨f0, f1, enc, rfl⟩ := three_of hx
  subst hr0
  refine ⟨id, szb, [f0, f1], enc, s, more, n, by simp, hi, hz, rfl, by omega, by omega, h2, k2, ?_, ?_, ?_⟩
  · rcases h3 with h | h | ⟨b, r, h⟩
    · exact .inl h
    · exact .inr (.inl h)
    · by_cases hs : s = .latin []
      · rw [k3] at h
        obtain ⟨q1, q2⟩ := padTo_known h
        have : 0 < s.bytes.length := Str.bytes_pos s
        exact .inr (.inr ⟨by omega, b, q2⟩)
      · exact .inr (.inl hs)
  · have hfl : (padTo 2 (ofB [f0, f1, enc] ++ (ofB s.bytes ++ more))).take 2 = ofB [f0, f1] := by simp [padTo]
    have hsz : (1 : Int) + s.bytes.length = ((s.encoding :: s.bytes).length : Nat) := by
      rw [List.length_cons]; omega
    rw [hfl, hsz, List.take_of_length_le (by simp [hi])]
    rfl
  · simp

theorem comment_new_inv [Platform] {fl lang desc text : Bytes} {f : Frame} (h : CommentFrame_new fl lang desc text = .ok f) :
    (∃ n, ID3v2_strlent desc = .ok n) ∧ ∃ n, ID3v2_strlent text = .ok n := by
  unfold CommentFrame_new CommentFrameData_new at h
  obtain ⟨d, hd, h⟩ := Res.bind_eq_ok.mp h
  obtain ⟨b, hb, hd⟩ := Res.bind_eq_ok.mp hd
  obtain ⟨m, hm, hd⟩ := Res.bind_eq_ok.mp hd
  obtain ⟨k, hk, hd⟩ := Res.bind_eq_ok.mp hd
  exact ⟨⟨k, hk⟩, m, hm⟩

/-- Reading a string that was measured at the cursor. -/
theorem read_string [Platform] {r : Bytes} {n : Int} (h : ID3v2_strlent r = .ok n) :
    ∃ (s : Str) (more : Bytes), r = ofB s.bytes ++ more ∧ s.WF ∧ n = s.bytes.length ∧ r.take n.toNat = ofB s.bytes ∧
      r.drop n.toNat = more ∧ intoArray n (r.take n.toNat) = ofB s.bytes := by
  obtain ⟨s, more, rfl, h2, rfl⟩ := strlent_inv r n h
  refine ⟨s, more, rfl, h2, rfl, ?_, ?_, ?_⟩
  · rw [Int.toNat_natCast]; exact List.take_left' (by simp)
  · rw [Int.toNat_natCast]; exact List.drop_left' (by simp)
  · rw [Int.toNat_natCast, List.take_left' (by simp), intoArray_ofB _ _ rfl]

theorem comment_parse_inv [Platform] {version : UInt8} {pre r : Bytes} {f : Frame} {cs' : CharStream} (ht : Tail r)
    (hb : pre.length + r.length ≤ 2147483647) (e : CommentFrame_parse (csAt pre r) version = .ok (f, cs')) :
    ∃ (id szb flags : List UInt8) (enc : UInt8) (lang : List UInt8) (desc txt : Str) (more : Bytes),
      r = ofB (id ++ szb ++ flags) ++ some enc :: (ofB lang ++ (ofB desc.bytes ++ (ofB txt.bytes ++ more))) ∧
      id.length = 4 ∧ szb.length = 4 ∧ flags.length = 2 ∧ lang.length = 3 ∧ desc.Usable ∧ txt.Usable ∧
      desc.bytes.length ≤ Platform.stack ∧ txt.bytes.length ≤ Platform.stack ∧
      f = (SFrame.comment flags lang desc txt).toFrame ∧
      cs' = csAt (pre ++ (ofB (id ++ szb ++ flags) ++ some enc :: (ofB lang ++ (ofB desc.bytes ++ ofB txt.bytes)))) more := by
  unfold CommentFrame_parse at e
  obtain ⟨⟨h, c⟩, hh, e⟩ := Res.bind_eq_ok.mp e
  rcases header_inv ht hh with ⟨rfl, -⟩ | ⟨id, szb, r0, rfl, hi, hz, h0⟩
  · dsimp only at e
    obtain ⟨_, -, e⟩ := Res.bind_eq_ok.mp e
    obtain ⟨_, -, e⟩ := Res.bind_eq_ok.mp e
    obtain ⟨_, -, e⟩ := Res.bind_eq_ok.mp e
    obtain ⟨_, -, e⟩ := Res.bind_eq_ok.mp e
    obtain ⟨_, -, e⟩ := Res.bind_eq_ok.mp e
    obtain ⟨_, -, e⟩ := Res.bind_eq_ok.mp e
    obtain ⟨_, -, e⟩ := Res.bind_eq_ok.mp e
    obtain ⟨_, -, e⟩ := Res.bind_eq_ok.mp e
    obtain ⟨_, -, e⟩ := Res.bind_eq_ok.mp e
    obtain ⟨_, -, e⟩ := Res.bind_eq_ok.mp e
    cases e
  have hb8 : pre.length + 8 ≤ 2147483647 := by simp [hi, hz] at hb; omega
  rw [header_cut version id szb pre r0 hi h0 hz hb8] at hh
  cases hh
  dsimp only at e
  obtain ⟨c2, hc2, e⟩ := Res.bind_eq_ok.mp e
  rw [seek_one_inv hc2, read_cut] at e
  simp only [Res.bind_ok] at e
  rw [get_cur_csAt] at e
  simp only [Res.bind_ok] at e
  obtain ⟨n, hn, e⟩ := Res.bind_eq_ok.mp e
  obtain ⟨_, hv, e⟩ := Res.bind_eq_ok.mp e
  obtain ⟨hv1, hv2⟩ := vla_inv hv
  rw [read_cut] at e
  simp only [Res.bind_ok] at e
  rw [get_cur_csAt] at e
  simp only [Res.bind_ok] at e
  obtain ⟨m, hm, e⟩ := Res.bind_eq_ok.mp e
  obtain ⟨_, hw, e⟩ := Res.bind_eq_ok.mp e
  obtain ⟨hw1, hw2⟩ := vla_inv hw
  rw [read_cut] at e
  simp only [Res.bind_ok] at e
  obtain ⟨desc, more1, p1, p2, p3, p4, p5, p6⟩ := read_string hn
  rw [p6, p4, p5] at e
  rw [p5] at hm
  obtain ⟨txt, more, q1, q2, q3, q4, q5, q6⟩ := read_string hm
  rw [q6, q4, q5] at e
  obtain ⟨g, hg, e⟩ := Res.bind_eq_ok.mp e
  cases e
  have p1' : r0.drop 6 = ofB desc.bytes ++ more1 := by
    rw [← p1, List.drop_drop, List.drop_drop]; rfl
  obtain ⟨x, hx, hr0⟩ := known_before (Tail.of_append ht) (bytes_ne_nil desc) p1'
  obtain ⟨f0, f1, enc, l0, l1, l2, rfl⟩ : ∃ a b c d e f, x = [a, b, c, d, e, f] := by
    match x, hx with
    | [a, b, c, d, e, f], _ => exact ⟨a, b, c, d, e, f, rfl⟩
  subst hr0
  subst q1
  have hlen : pre.length + (14 + desc.bytes.length + txt.bytes.length) ≤ 2147483647 := by
    simp [hi, hz] at hb; omega
  obtain ⟨⟨_, u1⟩, ⟨_, u2⟩⟩ := comment_new_inv hg
  have hd := usable_of_strlent p2 (by omega) u1
  have hx := usable_of_strlent q2 (by omega) u2
  have hfl : padTo 2 (ofB [f0, f1, enc, l0, l1, l2] ++ (ofB desc.bytes ++ (ofB txt.bytes ++ more))) = ofB [f0, f1] := by
    simp [padTo]
  have hla : intoArray 3 (List.take (Int.toNat 3) (List.drop 1 (List.drop 2 (ofB [f0, f1, enc, l0, l1, l2] ++
      (ofB desc.bytes ++ (ofB txt.bytes ++ more)))))) = ofB [l0, l1, l2] := by
    simp [intoArray]
  rw [hfl, hla] at hg
  have hu : (SFrame.comment [f0, f1] [l0, l1, l2] desc txt).Usable := by
    have hwf : (SFrame.comment [f0, f1] [l0, l1, l2] desc txt).WF := ⟨rfl, rfl, p2, q2⟩
    refine ⟨hwf, ?_, hd, hx⟩
    rw [SFrame.bytes_length _ hwf]
    simp [SFrame.body]; omega
  have hcn := comment_new hu [] [] [] []
  simp only [List.append_nil] at hcn
  rw [hcn] at hg
  cases hg
  refine ⟨id, szb, [f0, f1], enc, [l0, l1, l2], desc, txt, more, by simp, hi, hz, rfl, rfl, hd, hx, by omega, by omega,
    rfl, ?_⟩
  simp

/-- A picture frame of any data. -/
def apicFrame (flags : List UInt8) (mime : Str) (pt : UInt8) (desc : Str) (size : Int) (data : Bytes) : Frame :=
  { header := { id := ofB apicId, size := size, flags := ofB flags }
    data := .apic { encoding := desc.encoding, mime_type := ofB mime.bytes, picture_type := pt,
                    description := ofB desc.bytes, data := data, picture_size := data.length } }

theorem apic_new_any [Platform] {flags : List UInt8} {mime : Str} {pt : UInt8} {desc : Str} {data : Bytes} {size : Int}
    (hf : flags.length = 2) (hm : mime.Usable) (hd : desc.Usable) (n : Int) (hn : n = data.length)
    (hsize : 1 + mime.bytes.length + 1 + desc.bytes.length + n = size) (hs : size ≤ 2147483647) :
    ApicFrame_new (ofB flags) (ofB desc.bytes) pt (ofB mime.bytes) n data = .ok (apicFrame flags mime pt desc size data) := by
  have b1 := has_bom_usable hd []
  have b2 := strlent_usable hd []
  have b3 := strlent_usable hm []
  simp only [List.append_nil] at b1 b2 b3
  unfold ApicFrame_new ApicFrameData_new
  rw [b1, b2, b3]
  simp only [Res.bind_ok, Str.encoding_ite]
  rw [memcpySrc_self _ _ (by simp), memcpySrc_self _ _ (by simp), memcpySrc_self _ _ hn]
  simp only [Res.bind_ok, Res.pure_eq]
  rw [hsize, ck_ok (by omega) hs]
  simp only [Res.bind_ok]
  have hh := header_new apicId flags size [] [] rfl hf
  simp only [List.append_nil] at hh
  have : ofB [0x41, 0x50, 0x49, 0x43] = ofB apicId := rfl
  rw [this, hh, hn]
  rfl

theorem apic_new_strings [Platform] {fl desc mime data : Bytes} {pt : UInt8} {n : Int} {f : Frame}
    (h : ApicFrame_new fl desc pt mime n data = .ok f) :
    (∃ n, ID3v2_strlent desc = .ok n) ∧ ∃ n, ID3v2_strlent mime = .ok n := by
  unfold ApicFrame_new ApicFrameData_new at h
  obtain ⟨d, hd, h⟩ := Res.bind_eq_ok.mp h
  obtain ⟨b, hb, hd⟩ := Res.bind_eq_ok.mp hd
  obtain ⟨m, hm, hd⟩ := Res.bind_eq_ok.mp hd
  obtain ⟨_, -, hd⟩ := Res.bind_eq_ok.mp hd
  obtain ⟨k, hk, hd⟩ := Res.bind_eq_ok.mp hd
  exact ⟨⟨m, hm⟩, k, hk⟩

theorem getc_inv [Platform] {pre r : Bytes} {v : Int} {c : CharStream} (h : CharStream_getc (csAt pre r) = .ok (v, c)) :
    (r = [] ∧ c = csAt pre r) ∨ ∃ b r', r = some b :: r' ∧ v = charToInt b ∧ c = csAt (pre ++ [some b]) r' := by
  cases r with
  | nil =>
    left
    unfold CharStream_getc at h
    rw [if_pos (by simp [csAt])] at h
    cases h; exact ⟨rfl, rfl⟩
  | cons x xs =>
    right
    cases x with
    | none =>
      unfold CharStream_getc at h
      rw [if_neg (by simp [csAt]; omega), get_cur_csAt] at h
      cases h
    | some b =>
      rw [getc_csAt] at h
      cases h
      exact ⟨b, xs, rfl, rfl, rfl⟩

theorem apic_parse_inv [Platform] {version : UInt8} {pre r : Bytes} {f : Frame} {cs' : CharStream} (ht : Tail r)
    (hb : pre.length + r.length ≤ 2147483647) (e : ApicFrame_parse (csAt pre r) version = .ok (f, cs')) :
    ∃ (id szb flags : List UInt8) (enc : UInt8) (mime : Str) (pt : UInt8) (desc : Str) (more : Bytes) (n : Nat),
      r = ofB (id ++ szb ++ flags) ++ some enc :: (ofB mime.bytes ++ (some pt :: (ofB desc.bytes ++ more))) ∧
      id.length = 4 ∧ szb.length = 4 ∧ flags.length = 2 ∧ mime.Usable ∧ desc.Usable ∧
      mime.bytes.length ≤ Platform.stack ∧ desc.bytes.length ≤ Platform.stack ∧
      frameSize version szb = (1 + mime.bytes.length + 1 + desc.bytes.length + n : Nat) ∧ 0 < n ∧ n ≤ Platform.stack ∧
      f = apicFrame flags mime pt desc (frameSize version szb) (padTo n more) ∧
      cs' = csAt (pre ++ (ofB (id ++ szb ++ flags) ++ some enc :: (ofB mime.bytes ++ (some pt :: (ofB desc.bytes ++
        more.take n))))) (more.drop n) := by
  unfold ApicFrame_parse at e
  obtain ⟨⟨h, c⟩, hh, e⟩ := Res.bind_eq_ok.mp e
  rcases header_inv ht hh with ⟨rfl, -⟩ | ⟨id, szb, r0, rfl, hi, hz, h0⟩
  · dsimp only at e
    obtain ⟨_, -, e⟩ := Res.bind_eq_ok.mp e
    obtain ⟨_, -, e⟩ := Res.bind_eq_ok.mp e
    obtain ⟨_, -, e⟩ := Res.bind_eq_ok.mp e
    obtain ⟨_, -, e⟩ := Res.bind_eq_ok.mp e
    obtain ⟨_, -, e⟩ := Res.bind_eq_ok.mp e
    obtain ⟨_, -, e⟩ := Res.bind_eq_ok.mp e
    obtain ⟨_, -, e⟩ := Res.bind_eq_ok.mp e
    obtain ⟨_, -, e⟩ := Res.bind_eq_ok.mp e
    obtain ⟨_, -, e⟩ := Res.bind_eq_ok.mp e
    obtain ⟨_, -, e⟩ := Res.bind_eq_ok.mp e
    cases e
  have hb8 : pre.length + 8 ≤ 2147483647 := by simp [hi, hz] at hb; omega
  rw [header_cut version id szb pre r0 hi h0 hz hb8] at hh
  cases hh
  dsimp only at e
  obtain ⟨c2, hc2, e⟩ := Res.bind_eq_ok.mp e
  rw [seek_one_inv hc2, get_cur_csAt] at e
  simp only [Res.bind_ok] at e
  obtain ⟨m, hm, e⟩ := Res.bind_eq_ok.mp e
  obtain ⟨_, hv, e⟩ := Res.bind_eq_ok.mp e
  obtain ⟨hv1, hv2⟩ := vla_inv hv
  rw [read_cut] at e
  simp only [Res.bind_ok] at e
  obtain ⟨mime, more1, p1, p2, p3, p4, p5, p6⟩ := read_string hm
  rw [p6, p4, p5] at e
  obtain ⟨⟨pti, c3⟩, hpt, e⟩ := Res.bind_eq_ok.mp e
  dsimp only at e
  rcases getc_inv hpt with ⟨rfl, rfl⟩ | ⟨pt, more2, rfl, rfl, rfl⟩
  · rw [get_cur_csAt] at e
    simp only [Res.bind_ok] at e
    obtain ⟨n, hn, e⟩ := Res.bind_eq_ok.mp e
    obtain ⟨s, rest, hs, -⟩ := strlent_inv _ _ hn
    exfalso
    have := congrArg List.length hs
    rw [List.length_append, ofB_length, List.length_nil] at this
    have := Str.bytes_pos s
    omega
  rw [get_cur_csAt] at e
  simp only [Res.bind_ok] at e
  obtain ⟨d, hd, e⟩ := Res.bind_eq_ok.mp e
  obtain ⟨_, hw, e⟩ := Res.bind_eq_ok.mp e
  obtain ⟨hw1, hw2⟩ := vla_inv hw
  rw [read_cut] at e
  simp only [Res.bind_ok] at e
  obtain ⟨desc, more, q1, q2, q3, q4, q5, q6⟩ := read_string hd
  rw [q6, q4, q5] at e
  obtain ⟨n, hn, e⟩ := Res.bind_eq_ok.mp e
  obtain ⟨hn1, hn2, hn3⟩ := ck_inv hn
  obtain ⟨_, hx, e⟩ := Res.bind_eq_ok.mp e
  obtain ⟨hx1, hx2⟩ := vla_inv hx
  rw [read_cut] at e
  simp only [Res.bind_ok] at e
  rw [intoArray_padTo, toChar_charToInt] at e
  obtain ⟨g, hg, e⟩ := Res.bind_eq_ok.mp e
  cases e
  have p1' : r0.drop 3 = ofB mime.bytes ++ (some pt :: more2) := by
    rw [← p1, List.drop_drop]
  obtain ⟨x, hx, hr0⟩ := known_before (Tail.of_append ht) (bytes_ne_nil mime) p1'
  obtain ⟨f0, f1, enc, rfl⟩ := three_of hx
  subst hr0
  subst q1
  have hlen : pre.length + (11 + mime.bytes.length + 1 + desc.bytes.length) ≤ 2147483647 := by
    simp [hi, hz] at hb; omega
  obtain ⟨⟨_, u1⟩, ⟨_, u2⟩⟩ := apic_new_strings hg
  have hd := usable_of_strlent q2 (by omega) u1
  have hm := usable_of_strlent p2 (by omega) u2
  have hfl : padTo 2 (ofB [f0, f1, enc] ++ (ofB mime.bytes ++ (some pt :: (ofB desc.bytes ++ more)))) = ofB [f0, f1] := by
    simp [padTo]
  have hsz : frameSize version szb ≤ 2147483647 := by
    rw [← decSize_frameSize _ _ hz]
    unfold decSize
    have := BitVec.toInt_lt (x := if version = 4 then syncint_decode (btoi_loop 0 szb) else btoi_loop 0 szb)
    omega
  rw [hfl, apic_new_any (size := frameSize version szb) rfl hm hd n (by rw [padTo_length]; omega) (by omega) hsz] at hg
  cases hg
  refine ⟨id, szb, [f0, f1], enc, mime, pt, desc, more, n.toNat, by simp, hi, hz, rfl, hm, hd, by omega, by omega, by omega,
    by omega, by omega, rfl, ?_⟩
  simp

/-- Going back to the start of a frame, which fails if the header was cut off. -/
theorem rewind_cut {pre r0 : Bytes} {id szb : List UInt8} (hi : id.length = 4) (hz : szb.length = 4)
    (ht : Tail (pre ++ (ofB (id ++ szb) ++ r0))) (h10 : 10 ≤ pre.length + (ofB (id ++ szb) ++ r0).length)
    (hb : pre.length + (ofB (id ++ szb) ++ r0).length ≤ 2147483647) :
    ∃ p q, CharStream_seek (csAt (pre ++ ofB (id ++ szb) ++ r0.take 2) (r0.drop 2)) (-10) .cur = .ok (csAt p q) ∧
      Tail q ∧ p.length + q.length ≤ 2147483647 ∧ (p = pre ∧ q = ofB (id ++ szb) ++ r0 ∨ q.length = 10) := by
  have hl : (ofB (id ++ szb) ++ r0).length = 8 + r0.length := by simp [hi, hz]; omega
  have hall : pre ++ ofB (id ++ szb) ++ r0.take 2 ++ r0.drop 2 = pre ++ (ofB (id ++ szb) ++ r0) := by
    simp [List.append_assoc]
  have hpl : (pre ++ ofB (id ++ szb) ++ r0.take 2).length = pre.length + 8 + min 2 r0.length := by
    simp [hi, hz]; omega
  have hs := seek_back_cut (pre ++ ofB (id ++ szb) ++ r0.take 2) (r0.drop 2) 10 (by omega) (by omega)
  refine ⟨_, _, hs, ?_, ?_, ?_⟩
  · have := Tail.drop ht ((pre ++ ofB (id ++ szb) ++ r0.take 2).length - 10)
    rw [← hall, List.drop_append_of_le_length (by omega)] at this
    exact this
  · rw [List.length_take, List.length_append (bs := r0.drop 2), List.length_drop, List.length_drop]
    omega
  · by_cases h2 : 2 ≤ r0.length
    · left
      have e10 : (pre ++ ofB (id ++ szb) ++ r0.take 2).length - 10 = pre.length := by omega
      rw [e10]
      constructor
      · rw [List.append_assoc, List.take_left]
      · rw [List.append_assoc, List.drop_left]
        simp [List.append_assoc]
    · right
      rw [List.length_append (bs := r0.drop 2), List.length_drop, List.length_drop]
      omega

theorem idStartsWith_any (id : List UInt8) (flags : Bytes) (n : Int) (c b : UInt8) (h : id.head? = some b) :
    idStartsWith { id := ofB id, size := n, flags := flags } c = .ok (b == c) := by
  cases id with
  | nil => simp at h
  | cons x xs => simp at h; simp [idStartsWith, h]

theorem head_some_of_len {id : List UInt8} (h : id.length = 4) : ∃ b, id.head? = some b := by
  cases id with
  | nil => simp at h
  | cons b _ => exact ⟨b, rfl⟩

/-- The number of bytes between two positions of the buffer. -/
theorem csAt_take {pre a r' : Bytes} : csAt (pre ++ a) r' = csAt (pre ++ (a ++ r').take ((a ++ r').length - r'.length)) r' := by
  have : (a ++ r').length - r'.length = a.length := by rw [List.length_append]; omega
  rw [this, List.take_left]

theorem frame_parse_inv [Platform] {version : UInt8} {pre r : Bytes} {f : Frame} {cs' : CharStream} (ht : Tail (pre ++ r))
    (h10 : 10 ≤ pre.length + r.length) (hb : pre.length + r.length ≤ 2147483647)
    (e : Frame_parse (csAt pre r) version = .ok (some f, cs')) :
    ∃ r', Item version r f r' ∧ cs' = csAt (pre ++ r.take (r.length - r'.length)) r' := by
  unfold Frame_parse at e
  obtain ⟨⟨h, c⟩, hh, e⟩ := Res.bind_eq_ok.mp e
  rcases header_inv (Tail.of_append ht) hh with ⟨rfl, -⟩ | ⟨id, szb, r0, rfl, hi, hz, h0⟩
  · cases e
  have hb8 : pre.length + 8 ≤ 2147483647 := by simp [hi, hz] at hb; omega
  rw [header_cut version id szb pre r0 hi h0 hz hb8] at hh
  cases hh
  dsimp only at e
  obtain ⟨b, hhead⟩ := head_some_of_len hi
  unfold FrameHeader_isTextFrame FrameHeader_isCommentFrame FrameHeader_isApicFrame at e
  rw [idStartsWith_any _ _ _ _ _ hhead, idStartsWith_any _ _ _ _ _ hhead, idStartsWith_any _ _ _ _ _ hhead] at e
  simp only [Res.bind_ok] at e
  obtain ⟨p, q, hseek, tq, bq, hpq⟩ := rewind_cut (r0 := r0) hi hz ht h10 hb
  rw [hseek] at e
  simp only [Res.bind_ok] at e
  split at e
  · next hT =>
    obtain ⟨⟨g, c2⟩, hg, e⟩ := Res.bind_eq_ok.mp e
    cases e
    obtain ⟨id', szb', flags, enc, s, more, n, e1, i1, i2, i3, i4, i5, i6, i7, i8, rfl, rfl⟩ := text_parse_inv tq bq hg
    have hsl := Str.bytes_pos s
    rcases hpq with ⟨rfl, rfl⟩ | hq
    · have hid : id' = id := by
        have h := congrArg (List.take 4) e1
        rw [ofB_append, ofB_append, ofB_append, List.append_assoc, List.append_assoc, List.append_assoc,
          List.take_left' (by simp [hi]), List.take_left' (by simp [i1])] at h
        exact (ofB_injective h).symm
      subst hid
      rw [e1]
      refine ⟨_, Item.text id' szb' flags enc s more n ⟨i1, by rw [hhead, eq_of_beq hT]⟩ i2 i3 i4 i5 i6 i7 i8, ?_⟩
      have hre : ofB (id' ++ szb' ++ flags) ++ some enc :: (ofB s.bytes ++ more) =
          (ofB (id' ++ szb' ++ flags) ++ some enc :: (ofB s.bytes ++ more).take n) ++ (ofB s.bytes ++ more).drop n := by
        rw [List.append_assoc (ofB _), List.cons_append, List.take_append_drop]
      rw [hre, ← csAt_take]
    · rw [e1] at hq
      simp [i1, i2, i3] at hq
      omega
  · next hT =>
    split at e
    · next hC =>
      obtain ⟨⟨g, c2⟩, hg, e⟩ := Res.bind_eq_ok.mp e
      cases e
      obtain ⟨id', szb', flags, enc, lang, desc, txt, more, e1, i1, i2, i3, i4, i5, i6, i7, i8, rfl, rfl⟩ :=
        comment_parse_inv tq bq hg
      rcases hpq with ⟨rfl, rfl⟩ | hq
      · have hid : id' = id := by
          have h := congrArg (List.take 4) e1
          rw [ofB_append, ofB_append, ofB_append, List.append_assoc, List.append_assoc, List.append_assoc,
            List.take_left' (by simp [hi]), List.take_left' (by simp [i1])] at h
          exact (ofB_injective h).symm
        subst hid
        rw [e1]
        refine ⟨_, Item.comment id' szb' flags enc lang desc txt more ⟨i1, by rw [hhead, eq_of_beq hC]⟩ i2 i3 i4 i5 i6
          ⟨i7, i8⟩, ?_⟩
        have hre : ofB (id' ++ szb' ++ flags) ++ some enc :: (ofB lang ++ (ofB desc.bytes ++ (ofB txt.bytes ++ more))) =
            (ofB (id' ++ szb' ++ flags) ++ some enc :: (ofB lang ++ (ofB desc.bytes ++ ofB txt.bytes))) ++ more := by
          simp [List.append_assoc]
        rw [hre, ← csAt_take]
      · rw [e1] at hq
        simp [i1, i2, i3, i4] at hq
        omega
    · next hC =>
      split at e
      · next hA =>
        obtain ⟨⟨g, c2⟩, hg, e⟩ := Res.bind_eq_ok.mp e
        cases e
        obtain ⟨id', szb', flags, enc, mime, pt, desc, more, n, e1, i1, i2, i3, i4, i5, i6, i7, i8, i9, i10, rfl, rfl⟩ :=
          apic_parse_inv tq bq hg
        rcases hpq with ⟨rfl, rfl⟩ | hq
        · have hid : id' = id := by
            have h := congrArg (List.take 4) e1
            rw [ofB_append, ofB_append, ofB_append, List.append_assoc, List.append_assoc, List.append_assoc,
              List.take_left' (by simp [hi]), List.take_left' (by simp [i1])] at h
            exact (ofB_injective h).symm
          subst hid
          rw [e1]
          have hitem := Item.apic (version := version) id' szb' flags enc mime pt desc more n
            ⟨i1, by rw [hhead, eq_of_beq hA]⟩ i2 i3 i4 i5 ⟨i6, i7⟩ i8 ⟨i9, i10⟩
          have hfr : apicFrame flags mime pt desc (frameSize version szb') (padTo n more) =
              { header := { id := ofB apicId, size := frameSize version szb', flags := ofB flags }
                data := .apic { encoding := desc.encoding, mime_type := ofB mime.bytes, picture_type := pt,
                                description := ofB desc.bytes, data := padTo n more, picture_size := n } } := by
            unfold apicFrame
            rw [padTo_length]
          rw [hfr]
          refine ⟨_, hitem, ?_⟩
          have hre : ofB (id' ++ szb' ++ flags) ++ some enc :: (ofB mime.bytes ++ (some pt :: (ofB desc.bytes ++ more))) =
              (ofB (id' ++ szb' ++ flags) ++ some enc :: (ofB mime.bytes ++ (some pt :: (ofB desc.bytes ++ more.take n)))) ++
                more.drop n := by
            simp [List.append_assoc]
          rw [hre, ← csAt_take]
        · rw [e1] at hq
          simp [i1, i2, i3] at hq
          omega
      · next hA =>
        rw [read_cut] at e
        simp only [Res.bind_ok] at e
        rw [intoArray_padTo] at e
        cases e
        have n1 : id.head? ≠ some 0x54 := by rw [hhead]; intro h; cases h; exact hT rfl
        have n2 : id.head? ≠ some 0x43 := by rw [hhead]; intro h; cases h; exact hC rfl
        have n3 : id.head? ≠ some 0x41 := by rw [hhead]; intro h; cases h; exact hA rfl
        refine ⟨_, Item.other id szb r0 hi hz n1 n2 n3 h0, ?_⟩
        generalize (frameSize version szb).toNat = n
        have hre : ofB (id ++ szb) ++ r0 = (ofB (id ++ szb) ++ r0.take 2 ++ (r0.drop 2).take n) ++ (r0.drop 2).drop n := by
          rw [List.append_assoc, List.take_append_drop, List.append_assoc, List.take_append_drop]
        rw [hre, ← csAt_take]
        simp [List.append_assoc]

/-! ## From the grammar to the parser -/

theorem vla_fits [Platform] {n : Int} (h0 : 0 < n) (h : n ≤ Platform.stack) : vla n = .ok () := by
  unfold vla
  rw [if_neg (by omega), if_neg (by omega)]

theorem header_full [Platform] (version : UInt8) {id szb flags : List UInt8} (pre r : Bytes)
    (hi : id.length = 4) (h0 : id ≠ [0, 0, 0, 0]) (hz : szb.length = 4) (hf : flags.length = 2)
    (hb : pre.length + 8 ≤ 2147483647) :
    FrameHeader_parse (csAt pre (ofB (id ++ szb ++ flags) ++ r)) version =
      .ok (some { id := ofB id, size := frameSize version szb, flags := ofB flags },
           csAt (pre ++ ofB (id ++ szb ++ flags)) r) := by
  have e : ofB (id ++ szb ++ flags) ++ r = ofB (id ++ szb) ++ (ofB flags ++ r) := by
    simp [List.append_assoc]
  have e1 : padTo 2 (ofB flags ++ r) = ofB flags := by
    unfold padTo
    rw [List.take_left' (by simp [hf]), List.length_append, ofB_length, hf,
      show 2 - (2 + r.length) = 0 from by omega]
    simp
  rw [e, header_cut version id szb pre _ hi h0 hz hb, e1, List.take_left' (by simp [hf]), List.drop_left' (by simp [hf])]
  simp [List.append_assoc]

theorem ne_zeros_of_head {id : List UInt8} {b : UInt8} (h : id.head? = some b) (hb : b ≠ 0) : id ≠ [0, 0, 0, 0] := by
  rintro rfl
  cases h
  exact hb rfl

theorem padTo_str {n : Nat} {s : Str} {more : Bytes} (h : s.bytes.length ≤ n) :
    padTo n (ofB s.bytes ++ more) = ofB s.bytes ++ padTo (n - s.bytes.length) more := by
  unfold padTo
  rw [List.take_append, ofB_length, List.take_of_length_le (by simp; exact h), List.length_append, ofB_length,
    List.append_assoc, show n - (s.bytes.length + more.length) = n - s.bytes.length - more.length from by omega]

theorem frameSize_le (version : UInt8) {szb : List UInt8} (hz : szb.length = 4) :
    -2147483648 ≤ frameSize version szb ∧ frameSize version szb ≤ 2147483647 := by
  rw [← decSize_frameSize _ _ hz]
  unfold decSize
  have h1 := BitVec.toInt_lt (x := if version = 4 then syncint_decode (btoi_loop 0 szb) else btoi_loop 0 szb)
  have h2 := BitVec.le_toInt (x := if version = 4 then syncint_decode (btoi_loop 0 szb) else btoi_loop 0 szb)
  omega

theorem text_new_any [Platform] {id flags : List UInt8} {s : Str} {rest : Bytes} (hi : id.length = 4)
    (hf : flags.length = 2) (hs : s.WF) (hl : 1 + s.bytes.length ≤ 2147483647)
    (hm : Platform.memcmpLenient = true ∨ s ≠ .latin [] ∨ ∃ b r, rest = some b :: r) :
    TextFrame_new (ofB id) (ofB flags) (ofB s.bytes ++ rest) = .ok (SFrame.text id flags s).toFrame := by
  have hmem : MemOk (ofB s.bytes ++ rest) := by
    by_cases hn : s = .latin []
    · rcases hm with h | h | ⟨b, r, rfl⟩
      · subst hn
        exact .inl ⟨h, 0, rest, by simp [Str.bytes, Str.content, Str.terminator], by decide, by decide⟩
      · exact absurd hn h
      · subst hn
        exact .inr ⟨0, b, r, by simp [Str.bytes, Str.content, Str.terminator]⟩
    · exact memOk_of_length hn rest
  unfold TextFrame_new TextFrameData_new
  have hbl := Str.bytes_length s
  rw [string_has_bom_str hs rest hmem, strlen_str hs rest hmem (by omega)]
  simp only [Res.bind_ok, Str.encoding_ite]
  have e : ((s.content.length : Int) + if s.encoding = 0 then 1 else 2) = ((s.bytes.length : Nat) : Int) := by
    rw [Str.bytes_length]
    rcases Str.encoding_cases s with h | h <;> rw [h.1, h.2] <;> simp
  rw [e, ck_nat (by omega)]
  simp only [Res.bind_ok]
  rw [memcpySrc_append _ _ _ (by simp)]
  simp only [Res.bind_ok, Res.pure_eq]
  rw [ck_ok (by omega) (by omega)]
  have hh := header_new id flags (1 + (s.bytes.length : Int)) [] [] hi hf
  simp only [List.append_nil] at hh
  simp only [Res.bind_ok]
  rw [hh]
  have hsz : (1 : Int) + s.bytes.length = ((s.encoding :: s.bytes).length : Nat) := by
    rw [List.length_cons]; omega
  rw [hsz]
  rfl

theorem text_parse_fwd [Platform] {version : UInt8} {pre : Bytes} {id szb flags : List UInt8} {enc : UInt8} {s : Str}
    {more : Bytes} {n : Nat} (hi : id.length = 4) (h0 : id ≠ [0, 0, 0, 0]) (hz : szb.length = 4) (hf : flags.length = 2)
    (hn : frameSize version szb = 1 + n) (hst : n ≤ Platform.stack) (hs : s.WF) (hfit : s.bytes.length ≤ n)
    (hcmp : Platform.memcmpLenient = true ∨ s ≠ .latin [] ∨ (2 ≤ n ∧ ∃ b r, more = some b :: r))
    (hb : pre.length + 11 ≤ 2147483647) :
    TextFrame_parse (csAt pre (ofB (id ++ szb ++ flags) ++ some enc :: (ofB s.bytes ++ more))) version =
      .ok ((SFrame.text id flags s).toFrame,
        csAt (pre ++ (ofB (id ++ szb ++ flags) ++ some enc :: (ofB s.bytes ++ more).take n))
          ((ofB s.bytes ++ more).drop n)) := by
  have hpos := Str.bytes_pos s
  have hle := (frameSize_le version hz).2
  unfold TextFrame_parse
  rw [header_full version pre _ hi h0 hz hf (by omega)]
  simp only [Res.bind_ok]
  rw [seek_one_cut _ _ (by simp [hi, hz, hf]; omega)]
  simp only [Res.bind_ok]
  rw [hn, ck_ok (by omega) (by omega)]
  simp only [Res.bind_ok]
  rw [vla_fits (by omega) (by omega)]
  simp only [Res.bind_ok]
  rw [read_cut]
  simp only [Res.bind_ok]
  have en : ((1 : Int) + n - 1).toNat = n := by omega
  rw [intoArray_padTo, en, List.drop_succ_cons, List.drop_zero, padTo_str hfit, text_new_any hi hf hs (by omega) ?_]
  · simp [List.append_assoc]
  · rcases hcmp with h | h | ⟨h2, b, r, rfl⟩
    · exact .inl h
    · exact .inr (.inl h)
    · by_cases hs' : s = .latin []
      · subst hs'
        obtain ⟨m, rfl⟩ : ∃ m, n = m + 2 := ⟨n - 2, by omega⟩
        refine .inr (.inr ⟨b, padTo m r, ?_⟩)
        exact padTo_cons _ _ _
      · exact .inr (.inl hs')

theorem comment_parse_fwd [Platform] {version : UInt8} {pre : Bytes} {id szb flags : List UInt8} {enc : UInt8}
    {lang : List UInt8} {desc txt : Str} {more : Bytes} (hi : id.length = 4) (h0 : id ≠ [0, 0, 0, 0]) (hz : szb.length = 4)
    (hf : flags.length = 2) (hl : lang.length = 3) (hd : desc.Usable) (hx : txt.Usable)
    (hst : desc.bytes.length ≤ Platform.stack ∧ txt.bytes.length ≤ Platform.stack)
    (hb : pre.length + (14 + desc.bytes.length + txt.bytes.length) ≤ 2147483647) :
    CommentFrame_parse (csAt pre (ofB (id ++ szb ++ flags) ++ some enc :: (ofB lang ++ (ofB desc.bytes ++
      (ofB txt.bytes ++ more))))) version =
      .ok ((SFrame.comment flags lang desc txt).toFrame,
        csAt (pre ++ (ofB (id ++ szb ++ flags) ++ some enc :: (ofB lang ++ (ofB desc.bytes ++ ofB txt.bytes)))) more) := by
  have p1 := Str.bytes_pos desc
  have p2 := Str.bytes_pos txt
  unfold CommentFrame_parse
  rw [header_full version pre _ hi h0 hz hf (by omega)]
  simp only [Res.bind_ok]
  rw [seek_one_cut _ _ (by simp [hi, hz, hf]; omega)]
  simp only [Res.bind_ok, List.drop_succ_cons, List.drop_zero]
  rw [read_csAt _ _ _ _ (by simp [hl])]
  simp only [Res.bind_ok]
  rw [get_cur_csAt]
  simp only [Res.bind_ok]
  rw [strlent_usable hd]
  simp only [Res.bind_ok]
  rw [vla_fits (by omega) (by omega)]
  simp only [Res.bind_ok]
  rw [read_csAt _ _ _ _ (by simp)]
  simp only [Res.bind_ok]
  rw [get_cur_csAt]
  simp only [Res.bind_ok]
  rw [strlent_usable hx]
  simp only [Res.bind_ok]
  rw [vla_fits (by omega) (by omega)]
  simp only [Res.bind_ok]
  rw [read_csAt _ _ _ _ (by simp)]
  simp only [Res.bind_ok]
  have hu : (SFrame.comment flags lang desc txt).Usable := by
    have hwf : (SFrame.comment flags lang desc txt).WF := ⟨hf, hl, hd.1, hx.1⟩
    refine ⟨hwf, ?_, hd, hx⟩
    rw [SFrame.bytes_length _ hwf]
    simp [SFrame.body, hl]; omega
  have hcn := comment_new hu [] [] [] []
  simp only [List.append_nil] at hcn
  rw [intoArray_ofB _ _ (by simp [hl]), intoArray_ofB _ _ rfl, intoArray_ofB _ _ rfl, hcn]
  simp [List.append_assoc]

theorem apic_parse_fwd [Platform] {version : UInt8} {pre : Bytes} {id szb flags : List UInt8} {enc : UInt8} {mime : Str}
    {pt : UInt8} {desc : Str} {more : Bytes} {n : Nat} (hi : id.length = 4) (h0 : id ≠ [0, 0, 0, 0]) (hz : szb.length = 4)
    (hf : flags.length = 2) (hm : mime.Usable) (hd : desc.Usable)
    (hst : mime.bytes.length ≤ Platform.stack ∧ desc.bytes.length ≤ Platform.stack)
    (hn : frameSize version szb = (1 + mime.bytes.length + 1 + desc.bytes.length + n : Nat))
    (hn' : 0 < n ∧ n ≤ Platform.stack) (hb : pre.length + 11 ≤ 2147483647) :
    ApicFrame_parse (csAt pre (ofB (id ++ szb ++ flags) ++ some enc :: (ofB mime.bytes ++ (some pt :: (ofB desc.bytes ++
      more))))) version =
      .ok (apicFrame flags mime pt desc (frameSize version szb) (padTo n more),
        csAt (pre ++ (ofB (id ++ szb ++ flags) ++ some enc :: (ofB mime.bytes ++ (some pt :: (ofB desc.bytes ++
        more.take n))))) (more.drop n)) := by
  have p1 := Str.bytes_pos desc
  have p2 := Str.bytes_pos mime
  have hle := (frameSize_le version hz).2
  unfold ApicFrame_parse
  rw [header_full version pre _ hi h0 hz hf (by omega)]
  simp only [Res.bind_ok]
  rw [seek_one_cut _ _ (by simp [hi, hz, hf]; omega)]
  simp only [Res.bind_ok, List.drop_succ_cons, List.drop_zero]
  rw [get_cur_csAt]
  simp only [Res.bind_ok]
  rw [strlent_usable hm]
  simp only [Res.bind_ok]
  rw [vla_fits (by omega) (by omega)]
  simp only [Res.bind_ok]
  rw [read_csAt _ _ _ _ (by simp)]
  simp only [Res.bind_ok]
  rw [getc_csAt]
  simp only [Res.bind_ok]
  rw [get_cur_csAt]
  simp only [Res.bind_ok]
  rw [strlent_usable hd]
  simp only [Res.bind_ok]
  rw [vla_fits (by omega) (by omega)]
  simp only [Res.bind_ok]
  rw [read_csAt _ _ _ _ (by simp)]
  simp only [Res.bind_ok]
  rw [ck_ok (by omega) (by omega)]
  simp only [Res.bind_ok]
  rw [vla_fits (by omega) (by omega)]
  simp only [Res.bind_ok]
  rw [read_cut]
  simp only [Res.bind_ok]
  have en : (frameSize version szb - 1 - (mime.bytes.length : Int) - 1 - (desc.bytes.length : Int)) = (n : Int) := by omega
  rw [intoArray_padTo, toChar_charToInt, intoArray_ofB _ _ rfl, intoArray_ofB _ _ rfl, en, Int.toNat_natCast,
    apic_new_any (size := frameSize version szb) hf hm hd n (by rw [padTo_length]) (by omega) hle]
  simp [List.append_assoc]

/-- Every item of the grammar is read as its frame. -/
theorem frame_parse_fwd [Platform] {version : UInt8} {pre r : Bytes} {f : Frame} {r' : Bytes} (h : Item version r f r')
    (hb : pre.length + r.length ≤ 2147483647) :
    Frame_parse (csAt pre r) version = .ok (some f, csAt (pre ++ r.take (r.length - r'.length)) r') := by
  unfold Frame_parse
  cases h with
  | text id szb flags enc s more n hid hz hf hn hst hs hfit hcmp =>
    have h0 := ne_zeros_of_head hid.2 (by decide)
    have hpos := Str.bytes_pos s
    have hlen : pre.length + 11 ≤ 2147483647 := by
      simp [hid.1, hz, hf] at hb; omega
    rw [header_full version pre _ hid.1 h0 hz hf (by omega)]
    simp only [Res.bind_ok]
    unfold FrameHeader_isTextFrame
    rw [idStartsWith_any _ _ _ _ _ hid.2]
    simp only [Res.bind_ok, beq_self_eq_true, if_true]
    rw [seek_back_csAt _ _ _ _ (by simp [hid.1, hz, hf]) (by simp [hid.1, hz, hf]; omega)]
    simp only [Res.bind_ok]
    rw [text_parse_fwd hid.1 h0 hz hf hn hst hs hfit hcmp hlen]
    simp only [Res.bind_ok, Res.pure_eq]
    have hre : ofB (id ++ szb ++ flags) ++ some enc :: (ofB s.bytes ++ more) =
        (ofB (id ++ szb ++ flags) ++ some enc :: (ofB s.bytes ++ more).take n) ++ (ofB s.bytes ++ more).drop n := by
      rw [List.append_assoc (ofB _), List.cons_append, List.take_append_drop]
    rw [hre, ← csAt_take]
  | comment id szb flags enc lang desc txt more hid hz hf hl hd ht hst =>
    have h0 := ne_zeros_of_head hid.2 (by decide)
    have hlen : pre.length + (14 + desc.bytes.length + txt.bytes.length) ≤ 2147483647 := by
      simp [hid.1, hz, hf, hl] at hb; omega
    rw [header_full version pre _ hid.1 h0 hz hf (by omega)]
    simp only [Res.bind_ok]
    unfold FrameHeader_isTextFrame FrameHeader_isCommentFrame
    rw [idStartsWith_any _ _ _ _ _ hid.2, idStartsWith_any _ _ _ _ _ hid.2]
    rw [show ((0x43 : UInt8) == 0x54) = false from by decide]
    simp only [Res.bind_ok, beq_self_eq_true, if_true, Bool.false_eq_true, if_false]
    rw [seek_back_csAt _ _ _ _ (by simp [hid.1, hz, hf]) (by simp [hid.1, hz, hf]; omega)]
    simp only [Res.bind_ok]
    rw [comment_parse_fwd hid.1 h0 hz hf hl hd ht hst hlen]
    simp only [Res.bind_ok, Res.pure_eq]
    have hre : ofB (id ++ szb ++ flags) ++ some enc :: (ofB lang ++ (ofB desc.bytes ++ (ofB txt.bytes ++ r'))) =
        (ofB (id ++ szb ++ flags) ++ some enc :: (ofB lang ++ (ofB desc.bytes ++ ofB txt.bytes))) ++ r' := by
      simp [List.append_assoc]
    rw [hre, ← csAt_take]
  | apic id szb flags enc mime pt desc more n hid hz hf hm hd hst hn hn' =>
    have h0 := ne_zeros_of_head hid.2 (by decide)
    have hlen : pre.length + 11 ≤ 2147483647 := by
      simp [hid.1, hz, hf] at hb; omega
    rw [header_full version pre _ hid.1 h0 hz hf (by omega)]
    simp only [Res.bind_ok]
    unfold FrameHeader_isTextFrame FrameHeader_isCommentFrame FrameHeader_isApicFrame
    rw [idStartsWith_any _ _ _ _ _ hid.2, idStartsWith_any _ _ _ _ _ hid.2, idStartsWith_any _ _ _ _ _ hid.2]
    rw [show ((0x41 : UInt8) == 0x54) = false from by decide, show ((0x41 : UInt8) == 0x43) = false from by decide]
    simp only [Res.bind_ok, beq_self_eq_true, if_true, Bool.false_eq_true, if_false]
    rw [seek_back_csAt _ _ _ _ (by simp [hid.1, hz, hf]) (by simp [hid.1, hz, hf]; omega)]
    simp only [Res.bind_ok]
    rw [apic_parse_fwd hid.1 h0 hz hf hm hd hst hn hn' hlen]
    simp only [Res.bind_ok, Res.pure_eq]
    have hfr : apicFrame flags mime pt desc (frameSize version szb) (padTo n more) =
        { header := { id := ofB apicId, size := frameSize version szb, flags := ofB flags }
          data := .apic { encoding := desc.encoding, mime_type := ofB mime.bytes, picture_type := pt,
                          description := ofB desc.bytes, data := padTo n more, picture_size := n } } := by
      unfold apicFrame
      rw [padTo_length]
    rw [hfr]
    have hre : ofB (id ++ szb ++ flags) ++ some enc :: (ofB mime.bytes ++ (some pt :: (ofB desc.bytes ++ more))) =
        (ofB (id ++ szb ++ flags) ++ some enc :: (ofB mime.bytes ++ (some pt :: (ofB desc.bytes ++ more.take n)))) ++
          more.drop n := by
      simp [List.append_assoc]
    rw [hre, ← csAt_take]
  | other id szb more hid hz hT hC hA h0 =>
    have hlen : pre.length + 8 ≤ 2147483647 := by
      simp [hid, hz] at hb; omega
    obtain ⟨b, hhead⟩ := head_some_of_len hid
    rw [header_cut version id szb pre more hid h0 hz hlen]
    simp only [Res.bind_ok]
    unfold FrameHeader_isTextFrame FrameHeader_isCommentFrame FrameHeader_isApicFrame
    rw [idStartsWith_any _ _ _ _ _ hhead, idStartsWith_any _ _ _ _ _ hhead, idStartsWith_any _ _ _ _ _ hhead]
    have n1 : (b == 0x54) = false := by rw [beq_eq_false_iff_ne]; rintro rfl; exact hT hhead
    have n2 : (b == 0x43) = false := by rw [beq_eq_false_iff_ne]; rintro rfl; exact hC hhead
    have n3 : (b == 0x41) = false := by rw [beq_eq_false_iff_ne]; rintro rfl; exact hA hhead
    rw [n1, n2, n3]
    simp only [Res.bind_ok, Bool.false_eq_true, if_false]
    rw [read_cut]
    simp only [Res.bind_ok, Res.pure_eq]
    rw [intoArray_padTo]
    generalize (frameSize version szb).toNat = n
    have hre : ofB (id ++ szb) ++ more = (ofB (id ++ szb) ++ more.take 2 ++ (more.drop 2).take n) ++ (more.drop 2).drop n := by
      rw [List.append_assoc, List.take_append_drop, List.append_assoc, List.take_append_drop]
    rw [hre, ← csAt_take]
    simp [List.append_assoc]

end Id3
