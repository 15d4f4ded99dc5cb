import Verif.Spec.Repr

/-!
# Lemmas about the string functions
-/

namespace Id3

open Spec

@[simp] theorem ofB_append (a b : List UInt8) : ofB (a ++ b) = ofB a ++ ofB b := by simp [ofB]
@[simp] theorem ofB_cons (a : UInt8) (b : List UInt8) : ofB (a :: b) = some a :: ofB b := rfl
@[simp] theorem ofB_nil : ofB [] = [] := rfl
@[simp] theorem ofB_length (a : List UInt8) : (ofB a).length = a.length := by simp [ofB]
theorem ofB_injective {a b : List UInt8} (h : ofB a = ofB b) : a = b := by
  induction a generalizing b with
  | nil => cases b <;> simp_all
  | cons x xs ih => cases b with
    | nil => simp at h
    | cons y ys => simp at h; rw [h.1, ih h.2]
@[simp] theorem ofB_inj {a b : List UInt8} : ofB a = ofB b ↔ a = b := ⟨ofB_injective, fun h => h ▸ rfl⟩

theorem ofB_take (a : List UInt8) (n : Nat) : (ofB a).take n = ofB (a.take n) := by simp [ofB]
theorem ofB_drop (a : List UInt8) (n : Nat) : (ofB a).drop n = ofB (a.drop n) := by simp [ofB]
theorem ofB_replicate (n : Nat) (x : UInt8) : ofB (List.replicate n x) = List.replicate n (some x) := by
  simp [ofB]

@[simp] theorem load_some (b : UInt8) : load (some b) = .ok b := rfl
@[simp] theorem load_none : load none = .ub .uninit := rfl

/-- The two bytes `memcmp` looks at are there (or it does not insist). -/
def MemOk [Platform] (p : Bytes) : Prop :=
  (Platform.memcmpLenient = true ∧ ∃ b r, p = some b :: r ∧ b ≠ 0xFF ∧ b ≠ 0xFE) ∨
    ∃ a b r, p = some a :: some b :: r

theorem string_has_bom_two [Platform] (a b : UInt8) (r : Bytes) :
    string_has_bom (some a :: some b :: r) =
      .ok (decide ((a = 0xFF ∧ b = 0xFE) ∨ (a = 0xFE ∧ b = 0xFF))) := by
  unfold string_has_bom memcmpEq
  by_cases hl : Platform.memcmpLenient = true
  · simp only [hl, if_true, memcmpSeq, load_some, Res.bind_ok]
    by_cases h1 : a = 0xFF
    · subst h1
      by_cases h2 : b = 0xFE <;> simp [h2]
    · by_cases h2 : a = 0xFE
      · subst h2
        by_cases h3 : b = 0xFF <;> simp [h3]
      · simp [h1, h2]
  · have h0 : (Platform.memcmpLenient = true) = False := by simp [hl]
    have hlen : ¬ (some a :: some b :: r : Bytes).length < [0xFF, (0xFE : UInt8)].length := by simp
    have hlen' : ¬ (some a :: some b :: r : Bytes).length < [0xFE, (0xFF : UInt8)].length := by simp
    simp only [h0, if_false, if_neg hlen, if_neg hlen']
    by_cases h1 : a = 0xFF
    · subst h1
      by_cases h2 : b = 0xFE <;> simp [h2, ofB]
    · by_cases h2 : a = 0xFE
      · subst h2
        by_cases h3 : b = 0xFF <;> simp [h3, ofB]
      · simp [h1, h2, ofB]

theorem string_has_bom_one [Platform] (hl : Platform.memcmpLenient = true) (b : UInt8) (r : Bytes)
    (h1 : b ≠ 0xFF) (h2 : b ≠ 0xFE) : string_has_bom (some b :: r) = .ok false := by
  simp [string_has_bom, memcmpEq, hl, memcmpSeq, h1, h2]

theorem c_strlen_str (chars : List UInt8) (h : 0 ∉ chars) (rest : Bytes) :
    c_strlen (ofB chars ++ some 0 :: rest) = .ok chars.length := by
  induction chars with
  | nil => simp [c_strlen]
  | cons c cs ih =>
    simp only [List.mem_cons, not_or] at h
    simp [c_strlen, ih h.2, Ne.symm h.1]

theorem utf16_scan_str (units : List (UInt8 × UInt8)) (h : (0, 0) ∉ units) (rest : Bytes) :
    utf16_scan (ofB (units.flatMap (fun u => [u.1, u.2])) ++ some 0 :: some 0 :: rest) =
      .ok (2 * units.length) := by
  induction units with
  | nil => simp [utf16_scan]
  | cons u us ih =>
    simp only [List.mem_cons, not_or] at h
    obtain ⟨a, b⟩ := u
    have hne : ¬ (a = 0 ∧ b = 0) := by
      rintro ⟨rfl, rfl⟩; exact h.1 rfl
    simp [utf16_scan, ih h.2, hne]
    omega

@[simp] theorem Str.bom_length (le : Bool) : (Str.bom le).length = 2 := by cases le <;> rfl

theorem flat_length (units : List (UInt8 × UInt8)) :
    (units.flatMap (fun u => [u.1, u.2])).length = 2 * units.length := by
  induction units with
  | nil => rfl
  | cons u us ih => simp at ih ⊢; omega

/-- Only the empty ISO string in an object of one byte (or followed by an indeterminate one) is a problem. -/
theorem memOk_of_usable [Platform] {s : Str} (h : s.Usable) (rest : Bytes) : MemOk (ofB s.bytes ++ rest) := by
  obtain ⟨_, _, h2⟩ := h
  cases s with
  | latin chars =>
    cases chars with
    | nil =>
      left
      refine ⟨by simpa using h2, 0, rest, by simp [Str.bytes, Str.content, Str.terminator], by decide, by decide⟩
    | cons c cs =>
      right
      cases cs with
      | nil => exact ⟨c, 0, rest, by simp [Str.bytes, Str.content, Str.terminator]⟩
      | cons d ds =>
        exact ⟨c, d, ofB ds ++ some 0 :: rest, by simp [Str.bytes, Str.content, Str.terminator]⟩
  | utf16 le units =>
    right
    cases le <;> simp [Str.bytes, Str.content, Str.terminator, Str.bom]

/-- A string of more than one byte is no problem, however long it is. -/
theorem memOk_of_length [Platform] {s : Str} (h : s ≠ .latin []) (rest : Bytes) : MemOk (ofB s.bytes ++ rest) := by
  right
  cases s with
  | latin chars =>
    cases chars with
    | nil => exact absurd rfl h
    | cons c cs =>
      cases cs with
      | nil => exact ⟨c, 0, rest, by simp [Str.bytes, Str.content, Str.terminator]⟩
      | cons d ds =>
        exact ⟨c, d, ofB ds ++ some 0 :: rest, by simp [Str.bytes, Str.content, Str.terminator]⟩
  | utf16 le units => cases le <;> simp [Str.bytes, Str.content, Str.terminator, Str.bom]

theorem string_has_bom_str [Platform] {s : Str} (hw : s.WF) (rest : Bytes) (hm : MemOk (ofB s.bytes ++ rest)) :
    string_has_bom (ofB s.bytes ++ rest) = .ok (decide (s.encoding = 1)) := by
  cases s with
  | utf16 le units =>
    cases le <;> simp [Str.bytes, Str.content, Str.bom, string_has_bom_two, Str.encoding]
  | latin chars =>
    simp only [Str.WF] at hw
    obtain ⟨h0, h1, h2⟩ := hw
    have henc : decide ((Str.latin chars).encoding = 1) = false := by simp [Str.encoding]
    rw [henc]
    cases chars with
    | nil =>
      rcases hm with ⟨hl, b, r, hb, h3, h4⟩ | ⟨a, b, r, hb⟩
      · rw [hb]; exact string_has_bom_one hl b r h3 h4
      · rw [hb, string_has_bom_two]
        simp [Str.bytes, Str.content, Str.terminator] at hb
        simp [← hb.1]
    | cons c cs =>
      cases cs with
      | nil => simp [Str.bytes, Str.content, Str.terminator, string_has_bom_two]
      | cons d ds =>
        simp [Str.bytes, Str.content, Str.terminator, string_has_bom_two]
        simp [Str.bom] at h1 h2
        exact ⟨h1, h2⟩

theorem ck_ok {n : Int} (h1 : -2147483648 ≤ n) (h2 : n ≤ 2147483647) : ck n = .ok n := by
  simp [ck, h1, h2]

theorem ck_nat {n : Nat} (h2 : n ≤ 2147483647) : ck (n : Int) = .ok (n : Int) :=
  ck_ok (by omega) (by omega)

theorem Str.bytes_length (s : Str) : s.bytes.length = s.content.length + s.terminator.length := by
  simp [Str.bytes]

theorem utf16_scan_utf16 (le : Bool) (units : List (UInt8 × UInt8)) (h : (0, 0) ∉ units) (rest : Bytes) :
    utf16_scan (ofB (Str.utf16 le units).bytes ++ rest) = .ok (Str.utf16 le units).content.length := by
  have h1 := utf16_scan_str units h rest
  have h2 := flat_length units
  cases le
  · simp only [Str.bytes, Str.content, Str.bom, Str.terminator, ofB_append, ofB_cons, ofB_nil, List.append_assoc,
      List.cons_append, List.nil_append, Bool.false_eq_true, if_false, utf16_scan, load_some, Res.bind_ok]
    rw [h1]
    simp only [Res.bind_ok, List.length_cons, h2]
    rfl
  · simp only [Str.bytes, Str.content, Str.bom, Str.terminator, ofB_append, ofB_cons, ofB_nil, List.append_assoc,
      List.cons_append, List.nil_append, if_true, utf16_scan, load_some, Res.bind_ok]
    rw [h1]
    simp only [Res.bind_ok, List.length_cons, h2]
    rfl

theorem strlen_str [Platform] {s : Str} (hw : s.WF) (rest : Bytes) (hm : MemOk (ofB s.bytes ++ rest))
    (hl : s.content.length ≤ 2147483647) :
    ID3v2_strlen (ofB s.bytes ++ rest) = .ok (s.content.length : Int) := by
  unfold ID3v2_strlen
  rw [string_has_bom_str hw rest hm]
  cases s with
  | latin chars =>
    have e : ofB (Str.latin chars).bytes ++ rest = ofB chars ++ some 0 :: rest := by
      simp [Str.bytes, Str.content, Str.terminator]
    have hc : ck (chars.length : Int) = .ok (chars.length : Int) := ck_nat hl
    rw [e, c_strlen_str chars hw.1 rest]
    simp [Str.encoding, Str.content, hc]
  | utf16 le units =>
    have e := utf16_scan_utf16 le units hw rest
    have hc := ck_nat hl
    simp only [Str.encoding, Res.bind_ok, decide_true, if_true, e]
    exact hc

theorem strlent_str [Platform] {s : Str} (hw : s.WF) (rest : Bytes) (hm : MemOk (ofB s.bytes ++ rest))
    (hl : s.bytes.length ≤ 2147483647) :
    ID3v2_strlent (ofB s.bytes ++ rest) = .ok (s.bytes.length : Int) := by
  have hlen := Str.bytes_length s
  unfold ID3v2_strlent
  rw [string_has_bom_str hw rest hm]
  simp only [Res.bind_ok]
  rw [strlen_str hw rest hm (by omega)]
  have : (s.bytes.length : Int) = (s.content.length : Int) + (if decide (s.encoding = 1) = true then 2 else 1) := by
    rw [hlen]
    cases s <;> simp [Str.encoding, Str.terminator]
  simp only [Res.bind_ok]
  rw [← this]
  exact ck_nat hl

/-! ## Versions for usable strings -/

theorem has_bom_usable [Platform] {s : Str} (h : s.Usable) (rest : Bytes) :
    string_has_bom (ofB s.bytes ++ rest) = .ok (decide (s.encoding = 1)) :=
  string_has_bom_str h.1 rest (memOk_of_usable h rest)

theorem strlen_usable [Platform] {s : Str} (h : s.Usable) (rest : Bytes) :
    ID3v2_strlen (ofB s.bytes ++ rest) = .ok (s.content.length : Int) :=
  strlen_str h.1 rest (memOk_of_usable h rest) (by have := h.2.1; rw [Str.bytes_length] at this; omega)

theorem strlent_usable [Platform] {s : Str} (h : s.Usable) (rest : Bytes) :
    ID3v2_strlent (ofB s.bytes ++ rest) = .ok (s.bytes.length : Int) :=
  strlent_str h.1 rest (memOk_of_usable h rest) h.2.1

theorem memcpySrc_append (a rest : Bytes) (n : Int) (h : n = a.length) : memcpySrc (a ++ rest) n = .ok a := by
  subst h
  unfold memcpySrc
  rw [if_neg (by omega), if_neg (by simp; omega)]
  simp

theorem memcpySrc_self (a : Bytes) (n : Int) (h : n = a.length) : memcpySrc a n = .ok a := by
  have := memcpySrc_append a [] n h
  simpa using this

/-! ## The converse: when the length functions return, there was a terminated string -/

theorem c_strlen_inv (p : Bytes) (n : Nat) (h : c_strlen p = .ok n) :
    ∃ chars rest, p = ofB chars ++ some 0 :: rest ∧ 0 ∉ chars ∧ n = chars.length := by
  induction p generalizing n with
  | nil => simp [c_strlen] at h
  | cons b bs ih =>
    cases b with
    | none => simp [c_strlen] at h
    | some v =>
      simp only [c_strlen, load_some, Res.bind_ok] at h
      by_cases hv : v = 0
      · rw [if_pos hv] at h
        simp at h
        exact ⟨[], bs, by simp [hv], by simp, by simp [← h]⟩
      · rw [if_neg hv] at h
        simp only [Res.bind_eq_ok, Res.pure_eq] at h
        obtain ⟨m, hm, hn⟩ := h
        obtain ⟨chars, rest, h1, h2, h3⟩ := ih m hm
        refine ⟨v :: chars, rest, by simp [h1], ?_, ?_⟩
        · simp [h2]; exact fun e => hv e.symm
        · simp at hn; simp [← hn, h3]

theorem utf16_scan_inv (p : Bytes) (n : Nat) (h : utf16_scan p = .ok n) :
    ∃ (units : List (UInt8 × UInt8)) (rest : Bytes),
      p = ofB (units.flatMap (fun u => [u.1, u.2])) ++ some 0 :: some 0 :: rest ∧ (0, 0) ∉ units ∧
        n = 2 * units.length := by
  induction p using utf16_scan.induct generalizing n with
  | case1 a b rest ih =>
    cases a with
    | none => simp [utf16_scan] at h
    | some va =>
      cases b with
      | none => simp [utf16_scan] at h
      | some vb =>
        simp only [utf16_scan, load_some, Res.bind_ok] at h
        by_cases hv : va = 0 ∧ vb = 0
        · rw [if_pos hv] at h
          simp at h
          exact ⟨[], rest, by simp [hv.1, hv.2], by simp, by simp [← h]⟩
        · rw [if_neg hv] at h
          simp only [Res.bind_eq_ok, Res.pure_eq] at h
          obtain ⟨m, hm, hn⟩ := h
          obtain ⟨units, rest', h1, h2, h3⟩ := ih m hm
          refine ⟨(va, vb) :: units, rest', by simp [h1], ?_, ?_⟩
          · simp only [List.mem_cons, not_or]
            refine ⟨?_, h2⟩
            intro e; cases e; exact hv ⟨rfl, rfl⟩
          · simp at hn; simp [← hn, h3]; omega
  | case2 t ht =>
    rw [utf16_scan] at h
    · simp at h
    · exact ht

theorem memcmpSeq_inv (p : Bytes) (lit : List UInt8) (h : memcmpSeq p lit = .ok true) :
    ∃ rest, p = ofB lit ++ rest := by
  induction lit generalizing p with
  | nil => exact ⟨p, by simp⟩
  | cons l ls ih =>
    cases p with
    | nil => simp [memcmpSeq] at h
    | cons b bs =>
      cases b with
      | none => simp [memcmpSeq] at h
      | some v =>
        simp only [memcmpSeq, load_some, Res.bind_ok] at h
        by_cases hv : v = l
        · rw [if_pos hv] at h
          obtain ⟨rest, hr⟩ := ih bs h
          exact ⟨rest, by simp [hv, hr]⟩
        · rw [if_neg hv] at h; simp at h

theorem memcmpEq_inv [Platform] (p : Bytes) (lit : List UInt8) (h : memcmpEq p lit = .ok true) :
    ∃ rest, p = ofB lit ++ rest := by
  unfold memcmpEq at h
  split at h
  · exact memcmpSeq_inv p lit h
  · split at h
    · simp at h
    · split at h
      · simp at h
      · simp at h
        exact ⟨p.drop lit.length, by rw [← h]; simp⟩

theorem memcmpSeq_false (a lit : List UInt8) (rest : Bytes) (hl : lit ≠ []) (h : memcmpSeq (ofB a ++ some 0 :: rest) lit = .ok false)
    (hlit : 0 ∉ lit) : a.take lit.length ≠ lit := by
  induction lit generalizing a with
  | nil => exact absurd rfl hl
  | cons l ls ih =>
    cases a with
    | nil => simp
    | cons x xs =>
      simp only [ofB_cons, List.cons_append, memcmpSeq, load_some, Res.bind_ok] at h
      by_cases hx : x = l
      · rw [if_pos hx] at h
        cases ls with
        | nil => simp [memcmpSeq] at h
        | cons l' ls' =>
          have := ih xs (by simp) h (by simp at hlit ⊢; exact hlit.2)
          simp only [List.length_cons, List.take_succ_cons] at this ⊢
          simp only [ne_eq, List.cons.injEq, not_and]
          intro _; exact this
      · simp [hx]

theorem memcmpEq_false [Platform] (a lit : List UInt8) (rest : Bytes) (hl : lit ≠ [])
    (h : memcmpEq (ofB a ++ some 0 :: rest) lit = .ok false) (hlit : 0 ∉ lit) : a.take lit.length ≠ lit := by
  unfold memcmpEq at h
  split at h
  · exact memcmpSeq_false a lit rest hl h hlit
  · split at h
    · simp at h
    · split at h
      · simp at h
      · simp only [Res.ok.injEq, beq_eq_false_iff_ne] at h
        intro e
        apply h
        have hlen : lit.length ≤ a.length := by
          have := congrArg List.length e
          simp at this; omega
        have : (ofB a ++ some 0 :: rest).take lit.length = (ofB a).take lit.length := by
          rw [List.take_append_of_le_length (by simpa using hlen)]
        rw [this, ofB_take, e]

theorem string_has_bom_false [Platform] (a : List UInt8) (rest : Bytes)
    (h : string_has_bom (ofB a ++ some 0 :: rest) = .ok false) :
    a.take 2 ≠ Str.bom true ∧ a.take 2 ≠ Str.bom false := by
  unfold string_has_bom at h
  simp only [Res.bind_eq_ok] at h
  obtain ⟨b1, h1, h⟩ := h
  cases b1 with
  | true => simp at h
  | false =>
    simp only [Bool.false_eq_true, if_false, Res.bind_eq_ok] at h
    obtain ⟨b2, h2, h⟩ := h
    cases b2 with
    | true => simp at h
    | false =>
      exact ⟨memcmpEq_false a _ rest (by simp) h1 (by decide), memcmpEq_false a _ rest (by simp) h2 (by decide)⟩

theorem string_has_bom_true [Platform] (p : Bytes) (h : string_has_bom p = .ok true) :
    ∃ le rest, p = ofB (Str.bom le) ++ rest := by
  unfold string_has_bom at h
  simp only [Res.bind_eq_ok] at h
  obtain ⟨b1, h1, h⟩ := h
  cases b1 with
  | true =>
    obtain ⟨rest, hr⟩ := memcmpEq_inv _ _ h1
    exact ⟨true, rest, hr⟩
  | false =>
    simp only [Bool.false_eq_true, if_false, Res.bind_eq_ok] at h
    obtain ⟨b2, h2, h⟩ := h
    cases b2 with
    | true =>
      obtain ⟨rest, hr⟩ := memcmpEq_inv _ _ h2
      exact ⟨false, rest, hr⟩
    | false => simp at h

theorem ck_inv {n m : Int} (h : ck n = .ok m) : m = n ∧ -2147483648 ≤ n ∧ n ≤ 2147483647 := by
  unfold ck at h
  split at h
  · next hc => simp at h; exact ⟨h.symm, hc⟩
  · simp at h

/-- When `ID3v2_strlen` returns, the memory starts with a well-formed string of that length. -/
theorem strlen_inv [Platform] (p : Bytes) (n : Int) (h : ID3v2_strlen p = .ok n) :
    ∃ (s : Str) (rest : Bytes), p = ofB s.bytes ++ rest ∧ s.WF ∧ n = s.content.length ∧
      string_has_bom p = .ok (decide (s.encoding = 1)) := by
  unfold ID3v2_strlen at h
  simp only [Res.bind_eq_ok] at h
  obtain ⟨b, hb, h⟩ := h
  cases b with
  | true =>
    simp only [if_true, Res.bind_eq_ok] at h
    obtain ⟨m, hm, h⟩ := h
    obtain ⟨le, rest0, hr0⟩ := string_has_bom_true p hb
    obtain ⟨units, rest, hu, h0, hl⟩ := utf16_scan_inv p m hm
    have hn := (ck_inv h).1
    cases units with
    | nil =>
      rw [hu] at hr0
      cases le <;> simp [Str.bom] at hr0
    | cons u us =>
      refine ⟨.utf16 le us, rest, ?_, ?_, ?_, ?_⟩
      · rw [hu]
        rw [hu] at hr0
        have : u = ((Str.bom le)[0]!, (Str.bom le)[1]!) := by
          cases le <;> simp [Str.bom] at hr0 <;> (obtain ⟨a, b⟩ := u; simp [Str.bom]; simp at hr0; exact ⟨hr0.1, hr0.2.1⟩)
        subst this
        cases le <;> simp [Str.bytes, Str.content, Str.terminator, Str.bom]
      · simp only [Str.WF]; simp at h0; exact h0.2
      · have := flat_length us
        rw [hn, hl]
        simp only [Str.content, List.length_append, Str.bom_length, flat_length, List.length_cons]
        omega
      · rw [hb]; simp [Str.encoding]
  | false =>
    simp only [Bool.false_eq_true, if_false, Res.bind_eq_ok] at h
    obtain ⟨m, hm, h⟩ := h
    obtain ⟨chars, rest, hu, h0, hl⟩ := c_strlen_inv p m hm
    have hn := (ck_inv h).1
    have hb' := hb
    rw [hu] at hb'
    have hnb := string_has_bom_false chars rest hb'
    refine ⟨.latin chars, rest, by simp [hu, Str.bytes, Str.content, Str.terminator], ⟨h0, hnb⟩, ?_, ?_⟩
    · rw [hn, hl]; rfl
    · rw [hb]; simp [Str.encoding]

theorem strlent_inv [Platform] (p : Bytes) (n : Int) (h : ID3v2_strlent p = .ok n) :
    ∃ (s : Str) (rest : Bytes), p = ofB s.bytes ++ rest ∧ s.WF ∧ n = s.bytes.length := by
  unfold ID3v2_strlent at h
  simp only [Res.bind_eq_ok] at h
  obtain ⟨b, hb, m, hm, h⟩ := h
  obtain ⟨s, rest, h1, h2, h3, h4⟩ := strlen_inv p m hm
  refine ⟨s, rest, h1, h2, ?_⟩
  have hn := (ck_inv h).1
  rw [hb] at h4
  simp only [Res.ok.injEq] at h4
  rw [hn, h3, Str.bytes_length, h4]
  cases s <;> simp [Str.encoding, Str.terminator]

end Id3
