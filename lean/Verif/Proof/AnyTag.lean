import Verif.Proof.Any

/-!
# The loop over the frames and the whole tag, on arbitrary bytes
-/

namespace Id3

open Spec

theorem item_length [Platform] {version : UInt8} {r : Bytes} {f : Frame} {r' : Bytes} (h : Item version r f r') :
    r'.length + 8 ≤ r.length := by
  cases h with
  | text id szb flags enc s more n hid hz hf =>
    simp [hid.1, hz, hf]; omega
  | comment id szb flags enc lang desc txt more hid hz hf =>
    simp [hid.1, hz, hf]; omega
  | apic id szb flags enc mime pt desc more n hid hz hf =>
    simp [hid.1, hz, hf]; omega
  | other id szb more hid hz => simp [hid, hz]; omega

theorem item_suffix [Platform] {version : UInt8} {r : Bytes} {f : Frame} {r' : Bytes} (h : Item version r f r') :
    r.drop (r.length - r'.length) = r' := by
  have key : ∀ a b : Bytes, (a ++ b).drop ((a ++ b).length - b.length) = b := by
    intro a b
    rw [List.length_append, Nat.add_sub_cancel, List.drop_left]
  cases h with
  | text id szb flags enc s more n =>
    have hre : ofB (id ++ szb ++ flags) ++ some enc :: (ofB s.bytes ++ more) =
        (ofB (id ++ szb ++ flags) ++ some enc :: (ofB s.bytes ++ more).take n) ++ (ofB s.bytes ++ more).drop n := by
      rw [List.append_assoc (ofB _), List.cons_append, List.take_append_drop]
    rw [hre]; exact key _ _
  | comment id szb flags enc lang desc txt more =>
    have hre : ofB (id ++ szb ++ flags) ++ some enc :: (ofB lang ++ (ofB desc.bytes ++ (ofB txt.bytes ++ r'))) =
        (ofB (id ++ szb ++ flags) ++ some enc :: (ofB lang ++ (ofB desc.bytes ++ ofB txt.bytes))) ++ r' := by
      simp [List.append_assoc]
    rw [hre]; exact key _ _
  | apic id szb flags enc mime pt desc more n =>
    have hre : ofB (id ++ szb ++ flags) ++ some enc :: (ofB mime.bytes ++ (some pt :: (ofB desc.bytes ++ more))) =
        (ofB (id ++ szb ++ flags) ++ some enc :: (ofB mime.bytes ++ (some pt :: (ofB desc.bytes ++ more.take n)))) ++
          more.drop n := by
      simp [List.append_assoc]
    rw [hre]; exact key _ _
  | other id szb more =>
    have hre : ofB (id ++ szb) ++ more = (ofB (id ++ szb) ++ more.take 2 ++
        (more.drop 2).take (frameSize version szb).toNat) ++ (more.drop 2).drop (frameSize version szb).toNat := by
      rw [List.append_assoc, List.take_append_drop, List.append_assoc, List.take_append_drop]
    rw [hre]; exact key _ _

theorem frame_parse_none_inv [Platform] {version : UInt8} {pre r : Bytes} {cs' : CharStream} (ht : Tail r)
    (hb : pre.length + r.length ≤ 2147483647) (e : Frame_parse (csAt pre r) version = .ok (none, cs')) :
    (∃ r', r = ofB [0, 0, 0, 0] ++ r') ∧ cs' = csAt pre r := by
  have e' := e
  unfold Frame_parse at e'
  obtain ⟨⟨h, c⟩, hh, e'⟩ := Res.bind_eq_ok.mp e'
  cases h with
  | none =>
    rcases header_inv ht hh with ⟨-, r', rfl⟩ | ⟨id, szb, r0, rfl, hi, hz, h0⟩
    · refine ⟨⟨r', rfl⟩, ?_⟩
      rw [frame_parse_zero _ _ _ (by rw [List.length_append, ofB_length] at hb; simp at hb; omega)] at e
      cases e; rfl
    · rw [header_cut version id szb pre r0 hi h0 hz (by simp [hi, hz] at hb; omega)] at hh
      cases hh
  | some h =>
    exfalso
    dsimp only at e'
    obtain ⟨b1, -, e'⟩ := Res.bind_eq_ok.mp e'
    split at e'
    · obtain ⟨_, -, e'⟩ := Res.bind_eq_ok.mp e'
      obtain ⟨_, -, e'⟩ := Res.bind_eq_ok.mp e'
      cases e'
    · obtain ⟨b2, -, e'⟩ := Res.bind_eq_ok.mp e'
      split at e'
      · obtain ⟨_, -, e'⟩ := Res.bind_eq_ok.mp e'
        obtain ⟨_, -, e'⟩ := Res.bind_eq_ok.mp e'
        cases e'
      · obtain ⟨b3, -, e'⟩ := Res.bind_eq_ok.mp e'
        split at e'
        · obtain ⟨_, -, e'⟩ := Res.bind_eq_ok.mp e'
          obtain ⟨_, -, e'⟩ := Res.bind_eq_ok.mp e'
          cases e'
        · obtain ⟨_, -, e'⟩ := Res.bind_eq_ok.mp e'
          cases e'

theorem loop_inv [Platform] {version : UInt8} {size : Nat} (fuel : Nat) {pre r : Bytes} {l l' : FrameList}
    {cs' : CharStream} (ht : Tail (pre ++ r)) (h10 : 10 ≤ pre.length + r.length)
    (hb : pre.length + r.length ≤ 2147483647)
    (e : Tag_parse_loop fuel (csAt pre r) size version l = .ok (l', cs')) :
    ∃ fs c', Items version size pre.length r fs c' ∧ l' = fs.foldl FrameList_add_frame l ∧ cs'.cursor = (c' : Int) ∧
      cs'.size = ((pre.length + r.length : Nat) : Int) := by
  induction fuel generalizing pre r l with
  | zero => cases e
  | succ k ih =>
    unfold Tag_parse_loop at e
    have hc : u32 (csAt pre r).cursor = pre.length := u32_cursor (by omega)
    rw [hc] at e
    split at e
    · next hlt =>
      obtain ⟨⟨f, c⟩, hf, e⟩ := Res.bind_eq_ok.mp e
      cases f with
      | none =>
        obtain ⟨⟨r', rfl⟩, rfl⟩ := frame_parse_none_inv (Tail.of_append ht) hb hf
        cases e
        exact ⟨[], _, .padding _ _ hlt, rfl, rfl, by simp [csAt]⟩
      | some f =>
        dsimp only at e
        obtain ⟨r', hi, rfl⟩ := frame_parse_inv ht h10 hb hf
        have hsuf := item_suffix hi
        have hl := item_length hi
        have hall : (pre ++ r.take (r.length - r'.length)) ++ r' = pre ++ r := by
          have h := List.take_append_drop (r.length - r'.length) r
          rw [hsuf] at h
          rw [List.append_assoc, h]
        have hpl : (pre ++ r.take (r.length - r'.length)).length = pre.length + (r.length - r'.length) := by
          rw [List.length_append, List.length_take]; omega
        obtain ⟨fs, c', h1, h2, h3, h4⟩ := ih (by rw [hall]; exact ht) (by rw [hpl]; omega) (by rw [hpl]; omega) e
        rw [hpl] at h1
        refine ⟨f :: fs, c', .frame _ _ _ _ _ _ hlt hi h1, h2, h3, ?_⟩
        rw [h4, hpl]; omega
    · next hge =>
      cases e
      exact ⟨[], _, .stop _ _ (by omega), rfl, rfl, by simp [csAt]⟩

theorem loop_fwd [Platform] {version : UInt8} {size c : Nat} {r : Bytes} {fs : List Frame} {c' : Nat}
    (h : Items version size c r fs c') (fuel : Nat) (pre : Bytes) (l : FrameList) (hc : pre.length = c)
    (hb : pre.length + r.length ≤ 2147483647) (hf : r.length < fuel) :
    ∃ p q, Tag_parse_loop fuel (csAt pre r) size version l = .ok (fs.foldl FrameList_add_frame l, csAt p q) ∧
      p.length = c' ∧ p.length + q.length = pre.length + r.length := by
  induction h generalizing fuel pre l with
  | stop c r h =>
    obtain ⟨k, rfl⟩ : ∃ k, fuel = k + 1 := ⟨fuel - 1, by omega⟩
    refine ⟨pre, r, ?_, hc, rfl⟩
    unfold Tag_parse_loop
    rw [if_neg]
    · rfl
    · have : u32 (csAt pre r).cursor = pre.length := u32_cursor (by omega)
      omega
  | padding c r h =>
    obtain ⟨k, rfl⟩ : ∃ k, fuel = k + 1 := ⟨fuel - 1, by omega⟩
    refine ⟨pre, ofB [0, 0, 0, 0] ++ r, ?_, hc, rfl⟩
    unfold Tag_parse_loop
    have : u32 (csAt pre (ofB [0, 0, 0, 0] ++ r)).cursor = pre.length := u32_cursor (by omega)
    rw [if_pos (by omega), frame_parse_zero _ _ _ (by rw [List.length_append, ofB_length] at hb; simp at hb; omega)]
    rfl
  | frame c r f r' fs c' h hi hs ih =>
    obtain ⟨k, rfl⟩ : ∃ k, fuel = k + 1 := ⟨fuel - 1, by omega⟩
    have hl := item_length hi
    have hpl : (pre ++ r.take (r.length - r'.length)).length = pre.length + (r.length - r'.length) := by
      rw [List.length_append, List.length_take]; omega
    obtain ⟨p, q, h1, h2, h3⟩ := ih k (pre ++ r.take (r.length - r'.length)) (FrameList_add_frame l f) (by omega)
      (by omega) (by omega)
    refine ⟨p, q, ?_, h2, by omega⟩
    unfold Tag_parse_loop
    have : u32 (csAt pre r).cursor = pre.length := u32_cursor (by omega)
    rw [if_pos (by omega), frame_parse_fwd hi hb]
    exact h1

theorem foldl_frames_nodes (fs : List Frame) : fs.foldl FrameList_add_frame FrameList_new = nodes fs := by
  cases fs with
  | nil => rfl
  | cons f fs => exact add_frame_foldl f fs []

/-- A cursor after the end of the buffer: nothing can be read there. -/
theorem loop_beyond [Platform] {version : UInt8} {size : Nat} {s : Bytes} {n : Nat} (hn : s.length < n)
    (hb : n ≤ 2147483647) (fuel : Nat) (hf : 0 < fuel) (l : FrameList) (r : FrameList × CharStream) :
    Tag_parse_loop fuel { stream := s, cursor := (n : Int), size := s.length } size version l = .ok r ↔
      size ≤ n ∧ r = (l, { stream := s, cursor := (n : Int), size := s.length }) := by
  obtain ⟨k, rfl⟩ : ∃ k, fuel = k + 1 := ⟨fuel - 1, by omega⟩
  unfold Tag_parse_loop
  dsimp only
  rw [u32_cursor hb]
  by_cases h : n < size
  · rw [if_pos h]
    constructor
    · intro e
      obtain ⟨_, h1, -⟩ := Res.bind_eq_ok.mp e
      unfold Frame_parse FrameHeader_parse CharStream_read CharStream_get_cur at h1
      dsimp only at h1
      rw [if_neg (by omega)] at h1
      cases h1
    · intro e; omega
  · rw [if_neg h]
    constructor
    · intro e; cases e; exact ⟨by omega, rfl⟩
    · rintro ⟨-, rfl⟩; rfl

theorem items_nil [Platform] {version : UInt8} {size c : Nat} {fs : List Frame} {c' : Nat} :
    Items version size c [] fs c' ↔ size ≤ c ∧ fs = [] ∧ c' = c := by
  constructor
  · intro h
    generalize hr : ([] : Bytes) = r at h
    rcases h with ⟨_, _, h⟩ | ⟨_, r, h⟩ | ⟨_, _, f, r', fs, _, h, hi, hs⟩
    · exact ⟨h, rfl, rfl⟩
    · simp at hr
    · subst hr
      have := item_length hi
      simp at this
  · rintro ⟨h, rfl, rfl⟩
    exact .stop _ _ h

/-- The loop, from any position in the buffer or after it. -/
theorem loop_iff [Platform] {version : UInt8} {size : Nat} {s : Bytes} (ht : Tail s) (h10 : 10 ≤ s.length)
    (hb : s.length ≤ 2147483647) {start : Nat} (hs : start ≤ 2147483647) (l' : FrameList) (p : Int) :
    (∃ cs', Tag_parse_loop (s.length + 1) { stream := s, cursor := (start : Int), size := s.length } size version
        FrameList_new = .ok (l', cs') ∧ p = cs'.size - cs'.cursor) ↔
      ∃ fs stop, Items version size start (s.drop start) fs stop ∧ l' = nodes fs ∧ p = (s.length : Int) - stop := by
  by_cases hle : start ≤ s.length
  · have hcs : ({ stream := s, cursor := (start : Int), size := s.length } : CharStream) = csAt (s.take start) (s.drop start) := by
      simp only [csAt, List.take_append_drop, List.length_take]
      congr 1; omega
    have hsum : (s.take start).length + (s.drop start).length = s.length := by
      rw [List.length_take, List.length_drop]; omega
    have hpl : (s.take start).length = start := by rw [List.length_take]; omega
    rw [hcs]
    constructor
    · rintro ⟨cs', e, rfl⟩
      obtain ⟨fs, c', h1, h2, h3, h4⟩ := loop_inv _ (by rw [List.take_append_drop]; exact ht) (by omega) (by omega) e
      rw [hpl] at h1
      refine ⟨fs, c', h1, ?_, ?_⟩
      · rw [h2, foldl_frames_nodes]
      · rw [h3, h4, hsum]
    · rintro ⟨fs, stop, hI, rfl, rfl⟩
      obtain ⟨p, q, h1, h2, h3⟩ := loop_fwd hI (s.length + 1) (s.take start) FrameList_new hpl (by omega)
        (by rw [List.length_drop]; omega)
      rw [foldl_frames_nodes] at h1
      refine ⟨_, h1, ?_⟩
      simp only [csAt, List.length_append]
      omega
  · rw [List.drop_eq_nil_of_le (by omega)]
    constructor
    · rintro ⟨cs', e, rfl⟩
      obtain ⟨h1, h2⟩ := (loop_beyond (by omega) hs _ (by omega) _ _).mp e
      cases h2
      exact ⟨[], start, .stop _ _ h1, rfl, rfl⟩
    · rintro ⟨fs, stop, hI, rfl, rfl⟩
      obtain ⟨h1, rfl, rfl⟩ := items_nil.mp hI
      exact ⟨_, (loop_beyond (by omega) hs _ (by omega) _ _).mpr ⟨h1, rfl⟩, rfl⟩

theorem four_of {x : List UInt8} (h : x.length = 4) : ∃ a b c d, x = [a, b, c, d] := by
  match x, h with
  | [a, b, c, d], _ => exact ⟨a, b, c, d, rfl⟩

/-- A tag header is only found in ten known bytes. -/
theorem tag_header_inv [Platform] {s : Bytes} {h : TagHeader} {cs' : CharStream} (ht : Tail s)
    (e : TagHeader_parse (csAt [] s) = .ok (some h, cs')) :
    ∃ (b3 b4 b5 s0 s1 s2 s3 : UInt8) (post : Bytes), s = ofB [0x49, 0x44, 0x33, b3, b4, b5, s0, s1, s2, s3] ++ post := by
  unfold TagHeader_parse at e
  obtain ⟨b, hb, e⟩ := Res.bind_eq_ok.mp e
  cases b with
  | false => cases e
  | true =>
    obtain ⟨rest, hr⟩ := memcmpEq_inv _ _ hb
    have hr' : s = ofB [0x49, 0x44, 0x33] ++ rest := hr
    subst hr'
    simp only [Bool.not_true, Bool.false_eq_true, if_false] at e
    rw [read_csAt _ _ _ _ (by simp)] at e
    simp only [Res.bind_ok] at e
    obtain ⟨⟨v3, c3⟩, h3, e⟩ := Res.bind_eq_ok.mp e
    dsimp only at e
    obtain ⟨⟨v4, c4⟩, h4, e⟩ := Res.bind_eq_ok.mp e
    dsimp only at e
    split at e
    · cases e
    obtain ⟨⟨v5, c5⟩, h5, e⟩ := Res.bind_eq_ok.mp e
    dsimp only at e
    have hsz : ∀ pre r, c5 = csAt pre r → ∃ z more, r = ofB z ++ more ∧ z.length = 4 := by
      rintro pre r rfl
      rw [read_cut] at e
      simp only [Res.bind_ok] at e
      obtain ⟨v, hv, -⟩ := Res.bind_eq_ok.mp e
      obtain ⟨z, more, h1, h2, -⟩ := btoi_inv hv
      rw [intoArray_padTo] at h1
      obtain ⟨more', h3, -⟩ := padTo_prefix h1
      exact ⟨z, more', h3, h2⟩
    have hnil : ∀ z : List UInt8, ∀ more : Bytes, z.length = 4 → ([] : Bytes) ≠ ofB z ++ more := by
      intro z more hz h
      have := congrArg List.length h
      simp [hz] at this
      omega
    rcases getc_inv h3 with ⟨rfl, rfl⟩ | ⟨b3, r3, rfl, -, rfl⟩
    · rcases getc_inv h4 with ⟨-, rfl⟩ | ⟨b4, r4, h, -⟩
      · rcases getc_inv h5 with ⟨-, rfl⟩ | ⟨b5, r5, h, -⟩
        · obtain ⟨z, more, h1, h2⟩ := hsz _ _ rfl
          exact absurd h1 (hnil z more h2)
        · cases h
      · cases h
    · rcases getc_inv h4 with ⟨rfl, rfl⟩ | ⟨b4, r4, rfl, -, rfl⟩
      · rcases getc_inv h5 with ⟨-, rfl⟩ | ⟨b5, r5, h, -⟩
        · obtain ⟨z, more, h1, h2⟩ := hsz _ _ rfl
          exact absurd h1 (hnil z more h2)
        · cases h
      · rcases getc_inv h5 with ⟨rfl, rfl⟩ | ⟨b5, r5, rfl, -, rfl⟩
        · obtain ⟨z, more, h1, h2⟩ := hsz _ _ rfl
          exact absurd h1 (hnil z more h2)
        · obtain ⟨z, more, rfl, h2⟩ := hsz _ _ rfl
          obtain ⟨s0, s1, s2, s3, rfl⟩ := four_of h2
          exact ⟨b3, b4, b5, s0, s1, s2, s3, more, by simp⟩

theorem looseSize_lt (x : List UInt8) : looseSize x < 2 ^ 29 := by
  match x with
  | [a, b, c, d] => exact sizeValue_lt a b c d
  | [] => simp [looseSize]
  | [_] => simp [looseSize]
  | [_, _] => simp [looseSize]
  | [_, _, _] => simp [looseSize]
  | _ :: _ :: _ :: _ :: _ :: _ => simp [looseSize]

theorem decodeSizeIndet_inv {post : Bytes} {n : Nat} (h : decodeSizeIndet (intoArray 4 (post.take 4)) = some n) :
    ∃ x : List UInt8, x.length = 4 ∧ post.take 4 = ofB x ∧ n = looseSize x := by
  have hp : intoArray 4 (post.take 4) = padTo 4 post := intoArray_padTo 4 post
  rw [hp] at h
  unfold decodeSizeIndet at h
  split at h
  · next v hv =>
    obtain ⟨x, more, h1, h2, rfl⟩ := btoi_inv hv
    obtain ⟨more', rfl, -⟩ := padTo_prefix h1
    refine ⟨x, h2, List.take_left' (by simp [h2]), ?_⟩
    obtain ⟨a, b, c, d, rfl⟩ := four_of h2
    cases h
    exact syncint_decode_bytes a b c d
  · cases h

theorem decodeSizeIndet_of {post : Bytes} {x : List UInt8} (h : x.length = 4) (hp : post.take 4 = ofB x) :
    decodeSizeIndet (intoArray 4 (post.take 4)) = some (looseSize x) := by
  obtain ⟨a, b, c, d, rfl⟩ := four_of h
  rw [hp]
  have : intoArray 4 (ofB [a, b, c, d]) = ofB [a, b, c, d] := rfl
  rw [this]
  unfold decodeSizeIndet
  rw [btoi_ofB' _ 4 rfl]
  exact congrArg some (syncint_decode_bytes a b c d)

theorem items_le [Platform] {version : UInt8} {size c : Nat} {r : Bytes} {fs : List Frame} {c' : Nat}
    (h : Items version size c r fs c') : c ≤ c' ∧ c' ≤ c + r.length := by
  induction h with
  | stop c r h => omega
  | padding c r h => omega
  | frame c r f r' fs c' h hi hs ih => have := item_length hi; omega

/-- The last part of `Tag_parse`. -/
theorem finish_iff [Platform] {s : Bytes} (ht : Tail s) (h10 : 10 ≤ s.length) (hb : s.length ≤ 2147483647) {start : Nat}
    (hs : start < 2 ^ 29) (h : TagHeader) (t : Tag) :
    (do
      let (frames, cs) ← Tag_parse_loop (s.length + 1) { stream := s, cursor := (start : Int), size := s.length } h.tag_size
        h.major_version FrameList_new
      return some { header := h, frames := frames, padding_size := ← ck (cs.size - cs.cursor) : Tag } : Res (Option Tag)) =
        .ok (some t) ↔
      ∃ fs stop, Items h.major_version h.tag_size start (s.drop start) fs stop ∧
        t = { header := h, frames := nodes fs, padding_size := (s.length : Int) - stop } := by
  constructor
  · intro e
    obtain ⟨⟨l, cs'⟩, h1, e⟩ := Res.bind_eq_ok.mp e
    dsimp only at e
    obtain ⟨p, hp, e⟩ := Res.bind_eq_ok.mp e
    obtain ⟨rfl, -, -⟩ := ck_inv hp
    cases e
    obtain ⟨fs, stop, h2, h3, h4⟩ := (loop_iff ht h10 hb (by omega) l _).mp ⟨cs', h1, rfl⟩
    exact ⟨fs, stop, h2, by rw [h3, h4]⟩
  · rintro ⟨fs, stop, hI, rfl⟩
    obtain ⟨cs', h1, h2⟩ := (loop_iff ht h10 hb (by omega) (nodes fs) ((s.length : Int) - stop)).mpr ⟨fs, stop, hI, rfl, rfl⟩
    have hle := items_le hI
    rw [h1]
    simp only [Res.bind_ok]
    rw [← h2, ck_ok (by rw [List.length_drop] at hle; omega) (by omega)]
    rfl

theorem tag_parse_iff [Platform] {s : Bytes} (ht : Tail s) (hb : s.length ≤ 2147483647) (t : Tag) :
    Tag_parse (csAt [] s) = .ok (some t) ↔ TagIn s t := by
  have key : ∀ (b3 b4 b5 s0 s1 s2 s3 : UInt8) (post : Bytes),
      s = ofB [0x49, 0x44, 0x33, b3, b4, b5, s0, s1, s2, s3] ++ post → (b3 = 3 ∨ b3 = 4) →
      (Tag_parse (csAt [] s) = .ok (some t) ↔ ∃ ext start fs stop,
        (if b5 &&& 0x40 = 0x40 then
          ∃ x : List UInt8, x.length = 4 ∧ post.take 4 = ofB x ∧ ext = looseSize x ∧ start = (if ext = 0 then 14 else ext)
          else ext = 0 ∧ start = 10) ∧
        Items b3 (looseSize [s0, s1, s2, s3]) start (s.drop start) fs stop ∧
        t = { header := { identifier := ofB [0x49, 0x44, 0x33], major_version := b3, minor_version := b4,
                          flags := b5, tag_size := looseSize [s0, s1, s2, s3], extended_header_size := some ext }
              frames := nodes fs
              padding_size := (s.length : Int) - stop }) := by
    intro b3 b4 b5 s0 s1 s2 s3 post hs hv
    have h10 : 10 ≤ s.length := by rw [hs]; simp
    unfold Tag_parse
    rw [hs, tag_header_parse_all, if_pos rfl, if_pos hv, ← hs]
    by_cases hf : b5 &&& 0x40 = 0x40
    · simp only [if_pos hf, Res.bind_ok, ID3v2_Tag_new]
      cases hd : decodeSizeIndet (intoArray 4 (post.take 4)) with
      | none =>
        constructor
        · intro e; cases e
        · rintro ⟨ext, start, fs, stop, ⟨x, hx, hp, -⟩, -⟩
          rw [decodeSizeIndet_of hx hp] at hd
          cases hd
      | some ext =>
        obtain ⟨x, hx, hp, hext⟩ := decodeSizeIndet_inv hd
        have hlt := looseSize_lt x
        have hpost : 4 ≤ post.length := by
          have := congrArg List.length hp
          rw [List.length_take, ofB_length, hx] at this
          omega
        have hst : (ofB [0x49, 0x44, 0x33, b3, b4, b5, s0, s1, s2, s3] ++ post.take 4) ++ post.drop 4 = s := by
          rw [hs, List.append_assoc, List.take_append_drop]
        have hcs : csAt (ofB [0x49, 0x44, 0x33, b3, b4, b5, s0, s1, s2, s3] ++ post.take 4) (post.drop 4) =
            { stream := s, cursor := ((14 : Nat) : Int), size := s.length } := by
          simp only [csAt, hst]
          congr 1
          rw [List.length_append, ofB_length, List.length_take]
          simp; omega
        rw [hcs]
        have hgoal : ∀ start : Nat, start = (if ext = 0 then 14 else ext) →
            ((∃ fs stop, Items b3 (looseSize [s0, s1, s2, s3]) start (s.drop start) fs stop ∧
              t = { header := { identifier := ofB [0x49, 0x44, 0x33], major_version := b3, minor_version := b4,
                                flags := b5, tag_size := looseSize [s0, s1, s2, s3], extended_header_size := some ext }
                    frames := nodes fs
                    padding_size := (s.length : Int) - stop }) ↔
            ∃ ext start fs stop, (∃ x : List UInt8, x.length = 4 ∧ post.take 4 = ofB x ∧ ext = looseSize x ∧
              start = (if ext = 0 then 14 else ext)) ∧
              Items b3 (looseSize [s0, s1, s2, s3]) start (s.drop start) fs stop ∧
              t = { header := { identifier := ofB [0x49, 0x44, 0x33], major_version := b3, minor_version := b4,
                                flags := b5, tag_size := looseSize [s0, s1, s2, s3], extended_header_size := some ext }
                    frames := nodes fs
                    padding_size := (s.length : Int) - stop }) := by
          intro start hstart
          constructor
          · rintro ⟨fs, stop, h1, h2⟩
            exact ⟨ext, start, fs, stop, ⟨x, hx, hp, hext, hstart⟩, h1, h2⟩
          · rintro ⟨ext', start', fs, stop, ⟨x', hx', hp', rfl, rfl⟩, h1, h2⟩
            have : x' = x := ofB_injective (hp'.symm.trans hp)
            subst this
            subst hext
            rw [← hstart] at h1
            exact ⟨fs, stop, h1, h2⟩
        by_cases h0 : ext = 0
        · rw [← hgoal 14 (by rw [if_pos h0])]
          simp only [show ¬ (ext > 0) from by omega, if_false]
          exact finish_iff ht h10 hb (by omega)
            { identifier := ofB [0x49, 0x44, 0x33], major_version := b3, minor_version := b4,
              flags := b5, tag_size := looseSize [s0, s1, s2, s3], extended_header_size := some ext } t
        · rw [← hgoal ext (by rw [if_neg h0])]
          simp only [show ext > 0 from by omega, if_true, CharStream_seek, Res.bind_ok]
          rw [toInt32_nat (by omega)]
          exact finish_iff ht h10 hb (by omega)
            { identifier := ofB [0x49, 0x44, 0x33], major_version := b3, minor_version := b4,
              flags := b5, tag_size := looseSize [s0, s1, s2, s3], extended_header_size := some ext } t
    · simp only [if_neg hf, Res.bind_ok, ID3v2_Tag_new]
      have hcs : csAt (ofB [0x49, 0x44, 0x33, b3, b4, b5, s0, s1, s2, s3]) post =
          { stream := s, cursor := ((10 : Nat) : Int), size := s.length } := by
        simp only [csAt, ← hs]
        rfl
      rw [hcs]
      simp only [show ¬ ((0 : Nat) > 0) from by omega, if_false]
      refine (finish_iff ht h10 hb (by omega)
            { identifier := ofB [0x49, 0x44, 0x33], major_version := b3, minor_version := b4,
              flags := b5, tag_size := looseSize [s0, s1, s2, s3], extended_header_size := some 0 } t).trans ?_
      constructor
      · rintro ⟨fs, stop, h1, h2⟩
        exact ⟨0, 10, fs, stop, ⟨rfl, rfl⟩, h1, h2⟩
      · rintro ⟨ext, start, fs, stop, ⟨rfl, rfl⟩, h1, h2⟩
        exact ⟨fs, stop, h1, h2⟩
  constructor
  · intro e
    have e' := e
    unfold Tag_parse at e'
    obtain ⟨⟨h, c⟩, hh, e'⟩ := Res.bind_eq_ok.mp e'
    cases h with
    | none => cases e'
    | some h =>
      obtain ⟨b3, b4, b5, s0, s1, s2, s3, post, hs⟩ := tag_header_inv ht hh
      have hv : b3 = 3 ∨ b3 = 4 := by
        rw [hs, tag_header_parse_all, if_pos rfl] at hh
        split at hh
        · assumption
        · cases hh
      obtain ⟨ext, start, fs, stop, h1, h2, h3⟩ := (key b3 b4 b5 s0 s1 s2 s3 post hs hv).mp e
      exact ⟨b3, b4, b5, [s0, s1, s2, s3], post, ext, start, fs, stop, hv, rfl, hs, h1, h2, h3⟩
  · rintro ⟨b3, b4, b5, z, post, ext, start, fs, stop, hv, hz, hs, h1, h2, h3⟩
    obtain ⟨s0, s1, s2, s3, rfl⟩ := four_of hz
    exact (key b3 b4 b5 s0 s1 s2 s3 post hs hv).mpr ⟨ext, start, fs, stop, h1, h2, h3⟩

end Id3
