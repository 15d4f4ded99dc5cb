import Verif.Proof.Sat
import Verif.Spec.Kind
import Verif.Proof.Codec

/-!
# The parsers on arbitrary input
-/

namespace Id3

open Spec

theorem sat_textData_new [Platform] (text : Bytes) :
    Sat (fun _ => ∃ b, text.head? = some (some b)) (TextFrameData_new text) := by
  unfold TextFrameData_new
  refine (sat_string_has_bom text).bind fun b hb => ?_
  refine (sat_strlen text).bind fun n hn => ?_
  refine (sat_ck _).bind fun m hm => ?_
  obtain ⟨rfl, -, -⟩ := hm
  refine (sat_memcpySrc _ _ ?_).bind fun d _ => hb
  split <;> split <;> omega

theorem sat_text_new [Platform] (id flags text : Bytes) :
    Sat (fun f => (∃ b, text.head? = some (some b)) ∧ f.header.id = id.take 4 ∧ ∃ d, f.data = .text d)
      (TextFrame_new id flags text) := by
  unfold TextFrame_new
  refine (sat_textData_new text).bind fun d hd => ?_
  refine (sat_ck _).bind fun m _ => ?_
  refine (sat_frameHeader_new _ _ _).bind fun h hh => ?_
  exact ⟨hd, hh.1, d, rfl⟩

theorem sat_commentData_new [Platform] (lang desc text : Bytes) : Sat (fun _ => True) (CommentFrameData_new lang desc text) := by
  unfold CommentFrameData_new
  refine (sat_string_has_bom text).bind fun b _ => ?_
  refine (sat_strlent text).bind fun n hn => ?_
  refine (sat_strlent desc).bind fun m hm => ?_
  refine (sat_memcpySrc _ _ (by omega)).bind fun l _ => ?_
  refine (sat_memcpySrc _ _ (by omega)).bind fun c _ => ?_
  exact (sat_memcpySrc _ _ (by omega)).bind fun s _ => trivial

theorem sat_comment_new [Platform] (flags lang desc text : Bytes) :
    Sat (fun f => f.header.id = ofB [0x43, 0x4F, 0x4D, 0x4D] ∧ ∃ d, f.data = .comment d)
      (CommentFrame_new flags lang desc text) := by
  unfold CommentFrame_new
  refine (sat_commentData_new lang desc text).bind fun d _ => ?_
  refine (sat_strlent desc).bind fun m hm => ?_
  refine (sat_ck _).bind fun m _ => ?_
  refine (sat_frameHeader_new _ _ _).bind fun h hh => ?_
  exact ⟨hh.1, d, rfl⟩

theorem sat_apicData_new [Platform] (desc : Bytes) (pt : UInt8) (mime : Bytes) (n : Int) (pic : Bytes) (hn : 0 ≤ n) :
    Sat (fun _ => True) (ApicFrameData_new desc pt mime n pic) := by
  unfold ApicFrameData_new
  refine (sat_string_has_bom desc).bind fun b _ => ?_
  refine (sat_strlent desc).bind fun n hn => ?_
  refine (sat_memcpySrc _ _ (by omega)).bind fun l _ => ?_
  refine (sat_strlent mime).bind fun m hm => ?_
  refine (sat_memcpySrc _ _ (by omega)).bind fun c _ => ?_
  exact (sat_memcpySrc _ _ (by omega)).bind fun s _ => trivial

theorem sat_apic_new [Platform] (flags desc : Bytes) (pt : UInt8) (mime : Bytes) (n : Int) (pic : Bytes) (hn : 0 ≤ n) :
    Sat (fun f => f.header.id = ofB [0x41, 0x50, 0x49, 0x43] ∧ ∃ d, f.data = .apic d)
      (ApicFrame_new flags desc pt mime n pic) := by
  unfold ApicFrame_new
  refine (sat_apicData_new desc pt mime n pic hn).bind fun d _ => ?_
  refine (sat_strlent desc).bind fun m hm => ?_
  refine (sat_strlent mime).bind fun m hm => ?_
  refine (sat_ck _).bind fun m _ => ?_
  refine (sat_frameHeader_new _ _ _).bind fun h hh => ?_
  exact ⟨hh.1, d, rfl⟩

/-- Where the frame parsers start: less than four bytes before a byte that is not zero. -/
def Near (s : Bytes) (c : Int) : Prop :=
  ∃ i : Nat, i < 4 ∧ ∃ b : UInt8, b ≠ 0 ∧ (s.drop c.toNat)[i]? = some (some b)

theorem near_not_zero (s : Bytes) (c : Int) (h : Near s c) : (s.drop c.toNat).take 4 ≠ ofB [0, 0, 0, 0] := by
  obtain ⟨i, hi, b, hb, hs⟩ := h
  intro he
  have h1 := congrArg (fun l : Bytes => l[i]?) he
  simp only [List.getElem?_take_of_lt hi, hs] at h1
  have : (ofB [0, 0, 0, 0])[i]? = some (some 0) := by
    match i, hi with
    | 0, _ => rfl
    | 1, _ => rfl
    | 2, _ => rfl
    | 3, _ => rfl
  rw [this] at h1
  simp only [Option.some.injEq] at h1
  exact hb h1

/-- What the three frame parsers guarantee. -/
structure FrameAt (s : Bytes) (c : Int) (P : Frame → Prop) (r : Frame × CharStream) : Prop where
  good : Good s r.2
  forward : c + 8 ≤ r.2.cursor
  frame : P r.1

theorem sat_text_parse [Platform] (s : Bytes) (cs : CharStream) (v : UInt8) (hg : Good s cs) (hn : Near s cs.cursor) :
    Sat (FrameAt s cs.cursor (fun f => cs.cursor + 12 ≤ s.length ∧ f.header.id = (s.drop cs.cursor.toNat).take 4 ∧
      ∃ d, f.data = .text d))
      (TextFrame_parse cs v) := by
  unfold TextFrame_parse
  refine (sat_frameHeader_parse s cs v hg.stream hg.size).bind fun r hr => ?_
  obtain ⟨h, cs1⟩ := r
  dsimp only at hr ⊢
  refine (sat_seek_cur s cs1 1 hr.good).bind fun cs2 h2 => ?_
  cases h with
  | none => exact absurd (hr.none rfl) (near_not_zero _ _ hn)
  | some h =>
    obtain ⟨h3, h4, h5⟩ := hr.some h rfl
    refine (sat_ck _).bind fun n hn => ?_
    refine (sat_vla n).bind fun _ hv => ?_
    refine (sat_read s cs2 n h2.1.stream h2.1.size (by omega)).bind fun r hr => ?_
    obtain ⟨d, cs3⟩ := r
    dsimp only at hr ⊢
    refine (sat_text_new _ _ _).bind fun f hf => ?_
    have := h2.2.1 (by omega)
    obtain ⟨⟨b, hb⟩, hf1, hf2⟩ := hf
    have hd : 1 ≤ d.length := by
      cases d with
      | nil =>
        simp only [intoArray, List.nil_append, List.length_nil, Nat.sub_zero] at hb
        cases hn : n.toNat <;> rw [hn] at hb <;> simp [List.replicate_succ] at hb
      | cons => simp
    have h6 := hr.1.le
    have h7 := hr.2.2.1
    refine ⟨hr.1, ?_, ?_, ?_, hf2⟩
    · show cs.cursor + 8 ≤ cs3.cursor; omega
    · omega
    · show f.header.id = _
      rw [hf1, h5, List.take_take]; rfl

theorem sat_comment_parse [Platform] (s : Bytes) (cs : CharStream) (v : UInt8) (hg : Good s cs) (hn : Near s cs.cursor) :
    Sat (FrameAt s cs.cursor (fun f => f.header.id = ofB [0x43, 0x4F, 0x4D, 0x4D] ∧ ∃ d, f.data = .comment d))
      (CommentFrame_parse cs v) := by
  unfold CommentFrame_parse
  refine (sat_frameHeader_parse s cs v hg.stream hg.size).bind fun r hr => ?_
  obtain ⟨h, cs1⟩ := r
  dsimp only at hr ⊢
  refine (sat_seek_cur s cs1 1 hr.good).bind fun cs2 h2 => ?_
  refine (sat_read s cs2 3 h2.1.stream h2.1.size (by omega)).bind fun r hr3 => ?_
  obtain ⟨d3, cs3⟩ := r
  dsimp only at hr3 ⊢
  refine (sat_get_cur cs3).bind fun p _ => ?_
  refine (sat_strlent p).bind fun n hn4 => ?_
  refine (sat_vla n).bind fun _ _ => ?_
  refine (sat_read s cs3 n hr3.1.stream hr3.1.size (by omega)).bind fun r hr4 => ?_
  obtain ⟨d4, cs4⟩ := r
  dsimp only at hr4 ⊢
  refine (sat_get_cur cs4).bind fun p _ => ?_
  refine (sat_strlent p).bind fun m hm => ?_
  refine (sat_vla m).bind fun _ _ => ?_
  refine (sat_read s cs4 m hr4.1.stream hr4.1.size (by omega)).bind fun r hr5 => ?_
  obtain ⟨d5, cs5⟩ := r
  dsimp only at hr5 ⊢
  cases h with
  | none => exact absurd (hr.none rfl) (near_not_zero _ _ hn)
  | some h =>
    obtain ⟨h3, h4, h5⟩ := hr.some h rfl
    refine (sat_comment_new _ _ _ _).bind fun f hf => ?_
    have := h2.2.1 (by omega)
    refine ⟨hr5.1, ?_, hf⟩
    show cs.cursor + 8 ≤ cs5.cursor; omega

theorem sat_apic_parse [Platform] (s : Bytes) (cs : CharStream) (v : UInt8) (hg : Good s cs) (hn : Near s cs.cursor) :
    Sat (FrameAt s cs.cursor (fun f => f.header.id = ofB [0x41, 0x50, 0x49, 0x43] ∧ ∃ d, f.data = .apic d))
      (ApicFrame_parse cs v) := by
  unfold ApicFrame_parse
  refine (sat_frameHeader_parse s cs v hg.stream hg.size).bind fun r hr => ?_
  obtain ⟨h, cs1⟩ := r
  dsimp only at hr ⊢
  refine (sat_seek_cur s cs1 1 hr.good).bind fun cs2 h2 => ?_
  refine (sat_get_cur cs2).bind fun p _ => ?_
  refine (sat_strlent p).bind fun n hn4 => ?_
  refine (sat_vla n).bind fun _ _ => ?_
  refine (sat_read s cs2 n h2.1.stream h2.1.size (by omega)).bind fun r hr3 => ?_
  obtain ⟨d3, cs3⟩ := r
  dsimp only at hr3 ⊢
  refine (sat_getc s cs3 hr3.1).bind fun r hr4 => ?_
  obtain ⟨d4, cs4⟩ := r
  dsimp only at hr4 ⊢
  refine (sat_get_cur cs4).bind fun p _ => ?_
  refine (sat_strlent p).bind fun m hm => ?_
  refine (sat_vla m).bind fun _ _ => ?_
  refine (sat_read s cs4 m hr4.1.stream hr4.1.size (by omega)).bind fun r hr5 => ?_
  obtain ⟨d5, cs5⟩ := r
  dsimp only at hr5 ⊢
  cases h with
  | none => exact absurd (hr.none rfl) (near_not_zero _ _ hn)
  | some h =>
    obtain ⟨h3, h4, h5⟩ := hr.some h rfl
    refine (sat_ck _).bind fun k hk => ?_
    refine (sat_vla k).bind fun _ hv => ?_
    refine (sat_read s cs5 k hr5.1.stream hr5.1.size (by omega)).bind fun r hr6 => ?_
    obtain ⟨d6, cs6⟩ := r
    dsimp only at hr6 ⊢
    refine (sat_apic_new _ _ _ _ _ _ (by omega)).bind fun f hf => ?_
    have := h2.2.1 (by omega)
    refine ⟨hr6.1, ?_, hf⟩
    show cs.cursor + 8 ≤ cs6.cursor; omega

/-- The first byte of a frame. -/
theorem head_take_four (s : Bytes) (n : Nat) (b : MByte) (h : ((s.drop n).take 4).head? = some b) : s[n]? = some b := by
  have : (s.drop n).head? = some b := by
    cases hd : s.drop n with
    | nil => rw [hd] at h; simp at h
    | cons x xs => rw [hd] at h; simpa using h
  rw [List.head?_drop] at this
  exact this

theorem near_rewind (s : Bytes) (c c' : Nat) (b : UInt8) (hb : b ≠ 0) (h1 : c' ≤ c) (h2 : c ≤ c' + 2)
    (hs : s[c]? = some (some b)) : Near s c' := by
  refine ⟨c - c', by omega, b, hb, ?_⟩
  rw [Int.toNat_natCast, List.getElem?_drop, show c' + (c - c') = c from by omega]
  exact hs

/-- `Frame_parse` on any stream: every frame is typed and takes at least six bytes; it is never NULL dereference, an out
of bounds write, or the like. -/
theorem sat_frame_parse [Platform] (s : Bytes) (cs : CharStream) (v : UInt8) (h1 : cs.stream = s) (h2 : cs.size = s.length) :
    Sat (fun r => Good s r.2 ∧ 0 ≤ cs.cursor ∧ ∀ f, r.1 = some f → cs.cursor + 6 ≤ r.2.cursor ∧ Typed f)
      (Frame_parse cs v) := by
  unfold Frame_parse
  refine (sat_frameHeader_parse s cs v h1 h2).bind fun r hr => ?_
  obtain ⟨h, cs1⟩ := r
  dsimp only at hr ⊢
  cases h with
  | none => exact ⟨hr.good, hr.start, by simp⟩
  | some h =>
    obtain ⟨h3, h4, h5⟩ := hr.some h rfl
    obtain ⟨c, hc⟩ : ∃ c : Nat, cs.cursor = c := ⟨cs.cursor.toNat, by have := hr.start; omega⟩
    -- the rewound stream, for an id that begins with `b`
    have key : ∀ (b : UInt8) (cs2 : CharStream), b ≠ 0 → h.id.head? = some (some b) → Good s cs2 →
        (cs2.cursor = cs1.cursor + -10 ∨ cs2.cursor = 0) → cs1.cursor + -10 ≤ cs2.cursor → cs2.cursor ≤ c ∧ c ≤ cs2.cursor + 2 ∧
          Near s cs2.cursor := by
      intro b cs2 hb hid hg hor hge
      have hle : cs2.cursor ≤ c := by rcases hor with h | h <;> omega
      refine ⟨hle, by omega, ?_⟩
      rw [h5, hc] at hid
      obtain ⟨c', hc'⟩ : ∃ c' : Nat, cs2.cursor = c' := ⟨cs2.cursor.toNat, by have := hg.nonneg; omega⟩
      rw [hc']
      exact near_rewind s c c' b hb (by omega) (by omega) (head_take_four _ _ _ hid)
    refine (sat_idStartsWith h 0x54).bind fun b hb => ?_
    split
    · next hT =>
      refine (sat_seek_cur s cs1 (-10) hr.good).bind fun cs2 h6 => ?_
      obtain ⟨hg, -, h6⟩ := h6
      obtain ⟨h7, h8, h9⟩ := h6 (by omega)
      obtain ⟨k1, k2, k3⟩ := key 0x54 cs2 (by decide) (hb.1 hT) hg h8 h9
      refine (sat_text_parse s cs2 v hg k3).bind fun r hf => ?_
      obtain ⟨f, cs3⟩ := r
      refine ⟨hf.good, hr.start, fun g hg' => ?_⟩
      cases hg'
      refine ⟨by have := hf.forward; dsimp only at this ⊢; omega, ?_⟩
      obtain ⟨hlen, hid, d, hd⟩ := hf.frame
      dsimp only at hid hd
      have hcc : cs2.cursor = cs.cursor := by omega
      unfold Typed
      rw [hd]
      show f.header.id.head? = _
      rw [hid, hcc, ← h5]
      exact hb.1 hT
    · next hT0 =>
      refine (sat_idStartsWith h 0x43).bind fun b' hb' => ?_
      split
      · next hT =>
        refine (sat_seek_cur s cs1 (-10) hr.good).bind fun cs2 h6 => ?_
        obtain ⟨hg, -, h6⟩ := h6
        obtain ⟨h7, h8, h9⟩ := h6 (by omega)
        obtain ⟨k1, k2, k3⟩ := key 0x43 cs2 (by decide) (hb'.1 hT) hg h8 h9
        refine (sat_comment_parse s cs2 v hg k3).bind fun r hf => ?_
        obtain ⟨f, cs3⟩ := r
        refine ⟨hf.good, hr.start, fun g hg' => ?_⟩
        cases hg'
        refine ⟨by have := hf.forward; dsimp only at this ⊢; omega, ?_⟩
        obtain ⟨hid, d, hd⟩ := hf.frame
        dsimp only at hid hd
        unfold Typed
        rw [hd, hid]; rfl
      · next hC0 =>
        refine (sat_idStartsWith h 0x41).bind fun b'' hb'' => ?_
        split
        · next hT =>
          refine (sat_seek_cur s cs1 (-10) hr.good).bind fun cs2 h6 => ?_
          obtain ⟨hg, -, h6⟩ := h6
          obtain ⟨h7, h8, h9⟩ := h6 (by omega)
          obtain ⟨k1, k2, k3⟩ := key 0x41 cs2 (by decide) (hb''.1 hT) hg h8 h9
          refine (sat_apic_parse s cs2 v hg k3).bind fun r hf => ?_
          obtain ⟨f, cs3⟩ := r
          refine ⟨hf.good, hr.start, fun g hg' => ?_⟩
          cases hg'
          refine ⟨by have := hf.forward; dsimp only at this ⊢; omega, ?_⟩
          obtain ⟨hid, d, hd⟩ := hf.frame
          dsimp only at hid hd
          unfold Typed
          rw [hd, hid]; rfl
        · next hA0 =>
          refine (sat_read_any s cs1 _ hr.good).bind fun r hr2 => ?_
          obtain ⟨d, cs2⟩ := r
          refine ⟨hr2.1, hr.start, fun g hg' => ?_⟩
          cases hg'
          refine ⟨by have := hr2.2.1; dsimp only at this ⊢; omega, ?_⟩
          exact ⟨fun h => hT0 (hb.2 h), fun h => hC0 (hb'.2 h), fun h => hA0 (hb''.2 h)⟩


/-! ## Tags -/

theorem sat_tagHeader_parse [Platform] (s : Bytes) (cs : CharStream) (hg : Good s cs) :
    Sat (fun r => Good s r.2 ∧ ∀ h, r.1 = some h → h.tag_size < 2 ^ 29) (TagHeader_parse cs) := by
  unfold TagHeader_parse
  refine (sat_memcmpEq _ _).bind fun b _ => ?_
  split
  · exact ⟨hg, by simp⟩
  refine (sat_read s cs 3 hg.stream hg.size (by omega)).bind fun r hr => ?_
  obtain ⟨d0, cs1⟩ := r
  refine (sat_getc s cs1 hr.1).bind fun r hr1 => ?_
  obtain ⟨ma, cs2⟩ := r
  refine (sat_getc s cs2 hr1.1).bind fun r hr2 => ?_
  obtain ⟨mi, cs3⟩ := r
  dsimp only
  split
  · exact ⟨hr2.1, by simp⟩
  refine (sat_getc s cs3 hr2.1).bind fun r hr3 => ?_
  obtain ⟨fl, cs4⟩ := r
  refine (sat_read s cs4 4 hr3.1.stream hr3.1.size (by omega)).bind fun r hr4 => ?_
  obtain ⟨d, cs5⟩ := r
  refine (sat_btoi _ _).bind fun n _ => ?_
  dsimp only
  split
  · refine (sat_read s cs5 4 hr4.1.stream hr4.1.size (by omega)).bind fun r hr5 => ?_
    refine ⟨hr5.1, fun h hh => ?_⟩
    cases hh
    exact syncint_decode_lt _
  · refine ⟨hr4.1, fun h hh => ?_⟩
    cases hh
    exact syncint_decode_lt _

theorem typed_add (frames : FrameList) (f : Frame) (h : ∀ g, some g ∈ frames → Typed g) (hf : Typed f) :
    ∀ g, some g ∈ FrameList_add_frame frames f → Typed g := by
  intro g hg
  unfold FrameList_add_frame at hg
  split at hg
  · simp at hg
  · rcases List.mem_cons.1 hg with hg | hg
    · cases hg; exact hf
    · exact h g (List.mem_cons_of_mem _ hg)
  · rcases List.mem_append.1 hg with hg | hg
    · exact h g hg
    · simp only [List.mem_singleton, Option.some.injEq] at hg
      subst hg; exact hf

theorem add_length_le (frames : FrameList) (f : Frame) :
    ((FrameList_add_frame frames f).filterMap id).length ≤ (frames.filterMap id).length + 1 := by
  unfold FrameList_add_frame
  split <;> simp

/-- The frame loop on any stream, with enough fuel. -/
theorem sat_parse_loop [Platform] (s : Bytes) (size : Nat) (v : UInt8) (fuel : Nat) (cs : CharStream) (frames : FrameList)
    (h1 : cs.stream = s) (h2 : cs.size = s.length) (hf1 : 1 ≤ fuel)
    (hf2 : 0 ≤ cs.cursor → (s.length : Int) - cs.cursor < fuel) (ht : ∀ g, some g ∈ frames → Typed g) :
    Sat (fun r => r.2.stream = s ∧ r.2.size = (s.length : Int) ∧ (∀ g, some g ∈ r.1 → Typed g) ∧
      (r.1 = frames ∨ 0 ≤ cs.cursor ∧ 6 * ((r.1.filterMap id).length : Int) ≤
        6 * (frames.filterMap id).length + (s.length : Int) - cs.cursor))
      (Tag_parse_loop fuel cs size v frames) := by
  induction fuel generalizing cs frames with
  | zero => omega
  | succ k ih =>
    unfold Tag_parse_loop
    split
    · refine (sat_frame_parse s cs v h1 h2).bind fun r hr => ?_
      obtain ⟨f, cs'⟩ := r
      obtain ⟨hg, h0, hf⟩ := hr
      dsimp only at hg hf ⊢
      cases f with
      | none =>
        exact ⟨hg.stream, hg.size, ht, .inl rfl⟩
      | some f =>
        obtain ⟨h3, h4⟩ := hf f rfl
        have := hg.le
        dsimp only
        refine (ih cs' _ hg.stream hg.size (by omega) (by omega) (typed_add _ _ ht h4)).mono fun r hr => ?_
        obtain ⟨a, b, c, d⟩ := hr
        refine ⟨a, b, c, .inr ⟨h0, ?_⟩⟩
        have := add_length_le frames f
        rcases d with d | ⟨d1, d⟩
        · rw [d]; omega
        · omega
    · exact ⟨h1, h2, ht, .inl rfl⟩

/-- More fuel makes no difference. -/
theorem parse_loop_fuel [Platform] (size : Nat) (v : UInt8) (n m : Nat) (cs : CharStream) (frames : FrameList)
    (h : Tag_parse_loop n cs size v frames ≠ .diverge) :
    Tag_parse_loop (n + m) cs size v frames = Tag_parse_loop n cs size v frames := by
  induction n generalizing cs frames with
  | zero => exact absurd rfl h
  | succ k ih =>
    rw [show k + 1 + m = (k + m) + 1 from by omega]
    unfold Tag_parse_loop at h ⊢
    split
    · next hc =>
      rw [if_pos hc] at h
      cases hp : Frame_parse cs v with
      | ok r =>
        obtain ⟨f, cs'⟩ := r
        rw [hp] at h
        simp only [Res.bind_ok] at h ⊢
        cases f with
        | none => rfl
        | some f => exact ih cs' _ h
      | ub k => rfl
      | exit => rfl
      | diverge => rfl
    · rfl

/-- `Tag_parse` on any stream. -/
theorem sat_tag_parse [Platform] (s : Bytes) (cs : CharStream) (hg : Good s cs) :
    Sat (fun r => ∀ t, r = some t → Tag.AllTyped t ∧ 6 * (t.frames.filterMap id).length ≤ s.length)
      (Tag_parse cs) := by
  unfold Tag_parse
  refine (sat_tagHeader_parse s cs hg).bind fun r hr => ?_
  obtain ⟨h, cs1⟩ := r
  dsimp only at hr ⊢
  cases h with
  | none => intro t ht; cases ht
  | some h =>
    dsimp only
    have hnil : ∀ g, some g ∈ (ID3v2_Tag_new (some h) 0).frames → Typed g := by
      intro g hg; simp [ID3v2_Tag_new, FrameList_new] at hg
    have hk : ∀ cs2 : CharStream, cs2.stream = s → cs2.size = s.length →
        Sat (fun r => ∀ t, r = some t → Tag.AllTyped t ∧ 6 * (t.frames.filterMap id).length ≤ s.length)
          (do
            let (frames, cs) ← Tag_parse_loop (cs2.stream.length + 1) cs2 h.tag_size h.major_version
              (ID3v2_Tag_new (some h) 0).frames
            return some { ID3v2_Tag_new (some h) 0 with frames := frames, padding_size := ← ck (cs.size - cs.cursor) }) := by
     intro cs2 h2 h3
     refine (sat_parse_loop s _ _ _ cs2 _ h2 h3 (by omega) (by rw [h2]; omega) hnil).bind fun r hr => ?_
     obtain ⟨fr, cs3⟩ := r
     obtain ⟨-, -, h4, h5⟩ := hr
     dsimp only at h4 h5 ⊢
     refine (sat_ck _).bind fun p _ => ?_
     intro t ht
     cases ht
     refine ⟨h4, ?_⟩
     show 6 * (fr.filterMap id).length ≤ s.length
     rcases h5 with h5 | ⟨h5, h6⟩
     · rw [h5]; simp [ID3v2_Tag_new, FrameList_new]
     · simp only [ID3v2_Tag_new, FrameList_new, List.filterMap_cons_none, List.filterMap_nil, List.length_nil, id] at h6
       omega
    split
    · rfl
    · split
      · exact hk { cs1 with cursor := _ } hr.1.stream hr.1.size
      · exact hk cs1 hr.1.stream hr.1.size

/-- `ID3v2_read_tag_from_buffer` on any buffer of at least the given length. -/
theorem sat_read_from_buffer [Platform] (buffer : Bytes) (n : Int) (h0 : 0 ≤ n) :
    Sat (fun r => ∀ t, r = some t → Tag.AllTyped t ∧ 6 * (t.frames.filterMap id).length ≤ n)
      (ID3v2_read_tag_from_buffer buffer n) := by
  unfold ID3v2_read_tag_from_buffer CharStream_from_buffer
  have hb : Sat (Good (buffer.take n.toNat)) (memcpySrc buffer n >>= fun data =>
      pure { stream := data, cursor := 0, size := n }) := by
    refine (sat_memcpySrc _ _ h0).bind fun d hd => ?_
    obtain ⟨rfl, hd⟩ := hd
    refine ⟨rfl, ?_, Int.le_refl _, ?_⟩
    · dsimp only; rw [List.length_take]; omega
    · dsimp only; omega
  refine hb.bind fun cs hcs => ?_
  refine (sat_tag_parse _ cs hcs).mono fun r hr t ht => ?_
  obtain ⟨h1, h2⟩ := hr t ht
  refine ⟨h1, ?_⟩
  have := List.length_take_le n.toNat buffer
  omega

/-- `ID3v2_read_tag` on any file. -/
theorem sat_read_tag [Platform] (file : File) :
    Sat (fun r => ∀ t, r = some t → Tag.AllTyped t) (ID3v2_read_tag file) := by
  have hh : Sat (fun r => ∀ h, r = some h → h.tag_size < 2 ^ 29) (ID3v2_read_tag_header file) := by
    unfold ID3v2_read_tag_header
    cases file with
    | none => exact fun h hh => by cases hh
    | some contents =>
      dsimp only
      split
      · exact fun h hh => by cases hh
      · next hl =>
        unfold ID3v2_read_tag_header_from_buffer CharStream_from_buffer
        rw [List.length_take] at hl
        have hb : Sat (Good (contents.take 10)) (memcpySrc (contents.take 10) 10 >>= fun data =>
            pure { stream := data, cursor := 0, size := 10 }) := by
          refine (sat_memcpySrc _ _ (by omega)).bind fun d hd => ?_
          obtain ⟨rfl, hd⟩ := hd
          refine ⟨?_, ?_, Int.le_refl _, ?_⟩
          · dsimp only; rw [List.take_take]; rfl
          · dsimp only; rw [List.length_take]; omega
          · dsimp only; omega
        refine hb.bind fun cs hcs => ?_
        refine (sat_tagHeader_parse _ cs hcs).bind fun r hr => ?_
        exact hr.2
  unfold ID3v2_read_tag
  refine hh.bind fun r hr => ?_
  cases r with
  | none => exact fun t ht => by cases ht
  | some h =>
    cases file with
    | none => exact fun t ht => by cases ht
    | some contents =>
      have hs := hr h rfl
      dsimp only
      refine (sat_read_from_buffer _ _ ?_).mono fun r hr t ht => (hr t ht).1
      unfold toInt32 u32
      split <;> omega

end Id3
