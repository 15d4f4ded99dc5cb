import Verif.Spec.Endian
import Verif.Proof.Made

/-!
# Writing on a big-endian target is writing with the sizes turned round
-/

namespace Id3

open Spec

/-- A stream with other contents. -/
def inStream (g : Bytes → Bytes) (cs : CharStream) : CharStream := { cs with stream := g cs.stream }

/-- The outcome with other contents of the stream. -/
def mapStream (g : Bytes → Bytes) (r : Res CharStream) : Res CharStream := r >>= fun cs => .ok (inStream g cs)

@[simp] theorem mapStream_ok (g : Bytes → Bytes) (cs : CharStream) : mapStream g (.ok cs) = .ok (inStream g cs) := rfl

theorem mapStream_bind {α : Type} (g : Bytes → Bytes) (r : Res α) (f : α → Res CharStream) :
    mapStream g (r >>= f) = r >>= fun x => mapStream g (f x) := by
  cases r <;> rfl

theorem bind_mapStream {α : Type} (g : Bytes → Bytes) (r : Res CharStream) (f : CharStream → Res α) :
    mapStream g r >>= f = r >>= fun cs => f (inStream g cs) := by
  cases r <;> rfl

theorem swapAt_length {α : Type} (k : Nat) (s : List α) : (swapAt k s).length = s.length := by
  simp only [swapAt, List.length_append, List.length_take, List.length_reverse, List.length_drop]
  omega

theorem swapAt_append {α : Type} (a m b : List α) (h : m.length = 4) : swapAt a.length (a ++ m ++ b) = a ++ m.reverse ++ b := by
  unfold swapAt
  rw [List.append_assoc a m b, ← List.drop_drop, List.take_left, List.drop_left, ← h, List.take_left, List.drop_left]

/-- A list with room for a field of four bytes at `k`. -/
theorem split_at {α : Type} (k : Nat) (s : List α) (h : k + 4 ≤ s.length) :
    ∃ a m b, s = a ++ m ++ b ∧ a.length = k ∧ m.length = 4 := by
  refine ⟨s.take k, (s.drop k).take 4, s.drop (k + 4), ?_, by simp; omega, by simp; omega⟩
  rw [← List.drop_drop, List.append_assoc, List.take_append_drop, List.take_append_drop]

theorem swapAt_left {α : Type} (k : Nat) (s t : List α) (h : k + 4 ≤ s.length) : swapAt k (s ++ t) = swapAt k s ++ t := by
  obtain ⟨a, m, b, rfl, rfl, hm⟩ := split_at k s h
  rw [swapAt_append a m b hm, List.append_assoc (a ++ m), swapAt_append a m (b ++ t) hm]
  simp

theorem swapAt_right {α : Type} (k : Nat) (s t : List α) (h : k + 4 ≤ t.length) :
    swapAt (s.length + k) (s ++ t) = s ++ swapAt k t := by
  obtain ⟨a, m, b, rfl, rfl, hm⟩ := split_at k t h
  rw [swapAt_append a m b hm, ← List.length_append, ← List.append_assoc, ← List.append_assoc, swapAt_append (s ++ a) m b hm]
  simp

theorem swapAt_take {α : Type} (k c : Nat) (s : List α) (h : k + 4 ≤ c) (hc : c ≤ s.length) :
    (swapAt k s).take c = swapAt k (s.take c) := by
  have e : swapAt k s = swapAt k (s.take c) ++ s.drop c := by
    rw [← swapAt_left k _ _ (by simp; omega), List.take_append_drop]
  rw [e, List.take_append_of_le_length (by rw [swapAt_length]; simp; omega)]
  exact List.take_of_length_le (by rw [swapAt_length]; simp; omega)

theorem swapAt_drop {α : Type} (k c : Nat) (s : List α) (h : k + 4 ≤ c) : (swapAt k s).drop c = s.drop c := by
  by_cases hc : c ≤ s.length
  · have e : swapAt k s = swapAt k (s.take c) ++ s.drop c := by
      rw [← swapAt_left k _ _ (by simp; omega), List.take_append_drop]
    rw [e]
    have hl : (swapAt k (s.take c)).length = c := by rw [swapAt_length]; simp; omega
    have := List.drop_left (l₁ := swapAt k (s.take c)) (l₂ := s.drop c)
    rwa [hl] at this
  · rw [List.drop_of_length_le (by rw [swapAt_length]; omega), List.drop_of_length_le (by omega)]

/-! ### Writing to a stream -/

theorem write_inv {cs cs' : CharStream} {d : Bytes} {n : Int} (h : CharStream_write cs d n = .ok cs') :
    0 ≤ n ∧ 0 ≤ cs.cursor ∧ n ≤ d.length ∧ cs.cursor + n ≤ cs.stream.length ∧ cs'.cursor = cs.cursor + n ∧
      cs'.size = cs.size ∧ cs'.stream.length = cs.stream.length ∧
      cs'.stream = cs.stream.take cs.cursor.toNat ++ d.take n.toNat ++ cs.stream.drop (cs.cursor.toNat + n.toNat) := by
  unfold CharStream_write CharStream_get_cur memcpySrc ck at h
  split at h
  · rename_i hc
    simp only [Res.bind_ok] at h
    split at h
    · simp at h
    · split at h
      · simp at h
      · simp only [Res.bind_ok, List.length_drop] at h
        split at h
        · simp at h
        · split at h
          · simp only [Res.bind_ok, Res.pure_eq, Res.ok.injEq] at h
            subst h
            have hl : (d.take n.toNat).length = n.toNat := by simp; omega
            refine ⟨by omega, hc.1, by omega, by omega, rfl, rfl, ?_, ?_⟩
            · simp only [List.length_append, List.length_take, List.length_drop, hl]; omega
            · simp only [hl]
          · simp at h
  · simp at h

/-- What was written before stays as it is. -/
theorem write_later (k : Nat) (cs : CharStream) (d : Bytes) (n : Int) (h : (k + 4 : Int) ≤ cs.cursor) :
    CharStream_write (inStream (swapAt k) cs) d n = mapStream (swapAt k) (CharStream_write cs d n) := by
  unfold CharStream_write
  have hg : CharStream_get_cur (inStream (swapAt k) cs) = CharStream_get_cur cs := by
    unfold CharStream_get_cur inStream
    simp only [swapAt_length]
    split
    · rw [swapAt_drop _ _ _ (by omega)]
    · rfl
  rw [hg, mapStream_bind]
  cases hcur : CharStream_get_cur cs with
  | ok dst =>
    have hc : 0 ≤ cs.cursor ∧ cs.cursor ≤ cs.stream.length := by
      unfold CharStream_get_cur at hcur
      split at hcur
      · assumption
      · cases hcur
    simp only [Res.bind_ok, mapStream_bind]
    cases memcpySrc d n with
    | ok src =>
      simp only [Res.bind_ok]
      by_cases h1 : (dst.length : Int) < n
      · rw [if_pos h1, if_pos h1]; rfl
      · rw [if_neg h1, if_neg h1, mapStream_bind]
        show (ck (cs.cursor + n) >>= _) = _
        cases ck (cs.cursor + n) with
        | ok c =>
          simp only [Res.bind_ok, Res.pure_eq, mapStream_ok, inStream, Res.ok.injEq, CharStream.mk.injEq, and_true]
          rw [swapAt_take _ _ _ (by omega) (by omega), swapAt_drop _ _ _ (by omega), List.append_assoc, List.append_assoc,
            swapAt_left _ _ _ (by simp; omega)]
        | ub u => rfl
        | exit => rfl
        | diverge => rfl
    | ub u => rfl
    | exit => rfl
    | diverge => rfl
  | ub u => rfl
  | exit => rfl
  | diverge => rfl

/-- Writing data with a field turned round. -/
theorem write_swapped (j c : Nat) (cs : CharStream) (d : Bytes) (n : Int) (hc : cs.cursor = c) (h : (j + 4 : Int) ≤ n) :
    CharStream_write cs (swapAt j d) n = mapStream (swapAt (c + j)) (CharStream_write cs d n) := by
  unfold CharStream_write
  rw [mapStream_bind]
  cases hcur : CharStream_get_cur cs with
  | ok dst =>
    have hc' : cs.cursor ≤ cs.stream.length ∧ dst.length = cs.stream.length - c := by
      unfold CharStream_get_cur at hcur
      split at hcur
      · cases hcur; exact ⟨by omega, by simp; omega⟩
      · cases hcur
    simp only [Res.bind_ok, mapStream_bind]
    unfold memcpySrc
    rw [swapAt_length]
    by_cases h1 : n < 0
    · omega
    rw [if_neg h1, if_neg h1]
    by_cases h2 : (d.length : Int) < n
    · rw [if_pos h2, if_pos h2]; rfl
    rw [if_neg h2, if_neg h2]
    simp only [Res.bind_ok]
    by_cases h3 : (dst.length : Int) < n
    · rw [if_pos h3, if_pos h3]; rfl
    rw [if_neg h3, if_neg h3, mapStream_bind]
    cases ck (cs.cursor + n) with
    | ok c' =>
      simp only [Res.bind_ok, Res.pure_eq, mapStream_ok, inStream, Res.ok.injEq, CharStream.mk.injEq, and_true]
      rw [swapAt_take _ _ _ (by omega) (by omega), swapAt_length]
      have hl : (cs.stream.take cs.cursor.toNat).length = c := by simp; omega
      rw [List.append_assoc (cs.stream.take _), List.append_assoc (cs.stream.take _), ← hl,
        swapAt_right _ _ _ (by simp; omega), swapAt_left _ _ _ (by simp; omega)]
    | ub u => rfl
    | exit => rfl
    | diverge => rfl
  | ub u => rfl
  | exit => rfl
  | diverge => rfl

/-! ### Little-endian targets -/

theorem itobOn_little (v : BitVec 32) : itobOn .little v = itob v := rfl

theorem itobOn_big (v : BitVec 32) : itobOn .big v = (itob v).reverse := rfl

theorem header_little (h : FrameHeader) : FrameHeader_to_char_streamOn .little h = FrameHeader_to_char_stream h := rfl

theorem text_little (h : FrameHeader) (d : TextFrameData) :
    TextFrame_to_char_streamOn .little h d = TextFrame_to_char_stream h d := rfl

theorem frame_little [Platform] (f : Frame) : Frame_to_char_streamOn .little f = Frame_to_char_stream f := rfl

theorem frames_little [Platform] (l : FrameList) (cs : CharStream) :
    Tag_write_framesOn .little cs l = Tag_write_frames cs l := by
  induction l generalizing cs with
  | nil => rfl
  | cons x l ih =>
    cases x with
    | none => rfl
    | some f => simp only [Tag_write_framesOn, Tag_write_frames, frame_little, ih]

theorem tag_little [Platform] (t : Tag) : Tag_to_char_streamOn .little t = Tag_to_char_stream t := by
  unfold Tag_to_char_streamOn Tag_to_char_stream
  simp only [itobOn_little, frames_little]
  rfl

theorem write_little [Platform] (file : File) (t : Tag) : ID3v2_write_tagOn .little file t = ID3v2_write_tag file t := by
  unfold ID3v2_write_tagOn ID3v2_write_tag
  simp only [tag_little]
  rfl

/-! ### Big-endian targets -/

theorem swapAt_four {α : Type} (d : List α) (h : d.length = 4) : swapAt 0 d = d.reverse := by
  have := swapAt_append [] d [] h
  simpa using this

theorem write_field (c : Nat) (cs : CharStream) (v : BitVec 32) (hc : cs.cursor = c) :
    CharStream_write cs (ofB (itobOn .big v)) 4 = mapStream (swapAt c) (CharStream_write cs (ofB (itob v)) 4) := by
  have : ofB (itobOn .big v) = swapAt 0 (ofB (itob v)) := by
    rw [swapAt_four _ rfl, itobOn_big]
    simp [ofB]
  rw [this, write_swapped 0 c cs _ 4 hc (by omega)]
  rfl

theorem header_big (h : FrameHeader) :
    FrameHeader_to_char_streamOn .big h = mapStream (swapAt 4) (FrameHeader_to_char_stream h) := by
  unfold FrameHeader_to_char_streamOn FrameHeader_to_char_stream
  dsimp only
  rw [mapStream_bind]
  cases h1 : CharStream_write (CharStream_new 10) h.id 4 with
  | ok cs =>
    simp only [Res.bind_ok]
    have e1 := (write_inv h1).2.2.2.2.1
    rw [write_field 4 cs _ (by rw [e1]; rfl), mapStream_bind, bind_mapStream]
    cases h2 : CharStream_write cs (ofB (itob (BitVec.ofInt 32 h.size))) 4 with
    | ok cs' =>
      simp only [Res.bind_ok]
      have e2 := (write_inv h2).2.2.2.2.1
      exact write_later 4 cs' _ _ (by rw [e2, e1]; decide)
    | ub u => rfl
    | exit => rfl
    | diverge => rfl
  | ub u => rfl
  | exit => rfl
  | diverge => rfl

theorem header_out_inv {h : FrameHeader} {cs : CharStream} (e : FrameHeader_to_char_stream h = .ok cs) : cs.size = 10 := by
  unfold FrameHeader_to_char_stream at e
  obtain ⟨c1, h1, e⟩ := Res.bind_eq_ok.mp e
  obtain ⟨c2, h2, e⟩ := Res.bind_eq_ok.mp e
  rw [(write_inv e).2.2.2.2.2.1, (write_inv h2).2.2.2.2.2.1, (write_inv h1).2.2.2.2.2.1]
  rfl

/-- A chain of writes behind a field. -/
theorem later_chain (cs : CharStream) (h : 8 ≤ cs.cursor) (d : Bytes) (n : Int) (f g : CharStream → Res CharStream)
    (hf : ∀ cs', 8 ≤ cs'.cursor → cs'.size = cs.size → g (inStream (swapAt 4) cs') = mapStream (swapAt 4) (f cs')) :
    (CharStream_write (inStream (swapAt 4) cs) d n >>= g) = mapStream (swapAt 4) (CharStream_write cs d n >>= f) := by
  rw [write_later 4 cs d n (by omega), mapStream_bind, bind_mapStream]
  cases h1 : CharStream_write cs d n with
  | ok cs' =>
    have := write_inv h1
    exact hf cs' (by omega) this.2.2.2.2.2.1
  | ub u => rfl
  | exit => rfl
  | diverge => rfl

/-- A frame is its header and a chain of writes behind it. -/
theorem frame_chain (h : FrameHeader) (n : Int) (f g : CharStream → Res CharStream)
    (hf : ∀ cs', 8 ≤ cs'.cursor → g (inStream (swapAt 4) cs') = mapStream (swapAt 4) (f cs')) :
    (FrameHeader_to_char_streamOn .big h >>= fun hc => ck n >>= fun m => CharStream_write (CharStream_new m) hc.stream hc.size >>= g) =
      mapStream (swapAt 4)
        (FrameHeader_to_char_stream h >>= fun hc => ck n >>= fun m => CharStream_write (CharStream_new m) hc.stream hc.size >>= f) := by
  rw [header_big, mapStream_bind, bind_mapStream]
  cases h1 : FrameHeader_to_char_stream h with
  | ok hc =>
    simp only [Res.bind_ok, mapStream_bind]
    cases ck n with
    | ok m =>
      simp only [Res.bind_ok]
      show (CharStream_write (CharStream_new m) (swapAt 4 hc.stream) hc.size >>= g) = _
      rw [write_swapped 4 0 _ _ _ rfl (by rw [header_out_inv h1]; decide), bind_mapStream]
      cases h2 : CharStream_write (CharStream_new m) hc.stream hc.size with
      | ok cs' =>
        have := write_inv h2
        have e := header_out_inv h1
        exact hf cs' (by rw [this.2.2.2.2.1, e]; show (8 : Int) ≤ 0 + 10; decide)
      | ub u => rfl
      | exit => rfl
      | diverge => rfl
    | ub u => rfl
    | exit => rfl
    | diverge => rfl
  | ub u => rfl
  | exit => rfl
  | diverge => rfl

theorem text_big (h : FrameHeader) (d : TextFrameData) :
    TextFrame_to_char_streamOn .big h d = mapStream (swapAt 4) (TextFrame_to_char_stream h d) := by
  refine frame_chain h _ _ _ fun cs' hc => later_chain cs' hc _ _ _ _ fun cs' hc _ => write_later 4 cs' _ _ (by omega)

theorem comment_big [Platform] (h : FrameHeader) (d : CommentFrameData) :
    CommentFrame_to_char_streamOn .big h d = mapStream (swapAt 4) (CommentFrame_to_char_stream h d) := by
  refine frame_chain h _ _ _ fun cs' hc => later_chain cs' hc _ _ _ _ fun cs' hc _ =>
    later_chain cs' hc _ _ _ _ fun cs' hc _ => ?_
  rw [mapStream_bind]
  cases ID3v2_strlent d.short_description with
  | ok n => exact later_chain cs' hc _ _ _ _ fun cs' hc _ => write_later 4 cs' _ _ (by omega)
  | ub u => rfl
  | exit => rfl
  | diverge => rfl

theorem apic_big [Platform] (h : FrameHeader) (d : ApicFrameData) :
    ApicFrame_to_char_streamOn .big h d = mapStream (swapAt 4) (ApicFrame_to_char_stream h d) := by
  refine frame_chain h _ _ _ fun cs' hc => later_chain cs' hc _ _ _ _ fun cs' hc _ => ?_
  rw [mapStream_bind]
  cases ID3v2_strlent d.mime_type with
  | ok n =>
    refine later_chain cs' hc _ _ _ _ fun cs' hc _ => later_chain cs' hc _ _ _ _ fun cs' hc _ => ?_
    rw [mapStream_bind]
    cases ID3v2_strlent d.description with
    | ok n => exact later_chain cs' hc _ _ _ _ fun cs' hc _ => write_later 4 cs' _ _ (by omega)
    | ub u => rfl
    | exit => rfl
    | diverge => rfl
  | ub u => rfl
  | exit => rfl
  | diverge => rfl

theorem frame_big [Platform] (f : Frame) :
    Frame_to_char_streamOn .big f = mapStream (swapAt 4) (Frame_to_char_stream f) := by
  unfold Frame_to_char_streamOn Frame_to_char_stream
  rw [mapStream_bind]
  cases FrameHeader_isTextFrame f.header with
  | ok b1 =>
    simp only [Res.bind_ok]
    cases b1 with
    | true =>
      simp only [if_true]
      cases f.data with
      | text d => exact text_big _ d
      | _ => rfl
    | false =>
      simp only [Bool.false_eq_true, if_false, mapStream_bind]
      cases FrameHeader_isCommentFrame f.header with
      | ok b2 =>
        simp only [Res.bind_ok]
        cases b2 with
        | true =>
          simp only [if_true]
          cases f.data with
          | comment d => exact comment_big _ d
          | _ => rfl
        | false =>
          simp only [Bool.false_eq_true, if_false, mapStream_bind]
          cases FrameHeader_isApicFrame f.header with
          | ok b3 =>
            simp only [Res.bind_ok]
            cases b3 with
            | true =>
              simp only [if_true]
              cases f.data with
              | apic d => exact apic_big _ d
              | _ => rfl
            | false =>
              simp only [Bool.false_eq_true, if_false]
              cases f.data with
              | raw d =>
                simp only [mapStream_bind]
                cases ck (f.header.size + 10) with
                | ok m =>
                  simp only [Res.bind_ok]
                  rw [header_big, bind_mapStream]
                  cases h1 : FrameHeader_to_char_stream f.header with
                  | ok hc =>
                    simp only [Res.bind_ok]
                    show (CharStream_write (CharStream_new m) (swapAt 4 hc.stream) 10 >>= _) = _
                    rw [write_swapped 4 0 _ _ _ rfl (by decide), bind_mapStream]
                    cases h2 : CharStream_write (CharStream_new m) hc.stream 10 with
                    | ok cs' =>
                      have := write_inv h2
                      exact write_later 4 cs' _ _ (by rw [this.2.2.2.2.1]; show (4 + 4 : Int) ≤ 0 + 10; decide)
                    | ub u => rfl
                    | exit => rfl
                    | diverge => rfl
                  | ub u => rfl
                  | exit => rfl
                  | diverge => rfl
                | ub u => rfl
                | exit => rfl
                | diverge => rfl
              | _ => rfl
          | ub u => rfl
          | exit => rfl
          | diverge => rfl
      | ub u => rfl
      | exit => rfl
      | diverge => rfl
  | ub u => rfl
  | exit => rfl
  | diverge => rfl

/-! ### Tags -/

theorem chain_inv {cs cs' : CharStream} {d : Bytes} {n : Int} (h : CharStream_write cs d n = .ok cs') :
    cs'.size = cs.size := (write_inv h).2.2.2.2.2.1

/-- A frame that is written has the size that its header says. -/
theorem frame_out_size [Platform] {f : Frame} {cs : CharStream} (h : Frame_to_char_stream f = .ok cs) :
    cs.size = f.header.size + 10 ∧ 10 ≤ cs.size := by
  have key : ∀ (m : Int) (hc c1 : CharStream) (n : Int), n = 10 → CharStream_write (CharStream_new m) hc.stream n = .ok c1 →
      c1.size = m ∧ 10 ≤ m := by
    intro m hc c1 n hn h
    have := write_inv h
    refine ⟨this.2.2.2.2.2.1, ?_⟩
    have h2 := this.2.2.2.1
    have e : (CharStream_new m).stream.length = m.toNat := by simp [CharStream_new]
    have e2 : (CharStream_new m).cursor = 0 := rfl
    rw [e, e2, hn] at h2
    omega
  unfold Frame_to_char_stream at h
  obtain ⟨b1, -, h⟩ := Res.bind_eq_ok.mp h
  split at h
  · split at h
    · unfold TextFrame_to_char_stream at h
      obtain ⟨hc, h1, h⟩ := Res.bind_eq_ok.mp h
      obtain ⟨m, h2, h⟩ := Res.bind_eq_ok.mp h
      obtain ⟨c1, h3, h⟩ := Res.bind_eq_ok.mp h
      obtain ⟨c2, h4, h⟩ := Res.bind_eq_ok.mp h
      have := key m hc c1 _ (header_out_inv h1) h3
      rw [chain_inv h, chain_inv h4, this.1, (ck_inv h2).1]
      exact ⟨rfl, by rw [← (ck_inv h2).1]; exact this.2⟩
    · cases h
  · obtain ⟨b2, -, h⟩ := Res.bind_eq_ok.mp h
    split at h
    · split at h
      · unfold CommentFrame_to_char_stream at h
        obtain ⟨hc, h1, h⟩ := Res.bind_eq_ok.mp h
        obtain ⟨m, h2, h⟩ := Res.bind_eq_ok.mp h
        obtain ⟨c1, h3, h⟩ := Res.bind_eq_ok.mp h
        obtain ⟨c2, h4, h⟩ := Res.bind_eq_ok.mp h
        obtain ⟨c3, h5, h⟩ := Res.bind_eq_ok.mp h
        obtain ⟨n, -, h⟩ := Res.bind_eq_ok.mp h
        obtain ⟨c4, h6, h⟩ := Res.bind_eq_ok.mp h
        have := key m hc c1 _ (header_out_inv h1) h3
        rw [chain_inv h, chain_inv h6, chain_inv h5, chain_inv h4, this.1, (ck_inv h2).1]
        exact ⟨rfl, by rw [← (ck_inv h2).1]; exact this.2⟩
      · cases h
    · obtain ⟨b3, -, h⟩ := Res.bind_eq_ok.mp h
      split at h
      · split at h
        · unfold ApicFrame_to_char_stream at h
          obtain ⟨hc, h1, h⟩ := Res.bind_eq_ok.mp h
          obtain ⟨m, h2, h⟩ := Res.bind_eq_ok.mp h
          obtain ⟨c1, h3, h⟩ := Res.bind_eq_ok.mp h
          obtain ⟨c2, h4, h⟩ := Res.bind_eq_ok.mp h
          obtain ⟨n, -, h⟩ := Res.bind_eq_ok.mp h
          obtain ⟨c3, h5, h⟩ := Res.bind_eq_ok.mp h
          obtain ⟨c4, h6, h⟩ := Res.bind_eq_ok.mp h
          obtain ⟨n', -, h⟩ := Res.bind_eq_ok.mp h
          obtain ⟨c5, h7, h⟩ := Res.bind_eq_ok.mp h
          have := key m hc c1 _ (header_out_inv h1) h3
          rw [chain_inv h, chain_inv h7, chain_inv h6, chain_inv h5, chain_inv h4, this.1, (ck_inv h2).1]
          exact ⟨rfl, by rw [← (ck_inv h2).1]; exact this.2⟩
        · cases h
      · split at h
        · obtain ⟨m, h2, h⟩ := Res.bind_eq_ok.mp h
          obtain ⟨hc, h1, h⟩ := Res.bind_eq_ok.mp h
          obtain ⟨c1, h3, h⟩ := Res.bind_eq_ok.mp h
          have := key m hc c1 _ rfl h3
          rw [chain_inv h, this.1, (ck_inv h2).1]
          exact ⟨rfl, by rw [← (ck_inv h2).1]; exact this.2⟩
        · cases h

theorem frames_later [Platform] (l : FrameList) (k : Nat) (cs : CharStream) (h : (k + 4 : Int) ≤ cs.cursor) :
    Tag_write_frames (inStream (swapAt k) cs) l = mapStream (swapAt k) (Tag_write_frames cs l) := by
  induction l generalizing cs with
  | nil => rfl
  | cons x l ih =>
    cases x with
    | none => rfl
    | some f =>
      unfold Tag_write_frames
      rw [mapStream_bind]
      cases Frame_to_char_stream f with
      | ok fcs =>
        simp only [Res.bind_ok]
        rw [write_later k cs _ _ h, mapStream_bind, bind_mapStream]
        cases h1 : CharStream_write cs fcs.stream fcs.size with
        | ok cs' =>
          have := write_inv h1
          exact ih cs' (by omega)
        | ub u => rfl
        | exit => rfl
        | diverge => rfl
      | ub u => rfl
      | exit => rfl
      | diverge => rfl

theorem mapStream_comp (g g' : Bytes → Bytes) (r : Res CharStream) :
    mapStream g (mapStream g' r) = mapStream (fun s => g (g' s)) r := by
  cases r <;> rfl

theorem frames_big [Platform] (l : FrameList) (c : Nat) (cs : CharStream) (hc : cs.cursor = c) :
    Tag_write_framesOn .big cs l = mapStream (swapAll (sizeFields c l)) (Tag_write_frames cs l) := by
  induction l generalizing cs c with
  | nil => rfl
  | cons x l ih =>
    cases x with
    | none => rfl
    | some f =>
      unfold Tag_write_framesOn Tag_write_frames
      rw [mapStream_bind, frame_big, bind_mapStream]
      cases h0 : Frame_to_char_stream f with
      | ok fcs =>
        simp only [Res.bind_ok]
        obtain ⟨e1, e2⟩ := frame_out_size h0
        show (CharStream_write cs (swapAt 4 fcs.stream) fcs.size >>= _) = _
        rw [write_swapped 4 c cs _ _ hc (by omega), mapStream_bind, bind_mapStream]
        cases h1 : CharStream_write cs fcs.stream fcs.size with
        | ok cs' =>
          have := write_inv h1
          simp only [Res.bind_ok]
          rw [ih (c + (f.header.size + 10).toNat) (inStream (swapAt (c + 4)) cs') (by show cs'.cursor = _; omega),
            frames_later l (c + 4) cs' (by omega), mapStream_comp]
          rfl
        | ub u => rfl
        | exit => rfl
        | diverge => rfl
      | ub u => rfl
      | exit => rfl
      | diverge => rfl

/-- **The whole tag**: the same outcome, with the sizes turned round. -/
theorem tag_big [Platform] (t : Tag) :
    Tag_to_char_streamOn .big t = mapStream (swapAll (tagFields t)) (Tag_to_char_stream t) := by
  unfold Tag_to_char_streamOn Tag_to_char_stream
  dsimp only
  rw [mapStream_bind]
  cases h1 : CharStream_write (CharStream_new (toInt32 (u32 (t.header.tag_size + 10)))) t.header.identifier 3 with
  | ok c1 =>
    simp only [Res.bind_ok]
    rw [mapStream_bind]
    cases h2 : CharStream_write c1 [some t.header.major_version] 1 with
    | ok c2 =>
      simp only [Res.bind_ok]
      rw [mapStream_bind]
      cases h3 : CharStream_write c2 [some t.header.minor_version] 1 with
      | ok c3 =>
        simp only [Res.bind_ok]
        rw [mapStream_bind]
        cases h4 : CharStream_write c3 [some t.header.flags] 1 with
        | ok c4 =>
          simp only [Res.bind_ok]
          rw [mapStream_bind]
          cases h5 : syncint_encode (BitVec.ofNat 32 t.header.tag_size) with
          | ok v =>
            have e1 := write_inv h1
            have e2 := write_inv h2
            have e3 := write_inv h3
            have e4 := write_inv h4
            have hz : (CharStream_new (toInt32 (u32 (t.header.tag_size + 10)))).cursor = 0 := rfl
            simp only [Res.bind_ok]
            rw [write_field 6 c4 v (by omega), mapStream_bind, bind_mapStream]
            cases h6 : CharStream_write c4 (ofB (itob v)) 4 with
            | ok c5 =>
              have e5 := write_inv h6
              simp only [Res.bind_ok]
              unfold tagFields
              match t.frames with
              | [] => rfl
              | none :: _ => rfl
              | some f :: rest =>
                show Tag_write_framesOn .big (inStream (swapAt 6) c5) (some f :: rest) = _
                rw [frames_big _ 10 _ (by show c5.cursor = _; omega), frames_later _ 6 c5 (by omega), mapStream_comp]
                rfl
            | ub u => rfl
            | exit => rfl
            | diverge => rfl
          | ub u => rfl
          | exit => rfl
          | diverge => rfl
        | ub u => rfl
        | exit => rfl
        | diverge => rfl
      | ub u => rfl
      | exit => rfl
      | diverge => rfl
    | ub u => rfl
    | exit => rfl
    | diverge => rfl
  | ub u => rfl
  | exit => rfl
  | diverge => rfl

/-- **The whole tag**, on a target of either byte order. -/
theorem tag_on [Platform] (o : ByteOrder) (t : Tag) :
    Tag_to_char_streamOn o t = mapStream (turned o (tagFields t)) (Tag_to_char_stream t) := by
  cases o with
  | little => rw [tag_little]; cases Tag_to_char_stream t <;> rfl
  | big => exact tag_big t

end Id3
