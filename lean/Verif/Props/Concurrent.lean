import Verif.Spec.Observe
import Verif.Model.Concurrent
import Verif.Props.Crash
import Verif.Props.File

/-!
# C58 - C60: crashes and other processes that use the same file
-/

namespace Id3.Props

open Id3 Spec

/-! ## The reader -/

theorem after_ne_header [Platform] (got g : Bytes) : afterHeader got ≠ .header g := by
  unfold afterHeader
  split
  · intro h; cases h
  · split <;> intro h <;> cases h

theorem after_body [Platform] {got g : Bytes} {n : Int} (h : afterHeader got = .body n g) : g = [] ∧ 10 ≤ got.length := by
  unfold afterHeader at h
  split at h
  · cases h
  · split at h <;> cases h
    exact ⟨rfl, by omega⟩

/-- Reading a file that nobody changes. -/
theorem read_outcome [Platform] (F : Bytes) : ID3v2_read_tag (some F) =
    readerOutcome (F.take 10) (match afterHeader (F.take 10) with | .body n _ => F.take n.toNat | _ => []) := by
  unfold readerOutcome ID3v2_read_tag ID3v2_read_tag_header afterHeader
  dsimp only
  by_cases h : (F.take 10).length < 10
  · rw [if_pos h, if_pos h]; rfl
  · rw [if_neg h, if_neg h]
    cases e : ID3v2_read_tag_header_from_buffer (F.take 10) with
    | ok r => cases r <;> rfl
    | ub k => rfl
    | exit => rfl
    | diverge => rfl

/-- The reader has seen nothing but the file `F`. -/
def Sees [Platform] (F : Bytes) : RPhase → Prop
  | .header got => got <+: F ∧ got.length ≤ 10
  | .body n got => afterHeader (F.take 10) = .body n [] ∧ got <+: F ∧ got.length ≤ n.toNat
  | .done r => r = ID3v2_read_tag (some F)

/-- The file is a prefix of `F` that contains all that a reader of `F` looks at. -/
def Enough [Platform] (dest F : Bytes) : Prop :=
  dest <+: F ∧ (dest = F ∨ 10 ≤ dest.length ∧ ∀ n, afterHeader (F.take 10) = .body n [] → n.toNat ≤ dest.length)

theorem prefix_snoc {got dest F : Bytes} {c : MByte} (h1 : got <+: F) (h2 : dest <+: F) (h : dest[got.length]? = some c) :
    got ++ [c] <+: F := by
  have hc : F[got.length]? = some c := by
    obtain ⟨t, rfl⟩ := h2
    rw [List.getElem?_append_left (by
      rcases Nat.lt_or_ge got.length dest.length with h' | h'
      · exact h'
      · rw [List.getElem?_eq_none h'] at h; cases h)]
    exact h
  obtain ⟨t, rfl⟩ := h1
  rw [List.getElem?_append_right (Nat.le_refl _), Nat.sub_self] at hc
  cases t with
  | nil => cases hc
  | cons d t =>
    cases hc
    exact ⟨t, by simp⟩

theorem take_of_prefix {got F : Bytes} {n : Nat} (h : got <+: F) (hl : got.length ≤ n)
    (hn : got.length = n ∨ F.length ≤ got.length) : got = F.take n := by
  obtain ⟨t, rfl⟩ := h
  rcases hn with hn | hn
  · subst hn; simp
  · have : t = [] := by
      rw [List.length_append] at hn
      exact List.length_eq_zero_iff.mp (by omega)
    subst this
    rw [List.append_nil, List.take_of_length_le hl]

theorem sees_step [Platform] {dest F : Bytes} {r r' : RPhase} (he : Enough dest F) (hs : Sees F r) (h : RStep dest r r') :
    Sees F r' := by
  cases h with
  | getHeader got c hl hc => exact ⟨prefix_snoc hs.1 he.1 hc, by simp; omega⟩
  | endHeader got hl =>
    have hgot : got = F.take 10 := by
      refine take_of_prefix hs.1 hs.2 ?_
      rcases hl with hl | hl
      · exact .inl hl
      · rcases he.2 with rfl | ⟨h10, _⟩
        · exact .inr hl
        · exact .inl (by have := hs.2; omega)
    subst hgot
    cases e : afterHeader (F.take 10) with
    | header g => exact absurd e (after_ne_header _ _)
    | body n g =>
      obtain ⟨rfl, -⟩ := after_body e
      exact ⟨e, List.nil_prefix, Nat.zero_le _⟩
    | done r =>
      show r = ID3v2_read_tag (some F)
      rw [read_outcome]
      unfold readerOutcome
      rw [e]
  | getBody n got c hl hc => exact ⟨hs.1, prefix_snoc hs.2.1 he.1 hc, by simp; omega⟩
  | endBody n got hl =>
    have hgot : got = F.take n.toNat := by
      refine take_of_prefix hs.2.1 hs.2.2 ?_
      rcases hl with hl | hl
      · exact .inl hl
      · rcases he.2 with rfl | ⟨_, hn⟩
        · exact .inr hl
        · exact .inl (by have := hn n hs.1; have := hs.2.2; omega)
    show _ = ID3v2_read_tag (some F)
    rw [read_outcome]
    unfold readerOutcome
    rw [hs.1, hgot]

theorem enough_self [Platform] (F : Bytes) : Enough F F := ⟨List.prefix_refl _, .inl rfl⟩

/-- The transition system is the function `ID3v2_read_tag`: on a file that nobody changes it can only end with the result
of the function. -/
theorem reader_alone [Platform] (F : Bytes) (r : Res (Option Tag)) (h : RSteps F (.header []) (.done r)) :
    r = ID3v2_read_tag (some F) := by
  have key : ∀ s, RSteps F (.header []) s → Sees F s := by
    intro s hs
    induction hs with
    | refl => exact ⟨List.nil_prefix, Nat.zero_le _⟩
    | tail s t _ hst ih => exact sees_step (enough_self F) ih hst
  exact key _ h

theorem rsteps_header [Platform] (F : Bytes) (r : RPhase) : ∀ (n : Nat) (got : Bytes), got <+: F → got.length + n = 10 →
    RSteps F r (.header got) → ∃ g, g = F.take 10 ∧ RSteps F r (.header g) ∧ (g.length = 10 ∨ F.length ≤ g.length)
  | 0, got, hp, hn, h => by
    refine ⟨got, take_of_prefix hp (by omega) (.inl (by omega)), h, .inl (by omega)⟩
  | n + 1, got, hp, hn, h => by
    cases e : F[got.length]? with
    | none =>
      have hl : F.length ≤ got.length := List.getElem?_eq_none_iff.mp e
      exact ⟨got, take_of_prefix hp (by omega) (.inr hl), h, .inr hl⟩
    | some c =>
      exact rsteps_header F r n (got ++ [c]) (prefix_snoc hp (List.prefix_refl _) e) (by simp; omega)
        (.tail _ _ _ h (.getHeader got c (by omega) e))

theorem rsteps_body [Platform] (F : Bytes) (r : RPhase) (m : Int) : ∀ (n : Nat) (got : Bytes), got <+: F →
    got.length + n = m.toNat → RSteps F r (.body m got) →
    ∃ g, g = F.take m.toNat ∧ RSteps F r (.body m g) ∧ (g.length = m.toNat ∨ F.length ≤ g.length)
  | 0, got, hp, hn, h => by
    refine ⟨got, take_of_prefix hp (by omega) (.inl (by omega)), h, .inl (by omega)⟩
  | n + 1, got, hp, hn, h => by
    cases e : F[got.length]? with
    | none =>
      have hl : F.length ≤ got.length := List.getElem?_eq_none_iff.mp e
      exact ⟨got, take_of_prefix hp (by omega) (.inr hl), h, .inr hl⟩
    | some c =>
      exact rsteps_body F r m n (got ++ [c]) (prefix_snoc hp (List.prefix_refl _) e) (by simp; omega)
        (.tail _ _ _ h (.getBody m got c (by omega) e))

/-- And it does end. -/
theorem reader_ends [Platform] (F : Bytes) : RSteps F (.header []) (.done (ID3v2_read_tag (some F))) := by
  obtain ⟨g, rfl, h1, h2⟩ := rsteps_header F _ 10 [] List.nil_prefix rfl (.refl _)
  have h3 := RSteps.tail _ _ _ h1 (.endHeader _ h2)
  rw [read_outcome]
  unfold readerOutcome
  cases e : afterHeader (F.take 10) with
  | header g => exact absurd e (after_ne_header _ _)
  | done r => rw [e] at h3; exact h3
  | body m g =>
    obtain ⟨rfl, -⟩ := after_body e
    rw [e] at h3
    obtain ⟨g, rfl, h4, h5⟩ := rsteps_body F _ m m.toNat [] List.nil_prefix (by simp) h3
    exact .tail _ _ _ h4 (.endBody m _ h5)

/-! ## C58: reading after a crash -/

/-- What a reader of a file with this header looks at. -/
theorem after_written [Platform] (major minor flags : UInt8) (n : Nat) (rest : Bytes) (hv : major = 3 ∨ major = 4)
    (hn : n < 2 ^ 28) :
    afterHeader ((ofB (tagHeaderBytes major minor flags n) ++ rest).take 10) = .body (10 + n : Nat) [] := by
  have hl : (ofB (tagHeaderBytes major minor flags n)).length = 10 := by simp [tagHeaderBytes, synchsafe]
  rw [List.take_append_of_le_length (by omega), List.take_of_length_le (by omega)]
  unfold afterHeader
  rw [if_neg (by omega)]
  obtain ⟨h, e, -, -, -, e4⟩ := header_size_synchsafe major minor flags n [] hn hv
  rw [List.append_nil] at e
  rw [e]
  dsimp only
  rw [e4, show ((n : Int) + 10) = ((10 + n : Nat) : Int) by omega, u32_nat (by omega), toInt32_nat (by omega)]

theorem read_short [Platform] (F : Bytes) (h : F.length < 10) : ID3v2_read_tag (some F) = .ok none := by
  unfold ID3v2_read_tag ID3v2_read_tag_header
  dsimp only
  rw [if_pos (by simp; omega)]
  rfl

theorem read_enough [Platform] {dest F : Bytes} (h : Enough dest F) : ID3v2_read_tag (some dest) = ID3v2_read_tag (some F) := by
  have key : ∀ s, RSteps dest (.header []) s → Sees F s := by
    intro s hs
    induction hs with
    | refl => exact ⟨List.nil_prefix, Nat.zero_le _⟩
    | tail s t _ hst ih => exact sees_step h ih hst
  exact key _ (reader_ends dest)

/-- A written file. -/
theorem written [Platform] {contents : List UInt8} {tag tag' : Tag} {file : File} (hw : Writable tag)
    (h : ID3v2_write_tag (some (ofB contents)) tag = .ok (file, tag')) :
    ∃ cs rest, Tag_to_char_stream tag = .ok cs ∧ cs.stream = ofB (tagHeaderBytes tag.header.major_version
        tag.header.minor_version tag.header.flags tag.header.tag_size) ++ rest ∧
      file = some (cs.stream ++ ofB (audio contents)) := by
  obtain ⟨cs, hc, hf⟩ := write_preserves_audio contents _ _ _ hw.1 h
  obtain ⟨-, -, rest, t3⟩ := tag_out_inv _ cs hw.1 hc
  rw [headerOut_eq _ hw.2.2] at t3
  exact ⟨cs, rest, hc, t3, hf⟩

/-- **C58**, what holds: after a crash of `ID3v2_write_tag` at any moment, reading the file gives what it gave before, if
the file was not yet truncated; NULL if fewer than ten bytes had reached the disk; and the new tag if all bytes of the new
tag had. Missing: a crash in between, see `crash_in_tag`. -/
theorem crash_then_read_partial [Platform] (contents : List UInt8) (tag tag' : Tag) (file : File) (cs : CharStream)
    (hw : Writable tag) (hc : Tag_to_char_stream tag = .ok cs)
    (h : ID3v2_write_tag (some (ofB contents)) tag = .ok (file, tag')) (s : IOState)
    (hs : IOSteps false (writeStart (ofB contents) cs.stream (tagLength contents)) s) :
    ((∃ temp rest, s.phase = .reading temp rest) → ID3v2_read_tag (some s.dest) = ID3v2_read_tag (some (ofB contents))) ∧
    (¬ (∃ temp rest, s.phase = .reading temp rest) →
      (s.dest.length < 10 → ID3v2_read_tag (some s.dest) = .ok none) ∧
      (10 + tag.header.tag_size ≤ s.dest.length → ID3v2_read_tag (some s.dest) = ID3v2_read_tag file)) := by
  obtain ⟨cs', rest, hc', e1, e2⟩ := written hw h
  cases Res.ok.inj (hc.symm.trans hc')
  obtain ⟨new, hnew, hd, _, hr⟩ := write_crash_partial (ofB contents) tag tag' file _ cs hw.1 (existing_size contents) hc h s hs
  constructor
  · rintro ⟨temp, rest, hp⟩
    rw [hr temp rest hp]
  · intro hp
    refine ⟨read_short _, fun hl => ?_⟩
    have hd : s.dest <+: new := by
      have hm := moment_steps (ofB contents) (cs.stream ++ (ofB contents).drop (tagLength contents)) _ s hs ⟨rfl, rfl⟩
      have en : cs.stream ++ (ofB contents).drop (tagLength contents) = new := by
        rw [ofB_drop]
        exact Option.some.inj (e2.symm.trans hnew)
      rw [en] at hm
      obtain ⟨dest, phase⟩ := s
      cases phase with
      | reading temp rest => exact absurd ⟨temp, rest, rfl⟩ hp
      | copying buffer rest => exact ⟨buffer ++ rest, by rw [← List.append_assoc]; exact hm⟩
      | finished => exact ⟨[], by rw [List.append_nil]; exact hm⟩
    rw [hnew]
    refine read_enough ⟨hd, .inr ⟨by omega, fun n hn => ?_⟩⟩
    have : new = ofB (tagHeaderBytes tag.header.major_version tag.header.minor_version tag.header.flags
        tag.header.tag_size) ++ (rest ++ ofB (audio contents)) := by
      rw [← List.append_assoc, ← e1]
      exact Option.some.inj (hnew.symm.trans e2)
    rw [this, after_written _ _ _ _ _ hw.2.1 hw.2.2] at hn
    cases hn
    omega

theorem memcmp_none [Platform] (k : Nat) (l : UInt8) (ls : List UInt8) (hk : ls.length < k) :
    memcmpEq (List.replicate k none) (l :: ls) = .ub .uninit := by
  unfold memcmpEq
  split
  · cases k with
    | zero => omega
    | succ k => rfl
  · rw [if_neg (by simp; omega), if_pos]
    rw [List.take_replicate]
    cases k with
    | zero => omega
    | succ k => simp [List.replicate_succ]

/-- A file that ends after the header of its tag: the parser branches on uninitialised memory. -/
theorem read_header_only [Platform] (major minor flags : UInt8) (n : Nat) (hv : major = 3 ∨ major = 4) (h10 : 10 < n)
    (hn : n < 2 ^ 28) : ID3v2_read_tag (some (ofB (tagHeaderBytes major minor flags n))) = .ub .uninit := by
  have hl : (ofB (tagHeaderBytes major minor flags n)).length = 10 := by simp [tagHeaderBytes, synchsafe]
  rw [read_outcome]
  unfold readerOutcome
  have e := after_written major minor flags n [] hv hn
  rw [List.append_nil] at e
  rw [e]
  dsimp only
  rw [List.take_of_length_le (by omega)]
  unfold ID3v2_read_tag_from_buffer intoArray
  rw [hl, Int.toNat_natCast, show 10 + n - 10 = n by omega,
    ← List.append_nil (ofB (tagHeaderBytes major minor flags n) ++ List.replicate n none),
    from_buffer_csAt _ _ _ (by simp [hl])]
  simp only [Res.bind_ok]
  obtain ⟨m, rfl⟩ : ∃ m, n = m + 4 := ⟨n - 4, by omega⟩
  unfold Tag_parse tagHeaderBytes synchsafe
  simp only [List.cons_append, List.nil_append]
  have hp := tag_header_parse_all 0x49 0x44 0x33 major minor flags (UInt8.ofNat ((m + 4) / 128 ^ 3 % 128))
    (UInt8.ofNat ((m + 4) / 128 ^ 2 % 128)) (UInt8.ofNat ((m + 4) / 128 % 128)) (UInt8.ofNat ((m + 4) % 128))
    (List.replicate (m + 4) none)
  rw [if_pos rfl, if_pos hv] at hp
  rw [hp]
  by_cases hf : flags &&& 0x40 = 0x40
  · rw [if_pos hf]
    rfl
  · rw [if_neg hf]
    simp only [Res.bind_ok]
    rw [show sizeValue (UInt8.ofNat ((m + 4) / 128 ^ 3 % 128)) (UInt8.ofNat ((m + 4) / 128 ^ 2 % 128))
      (UInt8.ofNat ((m + 4) / 128 % 128)) (UInt8.ofNat ((m + 4) % 128)) = m + 4 by
        rw [sizeValue_eq] <;> simp only [UInt8.toNat_ofNat'] <;> omega]
    unfold Tag_parse_loop Frame_parse FrameHeader_parse
    rw [if_neg (by decide), if_pos (show u32 _ < m + 4 from by
      show u32 (10 : Nat) < m + 4
      rw [u32_nat (by omega)]; omega)]
    rw [read_csAt' _ (List.replicate 4 none) (List.replicate m none) 4 _ (by
      rw [List.replicate_append_replicate, Nat.add_comm]) (by simp)]
    simp only [Res.bind_ok]
    rw [show intoArray 4 (List.replicate 4 none) = List.replicate 4 none from rfl, memcmp_none _ _ _ (by decide)]
    rfl

/-- **C58**: every write of a tag with more than ten bytes passes through a moment at which only the header of the tag has
reached the disk. If the process dies then, reading the file branches on uninitialised memory. -/
theorem crash_in_tag [Platform] (contents : List UInt8) (tag tag' : Tag) (file : File) (cs : CharStream)
    (hw : Writable tag) (hc : Tag_to_char_stream tag = .ok cs) (h10 : 10 < tag.header.tag_size)
    (h : ID3v2_write_tag (some (ofB contents)) tag = .ok (file, tag')) :
    ∃ s, IOSteps false (writeStart (ofB contents) cs.stream (tagLength contents)) s ∧
      ID3v2_read_tag (some s.dest) = .ub .uninit := by
  obtain ⟨cs', rest, hc', e1, e2⟩ := written hw h
  cases Res.ok.inj (hc.symm.trans hc')
  obtain ⟨s, hs, hd⟩ := write_any_prefix false (ofB contents) cs.stream (tagLength contents) 10
  refine ⟨s, hs, ?_⟩
  rw [hd, e1, List.append_assoc, List.take_append_of_le_length (by simp [tagHeaderBytes, synchsafe]),
    List.take_of_length_le (by simp [tagHeaderBytes, synchsafe])]
  exact read_header_only _ _ _ _ hw.2.1 h10 hw.2.2

theorem untagged_prefix {a c : List UInt8} (h : c <+: a) (h0 : tagLength a = 0) : tagLength c = 0 := by
  rcases ten_or_less c with hl | ⟨b0, b1, b2, b3, b4, b5, s0, s1, s2, s3, rest, rfl⟩
  · exact tagLength_short _ hl
  · obtain ⟨t, rfl⟩ := h
    exact h0

theorem ofB_prefix {a : List UInt8} {d : Bytes} (h : d <+: ofB a) : ∃ c, d = ofB c ∧ c <+: a := by
  obtain ⟨t, h⟩ := h
  refine ⟨a.take d.length, ?_, List.take_prefix _ _⟩
  have := congrArg (List.take d.length) h
  rw [List.take_left] at this
  rw [this]
  simp [ofB]

/-- **C58** for `ID3v2_delete_tag`: if the audio does not begin with another tag, then after a crash at any moment reading
the file gives what it gave before, or NULL. -/
theorem delete_crash_then_read [Platform] (contents : List UInt8) (h0 : tagLength (audio contents) = 0) (s : IOState)
    (hs : IOSteps false (deleteStart (ofB contents) (tagLength contents)) s) :
    ID3v2_read_tag (some s.dest) = ID3v2_read_tag (some (ofB contents)) ∨ ID3v2_read_tag (some s.dest) = .ok none := by
  obtain ⟨new, hn, hd, -⟩ := delete_crash_partial (ofB contents) _ _ (existing_size contents) (delete_leaves_audio contents) s hs
  cases hn
  rcases hd with hd | hd
  · exact .inl (by rw [hd])
  · obtain ⟨c, hc, hp⟩ := ofB_prefix hd
    refine .inr ?_
    rw [hc]
    obtain ⟨r, h1, h2, h3⟩ := read_header_spec c
    unfold ID3v2_read_tag
    rw [h1]
    cases r with
    | none => rfl
    | some hd =>
      have := (h3 hd rfl).1
      have := untagged_prefix hp h0
      omega

example : tagLength (audio (tagBytes 0 0 sampleFrames 5 ++ [0xFF, 0xFB, 0x90])) = 0 ∧
    tagLength (tagBytes 0 0 sampleFrames 5 ++ [0xFF, 0xFB, 0x90]) = 88 := by decide

/-- The claim of C58: after a crash the old tag, the new tag or no tag is read. -/
def C58_claim : Prop :=
  ∀ [Platform] (contents : List UInt8) (tag tag' : Tag) (file : File) (cs : CharStream) (s : IOState), Writable tag →
    Tag_to_char_stream tag = .ok cs → ID3v2_write_tag (some (ofB contents)) tag = .ok (file, tag') →
    IOSteps false (writeStart (ofB contents) cs.stream (tagLength contents)) s →
    ID3v2_read_tag (some s.dest) = ID3v2_read_tag (some (ofB contents)) ∨
      ID3v2_read_tag (some s.dest) = ID3v2_read_tag file ∨ ID3v2_read_tag (some s.dest) = .ok none

/-- A file with a tag, a tag to be written, and the file that this gives. -/
theorem sample_write (contents : List UInt8) : ∃ (tag tag' : Tag) (cs : CharStream) (file : File) (t : Tag), Writable tag ∧ 10 < tag.header.tag_size ∧
    @Tag_to_char_stream strict tag = .ok cs ∧ @ID3v2_write_tag strict (some (ofB contents)) tag = .ok (file, tag') ∧
    file = some (ofB (tagBytes 0 0 sampleFrames 5 ++ audio contents)) ∧ @ID3v2_read_tag strict file = .ok (some t) ∧ t.frames.length = 4 := by
  obtain ⟨file, t1, t2, w1, w2, w3, -⟩ := @write_then_read_partial strict contents 0 0 sampleFrames 5 0 (by decide)
    (by decide) (by decide) (by decide) (by decide) (by decide)
  obtain ⟨t3, w4⟩ := @write_bytes strict contents 0 0 sampleFrames 5 0 (by decide) (by decide) (by decide) (by decide)
  obtain ⟨cs, hc, -⟩ := @write_preserves_audio strict _ _ _ _ rfl w1
  have hw : Writable (toTag 3 0 0 (framesSize sampleFrames + 5) sampleFrames 0) := ⟨rfl, Or.inl rfl, by decide⟩
  obtain ⟨-, -, e, -⟩ := @write_effect strict _ _ _ _ hw (by decide) w1
  exact ⟨_, _, cs, _, _, hw, by decide, hc, w1, (Prod.mk.inj (Res.ok.inj (w1.symm.trans w4))).1, w2,
    by rw [w3, e]; rfl⟩

theorem C58_false : ¬ C58_claim := by
  intro h
  obtain ⟨tag, tag', cs, file, t, hw, h10, hc, h1, -, h2, -⟩ := sample_write [1, 2, 3]
  obtain ⟨s, hs, hu⟩ := @crash_in_tag strict _ _ _ _ _ hw hc h10 h1
  have := @h strict _ _ _ _ _ s hw hc h1 hs
  rw [hu, h2, show @ID3v2_read_tag strict (some (ofB [1, 2, 3])) = .ok none from rfl] at this
  rcases this with h | h | h <;> cases h

/-! ## C59: reading while another process writes -/

theorem splice_old {old new got dest : Bytes} {c : MByte} (h : Splice old new got.length got) (hd : dest = old)
    (hc : dest[got.length]? = some c) : Splice old new (got ++ [c]).length (got ++ [c]) := by
  subst hd
  intro i d hi
  rcases Nat.lt_trichotomy i got.length with hl | hl | hl
  · rw [List.getElem?_append_left hl] at hi
    have := h i d hi
    rw [if_pos hl] at this
    rw [if_pos (by simp; omega)]
    exact this
  · subst hl
    rw [List.getElem?_append_right (Nat.le_refl _), Nat.sub_self] at hi
    cases hi
    rw [if_pos (by simp)]
    exact hc
  · rw [List.getElem?_eq_none (by simp; omega)] at hi
    cases hi

theorem splice_new {old new got dest : Bytes} {c : MByte} {k : Nat} (h : Splice old new k got) (hk : k ≤ got.length)
    (hd : dest <+: new) (hc : dest[got.length]? = some c) : Splice old new k (got ++ [c]) := by
  intro i d hi
  rcases Nat.lt_trichotomy i got.length with hl | hl | hl
  · rw [List.getElem?_append_left hl] at hi
    exact h i d hi
  · subst hl
    rw [List.getElem?_append_right (Nat.le_refl _), Nat.sub_self] at hi
    cases hi
    rw [if_neg (by omega)]
    obtain ⟨t, rfl⟩ := hd
    rw [List.getElem?_append_left (by
      rcases Nat.lt_or_ge got.length dest.length with h' | h'
      · exact h'
      · rw [List.getElem?_eq_none h'] at hc; cases hc)]
    exact hc
  · rw [List.getElem?_eq_none (by simp; omega)] at hi
    cases hi

theorem moment_old {old new : Bytes} {s : IOState} (h : Moment old new s) (hu : Untouched s) : s.dest = old := by
  obtain ⟨temp, rest, hp⟩ := hu
  unfold Moment at h
  rw [hp] at h
  exact h.1

theorem moment_new {old new : Bytes} {s : IOState} (h : Moment old new s) (hu : ¬ Untouched s) : s.dest <+: new := by
  obtain ⟨dest, phase⟩ := s
  cases phase with
  | reading temp rest => exact absurd ⟨temp, rest, rfl⟩ hu
  | copying buffer rest => exact ⟨buffer ++ rest, by rw [← List.append_assoc]; exact h⟩
  | finished => exact ⟨[], by rw [List.append_nil]; exact h⟩

theorem untouched_back {s s' : IOState} (h : IOStep false s s') (hu : Untouched s') : Untouched s := by
  obtain ⟨temp, rest, hp⟩ := hu
  cases h with
  | save => exact ⟨_, _, rfl⟩
  | truncate => cases hp
  | copy => cases hp
  | flush => cases hp
  | fail => cases hp
  | close => cases hp

/-- What the reader has at every moment. -/
def Seen [Platform] (old new : Bytes) (s : RWState) : Prop :=
  Moment old new s.writer ∧
  match s.reader with
  | .header got => got.length ≤ 10 ∧ ∃ k, k ≤ got.length ∧ (Untouched s.writer → k = got.length) ∧ Splice old new k got
  | .body n got => ∃ h k k', h.length = 10 ∧ k ≤ 10 ∧ k' ≤ got.length ∧ afterHeader h = .body n [] ∧
      (Untouched s.writer → k = 10 ∧ k' = got.length) ∧ (k < 10 → k' = 0) ∧ Splice old new k h ∧ Splice old new k' got
  | .done r => ∃ h b k k', h.length ≤ 10 ∧ Splice old new k h ∧ Splice old new k' b ∧ (k < h.length → k' = 0) ∧
      r = readerOutcome h b

theorem seen_step [Platform] {old new : Bytes} {s t : RWState} (h : RWStep s t) (hs : Seen old new s) : Seen old new t := by
  cases h with
  | writer s s' r h =>
    refine ⟨moment_step old new _ _ h hs.1, ?_⟩
    have hs := hs.2
    cases r with
    | header got =>
      obtain ⟨hl, k, hk, hu, hsp⟩ := hs
      exact ⟨hl, k, hk, fun hu' => hu (untouched_back h hu'), hsp⟩
    | body n got =>
      obtain ⟨hd, k, k', h1, h2, h3, h4, h5, h6⟩ := hs
      exact ⟨hd, k, k', h1, h2, h3, h4, fun hu' => h5 (untouched_back h hu'), h6⟩
    | done r => exact hs
  | reader s r r' h =>
    obtain ⟨hm, hs⟩ := hs
    refine ⟨hm, ?_⟩
    cases h with
    | getHeader got c hl hc =>
      obtain ⟨-, k, hk, hu, hsp⟩ := hs
      refine ⟨by simp; omega, ?_⟩
      by_cases ht : Untouched s
      · obtain rfl := hu ht
        exact ⟨_, Nat.le_refl _, fun _ => rfl, splice_old hsp (moment_old hm ht) hc⟩
      · exact ⟨k, by simp; omega, fun hu' => absurd hu' ht, splice_new hsp hk (moment_new hm ht) hc⟩
    | endHeader got hl =>
      obtain ⟨hl', k, hk, hu, hsp⟩ := hs
      cases e : afterHeader got with
      | header g => exact absurd e (after_ne_header _ _)
      | body n g =>
        obtain ⟨rfl, h10⟩ := after_body e
        have hg : got.length = 10 := by omega
        exact ⟨got, k, 0, hg, by omega, Nat.le_refl _, e, fun hu' => ⟨by rw [hu hu', hg], rfl⟩, fun _ => rfl, hsp,
          fun i c hi => by cases hi⟩
      | done r =>
        refine ⟨got, [], k, 0, hl', hsp, fun i c hi => (by cases hi), fun _ => rfl, ?_⟩
        unfold readerOutcome
        rw [e]
    | getBody n got c hl hc =>
      obtain ⟨hd, k, k', h1, h2, h3, h4, h5, h6, h7, h8⟩ := hs
      by_cases ht : Untouched s
      · obtain ⟨rfl, rfl⟩ := h5 ht
        exact ⟨hd, _, _, h1, h2, Nat.le_refl _, h4, fun _ => ⟨rfl, rfl⟩, fun hlt => absurd hlt (by omega), h7,
          splice_old h8 (moment_old hm ht) hc⟩
      · exact ⟨hd, k, k', h1, h2, by simp; omega, h4, fun hu' => absurd hu' ht, h6, h7,
          splice_new h8 h3 (moment_new hm ht) hc⟩
    | endBody n got hl =>
      obtain ⟨hd, k, k', h1, h2, h3, h4, h5, h6, h7, h8⟩ := hs
      refine ⟨hd, got, k, k', by omega, h7, h8, fun hlt => h6 (by omega), ?_⟩
      unfold readerOutcome
      rw [h4]

theorem seen_steps [Platform] {old new : Bytes} {s t : RWState} (h : RWSteps s t) (hs : Seen old new s) : Seen old new t := by
  induction h with
  | refl => exact hs
  | tail t u _ h ih => exact seen_step h ih

/-- **C59**, what every reader can see, whatever the schedule: a header whose first bytes are old and whose other bytes
are new, then a tag likewise; if a byte of the header is new then all of the tag is. -/
theorem reader_sees_splice [Platform] (contents : List UInt8) (tag tag' : Tag) (file : File) (cs : CharStream)
    (hw : Writable tag) (hc : Tag_to_char_stream tag = .ok cs)
    (h : ID3v2_write_tag (some (ofB contents)) tag = .ok (file, tag')) (s : IOState) (r : Res (Option Tag))
    (hs : RWSteps ⟨writeStart (ofB contents) cs.stream (tagLength contents), .header []⟩ ⟨s, .done r⟩) :
    ∃ new header body k k', file = some new ∧ header.length ≤ 10 ∧ Splice (ofB contents) new k header ∧
      Splice (ofB contents) new k' body ∧ (k < header.length → k' = 0) ∧ r = readerOutcome header body := by
  obtain ⟨cs', rest, hc', e1, e2⟩ := written hw h
  cases Res.ok.inj (hc.symm.trans hc')
  have := seen_steps (old := ofB contents) (new := cs.stream ++ (ofB contents).drop (tagLength contents)) hs
    ⟨⟨rfl, rfl⟩, Nat.zero_le _, 0, Nat.le_refl _, fun _ => rfl, fun i c hi => by cases hi⟩
  obtain ⟨hd, b, k, k', h1, h2, h3, h4, h5⟩ := this.2
  exact ⟨_, hd, b, k, k', e2.trans (by rw [ofB_drop]; rfl), h1, h2, h3, h4, h5⟩

/-- **C59**, what holds: a reader that is done before the file is truncated reads the old tag. -/
theorem reader_before_partial [Platform] (contents : List UInt8) (tag_bytes : Bytes) (s : IOState)
    (r : Res (Option Tag)) (hu : Untouched s)
    (hs : RWSteps ⟨writeStart (ofB contents) tag_bytes (tagLength contents), .header []⟩ ⟨s, .done r⟩) :
    r = ID3v2_read_tag (some (ofB contents)) := by
  have key : ∀ t, RWSteps ⟨writeStart (ofB contents) tag_bytes (tagLength contents), .header []⟩ t →
      Moment (ofB contents) (tag_bytes ++ (ofB contents).drop (tagLength contents)) t.writer ∧
        (Untouched t.writer → Sees (ofB contents) t.reader) := by
    intro t ht
    induction ht with
    | refl => exact ⟨⟨rfl, rfl⟩, fun _ => ⟨List.nil_prefix, Nat.zero_le _⟩⟩
    | tail t u _ h ih =>
      cases h with
      | writer s s' r h => exact ⟨moment_step _ _ _ _ h ih.1, fun hu => ih.2 (untouched_back h hu)⟩
      | reader s r r' h =>
        refine ⟨ih.1, fun hu => ?_⟩
        have e := moment_old ih.1 hu
        exact sees_step (e ▸ enough_self _) (ih.2 hu) h
  exact (key _ hs).2 hu

/-- **C59**, what holds: a reader that begins when all bytes of the new tag are on the disk reads the new tag. -/
theorem reader_after_partial [Platform] (contents : List UInt8) (tag tag' : Tag) (file : File) (cs : CharStream)
    (hw : Writable tag) (hc : Tag_to_char_stream tag = .ok cs)
    (h : ID3v2_write_tag (some (ofB contents)) tag = .ok (file, tag')) (s s' : IOState) (r : Res (Option Tag))
    (hs : IOSteps false (writeStart (ofB contents) cs.stream (tagLength contents)) s) (hu : ¬ Untouched s)
    (hl : 10 + tag.header.tag_size ≤ s.dest.length) (hr : RWSteps ⟨s, .header []⟩ ⟨s', .done r⟩) :
    r = ID3v2_read_tag file := by
  obtain ⟨cs', rest, hc', e1, e2⟩ := written hw h
  cases Res.ok.inj (hc.symm.trans hc')
  have hm := moment_steps (ofB contents) (cs.stream ++ (ofB contents).drop (tagLength contents)) _ s hs ⟨rfl, rfl⟩
  have en : file = some (cs.stream ++ (ofB contents).drop (tagLength contents)) := by rw [ofB_drop]; exact e2
  have hb : afterHeader ((cs.stream ++ (ofB contents).drop (tagLength contents)).take 10) =
      .body (10 + tag.header.tag_size : Nat) [] := by
    rw [e1, List.append_assoc]
    exact after_written _ _ _ _ _ hw.2.1 hw.2.2
  have key : ∀ t, RWSteps ⟨s, .header []⟩ t →
      Moment (ofB contents) (cs.stream ++ (ofB contents).drop (tagLength contents)) t.writer ∧ ¬ Untouched t.writer ∧
        10 + tag.header.tag_size ≤ t.writer.dest.length ∧
        Sees (cs.stream ++ (ofB contents).drop (tagLength contents)) t.reader := by
    intro t ht
    induction ht with
    | refl => exact ⟨hm, hu, hl, List.nil_prefix, Nat.zero_le _⟩
    | tail t u _ h ih =>
      obtain ⟨h1, h2, h3, h4⟩ := ih
      cases h with
      | writer s s' r h =>
        refine ⟨moment_step _ _ _ _ h h1, fun hu => h2 (untouched_back h hu), ?_, h4⟩
        cases h with
        | save => exact h3
        | truncate => exact absurd ⟨_, _, rfl⟩ h2
        | copy => exact h3
        | flush => simp at h3 ⊢; omega
        | fail => exact h3
        | close => exact h3
      | reader s r r' h =>
        refine ⟨h1, h2, h3, sees_step ⟨moment_new h1 h2, .inr ⟨?_, fun n hn => ?_⟩⟩ h4 h⟩
        · have : 10 + tag.header.tag_size ≤ s.dest.length := h3
          omega
        · rw [hb] at hn
          cases hn
          have : 10 + tag.header.tag_size ≤ s.dest.length := h3
          omega
  rw [en]
  exact (key _ hr).2.2.2

theorem rwsteps_reader [Platform] {s : IOState} {r0 : RWState} {a b : RPhase} (h : RWSteps r0 ⟨s, a⟩) (hr : RSteps s.dest a b) :
    RWSteps r0 ⟨s, b⟩ := by
  induction hr with
  | refl => exact h
  | tail x y _ hst ih => exact .tail _ _ _ ih (.reader _ _ _ hst)

theorem rwsteps_writer [Platform] {s s' : IOState} {r0 : RWState} {a : RPhase} (h : RWSteps r0 ⟨s, a⟩) (hw : IOSteps false s s') :
    RWSteps r0 ⟨s', a⟩ := by
  induction hw with
  | refl => exact h
  | tail x y _ hst ih => exact .tail _ _ _ ih (.writer _ _ _ hst)

theorem from_buffer_none [Platform] (n : Nat) (hn : 3 ≤ n) :
    ID3v2_read_tag_from_buffer (intoArray n []) n = .ub .uninit := by
  unfold ID3v2_read_tag_from_buffer intoArray
  rw [← List.append_nil ([] ++ List.replicate _ none), from_buffer_csAt _ _ _ (by simp)]
  simp only [Res.bind_ok]
  unfold Tag_parse TagHeader_parse
  rw [show (csAt [] ([] ++ List.replicate ((n : Int).toNat - ([] : Bytes).length) none)).stream = List.replicate n none by
    simp [csAt], memcmp_none _ _ _ (by simp; omega)]
  rfl

/-- **C59** fails for every file with a tag, whatever is written: if the file is truncated after the reader has read the
header, and nothing has been written when it goes on, it looks at uninitialised memory. -/
theorem reader_crashes [Platform] (contents : List UInt8) (tag_bytes : Bytes) (h : 0 < tagLength contents) :
    ∃ s, RWSteps ⟨writeStart (ofB contents) tag_bytes (tagLength contents), .header []⟩ ⟨s, .done (.ub .uninit)⟩ := by
  obtain ⟨r, h1, h2, h3⟩ := read_header_spec contents
  cases r with
  | none => have := h2 rfl; omega
  | some hd =>
    obtain ⟨h4, h5⟩ := h3 hd rfl
    have hb : afterHeader ((ofB contents).take 10) = .body (tagLength contents : Nat) [] := by
      unfold ID3v2_read_tag_header at h1
      dsimp only at h1
      unfold afterHeader
      split at h1
      · cases h1
      next hl =>
        rw [if_neg hl, h1]
        dsimp only
        rw [show (hd.tag_size : Int) + 10 = (tagLength contents : Nat) by omega, u32_nat (by omega), toInt32_nat (by omega)]
    obtain ⟨g, rfl, r1, r2⟩ := rsteps_header (ofB contents) _ 10 [] List.nil_prefix rfl (.refl _)
    have r3 := RSteps.tail _ _ _ r1 (.endHeader _ r2)
    rw [hb] at r3
    have q1 := rwsteps_reader (.refl ⟨writeStart (ofB contents) tag_bytes (tagLength contents), .header []⟩) r3
    have q2 := rwsteps_writer q1 (steps_save false _ _ _ _ (.refl _))
    have q3 := RWSteps.tail _ _ _ q2 (.writer _ _ _ (.truncate _ _))
    have q4 := RWSteps.tail _ _ _ q3 (.reader _ _ _ (.endBody _ [] (.inr (Nat.zero_le _))))
    rw [from_buffer_none _ (by omega)] at q4
    exact ⟨_, q4⟩

/-- The claim of C59: a reader that runs while another process writes gets the old tag, the new tag or no tag. -/
def C59_claim : Prop :=
  ∀ [Platform] (contents : List UInt8) (tag tag' : Tag) (file : File) (cs : CharStream) (s : IOState)
    (r : Res (Option Tag)), Writable tag → Tag_to_char_stream tag = .ok cs →
    ID3v2_write_tag (some (ofB contents)) tag = .ok (file, tag') →
    RWSteps ⟨writeStart (ofB contents) cs.stream (tagLength contents), .header []⟩ ⟨s, .done r⟩ →
    r = ID3v2_read_tag (some (ofB contents)) ∨ r = ID3v2_read_tag file ∨ r = .ok none

theorem C59_false : ¬ C59_claim := by
  intro h
  obtain ⟨-, -, -, file0, t0, -, -, -, -, e0, h0, -⟩ := sample_write [1, 2, 3]
  obtain ⟨tag, tag', cs, file, t, hw, h10, hc, h1, -, h2, -⟩ :=
    sample_write (tagBytes 0 0 sampleFrames 5 ++ audio [1, 2, 3])
  obtain ⟨s, hs⟩ := @reader_crashes strict (tagBytes 0 0 sampleFrames 5 ++ audio [1, 2, 3]) cs.stream (by decide)
  have := @h strict _ _ _ _ _ s _ hw hc h1 hs
  rw [e0] at h0
  rw [h2, h0] at this
  rcases this with h | h | h <;> cases h

/-- The hypotheses of the theorems of C58 and C59 are met: by a file with a tag and three bytes of audio, to which a tag
is written; and there are readers that are done before the file is truncated and readers that begin after the new tag is
on the disk. -/
example : ∃ (contents : List UInt8) (tag tag' : Tag) (file : File) (cs : CharStream) (s s' : IOState)
    (r r' : Res (Option Tag)), 0 < tagLength contents ∧ Writable tag ∧ 10 < tag.header.tag_size ∧
    @Tag_to_char_stream strict tag = .ok cs ∧ @ID3v2_write_tag strict (some (ofB contents)) tag = .ok (file, tag') ∧
    Untouched s ∧
    @RWSteps strict ⟨writeStart (ofB contents) cs.stream (tagLength contents), .header []⟩ ⟨s, .done r⟩ ∧
    IOSteps false (writeStart (ofB contents) cs.stream (tagLength contents)) s' ∧ ¬ Untouched s' ∧
    10 + tag.header.tag_size ≤ s'.dest.length ∧ @RWSteps strict ⟨s', .header []⟩ ⟨s', .done r'⟩ := by
  obtain ⟨tag, tag', cs, file, t, hw, h10, hc, h1, -, h2, -⟩ :=
    sample_write (tagBytes 0 0 sampleFrames 5 ++ audio [1, 2, 3])
  refine ⟨_, tag, tag', file, cs, _, _, _, _, by decide, hw, h10, hc, h1, ⟨_, _, rfl⟩,
    @rwsteps_reader strict _ _ _ _ (@RWSteps.refl strict _) (@reader_ends strict _), write_finishes false _ _ _, ?_, ?_,
    @rwsteps_reader strict _ _ _ _ (@RWSteps.refl strict _) (@reader_ends strict _)⟩
  · rintro ⟨_, _, h⟩
    cases h
  · obtain ⟨e1, e2, -⟩ := @tag_out_inv strict _ cs hw.1 hc
    rw [show (tag.header.tag_size : Int) + 10 = (10 + tag.header.tag_size : Nat) by omega,
      u32_nat (by have := hw.2.2; omega), toInt32_nat (by have := hw.2.2; omega)] at e2
    simp only [List.length_append]
    omega

/-! ## C60: two processes that write -/

theorem wsteps_save [Platform] {a b : Bytes} {s : WWState} {dest : Bytes} {q : WPhase} : ∀ (k pos : Nat) (temp : Bytes),
    dest.length ≤ pos + k → WWSteps a b s ⟨dest, .reading temp pos, q⟩ →
    WWSteps a b s ⟨dest, .saved (temp ++ dest.drop pos), q⟩
  | 0, pos, temp, hk, h => by
    rw [List.drop_eq_nil_of_le (by omega), List.append_nil]
    exact .tail _ _ _ h (.first _ _ _ _ q (.eof _ _ _ (by omega)))
  | k + 1, pos, temp, hk, h => by
    rcases Nat.lt_or_ge pos dest.length with hl | hl
    · have := wsteps_save k (pos + 1) (temp ++ [dest[pos]]) (by omega)
        (.tail _ _ _ h (.first _ _ _ _ q (.save dest temp pos dest[pos] (List.getElem?_eq_getElem hl))))
      rw [List.append_assoc, List.singleton_append, ← List.drop_eq_getElem_cons hl] at this
      exact this
    · rw [List.drop_eq_nil_of_le hl, List.append_nil]
      exact .tail _ _ _ h (.first _ _ _ _ q (.eof _ _ _ hl))

/-- The same for the second process. -/
theorem wsteps_save' [Platform] {a b : Bytes} {s : WWState} {dest : Bytes} {p : WPhase} : ∀ (k pos : Nat) (temp : Bytes),
    dest.length ≤ pos + k → WWSteps a b s ⟨dest, p, .reading temp pos⟩ →
    WWSteps a b s ⟨dest, p, .saved (temp ++ dest.drop pos)⟩
  | 0, pos, temp, hk, h => by
    rw [List.drop_eq_nil_of_le (by omega), List.append_nil]
    exact .tail _ _ _ h (.second _ _ p _ _ (.eof _ _ _ (by omega)))
  | k + 1, pos, temp, hk, h => by
    rcases Nat.lt_or_ge pos dest.length with hl | hl
    · have := wsteps_save' k (pos + 1) (temp ++ [dest[pos]]) (by omega)
        (.tail _ _ _ h (.second _ _ p _ _ (.save dest temp pos dest[pos] (List.getElem?_eq_getElem hl))))
      rw [List.append_assoc, List.singleton_append, ← List.drop_eq_getElem_cons hl] at this
      exact this
    · rw [List.drop_eq_nil_of_le hl, List.append_nil]
      exact .tail _ _ _ h (.second _ _ p _ _ (.eof _ _ _ hl))

theorem wsteps_copy [Platform] {a b : Bytes} {s : WWState} {dest : Bytes} {q : WPhase} {pos : Nat} : ∀ (rest buffer : Bytes),
    WWSteps a b s ⟨dest, .copying pos buffer rest, q⟩ → WWSteps a b s ⟨dest, .copying pos (buffer ++ rest) [], q⟩
  | [], buffer, h => by simpa using h
  | c :: rest, buffer, h => by
    have := wsteps_copy rest (buffer ++ [c]) (.tail _ _ _ h (.first _ _ _ _ q (.copy _ _ _ _ _)))
    simpa using this

theorem wsteps_copy' [Platform] {a b : Bytes} {s : WWState} {dest : Bytes} {p : WPhase} {pos : Nat} : ∀ (rest buffer : Bytes),
    WWSteps a b s ⟨dest, p, .copying pos buffer rest⟩ → WWSteps a b s ⟨dest, p, .copying pos (buffer ++ rest) []⟩
  | [], buffer, h => by simpa using h
  | c :: rest, buffer, h => by
    have := wsteps_copy' rest (buffer ++ [c]) (.tail _ _ _ h (.second _ _ p _ _ (.copy _ _ _ _ _)))
    simpa using this

theorem writeAt_nil (data : Bytes) : writeAt [] 0 data = data := by
  unfold writeAt
  split
  next h => exact h.symm
  next => simp

theorem wsteps_finish [Platform] {a b : Bytes} {s : WWState} {temp : Bytes} {q : WPhase}
    (h : WWSteps a b s ⟨[], .copying 0 [] temp, q⟩) : WWSteps a b s ⟨temp, .finished, q⟩ := by
  have h1 := wsteps_copy temp [] h
  rw [List.nil_append] at h1
  have h2 := WWSteps.tail _ _ _ h1 (.first _ _ _ _ q (by
    have := WStep.flush (tag_bytes := a) [] temp [] [] 0
    rw [List.append_nil] at this
    exact this))
  rw [writeAt_nil] at h2
  exact .tail _ _ _ h2 (.first _ _ _ _ q (.close _ _))

theorem wsteps_finish' [Platform] {a b : Bytes} {s : WWState} {temp : Bytes} {p : WPhase}
    (h : WWSteps a b s ⟨[], p, .copying 0 [] temp⟩) : WWSteps a b s ⟨temp, p, .finished⟩ := by
  have h1 := wsteps_copy' temp [] h
  rw [List.nil_append] at h1
  have h2 := WWSteps.tail _ _ _ h1 (.second _ _ p _ _ (by
    have := WStep.flush (tag_bytes := b) [] temp [] [] 0
    rw [List.append_nil] at this
    exact this))
  rw [writeAt_nil] at h2
  exact .tail _ _ _ h2 (.second _ _ p _ _ (.close _ _))

/-- One process that writes while no other does. -/
def Alone (old new : Bytes) : Bytes × WPhase → Prop
  | (dest, .start) => dest = old
  | (dest, .reading temp pos) => dest = old ∧ temp ++ old.drop pos = new
  | (dest, .saved temp) => dest = old ∧ temp = new
  | (dest, .copying pos buffer rest) => dest.length = pos ∧ dest ++ buffer ++ rest = new
  | (dest, .finished) => dest = new

theorem alone_step [Platform] {tag_bytes old : Bytes} {n : Nat} {s t : Bytes × WPhase}
    (hn : existingTagSize (some old) = .ok (n : Nat)) (h : WStep tag_bytes s t) (hs : Alone old (tag_bytes ++ old.drop n) s) :
    Alone old (tag_bytes ++ old.drop n) t := by
  cases h with
  | header dest m hm =>
    obtain rfl : dest = old := hs
    rw [hn] at hm
    have : (n : Int) = m := Res.ok.inj hm
    obtain rfl : n = m := by omega
    exact ⟨rfl, rfl⟩
  | save dest temp pos c hc =>
    obtain ⟨rfl, hs⟩ := hs
    refine ⟨rfl, ?_⟩
    obtain ⟨hl, rfl⟩ := List.getElem?_eq_some_iff.mp hc
    rw [← hs, List.append_assoc, List.singleton_append, ← List.drop_eq_getElem_cons hl]
  | eof dest temp pos hl =>
    obtain ⟨rfl, hs⟩ := hs
    rw [List.drop_eq_nil_of_le hl, List.append_nil] at hs
    exact ⟨rfl, hs⟩
  | truncate dest temp => exact ⟨rfl, hs.2⟩
  | copy dest buffer rest pos c =>
    refine ⟨hs.1, ?_⟩
    rw [← hs.2]
    simp
  | flush dest b1 b2 rest pos =>
    obtain ⟨rfl, hs⟩ := hs
    have e : writeAt dest dest.length b1 = dest ++ b1 := by
      unfold writeAt
      split
      next h => rw [h, List.append_nil]
      next => simp
    show (writeAt dest dest.length b1).length = _ ∧ writeAt dest dest.length b1 ++ _ ++ _ = _
    rw [e, ← hs]
    simp
  | close dest pos =>
    show dest = _
    rw [← hs.2]
    simp

theorem no_way_back [Platform] {tag_bytes d d' : Bytes} {p : WPhase} (h : WStep tag_bytes (d, p) (d', .start)) : False := by
  cases h

/-- **C60**, what holds: if the second process begins when the first is finished, the file is what two calls of
`ID3v2_write_tag` in turn give: the tag of the second one and the audio. -/
theorem writers_in_turn_partial [Platform] (contents : List UInt8) (tag₁ tag₂ tag₁' tag₂' : Tag) (f₁ f₂ : File)
    (cs₁ cs₂ : CharStream) (hw₁ : Writable tag₁) (hc₁ : Tag_to_char_stream tag₁ = .ok cs₁)
    (hw₂ : Writable tag₂) (hc₂ : Tag_to_char_stream tag₂ = .ok cs₂)
    (h₁ : ID3v2_write_tag (some (ofB contents)) tag₁ = .ok (f₁, tag₁'))
    (h₂ : ID3v2_write_tag f₁ tag₂ = .ok (f₂, tag₂')) (d₁ d₂ : Bytes)
    (r₁ : WWSteps cs₁.stream cs₂.stream ⟨ofB contents, .start, .start⟩ ⟨d₁, .finished, .start⟩)
    (r₂ : WWSteps cs₁.stream cs₂.stream ⟨d₁, .finished, .start⟩ ⟨d₂, .finished, .finished⟩) :
    f₁ = some d₁ ∧ f₂ = some d₂ ∧ d₂ = cs₂.stream ++ ofB (audio contents) := by
  have h0 : Tagged (some (ofB contents)) (audio contents) :=
    ⟨_, _, rfl, existing_size contents, by rw [ofB_drop]; rfl⟩
  obtain ⟨t1, c1, e1, g1, -⟩ := write_tagged _ _ _ _ _ h0 hw₁ h₁
  obtain ⟨-, c2, e2, g2, -⟩ := write_tagged _ _ _ _ _ t1 hw₂ h₂
  cases Res.ok.inj (hc₁.symm.trans e1)
  cases Res.ok.inj (hc₂.symm.trans e2)
  have k1 : ∀ t, WWSteps cs₁.stream cs₂.stream ⟨ofB contents, .start, .start⟩ t → t.second = .start →
      Alone (ofB contents) (cs₁.stream ++ (ofB contents).drop (tagLength contents)) (t.dest, t.first) := by
    intro t ht
    induction ht with
    | refl => intro _; rfl
    | tail t u _ h ih =>
      cases h with
      | first d d' p p' q h => exact fun hq => alone_step (existing_size contents) h (ih hq)
      | second d d' p q q' h =>
        intro hq
        cases hq
        exact (no_way_back h).elim
  have d1 : d₁ = cs₁.stream ++ ofB (audio contents) := by
    have := k1 _ r₁ rfl
    rw [ofB_drop] at this
    exact this
  obtain ⟨c, n, e3, e4, e5⟩ := t1
  have ec : c = d₁ := by
    rw [d1]
    exact Option.some.inj (e3.symm.trans g1)
  subst ec
  have k2 : ∀ t, WWSteps cs₁.stream cs₂.stream ⟨c, .finished, .start⟩ t → t.first = .finished ∧
      Alone c (cs₂.stream ++ c.drop n) (t.dest, t.second) := by
    intro t ht
    induction ht with
    | refl => exact ⟨rfl, rfl⟩
    | tail t u _ h ih =>
      cases h with
      | first d d' p p' q h =>
        obtain ⟨hp, -⟩ := ih
        cases hp
        cases h
      | second d d' p q q' h => exact ⟨ih.1, alone_step e4 h ih.2⟩
  have d2 : d₂ = cs₂.stream ++ c.drop n := (k2 _ r₂).2
  rw [e5] at d2
  exact ⟨e3, g2.trans (by rw [d2]), d2⟩

/-- **C60** fails for every file and any two tags: if the second process looks at the file just after the first has
truncated it, and goes on when the first is finished, the audio is gone. -/
theorem two_writers_lose_audio [Platform] (contents : List UInt8) (a b : Bytes) :
    WWSteps a b ⟨ofB contents, .start, .start⟩ ⟨b, .finished, .finished⟩ := by
  have s1 := WWSteps.tail _ _ _ (.refl ⟨ofB contents, .start, .start⟩)
    (WWStep.first (a := a) (b := b) _ _ _ _ .start (.header _ _ (existing_size contents)))
  have s2 := wsteps_save _ _ _ (Nat.le_add_left _ _) s1
  have s3 := WWSteps.tail _ _ _ s2 (.first _ _ _ _ .start (.truncate _ _))
  have s4 := WWSteps.tail _ _ _ s3 (.second _ _ _ _ _ (.header [] 0 rfl))
  have s5 := WWSteps.tail _ _ _ s4 (.second _ _ _ _ _ (.eof _ _ _ (Nat.le_refl _)))
  have s6 := wsteps_finish s5
  have s7 := WWSteps.tail _ _ _ s6 (.second _ _ _ _ _ (.truncate _ _))
  exact wsteps_finish' s7

/-- The claim of C60: when two processes write a tag to a file and both are finished, the file has one of the two tags
and the audio. -/
def C60_claim : Prop :=
  ∀ [Platform] (contents : List UInt8) (tag₁ tag₂ tag₁' tag₂' : Tag) (f₁ f₂ : File) (cs₁ cs₂ : CharStream) (dest : Bytes),
    Writable tag₁ → Tag_to_char_stream tag₁ = .ok cs₁ → Writable tag₂ → Tag_to_char_stream tag₂ = .ok cs₂ →
    ID3v2_write_tag (some (ofB contents)) tag₁ = .ok (f₁, tag₁') → ID3v2_write_tag f₁ tag₂ = .ok (f₂, tag₂') →
    WWSteps cs₁.stream cs₂.stream ⟨ofB contents, .start, .start⟩ ⟨dest, .finished, .finished⟩ →
    dest = cs₁.stream ++ ofB (audio contents) ∨ dest = cs₂.stream ++ ofB (audio contents)

/-- Two tags that can be written to a file with three bytes of audio. -/
theorem sample_writes : ∃ (tag₁ tag₂ tag₁' tag₂' : Tag) (f₁ f₂ : File) (cs₁ cs₂ : CharStream), Writable tag₁ ∧
    @Tag_to_char_stream strict tag₁ = .ok cs₁ ∧ Writable tag₂ ∧ @Tag_to_char_stream strict tag₂ = .ok cs₂ ∧
    @ID3v2_write_tag strict (some (ofB [1, 2, 3])) tag₁ = .ok (f₁, tag₁') ∧
    @ID3v2_write_tag strict f₁ tag₂ = .ok (f₂, tag₂') ∧ cs₁ = cs₂ := by
  obtain ⟨tag, tag', cs, file, t, hw, h10, hc, h1, e, -⟩ := sample_write [1, 2, 3]
  subst e
  have hp := @write_range strict _ _ _ h1
  have hx := @write_tag_eq strict _ _ tag hw.1 (@existing_size strict (tagBytes 0 0 sampleFrames 5 ++ audio [1, 2, 3])) hp.1 hp.2
  rw [hc] at hx
  exact ⟨tag, tag, tag', _, _, _, cs, cs, hw, hc, hw, hc, h1, hx, rfl⟩

/-- The hypotheses of `writers_in_turn_partial` are met: two processes can take turns, whatever they write. -/
theorem turns [Platform] (dest a b : Bytes) (n m : Nat) (hn : existingTagSize (some dest) = .ok (n : Nat))
    (hm : existingTagSize (some (a ++ dest.drop n)) = .ok (m : Nat)) :
    WWSteps a b ⟨dest, .start, .start⟩ ⟨a ++ dest.drop n, .finished, .start⟩ ∧
      WWSteps a b ⟨a ++ dest.drop n, .finished, .start⟩ ⟨b ++ (a ++ dest.drop n).drop m, .finished, .finished⟩ := by
  constructor
  · have s1 := WWSteps.tail _ _ _ (.refl ⟨dest, .start, .start⟩)
      (WWStep.first (a := a) (b := b) _ _ _ _ .start (.header _ _ hn))
    have s2 := wsteps_save _ _ _ (Nat.le_add_left _ _) s1
    exact wsteps_finish (.tail _ _ _ s2 (.first _ _ _ _ .start (.truncate _ _)))
  · have s1 := WWSteps.tail _ _ _ (.refl ⟨a ++ dest.drop n, .finished, .start⟩)
      (WWStep.second (a := a) (b := b) _ _ .finished _ _ (.header _ _ hm))
    have s2 := wsteps_save' _ _ _ (Nat.le_add_left _ _) s1
    exact wsteps_finish' (.tail _ _ _ s2 (.second _ _ .finished _ _ (.truncate _ _)))

theorem C60_false : ¬ C60_claim := by
  intro h
  obtain ⟨tag₁, tag₂, tag₁', tag₂', f₁, f₂, cs₁, cs₂, hw₁, hc₁, hw₂, hc₂, h₁, h₂, rfl⟩ := sample_writes
  have := @h strict [1, 2, 3] _ _ _ _ _ _ _ _ _ hw₁ hc₁ hw₂ hc₂ h₁ h₂ (@two_writers_lose_audio strict _ _ _)
  rcases this with h | h
  all_goals
    have := congrArg List.length h
    rw [List.length_append] at this
    simp [audio, tagLength] at this

end Id3.Props
