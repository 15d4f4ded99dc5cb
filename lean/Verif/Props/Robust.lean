import Verif.Proof.SatParse
import Verif.Props.File

/-!
# C17, C18, C47, C48: hostile input

The theorems in this file hold for every buffer and every file, well-formed or not.
-/

namespace Id3.Props

open Id3 Spec

/-! ## C17: reading terminates -/

/-- **C17**: for every buffer and every length (also negative, or larger than the buffer), `ID3v2_read_tag_from_buffer`
does not run forever, and does not end the process. -/
theorem read_terminates [Platform] (buffer : Bytes) (n : Int) :
    ID3v2_read_tag_from_buffer buffer n ≠ .diverge ∧ ID3v2_read_tag_from_buffer buffer n ≠ .exit := by
  by_cases h : 0 ≤ n
  · have := sat_read_from_buffer buffer n h
    constructor <;> intro e <;> rw [e] at this <;> exact this
  · have : ID3v2_read_tag_from_buffer buffer n = .ub .negSize := by
      unfold ID3v2_read_tag_from_buffer CharStream_from_buffer memcpySrc
      rw [if_pos (by omega)]; rfl
    rw [this]; simp

/-- **C17** for files. -/
theorem read_file_terminates [Platform] (file : File) :
    ID3v2_read_tag file ≠ .diverge ∧ ID3v2_read_tag file ≠ .exit := by
  have := sat_read_tag file
  constructor <;> intro e <;> rw [e] at this <;> exact this

/-- `k` iterations of the loop that reads frames lead from one state of the stream to another. -/
inductive Iterations [Platform] (version : UInt8) : Nat → CharStream → CharStream → Prop
  | start (cs : CharStream) : Iterations version 0 cs cs
  | step {k : Nat} {cs cs' cs'' : CharStream} {f : Frame} : Iterations version k cs cs' →
      Frame_parse cs' version = .ok (some f, cs'') → Iterations version (k + 1) cs cs''

/-- **C17**: there is no run of more than one iteration per six bytes of input, wherever the loop starts. The bound that
makes the model's loop total is therefore never what stops it. -/
theorem iterations_bounded [Platform] (version : UInt8) (k : Nat) (cs cs' : CharStream) (hs : cs.size = cs.stream.length)
    (h : Iterations version k cs cs') : 6 * k ≤ cs.stream.length := by
  have key : ∀ k cs', Iterations version k cs cs' → cs'.stream = cs.stream ∧ cs'.size = cs.stream.length ∧
      (k = 0 ∨ (6 * k : Int) ≤ cs'.cursor ∧ cs'.cursor ≤ cs.stream.length) := by
    clear h
    intro k cs' h
    induction h with
    | start => exact ⟨rfl, hs, .inl rfl⟩
    | @step k cs cs' cs'' f h he ih =>
      obtain ⟨h1, h2, h3⟩ := ih hs
      obtain ⟨hg, h0, hf⟩ := (sat_frame_parse cs.stream cs' version h1 h2).of_ok he
      obtain ⟨hf, -⟩ := hf f rfl
      have := hg.le
      refine ⟨hg.stream, hg.size, .inr ⟨?_, this⟩⟩
      dsimp only at hf
      rcases h3 with rfl | h3 <;> omega
  obtain ⟨-, -, h3⟩ := key k cs' h
  omega

/-- **C17**: more fuel makes no difference to the loop, as soon as it has one unit per byte and one to spare. -/
theorem fuel_irrelevant [Platform] (cs : CharStream) (size : Nat) (version : UInt8) (extra : Nat)
    (hs : cs.size = cs.stream.length) :
    Tag_parse_loop (cs.stream.length + 1 + extra) cs size version FrameList_new =
      Tag_parse_loop (cs.stream.length + 1) cs size version FrameList_new := by
  apply parse_loop_fuel
  intro e
  have := sat_parse_loop cs.stream size version (cs.stream.length + 1) cs FrameList_new rfl hs (by omega) (by omega)
    (by intro g hg; simp [FrameList_new] at hg)
  rw [e] at this
  exact this

/-- **C17**: a tag that was read has at most one frame per six bytes of input. -/
theorem read_frames_bounded [Platform] (buffer : Bytes) (n : Int) (t : Tag)
    (h : ID3v2_read_tag_from_buffer buffer n = .ok (some t)) : 6 * (t.frames.filterMap id).length ≤ n := by
  by_cases hn : 0 ≤ n
  · exact ((sat_read_from_buffer buffer n hn).of_ok h t rfl).2
  · unfold ID3v2_read_tag_from_buffer CharStream_from_buffer memcpySrc at h
    rw [if_pos (by omega)] at h
    cases h

/-! ## C18: reading and memory safety -/

/-- The property C18 as stated: reading never has undefined behaviour. -/
def C18_claim : Prop := ∀ (_ : Platform) (buffer : List UInt8),
  ∃ r, ID3v2_read_tag_from_buffer (ofB buffer) buffer.length = .ok r

/-- A tag with the given bytes after its header. -/
def rawTag (body : List UInt8) : List UInt8 :=
  [0x49, 0x44, 0x33, 3, 0, 0] ++ synchsafe body.length ++ body

/-- A title of one byte: an array of no bytes. -/
theorem hostile_vla (p : Platform) :
    ID3v2_read_tag_from_buffer (ofB (rawTag [0x54, 0x49, 0x54, 0x32, 0, 0, 0, 1, 0, 0, 0, 0])) 22 = .ub .vlaSize := by
  obtain ⟨b, n, c⟩ := p
  unfold ID3v2_read_tag_from_buffer Tag_parse
  simp only [header_sign]
  cases b <;> cases c <;> rfl

/-- **C18 does not hold**, on any platform. -/
theorem C18_false : ¬ C18_claim := by
  intro h
  have := h strict (rawTag [0x54, 0x49, 0x54, 0x32, 0, 0, 0, 1, 0, 0, 0, 0])
  rw [show ((rawTag [0x54, 0x49, 0x54, 0x32, 0, 0, 0, 1, 0, 0, 0, 0]).length : Int) = 22 from by decide,
    hostile_vla strict] at this
  obtain ⟨r, hr⟩ := this
  cases hr

/-- A title without terminator: the end of the string is searched beyond the end of the array. -/
theorem hostile_oob :
    @ID3v2_read_tag_from_buffer strict (ofB (rawTag [0x54, 0x49, 0x54, 0x32, 0, 0, 0, 3, 0, 0, 0, 0x41, 0x42])) 23 =
      .ub .oobRead ∧
    @ID3v2_read_tag_from_buffer lenient (ofB (rawTag [0x54, 0x49, 0x54, 0x32, 0, 0, 0, 3, 0, 0, 0, 0x41, 0x42])) 23 =
      .ub .oobRead := by decide

/-- A title that claims to be longer than the tag: the end of the string is searched in uninitialised memory. -/
theorem hostile_uninit :
    @ID3v2_read_tag_from_buffer strict (ofB (rawTag [0x54, 0x49, 0x54, 0x32, 0, 0, 0, 9, 0, 0, 0, 0x41, 0x42])) 23 =
      .ub .uninit ∧
    @ID3v2_read_tag_from_buffer lenient (ofB (rawTag [0x54, 0x49, 0x54, 0x32, 0, 0, 0, 9, 0, 0, 0, 0x41, 0x42])) 23 =
      .ub .uninit := by decide

/-- A title that claims to be large: more than the stack. -/
theorem hostile_stack :
    @ID3v2_read_tag_from_buffer strict (ofB (rawTag [0x54, 0x49, 0x54, 0x32, 1, 0, 0, 9, 0, 0, 0, 0x41, 0])) 23 =
      .ub .stackOverflow ∧
    @ID3v2_read_tag_from_buffer lenient (ofB (rawTag [0x54, 0x49, 0x54, 0x32, 1, 0, 0, 9, 0, 0, 0, 0x41, 0])) 23 =
      .ub .stackOverflow := by decide

/-- A title whose size is the smallest `int`: the subtraction overflows. -/
theorem hostile_overflow (p : Platform) :
    ID3v2_read_tag_from_buffer (ofB (rawTag [0x54, 0x49, 0x54, 0x32, 0x80, 0, 0, 0, 0, 0, 0, 0x41, 0])) 23 =
      .ub .intOverflow := by
  obtain ⟨b, n, c⟩ := p
  unfold ID3v2_read_tag_from_buffer Tag_parse
  simp only [header_sign]
  cases b <;> cases c <;> rfl

/-- **C18**, what does hold, for every buffer: reading returns, or goes wrong in one of the five ways shown above. In
particular it never writes outside an object, never dereferences NULL, never passes a negative size to `memcpy`, never
confuses types, and never frees anything wrongly.

Missing from the full claim: the five ways, each of which some hostile buffer takes (`hostile_*`). For well-formed tags
none is taken (C11, C14, `read_write_bytes`). -/
theorem read_safe_partial [Platform] (buffer : Bytes) (n : Int) (h0 : 0 ≤ n) :
    (∃ r, ID3v2_read_tag_from_buffer buffer n = .ok r) ∨
    ∃ k, ID3v2_read_tag_from_buffer buffer n = .ub k ∧
      k ∈ [UB.oobRead, .uninit, .vlaSize, .stackOverflow, .intOverflow] := by
  have := sat_read_from_buffer buffer n h0
  cases h : ID3v2_read_tag_from_buffer buffer n with
  | ok r => exact .inl ⟨r, rfl⟩
  | ub k =>
    rw [h] at this
    refine .inr ⟨k, rfl, ?_⟩
    cases k <;> first | decide | cases this
  | exit => rw [h] at this; exact this.elim
  | diverge => rw [h] at this; exact this.elim

/-- **C18** for files. -/
theorem read_file_safe_partial [Platform] (file : File) :
    (∃ r, ID3v2_read_tag file = .ok r) ∨
    ∃ k, ID3v2_read_tag file = .ub k ∧ k ∈ [UB.oobRead, .uninit, .vlaSize, .stackOverflow, .intOverflow] := by
  have := sat_read_tag file
  cases h : ID3v2_read_tag file with
  | ok r => exact .inl ⟨r, rfl⟩
  | ub k =>
    rw [h] at this
    refine .inr ⟨k, rfl, ?_⟩
    cases k <;> first | decide | cases this
  | exit => rw [h] at this; exact this.elim
  | diverge => rw [h] at this; exact this.elim

/-! ## C47: writing back what was read -/

/-- The property C47 as stated: a tag that was read from a file can be written back. -/
def C47_claim : Prop := ∀ (_ : Platform) (contents : List UInt8) (t : Tag),
  ID3v2_read_tag (some (ofB contents)) = .ok (some t) → ∃ r, ID3v2_write_tag (some (ofB contents)) t = .ok r

/-- A tag of 12 bytes with a private frame that claims to have 20 bytes. -/
def lyingFrame : List UInt8 := rawTag [0x50, 0x52, 0x49, 0x56, 0, 0, 0, 20, 0, 0, 0x41, 0x42]

/-- **C47 does not hold**, on any platform: the tag is read, the frame is kept with 20 bytes of which 18 are
uninitialised memory, and writing the tag back overflows a heap block. -/
theorem hostile_write_overflow (p : Platform) :
    ∃ t, ID3v2_read_tag (some (ofB lyingFrame)) = .ok (some t) ∧ ID3v2_write_tag (some (ofB lyingFrame)) t = .ub .oobWrite := by
  obtain ⟨b, n, c⟩ := p
  unfold ID3v2_read_tag ID3v2_write_tag existingTagSize ID3v2_read_tag_header ID3v2_read_tag_from_buffer Tag_parse
  simp only [header_sign, header_buffer_sign]
  cases b <;> cases c <;> exact ⟨_, rfl, rfl⟩

theorem C47_false : ¬ C47_claim := by
  intro h
  obtain ⟨t, h1, h2⟩ := hostile_write_overflow strict
  have := h strict lyingFrame t h1
  rw [h2] at this
  obtain ⟨r, hr⟩ := this
  cases hr

/-- A tag of 40 bytes with a private frame that claims to have 20 bytes, in a file that ends
after two of them: the file that is written from it contains uninitialised memory. -/
theorem hostile_write_leaks_memory (p : Platform) :
    ∃ t r t', ID3v2_read_tag (some (ofB (lyingFrame.set 9 40))) = .ok (some t) ∧
      ID3v2_write_tag (some (ofB [])) t = .ok (some r, t') ∧ none ∈ r := by
  obtain ⟨b, n, c⟩ := p
  unfold ID3v2_read_tag ID3v2_write_tag existingTagSize ID3v2_read_tag_header ID3v2_read_tag_from_buffer Tag_parse
  simp only [header_sign, header_buffer_sign]
  cases b <;> cases c <;> exact ⟨_, _, _, rfl, rfl, by decide⟩

/-- **C47**, what holds: reading a file with a well-formed tag (of either version, by any program) and writing the tag
back succeeds. The new file has the frames as the library keeps them, and the same audio.

Missing from the full claim: malformed tags (`hostile_write_overflow`). -/
theorem read_then_write_partial [Platform] (version minor flags : UInt8) (ws : List Wire) (padding : Nat) (rest : List UInt8)
    (hv : version = 3 ∨ version = 4) (hflag : flags &&& 0x40 = 0) (hR : ∀ w ∈ ws, w.Readable version)
    (hs : (ws.flatMap (Wire.bytes version)).length + padding < 2 ^ 28) (hlast : lastSeen ws padding) :
    ∃ t t' n, ID3v2_read_tag (some (ofB (wireTagBytes version minor flags ws padding ++ rest))) = .ok (some t) ∧
      ID3v2_write_tag (some (ofB (wireTagBytes version minor flags ws padding ++ rest))) t =
        .ok (some (ofB (tagHeaderBytes version minor flags ((ws.flatMap (Wire.bytes version)).length + padding) ++
          ws.flatMap (fun w => w.kept.bytes) ++ List.replicate n 0 ++ rest)), t') := by
  have h1 := beyond_length_ignored version minor flags ws padding [] hv hflag hR hs hlast
  rw [List.append_nil] at h1
  obtain ⟨cs, h2, h3, -⟩ := toTag_out version minor flags ((ws.flatMap (Wire.bytes version)).length + padding)
    (ws.map Wire.kept) padding (by
      intro f hf
      obtain ⟨w, hw, rfl⟩ := List.mem_map.mp hf
      exact (hR w hw).1.2.1) hs (by
      have := kept_framesSize version ws (fun w hw => (hR w hw).1.1)
      omega)
  have e : ofB (wireTagBytes version minor flags ws padding ++ rest) =
      ofB (tagHeaderBytes version minor flags ((ws.flatMap (Wire.bytes version)).length + padding)) ++
        ofB (ws.flatMap (Wire.bytes version) ++ List.replicate padding 0) ++ ofB rest := by
    simp [wireTagBytes]
  have e2 : ofB (wireTagBytes version minor flags ws padding) =
      ofB (tagHeaderBytes version minor flags ((ws.flatMap (Wire.bytes version)).length + padding)) ++
        ofB (ws.flatMap (Wire.bytes version) ++ List.replicate padding 0) := by
    simp [wireTagBytes]
  have hx := existing_size_header version minor flags ((ws.flatMap (Wire.bytes version)).length + padding)
    (ofB (ws.flatMap (Wire.bytes version) ++ List.replicate padding 0) ++ ofB rest) hv hs
  rw [← List.append_assoc, ← e] at hx
  have hw := write_tag_eq (ofB (wireTagBytes version minor flags ws padding ++ rest))
    (10 + ((ws.flatMap (Wire.bytes version)).length + padding))
    (toTag version minor flags ((ws.flatMap (Wire.bytes version)).length + padding) (ws.map Wire.kept) padding) rfl hx
    (show -2147481599 ≤ (padding : Int) by omega) (show (padding : Int) ≤ 2147483647 by omega)
  rw [h2] at hw
  simp only [Res.bind_ok] at hw
  refine ⟨toTag version minor flags ((ws.flatMap (Wire.bytes version)).length + padding) (ws.map Wire.kept) padding,
    { toTag version minor flags ((ws.flatMap (Wire.bytes version)).length + padding) (ws.map Wire.kept) padding with
      padding_size := notedPadding padding },
    (ws.flatMap (Wire.bytes version)).length + padding - framesSize (ws.map Wire.kept), ?_, ?_⟩
  · rw [e, read_tag_prefix version minor flags _ _ _ hv hs (by simp), ← e2, ← Nat.add_assoc]
    exact h1
  · have hd : List.drop (10 + ((ws.flatMap (Wire.bytes version)).length + padding))
        (ofB (wireTagBytes version minor flags ws padding ++ rest)) = ofB rest := by
      rw [ofB_append, List.drop_left' (by simp [wireTagBytes, tagHeaderBytes, synchsafe]; omega)]
    rw [hw, hd, h3, List.flatMap_map, ← ofB_append]
    rfl

example : (∀ w ∈ sampleWire, @Wire.Readable strict 4 w) ∧ (sampleWire.flatMap (Wire.bytes 4)).length + 7 < 2 ^ 28 ∧
    lastSeen sampleWire 7 := by decide

end Id3.Props
