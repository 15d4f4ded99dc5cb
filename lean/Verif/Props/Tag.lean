import Verif.Proof.ExtHeader

/-!
# C11 - C16: reading tags
-/

namespace Id3.Props

open Id3 Spec

/-! ## C11: reading back a serialised tag -/

/-- **C11**, first half: the bytes of a version 2.3 tag that holds the frames `fs` and has `padding` bytes to spare. -/
theorem serialised_tag [Platform] (minor flags : UInt8) (fs : List SFrame) (padding : Nat) (p : Int)
    (hu : ∀ f ∈ fs, f.Usable) (hs : framesSize fs + padding < 2 ^ 28) :
    ∃ cs, Tag_to_char_stream (toTag 3 minor flags (framesSize fs + padding) fs p) = .ok cs ∧
      cs.stream = ofB (tagBytes minor flags fs padding) ∧ cs.size = (10 + framesSize fs + padding : Nat) := by
  obtain ⟨cs, h1, h2, h3⟩ := toTag_out 3 minor flags (framesSize fs + padding) fs p hu hs (by omega)
  refine ⟨cs, h1, ?_, by rw [h3, Nat.add_assoc]⟩
  rw [h2, Nat.add_sub_cancel_left]; rfl

/-- **C11**, second half: reading those bytes gives the frames in the same order, the header fields and the padding.

Missing from the full claim (each is shown to fail below): pictures without data, strings or pictures larger than the
stack, and a frame without a body at the very end of a tag without padding. -/
theorem read_tag_bytes_partial [Platform] (minor flags : UInt8) (fs : List SFrame) (padding : Nat) (rest : Bytes)
    (hflag : flags &&& 0x40 = 0) (hR : ∀ f ∈ fs, f.Readable) (hs : framesSize fs + padding < 2 ^ 28)
    (hlast : 0 < padding ∨ ∀ f, fs.getLast? = some f → f.body ≠ []) :
    ID3v2_read_tag_from_buffer (ofB (tagBytes minor flags fs padding) ++ rest) (10 + framesSize fs + padding : Nat) =
      .ok (some (toTag 3 minor flags (framesSize fs + padding) fs padding)) := by
  have hflat := ofSFrame_flat fs 3 (by decide)
  have hl := flatMap_bytes_length fs
  have := read_wire 3 minor flags (fs.map Wire.ofSFrame) padding [] rest (10 + framesSize fs + padding : Nat) (Or.inl rfl)
    hflag (by
      intro w hw
      obtain ⟨f, hf, rfl⟩ := List.mem_map.mp hw
      exact ofSFrame_readable f (hR f hf))
    (by rw [hflat, hl]; exact hs) (by rw [hflat, hl]; simp; omega) (lastSeen_ofSFrame fs padding hlast)
    (by rw [hflat, hl]; simp)
  rw [ofSFrame_map_kept, hflat, hl, ← tagBytes_wire] at this
  simpa using this

/-- **C11**: serialise, then read. -/
theorem read_serialised_partial [Platform] (minor flags : UInt8) (fs : List SFrame) (padding : Nat) (p : Int)
    (hflag : flags &&& 0x40 = 0) (hR : ∀ f ∈ fs, f.Readable) (hs : framesSize fs + padding < 2 ^ 28)
    (hlast : 0 < padding ∨ ∀ f, fs.getLast? = some f → f.body ≠ []) :
    ∃ cs, Tag_to_char_stream (toTag 3 minor flags (framesSize fs + padding) fs p) = .ok cs ∧
      ID3v2_read_tag_from_buffer cs.stream cs.size =
        .ok (some (toTag 3 minor flags (framesSize fs + padding) fs padding)) := by
  obtain ⟨cs, h1, h2, h3⟩ := serialised_tag minor flags fs padding p (fun f hf => (hR f hf).1) hs
  refine ⟨cs, h1, ?_⟩
  have := read_tag_bytes_partial minor flags fs padding [] hflag hR hs hlast
  rw [List.append_nil] at this
  rw [h2, h3, this]

/-- A title, a UTF-16 comment, a picture and an unknown frame, with 5 bytes of padding. -/
def sampleFrames : List SFrame :=
  [.text [0x54, 0x49, 0x54, 0x32] [0, 0] (.latin [0x48, 0x69]),
   .comment [0, 0] [0x65, 0x6E, 0x67] (.utf16 true []) (.utf16 true [(0x48, 0), (0x00, 0x30)]),
   .apic [0, 0] (.latin [0x69]) 3 (.latin [0x64]) [0xAA, 0, 0xBB],
   .other [0x50, 0x52, 0x49, 0x56] [0, 0] [1, 0, 0, 2]]

example : (∀ f ∈ sampleFrames, @SFrame.Readable strict f) ∧ framesSize sampleFrames + 5 < 2 ^ 28 := by decide

/-- The claim of C11 without the three restrictions. -/
def C11_claim : Prop :=
  ∀ [Platform] (fs : List SFrame) (padding : Nat), (∀ f ∈ fs, f.Usable) → framesSize fs + padding < 2 ^ 28 →
    ID3v2_read_tag_from_buffer (ofB (tagBytes 0 0 fs padding)) (10 + framesSize fs + padding : Nat) =
      .ok (some (toTag 3 0 0 (framesSize fs + padding) fs padding))

/-- **C11** does not hold without them: a picture without data is undefined behaviour (an array of size 0). -/
theorem C11_false : ¬ C11_claim := by
  intro h
  have h1 := @h strict [.apic [0, 0] (.latin [0x69]) 3 (.latin [0x64]) []] 0 (by decide) (by decide)
  exact absurd h1 (by decide)

/-- A picture larger than the stack is a stack overflow when read back (here with a stack of 2 bytes). -/
theorem picture_overflows_stack :
    @ID3v2_read_tag_from_buffer { memcmpLenient := false, stack := 2, charSigned := true }
      (ofB (tagBytes 0 0 [.apic [0, 0] (.latin [0x69]) 3 (.latin [0x64]) [1, 2, 3]] 0)) 29 = .ub .stackOverflow := by
  decide

/-- An empty frame at the very end is not seen. -/
theorem empty_last_frame_lost :
    ∃ t, @ID3v2_read_tag_from_buffer strict (ofB (tagBytes 0 0 [.other [0x50, 0x43, 0x4E, 0x54] [0, 0] []] 0)) 20 = .ok (some t) ∧
      t.frames = [none] := ⟨_, rfl, rfl⟩

/-! ## C13: bytes after the tag -/

/-- **C13**: whatever follows the tag in the buffer (for example the whole audio file), the header and the frames are
the same; only `padding_size` counts the extra bytes. For versions 2.3 and 2.4. -/
theorem trailing_bytes_ignored [Platform] (version minor flags : UInt8) (ws : List Wire) (padding : Nat) (trail : Bytes)
    (hv : version = 3 ∨ version = 4) (hflag : flags &&& 0x40 = 0) (hR : ∀ w ∈ ws, w.Readable version)
    (hs : (ws.flatMap (Wire.bytes version)).length + padding < 2 ^ 28)
    (htrail : (wireTagBytes version minor flags ws padding).length + trail.length ≤ 2147483647)
    (hlast : lastSeen ws padding) :
    ∃ t t', ID3v2_read_tag_from_buffer (ofB (wireTagBytes version minor flags ws padding))
        (wireTagBytes version minor flags ws padding).length = .ok (some t) ∧
      ID3v2_read_tag_from_buffer (ofB (wireTagBytes version minor flags ws padding) ++ trail)
        ((wireTagBytes version minor flags ws padding).length + trail.length : Nat) = .ok (some t') ∧
      t'.header = t.header ∧ t'.frames = t.frames ∧ t.frames = toFrameList (ws.map Wire.kept) ∧
      t.padding_size = padding ∧ t'.padding_size = (padding + trail.length : Nat) := by
  have hl : (wireTagBytes version minor flags ws padding).length =
      10 + (ws.flatMap (Wire.bytes version)).length + padding := by
    simp only [wireTagBytes, tagHeaderBytes, synchsafe, List.length_append, List.length_replicate, List.length_cons,
      List.length_nil]
  rw [hl] at htrail ⊢
  have h1 := read_wire version minor flags ws padding [] [] (10 + (ws.flatMap (Wire.bytes version)).length + padding : Nat)
    hv hflag hR hs (by simp only [List.length_nil]; omega) hlast (by simp only [List.length_nil]; omega)
  have h2 := read_wire version minor flags ws padding trail []
    (10 + (ws.flatMap (Wire.bytes version)).length + padding + trail.length : Nat) hv hflag hR hs (by omega) hlast rfl
  rw [List.append_nil, List.append_nil] at h1
  rw [List.append_nil] at h2
  exact ⟨_, _, h1, h2, rfl, rfl, rfl, by simp [toTag], rfl⟩

/-- Bytes beyond the length given to the call are not looked at. -/
theorem beyond_length_ignored [Platform] (version minor flags : UInt8) (ws : List Wire) (padding : Nat) (after : Bytes)
    (hv : version = 3 ∨ version = 4) (hflag : flags &&& 0x40 = 0) (hR : ∀ w ∈ ws, w.Readable version)
    (hs : (ws.flatMap (Wire.bytes version)).length + padding < 2 ^ 28) (hlast : lastSeen ws padding) :
    ID3v2_read_tag_from_buffer (ofB (wireTagBytes version minor flags ws padding) ++ after)
        (10 + (ws.flatMap (Wire.bytes version)).length + padding : Nat) =
      .ok (some (toTag version minor flags ((ws.flatMap (Wire.bytes version)).length + padding) (ws.map Wire.kept) padding)) := by
  have h1 := read_wire version minor flags ws padding [] after (10 + (ws.flatMap (Wire.bytes version)).length + padding : Nat)
    hv hflag hR hs (by simp only [List.length_nil]; omega) hlast (by simp only [List.length_nil]; omega)
  rw [List.append_nil] at h1
  rw [h1]; simp

/-- A tag of another program: TXXX with a value, a COMR frame, UTF-8 text. -/
def sampleWire : List Wire :=
  [.text [0x54, 0x58, 0x58, 0x58] [0, 0] 0 (.latin [0x6B, 0x65, 0x79]) [0x76, 0x61, 0x6C],
   .comment [0x43, 0x4F, 0x4D, 0x52] [0, 0] 12 0 [0x31, 0x32, 0x33] (.latin [0x61]) (.latin [0x62, 0x63]),
   .text [0x54, 0x50, 0x45, 0x31] [0, 0] 3 (.latin [0xC3, 0xA9]) []]

example : (∀ w ∈ sampleWire, @Wire.Readable strict 3 w) ∧ (∀ w ∈ sampleWire, @Wire.Readable strict 4 w) ∧
    lastSeen sampleWire 0 := by decide

/-! ## C14, C15: what survives reading and writing back -/

/-- Reading a tag and serialising it: the bytes are the header and what the library keeps of every frame, in order;
room that is not needed any more becomes padding. -/
theorem read_write_bytes [Platform] (version minor flags : UInt8) (ws : List Wire) (padding : Nat)
    (hv : version = 3 ∨ version = 4) (hflag : flags &&& 0x40 = 0) (hR : ∀ w ∈ ws, w.Readable version)
    (hs : (ws.flatMap (Wire.bytes version)).length + padding < 2 ^ 28) (hlast : lastSeen ws padding) :
    ∃ t cs, ID3v2_read_tag_from_buffer (ofB (wireTagBytes version minor flags ws padding))
        (10 + (ws.flatMap (Wire.bytes version)).length + padding : Nat) = .ok (some t) ∧
      Tag_to_char_stream t = .ok cs ∧
      cs.stream = ofB (tagHeaderBytes version minor flags ((ws.flatMap (Wire.bytes version)).length + padding) ++
        ws.flatMap (fun w => w.kept.bytes) ++ List.replicate
          ((ws.flatMap (Wire.bytes version)).length + padding - framesSize (ws.map Wire.kept)) 0) := by
  have h1 := beyond_length_ignored version minor flags ws padding [] hv hflag hR hs hlast
  rw [List.append_nil] at h1
  obtain ⟨cs, h2, h3, -⟩ := toTag_out version minor flags ((ws.flatMap (Wire.bytes version)).length + padding)
    (ws.map Wire.kept) padding (by
      intro f hf
      obtain ⟨w, hw, rfl⟩ := List.mem_map.mp hf
      exact (hR w hw).1.2.1) hs (by
      have := kept_framesSize version ws (fun w hw => (hR w hw).1.1)
      omega)
  refine ⟨_, cs, h1, h2, ?_⟩
  rw [h3, List.flatMap_map]

/-- **C14**: a frame whose id does not start with T, C or A, anywhere in a version 2.3 tag: it is read with its body
unchanged, and written back byte for byte (`a` and `b` are what precedes and follows it in the output). -/
theorem unknown_frame_verbatim [Platform] (minor flags : UInt8) (ws1 ws2 : List Wire) (id fl data : List UInt8)
    (padding : Nat) (hflag : flags &&& 0x40 = 0)
    (h1 : ∀ w ∈ ws1, w.Readable 3) (h2 : ∀ w ∈ ws2, w.Readable 3) (hd : data ≠ [])
    (hid : id.length = 4) (hT : id.head? ≠ some 0x54) (hC : id.head? ≠ some 0x43) (hA : id.head? ≠ some 0x41)
    (h0 : id ≠ [0, 0, 0, 0]) (hfl : fl.length = 2)
    (hs : ((ws1 ++ Wire.other id fl data :: ws2).flatMap (Wire.bytes 3)).length + padding < 2 ^ 28)
    (hlast : ws2 = [] ∨ lastSeen ws2 padding) :
    ∃ t cs a b, ID3v2_read_tag_from_buffer
        (ofB (wireTagBytes 3 minor flags (ws1 ++ Wire.other id fl data :: ws2) padding))
        (10 + ((ws1 ++ Wire.other id fl data :: ws2).flatMap (Wire.bytes 3)).length + padding : Nat) = .ok (some t) ∧
      t.frames[ws1.length]? = some (some { header := { id := ofB id, size := data.length, flags := ofB fl }
                                           data := .raw (ofB data) }) ∧
      Tag_to_char_stream t = .ok cs ∧
      cs.stream = ofB (a ++ (id ++ be32 data.length ++ fl ++ data) ++ b) ∧
      a.length = 10 + framesSize (ws1.map Wire.kept) := by
  have hwf : (SFrame.other id fl data).WF := ⟨hid, hT, hC, hA, h0, hfl⟩
  have hlen : data.length + 10 < 2 ^ 28 := by
    have := Wire.bytes_length 3 (Wire.other id fl data) hwf
    rw [List.flatMap_append, List.flatMap_cons] at hs
    simp only [List.length_append, this] at hs
    simp only [Wire.body] at hs
    omega
  have hR : ∀ w ∈ ws1 ++ Wire.other id fl data :: ws2, w.Readable 3 := by
    intro w hw
    simp only [List.mem_append, List.mem_cons] at hw
    rcases hw with hw | rfl | hw
    · exact h1 w hw
    · refine ⟨⟨hwf, ⟨hwf, ?_, trivial⟩, trivial⟩, ?_⟩
      · show (SFrame.other id fl data).bytes.length ≤ _
        rw [SFrame.bytes_length _ hwf]; simp only [SFrame.body]; omega
      · simp [Wire.sizeField, Wire.body, maxFrameSize]; omega
    · exact h2 w hw
  have hls : lastSeen (ws1 ++ Wire.other id fl data :: ws2) padding := by
    rcases hlast with rfl | h | h
    · right; intro w hw; simp at hw; subst hw; exact hd
    · exact Or.inl h
    · right
      intro w hw
      cases h' : ws2.getLast? with
      | none =>
        simp only [List.getLast?_eq_none_iff] at h'
        subst h'; simp at hw; subst hw; exact hd
      | some x =>
        have : (ws1 ++ Wire.other id fl data :: ws2).getLast? = some x := by
          rw [List.getLast?_append, List.getLast?_cons, h']; rfl
        rw [this] at hw
        cases hw
        exact h _ h'
  obtain ⟨t, cs, e1, e2, e3⟩ := read_write_bytes 3 minor flags _ padding (Or.inl rfl) hflag hR hs hls
  have e1' := beyond_length_ignored 3 minor flags _ padding [] (Or.inl rfl) hflag hR hs hls
  rw [List.append_nil] at e1'
  rw [e1', Res.ok.injEq, Option.some.injEq] at e1
  generalize ((ws1 ++ Wire.other id fl data :: ws2).flatMap (Wire.bytes 3)).length + padding -
    framesSize ((ws1 ++ Wire.other id fl data :: ws2).map Wire.kept) = n at e3
  refine ⟨t, cs, tagHeaderBytes 3 minor flags
    (((ws1 ++ Wire.other id fl data :: ws2).flatMap (Wire.bytes 3)).length + padding) ++
      ws1.flatMap (fun w => w.kept.bytes), ws2.flatMap (fun w => w.kept.bytes) ++ List.replicate n 0, ?_, ?_, e2, ?_, ?_⟩
  · rw [e1', e1]
  · rw [← e1, toTag_frames]
    have : toFrameList ((ws1 ++ Wire.other id fl data :: ws2).map Wire.kept) =
        ((ws1 ++ Wire.other id fl data :: ws2).map Wire.kept).map (fun f => some f.toFrame) := by
      unfold toFrameList
      split
      · next h => simp at h
      · rfl
    rw [this]
    simp [Wire.kept, SFrame.toFrame, SFrame.id, SFrame.flags, SFrame.body]
  · rw [e3]
    simp [Wire.kept, SFrame.bytes, SFrame.id, SFrame.flags, SFrame.body]
  · have e : ws1.flatMap (fun w => w.kept.bytes) = (ws1.map Wire.kept).flatMap SFrame.bytes := by rw [List.flatMap_map]
    rw [List.length_append, e, flatMap_bytes_length]; rfl

/-- The claim of C15 for version 2.3: the frames written back are the frames read, byte for byte (then padding). -/
def C15_claim : Prop :=
  ∀ [Platform] (ws : List Wire) (padding : Nat) (t : Tag) (cs : CharStream),
    (∀ w ∈ ws, w.Readable 3) → (ws.flatMap (Wire.bytes 3)).length + padding < 2 ^ 28 → lastSeen ws padding →
    ID3v2_read_tag_from_buffer (ofB (wireTagBytes 3 0 0 ws padding))
      (10 + (ws.flatMap (Wire.bytes 3)).length + padding : Nat) = .ok (some t) →
    Tag_to_char_stream t = .ok cs →
    ∃ n, cs.stream = ofB (tagHeaderBytes 3 0 0 ((ws.flatMap (Wire.bytes 3)).length + padding) ++
        ws.flatMap (Wire.bytes 3) ++ List.replicate n 0)

/-- **C15** is false: the value of a TXXX frame is lost. -/
theorem C15_false : ¬ C15_claim := by
  intro h
  obtain ⟨t, cs, h1, h2, h3⟩ := @read_write_bytes strict 3 0 0
    [.text [0x54, 0x58, 0x58, 0x58] [0, 0] 0 (.latin [0x6B, 0x65, 0x79]) [0x76]] 0 (Or.inl rfl) (by decide) (by decide)
    (by decide) (by decide)
  obtain ⟨m, h4⟩ := @h strict _ 0 t cs (by decide) (by decide) (by decide) h1 h2
  rw [h3] at h4
  have h5 := congrArg (fun l => l.drop 10 |>.take 8) h4
  exact absurd h5 (by simp [ofB, tagHeaderBytes, synchsafe, Wire.kept, SFrame.bytes, Wire.bytes, Wire.bytesWith,
    SFrame.id, Wire.id, sizeBytes, be32, SFrame.body, Wire.body, Str.bytes, Str.content, Str.terminator, Wire.sizeField])

/-- **C15**, what holds: tags whose frames are all in the form the library itself writes are written back unchanged,
byte for byte. (The form: text without a second value, COMM and APIC only among the ids in C and A, encoding byte 0 for
text without BOM and 1 for text with BOM, truthful sizes.) -/
theorem read_write_identity_partial [Platform] (minor flags : UInt8) (ws : List Wire) (padding : Nat)
    (hflag : flags &&& 0x40 = 0) (hR : ∀ w ∈ ws, w.Readable 3) (hc : ∀ w ∈ ws, w = Wire.ofSFrame w.kept)
    (hs : (ws.flatMap (Wire.bytes 3)).length + padding < 2 ^ 28) (hlast : lastSeen ws padding) :
    ∃ t cs, ID3v2_read_tag_from_buffer (ofB (wireTagBytes 3 minor flags ws padding))
        (10 + (ws.flatMap (Wire.bytes 3)).length + padding : Nat) = .ok (some t) ∧
      Tag_to_char_stream t = .ok cs ∧ cs.stream = ofB (wireTagBytes 3 minor flags ws padding) := by
  have hws : ws = (ws.map Wire.kept).map Wire.ofSFrame := by
    rw [List.map_map]
    conv => lhs; rw [← List.map_id ws]
    exact List.map_congr_left (fun w hw => hc w hw)
  have hflat : ws.flatMap (Wire.bytes 3) = (ws.map Wire.kept).flatMap SFrame.bytes := by
    rw [← ofSFrame_flat _ 3 (by decide), ← hws]
  have h1 := beyond_length_ignored 3 minor flags ws padding [] (Or.inl rfl) hflag hR hs hlast
  rw [List.append_nil] at h1
  obtain ⟨cs, h2, h3, -⟩ := toTag_out 3 minor flags ((ws.flatMap (Wire.bytes 3)).length + padding)
    (ws.map Wire.kept) padding (by
      intro f hf
      obtain ⟨w, hw, rfl⟩ := List.mem_map.mp hf
      exact (hR w hw).1.2.1) hs (by
      rw [hflat, flatMap_bytes_length]; omega)
  refine ⟨_, cs, h1, h2, ?_⟩
  rw [h3, hflat, flatMap_bytes_length, Nat.add_sub_cancel_left]
  unfold wireTagBytes
  dsimp only
  rw [hflat, flatMap_bytes_length]

example : ∀ w ∈ sampleFrames.map Wire.ofSFrame, w = Wire.ofSFrame w.kept := by decide

/-- What the library makes of the three frames of `sampleWire`: the value of the TXXX frame is gone, the COMR frame has
become a COMM frame, the UTF-8 text is now declared as ISO-8859-1. -/
example : sampleWire.map Wire.kept =
    [.text [0x54, 0x58, 0x58, 0x58] [0, 0] (.latin [0x6B, 0x65, 0x79]),
     .comment [0, 0] [0x31, 0x32, 0x33] (.latin [0x61]) (.latin [0x62, 0x63]),
     .text [0x54, 0x50, 0x45, 0x31] [0, 0] (.latin [0xC3, 0xA9])] := rfl

/-! ## C12: version 2.4 -/

/-- The claim of C12: a 2.4 tag that the library can read is read back the same after being written. -/
def C12_claim : Prop :=
  ∀ [Platform] (ws : List Wire) (padding : Nat) (t : Tag) (cs : CharStream),
    (∀ w ∈ ws, w.Readable 4) → (ws.flatMap (Wire.bytes 4)).length + padding < 2 ^ 28 → lastSeen ws padding →
    ID3v2_read_tag_from_buffer (ofB (wireTagBytes 4 0 0 ws padding))
      (10 + (ws.flatMap (Wire.bytes 4)).length + padding : Nat) = .ok (some t) →
    Tag_to_char_stream t = .ok cs →
    ∃ t', ID3v2_read_tag_from_buffer cs.stream cs.size = .ok (some t') ∧ t'.frames = t.frames ∧ t'.header = t.header

/-- **C12** fails for every text frame (here: the first frame of the tag) of 256 bytes or more, because its size is
written big-endian and read as a synchsafe integer: the second read is out of bounds. -/
theorem v24_long_text_oob [Platform] (id fl : List UInt8) (enc : UInt8) (s : Str) (ws : List Wire) (padding : Nat)
    (hR : ∀ w ∈ Wire.text id fl enc s [] :: ws, w.Readable 4) (hlong : 256 ≤ 1 + s.bytes.length)
    (hs : ((Wire.text id fl enc s [] :: ws).flatMap (Wire.bytes 4)).length + padding < 2 ^ 28)
    (hlast : lastSeen (Wire.text id fl enc s [] :: ws) padding) :
    ∃ t cs, ID3v2_read_tag_from_buffer (ofB (wireTagBytes 4 0 0 (Wire.text id fl enc s [] :: ws) padding))
        (10 + ((Wire.text id fl enc s [] :: ws).flatMap (Wire.bytes 4)).length + padding : Nat) = .ok (some t) ∧
      Tag_to_char_stream t = .ok cs ∧
      ID3v2_read_tag_from_buffer cs.stream cs.size = .ub .oobRead := by
  have h1 := beyond_length_ignored 4 0 0 _ padding [] (Or.inr rfl) (by decide) hR hs hlast
  rw [List.append_nil] at h1
  have hle := kept_framesSize 4 _ (fun w hw => (hR w hw).1.1)
  obtain ⟨cs, h2, h3, h4⟩ := toTag_out 4 0 0 (((Wire.text id fl enc s [] :: ws).flatMap (Wire.bytes 4)).length + padding)
    ((Wire.text id fl enc s [] :: ws).map Wire.kept) padding (by
      intro f hf
      obtain ⟨w, hw, rfl⟩ := List.mem_map.mp hf
      exact (hR w hw).1.2.1) hs (by omega)
  refine ⟨_, cs, h1, h2, ?_⟩
  have hw0 := hR _ (List.mem_cons_self)
  obtain ⟨⟨hw, hu, hst⟩, hmax⟩ := hw0
  obtain ⟨hi, hT, hf, hwf⟩ := hw
  have hlen : 10 + (1 + s.bytes.length) < 2 ^ 28 := by
    have := Wire.bytes_length 4 (Wire.text id fl enc s []) ⟨hi, hT, hf, hwf⟩
    rw [List.flatMap_cons, List.length_append, this] at hs
    simp only [Wire.body, List.append_nil, List.length_cons] at hs
    omega
  simp only [List.map_cons, framesSize_cons] at hle h3
  have hN : framesSize ((Wire.text id fl enc s [] :: ws).map Wire.kept) ≤
      ((Wire.text id fl enc s [] :: ws).flatMap (Wire.bytes 4)).length + padding := by
    simp only [List.map_cons, framesSize_cons]; omega
  generalize ((Wire.text id fl enc s [] :: ws).flatMap (Wire.bytes 4)).length + padding = N at *
  obtain ⟨m, hm, hm1, hm2⟩ := decSize_be32_large (1 + s.bytes.length) hlong (by omega)
  unfold ID3v2_read_tag_from_buffer
  have hcs : cs.size = (cs.stream.length : Nat) := by
    rw [h4, h3]
    simp only [List.map_cons, framesSize_cons] at hN
    simp only [List.flatMap_cons, ofB_length, List.length_append, List.length_replicate, tagHeaderBytes, synchsafe,
      List.length_cons, List.length_nil, flatMap_bytes_length]
    omega
  have := from_buffer_csAt cs.stream [] cs.size hcs
  rw [List.append_nil] at this
  rw [this]
  simp only [Res.bind_ok]
  have e : ∃ post, cs.stream = ofB (tagHeaderBytes 4 0 0 N) ++
      (ofB (id ++ be32 (1 + s.bytes.length) ++ fl ++ s.encoding :: s.bytes) ++ post) := by
    refine ⟨ofB ((ws.map Wire.kept).flatMap SFrame.bytes ++ List.replicate
      (N - ((Wire.text id fl enc s []).kept.bytes.length + framesSize (ws.map Wire.kept))) 0), ?_⟩
    rw [h3]
    have hb : (SFrame.text id fl s).body.length = 1 + s.bytes.length := by simp [SFrame.body]; omega
    have hbytes : (Wire.text id fl enc s []).kept.bytes =
        id ++ be32 (1 + s.bytes.length) ++ fl ++ s.encoding :: s.bytes := by
      simp only [Wire.kept, SFrame.bytes, hb]
      rfl
    rw [List.flatMap_cons, hbytes]
    simp only [ofB_append, List.append_assoc]
  obtain ⟨post, e⟩ := e
  rw [e]
  unfold Tag_parse
  rw [tag_header_parse 4 0 0 N _ (Or.inr rfl) (by decide) hs]
  simp only [Res.bind_ok, ID3v2_Tag_new]
  rw [if_neg (by simp)]
  have hH : (ofB (tagHeaderBytes 4 0 0 N)).length = 10 := by simp [tagHeaderBytes, synchsafe]
  generalize ofB (tagHeaderBytes 4 0 0 N) = H at *
  unfold Tag_parse_loop
  have hc : u32 (csAt H (ofB (id ++ be32 (1 + s.bytes.length) ++ fl ++ s.encoding :: s.bytes) ++ post)).cursor = 10 := by
    simp [csAt, hH]; decide
  have hN2 : 10 < N := by
    have := SFrame.bytes_length (SFrame.text id fl s) ⟨hi, hT, hf, hwf⟩
    simp only [List.map_cons, framesSize_cons, Wire.kept, this, SFrame.body, List.length_cons] at hN
    omega
  rw [hc, if_pos hN2, parse_text_cut 4 id fl s.encoding s H post (be32 (1 + s.bytes.length)) m hi hT hf hwf rfl hm
    (by omega) hm2 (by
      simp only [Wire.FitsStack, List.length_nil] at hst
      omega) (by omega)]
  rfl

/-- A 2.4 title of `n` letters A. -/
def longTitle (n : Nat) : Wire := .text [0x54, 0x49, 0x54, 0x32] [0, 0] 0 (.latin (List.replicate n 0x41)) []

theorem longTitle_readable (n : Nat) (h1 : 2 ≤ n) (h2 : n ≤ 1000) : @Wire.Readable strict 4 (longTitle n) := by
  have hwf : (Str.latin (List.replicate n 0x41)).WF := by
    refine ⟨?_, ?_, ?_⟩
    · simp [List.mem_replicate]
    · simp only [Str.bom, List.take_replicate]; rw [Nat.min_eq_left h1]; decide
    · simp only [Str.bom, List.take_replicate]; rw [Nat.min_eq_left h1]; decide
  refine ⟨⟨⟨rfl, rfl, rfl, hwf⟩, ⟨⟨rfl, rfl, rfl, hwf⟩, ?_, ?_⟩, ?_⟩, ?_⟩
  · simp [longTitle, Wire.kept, SFrame.bytes, SFrame.id, SFrame.flags, SFrame.body, Str.bytes, Str.content, Str.terminator, be32]
    omega
  · refine ⟨hwf, ?_, Or.inr ?_⟩
    · simp [Str.bytes, Str.content, Str.terminator]; omega
    · intro e
      have := congrArg (fun s : Str => s.content.length) e
      simp [Str.content] at this
      omega
  · have : @Platform.stack strict = 8192 := rfl
    simp [longTitle, Wire.FitsStack, Str.bytes, Str.content, Str.terminator]; omega
  · simp [longTitle, Wire.sizeField, Wire.body, Str.bytes, Str.content, Str.terminator, maxFrameSize]; omega

/-- **C12** is false. -/
theorem C12_false : ¬ C12_claim := by
  intro h
  obtain ⟨n, hn1, hn2⟩ : ∃ n, 255 ≤ n ∧ n ≤ 1000 := ⟨300, by omega, by omega⟩
  have hr := longTitle_readable n (by omega) hn2
  have hR : ∀ w ∈ [longTitle n], @Wire.Readable strict 4 w := by
    intro w hw; rw [List.mem_singleton] at hw; rw [hw]; exact hr
  have hs : ([longTitle n].flatMap (Wire.bytes 4)).length + 0 < 2 ^ 28 := by
    rw [List.flatMap_cons, List.flatMap_nil, List.append_nil, Wire.bytes_length 4 _ hr.1.1]
    simp [longTitle, Wire.body, Str.bytes, Str.content, Str.terminator]
    omega
  have hl : lastSeen [longTitle n] 0 := Or.inr (by intro w hw; simp at hw; subst hw; simp [longTitle, Wire.body])
  obtain ⟨t, cs, h1, h2, h3⟩ := @v24_long_text_oob strict _ _ _ _ [] 0 hR (by
    simp [Str.bytes, Str.content, Str.terminator]; omega) hs hl
  obtain ⟨t', h4, -⟩ := @h strict [longTitle n] 0 t cs hR hs hl h1 h2
  rw [h3] at h4
  exact absurd h4 (by simp)

/-- **C12**, what holds: it is true when every frame that is not a comment has less than 256 bytes (comments of any
size are read correctly because their size field is ignored). -/
theorem v24_roundtrip_partial [Platform] (minor flags : UInt8) (ws : List Wire) (padding : Nat)
    (hflag : flags &&& 0x40 = 0) (hR : ∀ w ∈ ws, w.Readable 4)
    (hk : ∀ w ∈ ws, w.kept.Readable)
    (hsmall : ∀ w ∈ ws, (∃ a b c d, w.kept = .comment a b c d) ∨ w.kept.body.length < 256)
    (hs : (ws.flatMap (Wire.bytes 4)).length + padding < 2 ^ 28) (hlast : lastSeen ws padding) :
    ∃ t cs t', ID3v2_read_tag_from_buffer (ofB (wireTagBytes 4 minor flags ws padding))
        (10 + (ws.flatMap (Wire.bytes 4)).length + padding : Nat) = .ok (some t) ∧
      Tag_to_char_stream t = .ok cs ∧
      ID3v2_read_tag_from_buffer cs.stream cs.size = .ok (some t') ∧ t'.frames = t.frames ∧ t'.header = t.header := by
  have h1 := beyond_length_ignored 4 minor flags ws padding [] (Or.inr rfl) hflag hR hs hlast
  rw [List.append_nil] at h1
  have hle := kept_framesSize 4 ws (fun w hw => (hR w hw).1.1)
  obtain ⟨cs, h2, h3, h4⟩ := toTag_out 4 minor flags ((ws.flatMap (Wire.bytes 4)).length + padding)
    (ws.map Wire.kept) padding (by
      intro f hf
      obtain ⟨w, hw, rfl⟩ := List.mem_map.mp hf
      exact (hR w hw).1.2.1) hs (by omega)
  generalize hN : (ws.flatMap (Wire.bytes 4)).length + padding = N at *
  have hflat := outChunks_flat (ws.map Wire.kept)
  have hfl : (chunksFlat ((ws.map Wire.kept).map outChunk)).length = framesSize (ws.map Wire.kept) := by
    rw [hflat, flatMap_bytes_length]
  have hpad : framesSize (ws.map Wire.kept) + (N - framesSize (ws.map Wire.kept)) = N := by omega
  have h5 := read_chunks 4 minor flags ((ws.map Wire.kept).map outChunk) (N - framesSize (ws.map Wire.kept)) [] []
    cs.size (Or.inr rfl) hflag (by
      intro c hc
      obtain ⟨f, hf, rfl⟩ := List.mem_map.mp hc
      obtain ⟨w, hw, rfl⟩ := List.mem_map.mp hf
      exact parses_be32 _ (hk w hw) (hsmall w hw))
    (by rw [hfl, hpad]; exact hs) (by rw [hfl, hpad]; simp only [List.length_nil]; omega)
    (by
      rcases hlast with hp | hp
      · left; omega
      · right
        intro c hc
        rw [List.map_map, List.getLast?_map] at hc
        cases hl : ws.getLast? with
        | none => rw [hl] at hc; simp at hc
        | some w =>
          rw [hl] at hc; simp at hc; subst hc
          have hw : w ∈ ws := List.mem_of_getLast? hl
          show 10 < w.kept.bytes.length
          rw [SFrame.bytes_length _ (hk w hw).1.1]
          have := hp w hl
          cases w with
          | text => simp [Wire.kept, SFrame.body]
          | comment => simp [Wire.kept, SFrame.body]
          | apic => simp [Wire.kept, SFrame.body]
          | other =>
            have := List.length_pos_iff.mpr this
            exact Nat.lt_add_of_pos_right this)
    (by rw [h4, hfl]; simp only [List.length_nil]; congr 1; omega)
  rw [hfl, hpad, hflat, List.append_nil, List.append_nil, ← h3] at h5
  have e : ((ws.map Wire.kept).map outChunk).map (fun c => c.2) = (ws.map Wire.kept).map SFrame.toFrame := by
    simp [outChunk]
  rw [e, parsedTag_toTag] at h5
  exact ⟨_, cs, _, h1, h2, h5, rfl, rfl⟩

example : (∀ w ∈ sampleWire, @SFrame.Readable strict w.kept) ∧ ∀ w ∈ sampleWire, w.kept.body.length < 256 := by decide

/-! ## C16: extended headers -/

/-- The claim of C16, for the shortest extended header of version 2.4 (6 bytes in all) in front of one frame. -/
def C16_claim : Prop :=
  ∀ [Platform] (w : Wire) (minor x y : UInt8), w.Readable 4 → w.body ≠ [] → (w.bytes 4).length + 6 < 2 ^ 27 →
    ∃ t, ID3v2_read_tag_from_buffer
      (ofB (tagHeaderBytes 4 minor 0x40 ((w.bytes 4).length + 6) ++ [0, 0, 0, 6, x, y] ++ w.bytes 4))
      ((w.bytes 4).length + 16 : Nat) = .ok (some t) ∧ t.frames = [some w.kept.toFrame]

/-- **C16** never holds for an extended header of size 6 (the shortest in version 2.4, the usual one in version 2.3):
the reader goes to byte 6 of the tag instead of skipping, so that if it returns a tag at all, the first frame is made of
the size bytes of the tag header and parts of the extended header. -/
theorem extended_header_misread [Platform] (version minor flags x y : UInt8) (size : Nat) (d : List UInt8) (rest : Bytes)
    (n : Int) (hv : version = 3 ∨ version = 4) (hflag : flags &&& 0x40 = 0x40) (hd : d.length = 6)
    (hs : 6 < size) (hs' : size < 2 ^ 27) (hn : n = (22 + rest.length : Nat)) (t : Option Tag)
    (ht : ID3v2_read_tag_from_buffer
      (ofB (tagHeaderBytes version minor flags size ++ [0, 0, 0, 6, x, y] ++ d) ++ rest) n = .ok t) :
    ∃ tag f r, t = some tag ∧ tag.frames = some f :: r ∧ f.header.id = ofB (synchsafe size) ∧
      f.data = .raw (ofB d) := by
  unfold ID3v2_read_tag_from_buffer at ht
  have := from_buffer_csAt (ofB (tagHeaderBytes version minor flags size ++ [0, 0, 0, 6, x, y] ++ d) ++ rest) [] n
    (by rw [hn]; simp [tagHeaderBytes, synchsafe, hd]; omega)
  rw [List.append_nil] at this
  rw [this] at ht
  simp only [Res.bind_ok] at ht
  have e : ofB (tagHeaderBytes version minor flags size ++ [0, 0, 0, 6, x, y] ++ d) ++ rest =
      ofB [0x49, 0x44, 0x33, version, minor, flags, UInt8.ofNat (size / 128 ^ 3 % 128), UInt8.ofNat (size / 128 ^ 2 % 128),
        UInt8.ofNat (size / 128 % 128), UInt8.ofNat (size % 128)] ++ (ofB [0, 0, 0, 6, x, y] ++ (ofB d ++ rest)) := by
    simp [tagHeaderBytes, synchsafe]
  rw [e] at ht
  have hval : sizeValue (UInt8.ofNat (size / 128 ^ 3 % 128)) (UInt8.ofNat (size / 128 ^ 2 % 128))
      (UInt8.ofNat (size / 128 % 128)) (UInt8.ofNat (size % 128)) = size := by
    rw [sizeValue_eq] <;> simp only [UInt8.toNat_ofNat'] <;> omega
  obtain ⟨tag, r, h1, h2⟩ := parse_ext_six version minor flags _ _ _ _ x y d rest hv hflag hd (by
    simp only [UInt8.toNat_ofNat']; omega) (by rw [hval]; exact hs) t ht
  exact ⟨tag, _, r, h1, h2, rfl, rfl⟩

/-- **C16** is false. -/
theorem C16_false : ¬ C16_claim := by
  intro h
  obtain ⟨t, h1, h2⟩ := @h strict (.text [0x54, 0x49, 0x54, 0x32] [0, 0] 0 (.latin [0x48, 0x69]) []) 0 0 0 (by decide)
    (by decide) (by decide)
  obtain ⟨tag, f, r, e1, e2, e3, -⟩ := @extended_header_misread strict 4 0 0x40 0 0 20 [0x54, 0x49, 0x54, 0x32, 0, 0]
    (ofB [0, 4, 0, 0, 0, 0x48, 0x69, 0]) 30 (Or.inr rfl) (by decide) rfl (by decide) (by decide) rfl (some t) h1
  cases e1
  rw [h2] at e2
  simp only [List.cons.injEq, Option.some.injEq] at e2
  rw [← e2.1] at e3
  exact absurd e3 (by decide)

end Id3.Props
