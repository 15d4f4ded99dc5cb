import Verif.Spec.Start
import Verif.Proof.Made
import Verif.Proof.TagOutSmall
import Verif.Props.Kind
import Verif.Props.Robust

/-!
# Frames of any tag, whatever it was read from and whatever was done with it

The size of every frame is the number of bytes of its body (C44), the bytes that are written are those of the frames in
their order (C33, C47), and exactly which tags can be written. Nothing is assumed about the files and buffers that were
read, nor about the arguments of the calls, except that the calls return.
-/

namespace Id3.Props

open Id3 Spec

theorem obtainable_reached [Platform] (t : Tag) (h : Obtainable t) : Reached AnyStart t := by
  induction h with
  | new h p => exact .start (.new h p)
  | read h => exact .start (.read h)
  | readFile h => exact .start (.readFile h)
  | setText _ _ h ih => exact .setText ih h
  | setComment _ h ih => exact .setComment ih h
  | addComment _ h ih => exact .addComment ih h
  | setApic _ h ih => exact .setApic ih h
  | addApic _ h ih => exact .addApic ih h
  | delete _ h ih => exact .delete ih h
  | deleteAt _ h ih => exact .deleteAt ih h
  | write _ h ih => exact .write ih h

theorem mem_add (l : FrameList) (f g : Frame) (h : some g ∈ FrameList_add_frame l f) : some g ∈ l ∨ g = f := by
  unfold FrameList_add_frame at h
  split at h
  · simp at h
  · rcases List.mem_cons.1 h with h | h
    · cases h; exact .inr rfl
    · exact .inl (List.mem_cons_of_mem _ h)
  · simp only [List.mem_append, List.mem_singleton] at h
    rcases h with h | h
    · exact .inl h
    · cases h; exact .inr rfl

theorem mem_set (t t' : Tag) (id : Bytes) (f : Frame) (h : Tag_set_frame t id f = .ok t') (g : Frame)
    (hg : some g ∈ t'.frames) : some g ∈ t.frames ∨ g = f := by
  unfold Tag_set_frame at h
  obtain ⟨r, -, h⟩ := Res.bind_eq_ok.mp h
  cases r with
  | none =>
    cases h
    exact mem_add _ _ _ hg
  | some p =>
    obtain ⟨i, e⟩ := p
    obtain ⟨d, -, h⟩ := Res.bind_eq_ok.mp h
    obtain ⟨_, -, h⟩ := Res.bind_eq_ok.mp h
    cases h
    exact mem_replace _ _ _ _ hg

/-- What holds of the frames at the start and of the frames that the constructors make, holds of all frames. -/
theorem reached_all [Platform] (From : Tag → Prop) (P : Frame → Prop)
    (h0 : ∀ t, From t → ∀ f, some f ∈ t.frames → P f)
    (hP : ∀ f, (∃ id flags text, TextFrame_new id flags text = .ok f) ∨
      (∃ flags lang desc text, CommentFrame_new flags lang desc text = .ok f) ∨
      (∃ flags desc pt mime n data, ApicFrame_new flags desc pt mime n data = .ok f) → P f)
    (t : Tag) (h : Reached From t) : ∀ f, some f ∈ t.frames → P f := by
  induction h with
  | start h => exact h0 _ h
  | setText _ h ih =>
    obtain ⟨f, h1, h⟩ := Res.bind_eq_ok.mp h
    intro g hg
    rcases mem_set _ _ _ _ h g hg with hg | rfl
    · exact ih g hg
    · exact hP _ (.inl ⟨_, _, _, h1⟩)
  | setComment _ h ih =>
    obtain ⟨f, h1, h⟩ := Res.bind_eq_ok.mp h
    intro g hg
    rcases mem_set _ _ _ _ h g hg with hg | rfl
    · exact ih g hg
    · exact hP _ (.inr (.inl ⟨_, _, _, _, h1⟩))
  | addComment _ h ih =>
    obtain ⟨f, h1, h⟩ := Res.bind_eq_ok.mp h
    cases h
    intro g hg
    rcases mem_add _ _ _ hg with hg | rfl
    · exact ih g hg
    · exact hP _ (.inr (.inl ⟨_, _, _, _, h1⟩))
  | setApic _ h ih =>
    obtain ⟨f, h1, h⟩ := Res.bind_eq_ok.mp h
    intro g hg
    rcases mem_set _ _ _ _ h g hg with hg | rfl
    · exact ih g hg
    · exact hP _ (.inr (.inr ⟨_, _, _, _, _, _, h1⟩))
  | addApic _ h ih =>
    obtain ⟨f, h1, h⟩ := Res.bind_eq_ok.mp h
    cases h
    intro g hg
    rcases mem_add _ _ _ hg with hg | rfl
    · exact ih g hg
    · exact hP _ (.inr (.inr ⟨_, _, _, _, _, _, h1⟩))
  | delete _ h ih =>
    obtain ⟨⟨r, l⟩, h1, h⟩ := Res.bind_eq_ok.mp h
    cases r with
    | none => cases h
    | some d =>
      obtain ⟨n, -, h⟩ := Res.bind_eq_ok.mp h
      obtain ⟨_, -, h⟩ := Res.bind_eq_ok.mp h
      cases h
      exact fun g hg => ih g (mem_remove_by_id _ _ _ _ _ h1 hg)
  | @deleteAt t t' id n _ h ih =>
    obtain ⟨m, -, h⟩ := Res.bind_eq_ok.mp h
    cases m with
    | nil =>
      dsimp only at h
      split at h
      · cases h
        exact fun g hg => ih g (mem_remove_null _ _ hg)
      · cases h; exact ih
    | cons x xs =>
      dsimp only at h
      split at h
      · cases h; exact ih
      · split at h
        · cases h; exact ih
        · obtain ⟨_, -, h⟩ := Res.bind_eq_ok.mp h
          cases h
          exact fun g hg => ih g (mem_remove _ _ _ hg)
  | @write t t' file file' _ h ih =>
    unfold ID3v2_write_tag at h
    obtain ⟨_, -, h⟩ := Res.bind_eq_ok.mp h
    obtain ⟨_, -, h⟩ := Res.bind_eq_ok.mp h
    obtain ⟨_, -, h⟩ := Res.bind_eq_ok.mp h
    obtain ⟨_, -, h⟩ := Res.bind_eq_ok.mp h
    obtain ⟨_, -, h⟩ := Res.bind_eq_ok.mp h
    cases file with
    | none => cases h
    | some c => cases h; exact ih

/-! ### Tags that were read -/

theorem parse_loop_made [Platform] (size : Nat) (v : UInt8) (n : Nat) (cs : CharStream) (l : FrameList)
    (hl : ∀ f, some f ∈ l → Made f) {l' : FrameList} {cs' : CharStream}
    (h : Tag_parse_loop n cs size v l = .ok (l', cs')) : ∀ f, some f ∈ l' → Made f := by
  induction n generalizing cs l with
  | zero => cases h
  | succ n ih =>
    unfold Tag_parse_loop at h
    split at h
    · obtain ⟨⟨f, c⟩, h1, h⟩ := Res.bind_eq_ok.mp h
      cases f with
      | none => cases h; exact hl
      | some f =>
        refine ih _ _ ?_ h
        intro g hg
        rcases mem_add _ _ _ hg with hg | rfl
        · exact hl g hg
        · exact frame_parse_made h1
    · cases h; exact hl

/-- What every tag has that was read from a buffer. -/
theorem tag_parse_inv [Platform] (cs : CharStream) (t : Tag) (h : Tag_parse cs = .ok (some t)) :
    (∀ f, some f ∈ t.frames → Made f) ∧ t.header.identifier = ofB [0x49, 0x44, 0x33] ∧ t.header.tag_size < 2 ^ 29 := by
  unfold Tag_parse at h
  obtain ⟨⟨hd, c⟩, h1, h⟩ := Res.bind_eq_ok.mp h
  cases hd with
  | none => cases h
  | some hd =>
    dsimp only at h
    obtain ⟨c1, fr, c2, pad, h2, rfl⟩ : ∃ c1 fr c2 pad, Tag_parse_loop (c1.stream.length + 1) c1 hd.tag_size
        hd.major_version (ID3v2_Tag_new (some hd) 0).frames = .ok (fr, c2) ∧
        t = { ID3v2_Tag_new (some hd) 0 with frames := fr, padding_size := pad } := by
      split at h
      · cases h
      · split at h <;>
        · obtain ⟨c1, -, h⟩ := Res.bind_eq_ok.mp h
          obtain ⟨⟨fr, c2⟩, h2, h⟩ := Res.bind_eq_ok.mp h
          obtain ⟨pad, -, h⟩ := Res.bind_eq_ok.mp h
          cases h
          exact ⟨c1, fr, c2, pad, h2, rfl⟩
    refine ⟨parse_loop_made _ _ _ _ _ ?_ h2, ?_⟩
    · intro g hg; simp [ID3v2_Tag_new, FrameList_new] at hg
    · show hd.identifier = _ ∧ hd.tag_size < 2 ^ 29
      unfold TagHeader_parse at h1
      obtain ⟨b, -, h1⟩ := Res.bind_eq_ok.mp h1
      split at h1
      · cases h1
      · obtain ⟨_, -, h1⟩ := Res.bind_eq_ok.mp h1
        obtain ⟨⟨mj, c3⟩, -, h1⟩ := Res.bind_eq_ok.mp h1
        obtain ⟨⟨mi, c4⟩, -, h1⟩ := Res.bind_eq_ok.mp h1
        dsimp only at h1
        split at h1
        · cases h1
        · obtain ⟨⟨fl, c5⟩, -, h1⟩ := Res.bind_eq_ok.mp h1
          obtain ⟨⟨d, c6⟩, -, h1⟩ := Res.bind_eq_ok.mp h1
          obtain ⟨_, -, h1⟩ := Res.bind_eq_ok.mp h1
          split at h1
          · obtain ⟨_, -, h1⟩ := Res.bind_eq_ok.mp h1
            cases h1
            exact ⟨rfl, syncint_decode_lt _⟩
          · cases h1
            exact ⟨rfl, syncint_decode_lt _⟩

theorem read_buffer_inv [Platform] (b : Bytes) (n : Int) (t : Tag) (h : ID3v2_read_tag_from_buffer b n = .ok (some t)) :
    (∀ f, some f ∈ t.frames → Made f) ∧ t.header.identifier = ofB [0x49, 0x44, 0x33] ∧ t.header.tag_size < 2 ^ 29 := by
  unfold ID3v2_read_tag_from_buffer at h
  obtain ⟨cs, -, h⟩ := Res.bind_eq_ok.mp h
  exact tag_parse_inv cs t h

theorem read_file_inv [Platform] (file : File) (t : Tag) (h : ID3v2_read_tag file = .ok (some t)) :
    (∀ f, some f ∈ t.frames → Made f) ∧ t.header.identifier = ofB [0x49, 0x44, 0x33] ∧ t.header.tag_size < 2 ^ 29 := by
  unfold ID3v2_read_tag at h
  obtain ⟨hd, -, h⟩ := Res.bind_eq_ok.mp h
  cases hd with
  | none => cases h
  | some hd =>
    cases file with
    | none => cases h
    | some c => exact read_buffer_inv _ _ _ h

theorem reached_made [Platform] (From : Tag → Prop) (h0 : ∀ t, From t → AnyStart t) (t : Tag) (h : Reached From t) :
    ∀ f, some f ∈ t.frames → Made f := by
  refine reached_all From Made ?_ ?_ t h
  · intro t ht
    cases h0 t ht with
    | new h p => intro f hf; simp [ID3v2_Tag_new, FrameList_new] at hf
    | read h => exact (read_buffer_inv _ _ _ h).1
    | readFile h => exact (read_file_inv _ _ h).1
  · rintro f (⟨_, _, _, h⟩ | ⟨_, _, _, _, h⟩ | ⟨_, _, _, _, _, _, h⟩)
    · exact .text h
    · exact .comment h
    · exact .apic h

/-! ## C44 -/

theorem startsWith_inv (h : FrameHeader) (c : UInt8) (b : Bool) (e : idStartsWith h c = .ok b) :
    (b = true → h.id.head? = some (some c)) ∧ (b = false → h.id.head? ≠ some (some c)) := by
  unfold idStartsWith at e
  cases hi : h.id with
  | nil => rw [hi] at e; cases e
  | cons x xs =>
    rw [hi] at e
    cases x with
    | none => cases e
    | some v =>
      have e' : (v == c) = b := Res.ok.inj e
      subst e'
      simp

/-- A frame that is written has the data that its id announces. -/
theorem out_typed [Platform] (f : Frame) (cs : CharStream) (h : Frame_to_char_stream f = .ok cs) : Typed f := by
  unfold Frame_to_char_stream at h
  obtain ⟨b1, h1, h⟩ := Res.bind_eq_ok.mp h
  have i1 := startsWith_inv _ _ _ h1
  unfold Typed
  split at h
  · next hb =>
    split at h
    · next d hd => rw [hd]; exact i1.1 hb
    · cases h
  · next hb =>
    obtain ⟨b2, h2, h⟩ := Res.bind_eq_ok.mp h
    have i2 := startsWith_inv _ _ _ h2
    split at h
    · next hb2 =>
      split at h
      · next d hd => rw [hd]; exact i2.1 hb2
      · cases h
    · next hb2 =>
      obtain ⟨b3, h3, h⟩ := Res.bind_eq_ok.mp h
      have i3 := startsWith_inv _ _ _ h3
      split at h
      · next hb3 =>
        split at h
        · next d hd => rw [hd]; exact i3.1 hb3
        · cases h
      · next hb3 =>
        split at h
        · next d hd =>
          rw [hd]
          exact ⟨i1.2 (by simpa using hb), i2.2 (by simpa using hb2), i3.2 (by simpa using hb3)⟩
        · cases h

/-- A frame that is written is written as it is. -/
theorem made_out [Platform] (f : Frame) (hf : Made f) (cs : CharStream) (h : Frame_to_char_stream f = .ok cs) :
    cs.stream = frameBytes f ∧ (cs.stream.length : Int) = 10 + f.header.size ∧ WritableFrame f := by
  have hs := made_solid f hf
  obtain ⟨o1, o2⟩ := solid_out f hs (out_typed f cs h)
  by_cases hw : WritableFrame f
  · rw [o1 hw] at h
    cases h
    have e : (csOut (frameBytes f) 0).stream = frameBytes f := by simp [csOut]
    refine ⟨e, ?_, hw⟩
    rw [e]
    have ht := writable_truthful f hs hw
    unfold Truthful at ht
    have h1 := hs.1
    have h2 := hs.2.1
    simp only [frameBytes, List.length_append, ofB_length, be32]
    rw [h1, h2, ht]
    simp
  · obtain ⟨e, he⟩ := o2 hw
    rw [he] at h; cases h

/-- **C44** without any assumption on what was read: in every tag that was made or read, from any bytes, and after any
calls with any arguments, the size of a frame is the number of bytes of its body. The one exception is a frame that is
none of text, comment and picture, with a size of 2^31 or more in the file: its size is negative and it has no body. -/
theorem truthful_or_negative [Platform] (t : Tag) (h : Reached AnyStart t) (f : Frame) (hf : some f ∈ t.frames) :
    Truthful f ∨ (f.header.size < 0 ∧ f.data = .raw []) :=
  solid_truthful f (made_solid f (reached_made _ (fun _ h => h) t h f hf))

theorem made_truthful [Platform] (f : Frame) (h : (∃ id flags text, TextFrame_new id flags text = .ok f) ∨
      (∃ flags lang desc text, CommentFrame_new flags lang desc text = .ok f) ∨
      (∃ flags desc pt mime n data, ApicFrame_new flags desc pt mime n data = .ok f)) : Truthful f := by
  have hn : Made f ∧ f.data ≠ .raw [] := by
    rcases h with ⟨_, _, _, h⟩ | ⟨_, _, _, _, h⟩ | ⟨_, _, _, _, _, _, h⟩
    · refine ⟨.text h, ?_⟩
      unfold TextFrame_new at h
      obtain ⟨_, -, h⟩ := Res.bind_eq_ok.mp h
      obtain ⟨_, -, h⟩ := Res.bind_eq_ok.mp h
      obtain ⟨_, -, h⟩ := Res.bind_eq_ok.mp h
      cases h
      intro e; cases e
    · refine ⟨.comment h, ?_⟩
      unfold CommentFrame_new at h
      obtain ⟨_, -, h⟩ := Res.bind_eq_ok.mp h
      obtain ⟨_, -, h⟩ := Res.bind_eq_ok.mp h
      obtain ⟨_, -, h⟩ := Res.bind_eq_ok.mp h
      obtain ⟨_, -, h⟩ := Res.bind_eq_ok.mp h
      cases h
      intro e; cases e
    · refine ⟨.apic h, ?_⟩
      unfold ApicFrame_new at h
      obtain ⟨_, -, h⟩ := Res.bind_eq_ok.mp h
      obtain ⟨_, -, h⟩ := Res.bind_eq_ok.mp h
      obtain ⟨_, -, h⟩ := Res.bind_eq_ok.mp h
      obtain ⟨_, -, h⟩ := Res.bind_eq_ok.mp h
      obtain ⟨_, -, h⟩ := Res.bind_eq_ok.mp h
      cases h
      intro e; cases e
  rcases solid_truthful f (made_solid f hn.1) with h | h
  · exact h
  · exact absurd h.2 hn.2

theorem sframe_truthful (g : SFrame) : Truthful g.toFrame := by
  cases g <;> simp [Truthful, SFrame.toFrame, SFrame.body, bodyOf] <;> omega

theorem read_file_wire [Platform] (version minor flags : UInt8) (ws : List Wire) (padding : Nat) (rest : List UInt8)
    (hv : version = 3 ∨ version = 4) (hflag : flags &&& 0x40 = 0) (hR : ∀ w ∈ ws, w.Readable version)
    (hs : (ws.flatMap (Wire.bytes version)).length + padding < 2 ^ 28) (hlast : lastSeen ws padding) :
    ID3v2_read_tag (some (ofB (wireTagBytes version minor flags ws padding ++ rest))) =
      .ok (some (toTag version minor flags ((ws.flatMap (Wire.bytes version)).length + padding) (ws.map Wire.kept)
        padding)) := by
  have h1 := beyond_length_ignored version minor flags ws padding [] hv hflag hR hs hlast
  rw [List.append_nil] at h1
  have e : ofB (wireTagBytes version minor flags ws padding ++ rest) =
      ofB (tagHeaderBytes version minor flags ((ws.flatMap (Wire.bytes version)).length + padding)) ++
        ofB (ws.flatMap (Wire.bytes version) ++ List.replicate padding 0) ++ ofB rest := by
    simp [wireTagBytes]
  have e2 : ofB (wireTagBytes version minor flags ws padding) =
      ofB (tagHeaderBytes version minor flags ((ws.flatMap (Wire.bytes version)).length + padding)) ++
        ofB (ws.flatMap (Wire.bytes version) ++ List.replicate padding 0) := by
    simp [wireTagBytes]
  rw [e, read_tag_prefix version minor flags _ _ _ hv hs (by simp), ← e2, ← Nat.add_assoc]
  exact h1

/-- **C44**: in every tag that was made or read from a well-formed file, and after any calls with any arguments, the size
of every frame is the number of bytes of its body; and if the frame is written, the bytes are those of the frame, that
many after the ten bytes of the header. -/
theorem truthful_sizes [Platform] (t : Tag) (h : Reached GoodStart t) (f : Frame) (hf : some f ∈ t.frames) :
    Truthful f ∧ ∀ cs, Frame_to_char_stream f = .ok cs →
      cs.stream = frameBytes f ∧ (cs.stream.length : Int) = 10 + f.header.size := by
  have hm : Made f := by
    refine reached_made GoodStart (fun t ht => ?_) t h f hf
    cases ht with
    | new h p => exact .new h p
    | read _ _ _ _ _ _ _ _ _ _ _ _ h => exact .readFile h
  refine ⟨?_, fun cs hcs => ⟨(made_out f hm cs hcs).1, (made_out f hm cs hcs).2.1⟩⟩
  refine reached_all GoodStart Truthful ?_ ?_ t h f hf
  · intro t ht f hf
    cases ht with
    | new h p => simp [ID3v2_Tag_new, FrameList_new] at hf
    | read version minor flags ws padding rest t hv hflag hR hs hlast h =>
      rw [read_file_wire version minor flags ws padding rest hv hflag hR hs hlast] at h
      cases h
      have hf' : some f ∈ toFrameList (ws.map Wire.kept) := hf
      rw [toFrameList_nodes] at hf'
      obtain ⟨g, rfl⟩ : ∃ g : SFrame, g.toFrame = f := by
        cases hws : (ws.map Wire.kept) with
        | nil => rw [hws] at hf'; simp [nodes] at hf'
        | cons x xs =>
          rw [hws, nodes_eq _ (by simp)] at hf'
          simp only [List.mem_map, Option.some.injEq] at hf'
          obtain ⟨a, ⟨b, -, rfl⟩, rfl⟩ := hf'
          exact ⟨b, rfl⟩
      exact sframe_truthful g
  · exact made_truthful

/-! ## C33, C47: which tags can be written -/

theorem hole_not_written [Platform] (l : FrameList) (cs cs' : CharStream) (h : Tag_write_frames cs l = .ok cs') :
    ∃ fs : List Frame, l = fs.map some ∧ ∀ f ∈ fs, Typed f := by
  induction l generalizing cs with
  | nil => exact ⟨[], rfl, by simp⟩
  | cons x xs ih =>
    cases x with
    | none => cases h
    | some f =>
      unfold Tag_write_frames at h
      obtain ⟨_, h1, h⟩ := Res.bind_eq_ok.mp h
      obtain ⟨_, -, h⟩ := Res.bind_eq_ok.mp h
      obtain ⟨fs, rfl, h2⟩ := ih _ h
      refine ⟨f :: fs, rfl, ?_⟩
      intro g hg
      rcases List.mem_cons.1 hg with rfl | hg
      · exact out_typed _ _ h1
      · exact h2 g hg

theorem made_fits [Platform] (t : Tag) (hm : ∀ f, some f ∈ t.frames → Made f)
    (hid : t.header.identifier = ofB [0x49, 0x44, 0x33]) (hs : t.header.tag_size < 2 ^ 32) :
    ((∃ cs, Tag_to_char_stream t = .ok cs) → Fits t ∧ frameBytesTotal (writtenFrames t.frames) ≤ t.header.tag_size ∧
      Tag_to_char_stream t = .ok (csOut (ofB (headerOut t.header) ++ (writtenFrames t.frames).flatMap frameBytes)
        (t.header.tag_size - frameBytesTotal (writtenFrames t.frames)))) ∧
    (Fits t → ∃ cs, Tag_to_char_stream t = .ok cs) := by
  by_cases hsize : t.header.tag_size + 10 ≤ 2147483647
  · rw [tag_header_out t hid hsize]
    have hl : (ofB (headerOut t.header)).length = 10 := by simp [headerOut, itob]
    cases hf : t.frames with
    | nil =>
      refine ⟨fun ⟨_, h⟩ => (by cases h), fun h => ?_⟩
      rcases h.2 with h | ⟨fs, h0, h, -⟩
      · rw [hf] at h; cases h
      · rw [hf] at h; cases fs with
        | nil => exact absurd rfl h0
        | cons _ _ => cases h
    | cons x xs =>
      cases x with
      | none =>
        refine ⟨fun _ => ⟨⟨hsize, .inl (by rw [hf]; rfl)⟩, by simp [writtenFrames, frameBytesTotal], ?_⟩, fun _ => ⟨_, rfl⟩⟩
        simp [writtenFrames, frameBytesTotal]
      | some f =>
        dsimp only
        constructor
        · rintro ⟨cs, h⟩
          obtain ⟨fs, hfs, hty⟩ := hole_not_written _ _ _ h
          have hw : writtenFrames (some f :: xs) = fs := by
            show (some f :: xs).filterMap id = fs
            rw [hfs]; simp
          have hmem : ∀ g ∈ fs, Solid g ∧ Typed g := by
            intro g hg
            refine ⟨made_solid g (hm g ?_), hty g hg⟩
            rw [hf, hfs]; exact List.mem_map_of_mem hg
          have hne : fs ≠ [] := by rintro rfl; cases hfs
          obtain ⟨o1, o2⟩ := write_frames_made fs hmem (ofB (headerOut t.header)) t.header.tag_size (by rw [hl]; omega)
          rw [hfs] at h ⊢
          by_cases hc : (∀ f ∈ fs, WritableFrame f) ∧ frameBytesTotal fs ≤ t.header.tag_size
          · rw [← hfs, hw, hfs]
            exact ⟨⟨hsize, .inr ⟨fs, hne, by rw [hf, hfs], fun f hf => ⟨(hmem f hf).2, hc.1 f hf⟩, hc.2⟩⟩, hc.2, o1 hc⟩
          · obtain ⟨e, he⟩ := o2 hc
            rw [he] at h; cases h
        · rintro ⟨-, h | ⟨fs, h0, h, hc, hc2⟩⟩
          · rw [hf] at h; cases h
          · rw [hf] at h
            rw [h]
            have hmem : ∀ g ∈ fs, Solid g ∧ Typed g := by
              intro g hg
              have : some g ∈ t.frames := by rw [hf, h]; exact List.mem_map_of_mem hg
              exact ⟨made_solid g (hm g this), (hc g hg).1⟩
            exact ⟨_, (write_frames_made fs hmem (ofB (headerOut t.header)) t.header.tag_size (by rw [hl]; omega)).1
              ⟨fun f hf => (hc f hf).2, hc2⟩⟩
  · rw [tag_out_small t ((t.header.tag_size : Int) - 4294967296) hid (by unfold u32; omega) (by omega) (by omega)]
    exact ⟨fun ⟨_, h⟩ => (by cases h), fun h => absurd h.1 hsize⟩

theorem usual_any [Platform] (t : Tag) (h : UsualStart t) : AnyStart t := by
  cases h with
  | new => exact .new none 0
  | read h => exact .read h
  | readFile h => exact .readFile h

/-- The fields of the tag that are not frames. -/
def Sane (t : Tag) : Prop :=
  t.header.identifier = ofB [0x49, 0x44, 0x33] ∧ t.header.tag_size < 2 ^ 32 ∧ -2147483648 ≤ t.padding_size ∧
    t.padding_size ≤ 2147483647

theorem u32_lt (n : Int) : u32 n < 2 ^ 32 := by unfold u32; omega

theorem tag_parse_padding [Platform] (cs : CharStream) (t : Tag) (h : Tag_parse cs = .ok (some t)) :
    -2147483648 ≤ t.padding_size ∧ t.padding_size ≤ 2147483647 := by
  unfold Tag_parse at h
  obtain ⟨⟨hd, c⟩, h1, h⟩ := Res.bind_eq_ok.mp h
  cases hd with
  | none => cases h
  | some hd =>
    dsimp only at h
    split at h
    · cases h
    · split at h <;>
      · obtain ⟨c1, -, h⟩ := Res.bind_eq_ok.mp h
        obtain ⟨⟨fr, c2⟩, h2, h⟩ := Res.bind_eq_ok.mp h
        obtain ⟨pad, h3, h⟩ := Res.bind_eq_ok.mp h
        cases h
        obtain ⟨rfl, h4, h5⟩ := ck_inv h3
        exact ⟨h4, h5⟩

theorem set_sane (t t' : Tag) (id : Bytes) (f : Frame) (ht : Sane t) (h : Tag_set_frame t id f = .ok t') : Sane t' := by
  unfold Tag_set_frame at h
  obtain ⟨r, -, h⟩ := Res.bind_eq_ok.mp h
  cases r with
  | none =>
    cases h
    exact ⟨ht.1, u32_lt _, ht.2.2⟩
  | some p =>
    obtain ⟨i, e⟩ := p
    obtain ⟨d, -, h⟩ := Res.bind_eq_ok.mp h
    obtain ⟨_, -, h⟩ := Res.bind_eq_ok.mp h
    cases h
    exact ⟨ht.1, u32_lt _, ht.2.2⟩

theorem reached_sane [Platform] (t : Tag) (h : Reached UsualStart t) : Sane t := by
  induction h with
  | start h =>
    cases h with
    | new => exact ⟨rfl, by decide, by decide, by decide⟩
    | read h =>
      obtain ⟨-, h1, h2⟩ := read_buffer_inv _ _ _ h
      unfold ID3v2_read_tag_from_buffer at h
      obtain ⟨cs, -, h⟩ := Res.bind_eq_ok.mp h
      exact ⟨h1, by omega, tag_parse_padding _ _ h⟩
    | @readFile file _ h =>
      obtain ⟨-, h1, h2⟩ := read_file_inv _ _ h
      unfold ID3v2_read_tag at h
      obtain ⟨hd, -, h⟩ := Res.bind_eq_ok.mp h
      cases hd with
      | none => cases h
      | some hd =>
        cases file with
        | none => cases h
        | some c =>
          unfold ID3v2_read_tag_from_buffer at h
          obtain ⟨cs, -, h⟩ := Res.bind_eq_ok.mp h
          exact ⟨h1, by omega, tag_parse_padding _ _ h⟩
  | setText _ h ih =>
    obtain ⟨f, h1, h⟩ := Res.bind_eq_ok.mp h
    exact set_sane _ _ _ _ ih h
  | setComment _ h ih =>
    obtain ⟨f, h1, h⟩ := Res.bind_eq_ok.mp h
    exact set_sane _ _ _ _ ih h
  | addComment _ h ih =>
    obtain ⟨f, h1, h⟩ := Res.bind_eq_ok.mp h
    cases h
    exact ⟨ih.1, u32_lt _, ih.2.2⟩
  | setApic _ h ih =>
    obtain ⟨f, h1, h⟩ := Res.bind_eq_ok.mp h
    exact set_sane _ _ _ _ ih h
  | addApic _ h ih =>
    obtain ⟨f, h1, h⟩ := Res.bind_eq_ok.mp h
    cases h
    exact ⟨ih.1, u32_lt _, ih.2.2⟩
  | delete _ h ih =>
    obtain ⟨⟨r, l⟩, h1, h⟩ := Res.bind_eq_ok.mp h
    cases r with
    | none => cases h
    | some d =>
      obtain ⟨n, -, h⟩ := Res.bind_eq_ok.mp h
      obtain ⟨_, -, h⟩ := Res.bind_eq_ok.mp h
      cases h
      exact ⟨ih.1, u32_lt _, ih.2.2⟩
  | @deleteAt t t' id n _ h ih =>
    obtain ⟨m, -, h⟩ := Res.bind_eq_ok.mp h
    cases m with
    | nil =>
      dsimp only at h
      split at h
      · cases h
        exact ⟨ih.1, ih.2.1, ih.2.2⟩
      · cases h; exact ih
    | cons x xs =>
      dsimp only at h
      split at h
      · cases h; exact ih
      · split at h
        · cases h; exact ih
        · obtain ⟨_, -, h⟩ := Res.bind_eq_ok.mp h
          cases h
          exact ⟨ih.1, ih.2.1, ih.2.2⟩
  | @write t t' file file' _ h ih =>
    unfold ID3v2_write_tag at h
    obtain ⟨_, -, h⟩ := Res.bind_eq_ok.mp h
    obtain ⟨_, -, h⟩ := Res.bind_eq_ok.mp h
    obtain ⟨_, h1, h⟩ := Res.bind_eq_ok.mp h
    obtain ⟨_, -, h⟩ := Res.bind_eq_ok.mp h
    obtain ⟨_, -, h⟩ := Res.bind_eq_ok.mp h
    cases file with
    | none => cases h
    | some c =>
      cases h
      obtain ⟨rfl, h4, h5⟩ := ck_inv h1
      exact ⟨ih.1, ih.2.1, h4, h5⟩

/-- **C33**, **C47**, for every tag that was made or read from any bytes, and after any calls with any arguments, and for
every file: `ID3v2_write_tag` succeeds if and only if the tag fits (and the padding it remembers is not absurd). -/
theorem written_iff_fits [Platform] (t : Tag) (h : Reached UsualStart t) (contents : List UInt8) :
    (∃ r, ID3v2_write_tag (some (ofB contents)) t = .ok r) ↔ Fits t ∧ -2147481599 ≤ t.padding_size := by
  obtain ⟨h1, h2, h3, h4⟩ := reached_sane t h
  have hm := reached_made UsualStart usual_any t h
  obtain ⟨o1, o2⟩ := made_fits t hm h1 h2
  by_cases hp : -2147481599 ≤ t.padding_size
  · rw [write_tag_eq (ofB contents) _ t h1 (existing_size contents) hp h4]
    constructor
    · rintro ⟨r, hr⟩
      obtain ⟨cs, hcs, -⟩ := Res.bind_eq_ok.mp hr
      exact ⟨(o1 ⟨cs, hcs⟩).1, hp⟩
    · rintro ⟨hf, -⟩
      obtain ⟨cs, hcs⟩ := o2 hf
      rw [hcs]
      exact ⟨_, rfl⟩
  · refine ⟨fun ⟨r, hr⟩ => ?_, fun h => absurd h.2 hp⟩
    unfold ID3v2_write_tag at hr
    obtain ⟨_, -, hr⟩ := Res.bind_eq_ok.mp hr
    obtain ⟨_, h5, -⟩ := Res.bind_eq_ok.mp hr
    obtain ⟨-, -, h5⟩ := ck_inv h5
    omega

/-- What the file is then: ten bytes of header (those of the ID3v2 document if the size fits its field), the frames in
their order, zeros up to the size of the tag, and what followed the tag that was in the file. -/
theorem written_exactly [Platform] (t : Tag) (h : Reached UsualStart t) (contents : List UInt8) (file : File) (t' : Tag)
    (hw : ID3v2_write_tag (some (ofB contents)) t = .ok (file, t')) :
    ∃ header zeros, file = some (ofB header ++ (writtenFrames t.frames).flatMap frameBytes ++
        List.replicate zeros (some 0) ++ ofB (audio contents)) ∧
      header.length = 10 ∧ (t.header.tag_size < 2 ^ 28 → header = headerBytes t.header) ∧
      frameBytesTotal (writtenFrames t.frames) + zeros = t.header.tag_size := by
  obtain ⟨h1, h2, h3, h4⟩ := reached_sane t h
  have hm := reached_made UsualStart usual_any t h
  obtain ⟨o1, -⟩ := made_fits t hm h1 h2
  obtain ⟨hf, hp⟩ := (written_iff_fits t h contents).1 ⟨_, hw⟩
  rw [write_tag_eq (ofB contents) _ t h1 (existing_size contents) hp h4] at hw
  obtain ⟨cs, hcs, hw⟩ := Res.bind_eq_ok.mp hw
  obtain ⟨-, o3, o4⟩ := o1 ⟨cs, hcs⟩
  rw [o4] at hcs
  cases hcs
  cases hw
  refine ⟨headerOut t.header, t.header.tag_size - frameBytesTotal (writtenFrames t.frames), ?_, by simp [headerOut, itob],
    fun hs => headerOut_eq _ hs, by omega⟩
  simp [csOut, audio, ofB]

/-- **C47**, exactly: a tag that was read can be written back to the file if and only if it fits. -/
theorem read_then_write_iff [Platform] (contents : List UInt8) (t : Tag)
    (h : ID3v2_read_tag (some (ofB contents)) = .ok (some t)) :
    (∃ r, ID3v2_write_tag (some (ofB contents)) t = .ok r) ↔ Fits t ∧ -2147481599 ≤ t.padding_size :=
  written_iff_fits t (.start (.readFile h)) contents

/-- A well-formed file of another program, read, changed and read: the hypotheses are met by a tag of four frames. -/
example : ∃ t t', @GoodStart strict t ∧
    @ID3v2_Tag_set_text_frame strict t { id := ofB [0x54, 0x49, 0x54, 0x32], flags := ofB [0, 0], text := ofB [0x48, 0x69, 0] } =
      .ok t' ∧ @Reached strict (@GoodStart strict) t' ∧ (t'.frames.filterMap id).length = 4 := by
  letI : Platform := strict
  have h : GoodStart _ := .read 4 0 0 sampleWire 7 [0xFF, 0xFB] _ (.inr rfl) (by decide) (by decide) (by decide) (by decide)
    (read_file_wire 4 0 0 sampleWire 7 [0xFF, 0xFB] (.inr rfl) (by decide) (by decide) (by decide) (by decide))
  refine ⟨_, _, h, rfl, .setText (i := { id := ofB [0x54, 0x49, 0x54, 0x32], flags := ofB [0, 0], text := ofB [0x48, 0x69, 0] }) (.start h) rfl, ?_⟩
  decide

/-- A hostile file: the frame claims 20 bytes, two are there. The tag of 40 bytes fits and is written; the tag of twelve
bytes does not fit. -/
example : ∃ t, @ID3v2_read_tag strict (some (ofB (lyingFrame.set 9 40))) = .ok (some t) ∧ @Fits strict t ∧
    -2147481599 ≤ t.padding_size :=
  ⟨_, rfl, ⟨by decide, .inr ⟨[_], by simp, rfl, by decide, by decide⟩⟩, by decide⟩

example : ∃ t, @ID3v2_read_tag strict (some (ofB lyingFrame)) = .ok (some t) ∧ ¬ @Fits strict t := by
  refine ⟨_, rfl, ?_⟩
  rintro ⟨-, h | ⟨fs, -, h, -, h2⟩⟩
  · cases h
  · cases fs with
    | nil => cases h
    | cons f fs =>
      cases fs with
      | cons _ _ => cases h
      | nil =>
        cases h
        exact absurd h2 (by decide)

/-- A frame with a negative size. -/
example : ∃ t f, @ID3v2_read_tag strict (some (ofB ([0x49, 0x44, 0x33, 3, 0, 0, 0, 0, 0, 40, 0x50, 0x52, 0x49, 0x56, 0x80, 0, 0, 0, 0, 0] ++
      List.replicate 30 0))) = .ok (some t) ∧ some f ∈ t.frames ∧ f.header.size < 0 ∧ f.data = .raw [] :=
  ⟨_, _, rfl, .head _, by decide, rfl⟩

end Id3.Props
