import Verif.Spec.Effects
import Verif.Spec.Start
import Verif.Spec.Entry
import Verif.Proof.Compat

/-!
# C40 - C42: the compatibility API (src/id3v2lib.compat.c)

`Shows c f` (Verif/Spec/Compat.lean) says what an entry of a compat tag has to do with a frame.
-/

namespace Id3.Props

open Id3 Spec

/-! ## C40: loading -/

theorem compatList_shows (fs : List SFrame) (h : ∀ f ∈ fs, f.WF) : ShowsAll (compatList fs) fs := by
  refine ⟨by simp [compatList], fun i f hf => ⟨compatOf f, ?_, compatOf_shows f (h f (List.mem_of_getElem? hf))⟩⟩
  simp [compatList, hf]

theorem load_buffer [Platform] (version minor flags : UInt8) (ws : List Wire) (padding : Nat) (trail after : Bytes)
    (n : Int) (hv : version = 3 ∨ version = 4) (hflag : flags &&& 0x40 = 0) (hne : ws ≠ [])
    (hR : ∀ w ∈ ws, w.Readable version)
    (hs : (ws.flatMap (Wire.bytes version)).length + padding < 2 ^ 28)
    (htrail : (ws.flatMap (Wire.bytes version)).length + padding + trail.length + 10 ≤ 2147483647)
    (hlast : lastSeen ws padding)
    (hn : n = (10 + (ws.flatMap (Wire.bytes version)).length + padding + trail.length : Nat)) :
    load_tag_with_buffer (ofB (wireTagBytes version minor flags ws padding) ++ trail ++ after) n =
      .ok { raw := some (ofB (wireTagBytes version minor flags ws padding) ++ trail)
            tag_header := { tag := ofB [0x49, 0x44, 0x33], major_version := some version, minor_version := some minor,
                            flags := some flags,
                            tag_size := some ((ws.flatMap (Wire.bytes version)).length + padding : Nat),
                            extended_header_size := some 0 }
            frames := compatList (ws.map Wire.kept)
            tag := toTag version minor flags ((ws.flatMap (Wire.bytes version)).length + padding) (ws.map Wire.kept)
              (padding + trail.length : Nat) } := by
  unfold load_tag_with_buffer
  rw [read_wire version minor flags ws padding trail after n hv hflag hR hs htrail hlast hn]
  simp only [Res.bind_ok]
  have hl : (wireTagBytes version minor flags ws padding).length =
      10 + (ws.flatMap (Wire.bytes version)).length + padding := by
    simp only [wireTagBytes, tagHeaderBytes, synchsafe, List.length_append, List.length_replicate, List.length_cons,
      List.length_nil]
  rw [memcpySrc_append _ _ _ (by rw [List.length_append, ofB_length, hl, hn])]
  simp only [Res.bind_ok]
  have hf : load_frames new_frame_list (toTag version minor flags ((ws.flatMap (Wire.bytes version)).length + padding)
      (ws.map Wire.kept) (padding + trail.length : Nat)).frames = .ok (compatList (ws.map Wire.kept)) :=
    load_frames_new _ (by simpa using hne) (by
      intro f hf
      obtain ⟨w, hw, rfl⟩ := List.mem_map.mp hf
      exact (hR w hw).1.2.1)
  rw [hf]
  simp only [Res.bind_ok, Res.pure_eq, toTag]
  rw [toInt32_nat (by omega)]
  rfl

/-- **C40**, what holds: for a buffer with a well-formed tag that has at least one frame (versions 2.3 and 2.4, followed
by anything), `load_tag_with_buffer` gives one entry per frame of the tag that `ID3v2_read_tag_from_buffer` gives, in the
same order, with the id, size, first flag byte, body and a pointer to that frame; the header fields are those of the tag,
and `raw` is the buffer. Missing: the second flag byte (`C40_false`, `second_flag_indeterminate`) and tags without frames
(`load_empty_crashes`). -/
theorem compat_loads_partial [Platform] (version minor flags : UInt8) (ws : List Wire) (padding : Nat) (trail after : Bytes)
    (n : Int) (hv : version = 3 ∨ version = 4) (hflag : flags &&& 0x40 = 0) (hne : ws ≠ [])
    (hR : ∀ w ∈ ws, w.Readable version)
    (hs : (ws.flatMap (Wire.bytes version)).length + padding < 2 ^ 28)
    (htrail : (ws.flatMap (Wire.bytes version)).length + padding + trail.length + 10 ≤ 2147483647)
    (hlast : lastSeen ws padding)
    (hn : n = (10 + (ws.flatMap (Wire.bytes version)).length + padding + trail.length : Nat)) :
    ∃ ct tag, load_tag_with_buffer (ofB (wireTagBytes version minor flags ws padding) ++ trail ++ after) n = .ok ct ∧
      ID3v2_read_tag_from_buffer (ofB (wireTagBytes version minor flags ws padding) ++ trail ++ after) n =
        .ok (some tag) ∧
      ct.tag = tag ∧ tag.frames = ct.frames.map (Option.map CFrame.frame) ∧ ShowsAll ct.frames (ws.map Wire.kept) ∧
      ct.raw = some (ofB (wireTagBytes version minor flags ws padding) ++ trail) ∧
      ct.tag_header.tag = tag.header.identifier ∧ ct.tag_header.major_version = some tag.header.major_version ∧
      ct.tag_header.minor_version = some tag.header.minor_version ∧ ct.tag_header.flags = some tag.header.flags ∧
      ct.tag_header.tag_size = some (tag.header.tag_size : Int) := by
  refine ⟨_, _, load_buffer version minor flags ws padding trail after n hv hflag hne hR hs htrail hlast hn,
    read_wire version minor flags ws padding trail after n hv hflag hR hs htrail hlast hn, rfl, ?_, ?_, rfl, rfl, rfl, rfl,
    rfl, rfl⟩
  · show toFrameList (ws.map Wire.kept) = _
    cases ws with
    | nil => exact absurd rfl hne
    | cons w ws => simp [toFrameList, compatList, compatOf, Function.comp_def]
  · exact compatList_shows _ (by
      intro f hf
      obtain ⟨w, hw, rfl⟩ := List.mem_map.mp hf
      exact Wire.kept_WF w (hR w hw).1.1)

example : (∀ w ∈ sampleWire, @Wire.Readable strict 3 w) ∧ sampleWire ≠ [] ∧ lastSeen sampleWire 7 ∧
    (sampleWire.flatMap (Wire.bytes 3)).length + 7 < 2 ^ 28 := by decide

/-- Whatever the frame, the second flag byte of the entry is indeterminate. -/
theorem second_flag_indeterminate [Platform] (f : Frame) (c : CFrame) (h : frame_to_compat_frame (some f) = .ok c) :
    c.flags[1]? = some none := by
  unfold frame_to_compat_frame at h
  obtain ⟨id, -, h⟩ := Res.bind_eq_ok.mp h
  obtain ⟨fl, hfl, h⟩ := Res.bind_eq_ok.mp h
  obtain ⟨cs, -, h⟩ := Res.bind_eq_ok.mp h
  obtain ⟨cs, -, h⟩ := Res.bind_eq_ok.mp h
  obtain ⟨d, -, h⟩ := Res.bind_eq_ok.mp h
  have h := Res.ok.inj h
  have : fl.length = 1 := by
    unfold memcpySrc at hfl
    split at hfl
    · exact absurd hfl (by simp)
    · split at hfl
      · exact absurd hfl (by simp)
      · have := Res.ok.inj hfl
        rw [← this, List.length_take]
        show min 1 _ = 1
        omega
  match fl, this with
  | [a], _ => rw [← h]; rfl

/-- What an entry has to do with its frame, whatever the frame. -/
theorem entry_view [Platform] (f : Option Frame) (c : CFrame) (h : frame_to_compat_frame f = .ok c) :
    f = some c.frame ∧ EntryOf c := by
  cases f with
  | none => exact (nomatch h)
  | some f =>
    unfold frame_to_compat_frame at h
    obtain ⟨id, hid, h⟩ := Res.bind_eq_ok.mp h
    obtain ⟨fl, hfl, h⟩ := Res.bind_eq_ok.mp h
    obtain ⟨cs, -, h⟩ := Res.bind_eq_ok.mp h
    obtain ⟨cs, -, h⟩ := Res.bind_eq_ok.mp h
    obtain ⟨d, -, h⟩ := Res.bind_eq_ok.mp h
    have h := Res.ok.inj h
    subst h
    have key : ∀ {b r : Bytes} {n : Int}, memcpySrc b n = .ok r → r = b.take n.toNat ∧ n.toNat ≤ b.length := by
      intro b r n hm
      unfold memcpySrc at hm
      split at hm
      · exact absurd hm (by simp)
      · split at hm
        · exact absurd hm (by simp)
        · exact ⟨(Res.ok.inj hm).symm, by omega⟩
    refine ⟨rfl, (key hid).1, rfl, ?_⟩
    obtain ⟨e1, e2⟩ := key hfl
    have e2 : 1 ≤ f.header.flags.length := e2
    show (intoArray 2 fl)[0]? = _
    rw [e1]
    match f.header.flags, e2 with
    | a :: l, _ => rfl

/-- The list of the frames of a tag that was read has a node. -/
theorem read_frames_ne [Platform] (buffer : Bytes) (n : Int) (t : Tag)
    (h : ID3v2_read_tag_from_buffer buffer n = .ok (some t)) : t.frames ≠ [] := by
  have loop : ∀ (k : Nat) (cs : CharStream) (size : Nat) (v : UInt8) (fs : FrameList) (r : FrameList × CharStream), fs ≠ [] →
      Tag_parse_loop k cs size v fs = .ok r → r.1 ≠ [] := by
    intro k
    induction k with
    | zero => intro cs size v fs r _ h; exact (nomatch h)
    | succ k ih =>
      intro cs size v fs r hne h
      unfold Tag_parse_loop at h
      split at h
      · obtain ⟨⟨f, cs'⟩, _, h⟩ := Res.bind_eq_ok.mp h
        cases f with
        | none =>
          cases h
          exact hne
        | some f =>
          refine ih _ _ _ _ _ ?_ h
          match fs, hne with
          | none :: rest, _ => simp [FrameList_add_frame]
          | some g :: rest, _ => simp [FrameList_add_frame]
      · cases h
        exact hne
  unfold ID3v2_read_tag_from_buffer at h
  obtain ⟨cs, _, h⟩ := Res.bind_eq_ok.mp h
  unfold Tag_parse at h
  obtain ⟨⟨hd, cs⟩, _, h⟩ := Res.bind_eq_ok.mp h
  cases hd with
  | none => cases h
  | some hd =>
    have fin : ∀ cs, (do
        let (frames, cs) ← Tag_parse_loop (cs.stream.length + 1) cs hd.tag_size hd.major_version
          (ID3v2_Tag_new (some hd) 0).frames
        return some { (ID3v2_Tag_new (some hd) 0) with frames := frames, padding_size := ← ck (cs.size - cs.cursor) } :
          Res (Option Tag)) = .ok (some t) → t.frames ≠ [] := by
      intro cs h
      obtain ⟨⟨fs, cs⟩, hl, h⟩ := Res.bind_eq_ok.mp h
      obtain ⟨k, _, h⟩ := Res.bind_eq_ok.mp h
      cases h
      exact loop _ _ _ _ _ _ (by simp [ID3v2_Tag_new, FrameList_new]) hl
    dsimp only at h
    split at h
    · cases h
    · split at h
      · obtain ⟨cs, _, h⟩ := Res.bind_eq_ok.mp h
        exact fin cs h
      · exact fin cs h

/-- **C40**, for every buffer: whenever `load_tag_with_buffer` returns, it shows what the native API reads from the same
buffer: the same tag, all six fields of its header, one entry for every frame, in the same order, and the bytes of the
buffer. (Nothing is assumed of the buffer.) -/
theorem compat_view [Platform] (buffer : Bytes) (n : Int) (ct : CTag) (h : load_tag_with_buffer buffer n = .ok ct) :
    ID3v2_read_tag_from_buffer buffer n = .ok (some ct.tag) ∧ ct.raw = some (buffer.take n.toNat) ∧
      ct.tag_header = { tag := ct.tag.header.identifier, major_version := some ct.tag.header.major_version,
                        minor_version := some ct.tag.header.minor_version, flags := some ct.tag.header.flags,
                        tag_size := some (toInt32 ct.tag.header.tag_size),
                        extended_header_size := ct.tag.header.extended_header_size.map toInt32 } ∧
      ct.tag.frames = ct.frames.map (Option.map CFrame.frame) ∧
      (∀ x ∈ ct.frames, x ≠ none) ∧ ∀ c, some c ∈ ct.frames → EntryOf c := by
  unfold load_tag_with_buffer at h
  obtain ⟨t, ht, h⟩ := Res.bind_eq_ok.mp h
  obtain ⟨raw, hraw, h⟩ := Res.bind_eq_ok.mp h
  cases t with
  | none => exact (nomatch h)
  | some t =>
    obtain ⟨l, hl, h⟩ := Res.bind_eq_ok.mp h
    have h := Res.ok.inj h
    subst h
    have hne : t.frames ≠ [] := read_frames_ne _ _ _ ht
    have hp : ∀ (fs : FrameList) (acc l : CList), acc ≠ [] → (∀ x ∈ acc, ∃ c, x = some c ∧ EntryOf c) →
        load_frames acc fs = .ok l →
        l.map (Option.map CFrame.frame) = acc.map (Option.map CFrame.frame) ++ fs ∧ ∀ x ∈ l, ∃ c, x = some c ∧ EntryOf c := by
      intro fs
      induction fs with
      | nil =>
        intro acc l _ ha h
        cases h
        exact ⟨by simp, ha⟩
      | cons f fs ih =>
        intro acc l hn ha h
        obtain ⟨c, hc, h'⟩ := Res.bind_eq_ok.mp h
        obtain ⟨rfl, he⟩ := entry_view f c hc
        have e : add_to_list acc c = acc ++ [some c] := by
          match acc, hn with
          | none :: rest, _ =>
            obtain ⟨_, e, _⟩ := ha none List.mem_cons_self
            cases e
          | some g :: rest, _ => rfl
        rw [e] at h'
        obtain ⟨h1, h2⟩ := ih _ l (by simp) (by
          intro x hx
          rcases List.mem_append.mp hx with hx | hx
          · exact ha x hx
          · exact ⟨c, List.mem_singleton.mp hx, he⟩) h'
        exact ⟨by rw [h1]; simp, h2⟩
    have hfin : l.map (Option.map CFrame.frame) = t.frames ∧ ∀ x ∈ l, ∃ c, x = some c ∧ EntryOf c := by
      match hf : t.frames, hne with
      | f :: fs, _ =>
        rw [hf] at hl
        obtain ⟨c, hc, h'⟩ := Res.bind_eq_ok.mp hl
        obtain ⟨rfl, he⟩ := entry_view f c hc
        obtain ⟨h1, h2⟩ := hp fs [some c] l (by simp) (by
          intro x hx
          exact ⟨c, List.mem_singleton.mp hx, he⟩) h'
        exact ⟨by rw [h1]; rfl, h2⟩
    refine ⟨ht, ?_, rfl, hfin.1.symm, ?_, ?_⟩
    · unfold memcpySrc at hraw
      split at hraw
      · exact absurd hraw (by simp)
      · split at hraw
        · exact absurd hraw (by simp)
        · exact congrArg some (Res.ok.inj hraw).symm
    · intro x hx e
      obtain ⟨_, e', _⟩ := hfin.2 x hx
      rw [e] at e'
      cases e'
    · intro c hc
      obtain ⟨_, e, h⟩ := hfin.2 _ hc
      cases e
      exact h

/-- The claim of C40 for the flags. -/
def C40_claim : Prop :=
  ∀ [Platform] (ws : List Wire) (padding : Nat) (ct : CTag), ws ≠ [] → (∀ w ∈ ws, w.Readable 3) → lastSeen ws padding →
    (ws.flatMap (Wire.bytes 3)).length + padding < 2 ^ 28 →
    load_tag_with_buffer (ofB (wireTagBytes 3 0 0 ws padding)) (10 + (ws.flatMap (Wire.bytes 3)).length + padding : Nat) =
      .ok ct →
    ∀ (i : Nat) (f : SFrame), (ws.map Wire.kept)[i]? = some f → ∃ c, ct.frames[i]? = some (some c) ∧ c.flags = ofB f.flags

/-- **C40** is false for the flags of every frame: only one of the two bytes is copied (compat.c:44). -/
theorem C40_false : ¬ C40_claim := by
  intro h
  have hl := @load_buffer strict 3 0 0 sampleWire 7 [] [] _ (Or.inl rfl) (by decide) (by decide) (by decide) (by decide)
    (by decide) (by decide) rfl
  rw [List.append_nil, List.append_nil] at hl
  obtain ⟨c, h1, h2⟩ := @h strict sampleWire 7 _ (by decide) (by decide) (by decide) (by decide) hl 0 _ rfl
  exact absurd h2 (by
    have : (compatOf (Wire.kept (.text [0x54, 0x58, 0x58, 0x58] [0, 0] 0 (.latin [0x6B, 0x65, 0x79]) [0x76, 0x61, 0x6C])))
      = c := by simpa [compatList, sampleWire] using h1
    rw [← this]
    decide)

/-- A tag without frames cannot be loaded: its list has a node without a frame, which is dereferenced. -/
theorem load_empty_crashes [Platform] (version minor flags : UInt8) (padding : Nat) (hv : version = 3 ∨ version = 4)
    (hflag : flags &&& 0x40 = 0) (hp : padding < 2 ^ 28) :
    load_tag_with_buffer (ofB (wireTagBytes version minor flags [] padding)) (10 + padding : Nat) = .ub .nullDeref := by
  have hr := read_wire version minor flags [] padding [] [] (10 + padding : Nat) hv hflag (by simp) (by simpa using hp)
    (by simp; omega) (by right; simp) (by simp)
  rw [List.append_nil, List.append_nil] at hr
  unfold load_tag_with_buffer
  rw [hr]
  simp only [Res.bind_ok]
  have hl : (wireTagBytes version minor flags [] padding).length = 10 + padding := by
    simp [wireTagBytes, tagHeaderBytes, synchsafe]; omega
  rw [memcpySrc_self _ _ (by rw [ofB_length, hl])]
  rfl

/-! ## Where compat tags come from -/

/-- `load_tag` of a file with a well-formed tag loads that tag. -/
theorem load_file [Platform] (version minor flags : UInt8) (ws : List Wire) (padding : Nat) (after : Bytes)
    (hv : version = 3 ∨ version = 4) (hs : (ws.flatMap (Wire.bytes version)).length + padding < 2 ^ 28) :
    load_tag (some (ofB (wireTagBytes version minor flags ws padding) ++ after)) =
      load_tag_with_buffer (ofB (wireTagBytes version minor flags ws padding))
        (10 + (ws.flatMap (Wire.bytes version)).length + padding : Nat) := by
  have hl : (wireTagBytes version minor flags ws padding).length =
      10 + (ws.flatMap (Wire.bytes version)).length + padding := by
    simp only [wireTagBytes, tagHeaderBytes, synchsafe, List.length_append, List.length_replicate, List.length_cons,
      List.length_nil]
  have hx := existing_size_header version minor flags ((ws.flatMap (Wire.bytes version)).length + padding)
    (ofB (ws.flatMap (Wire.bytes version) ++ List.replicate padding 0) ++ after) hv hs
  rw [← List.append_assoc, ← ofB_append, ← List.append_assoc] at hx
  change existingTagSize (some (ofB (wireTagBytes version minor flags ws padding) ++ after)) = _ at hx
  unfold existingTagSize at hx
  obtain ⟨r, hr, hx⟩ := Res.bind_eq_ok.mp hx
  unfold load_tag
  rw [hr]
  simp only [Res.bind_ok]
  cases r with
  | none => have := Res.ok.inj hx; omega
  | some h =>
    have := Res.ok.inj hx
    dsimp only
    rw [this]
    rw [show ((10 + ((ws.flatMap (Wire.bytes version)).length + padding) : Nat) : Int).toNat =
      (ofB (wireTagBytes version minor flags ws padding)).length from by rw [ofB_length, hl]; omega, List.take_left,
      intoArray_full _ _ (by rw [ofB_length, hl]; omega)]
    rw [← Nat.add_assoc]

/-- **C42**, what holds: `load_tag` succeeds on every file that starts with a well-formed tag with at least one frame. -/
theorem load_succeeds_partial [Platform] (version minor flags : UInt8) (ws : List Wire) (padding : Nat) (audio : Bytes)
    (hv : version = 3 ∨ version = 4) (hflag : flags &&& 0x40 = 0) (hne : ws ≠ []) (hR : ∀ w ∈ ws, w.Readable version)
    (hs : (ws.flatMap (Wire.bytes version)).length + padding < 2 ^ 28) (hlast : lastSeen ws padding) :
    ∃ ct, load_tag (some (ofB (wireTagBytes version minor flags ws padding) ++ audio)) = .ok ct ∧
      ct.tag = toTag version minor flags ((ws.flatMap (Wire.bytes version)).length + padding) (ws.map Wire.kept) padding ∧
      CStart ct ⟨ws.map Wire.kept,
        ((ws.flatMap (Wire.bytes version)).length + padding : Nat) - framesSize (ws.map Wire.kept)⟩ := by
  have h1 := load_file version minor flags ws padding audio hv hs
  have h2 := load_buffer version minor flags ws padding [] [] _ hv hflag hne hR hs
      (by simp only [List.length_nil]; omega) hlast rfl
  rw [List.append_nil, List.append_nil] at h2
  have h3 := h1.trans h2
  refine ⟨_, h3, by simp, .file version minor flags ws padding audio _ hv hflag hne hR hs hlast h3⟩

/-- The tag and the entries are in step: the entries show the frames of the tag. -/
structure InStep [Platform] (ct : CTag) (st : State) (major minor flags : UInt8) (p : Int) : Prop where
  raw : ct.raw ≠ none
  some : st.frames ≠ []
  usable : ∀ f ∈ st.frames, f.Usable
  tag : ct.tag = tagOf major minor flags st p
  frames : ct.frames = compatList st.frames

theorem cstart_inStep [Platform] (ct : CTag) (st : State) (h : CStart ct st) :
    ∃ major minor flags, InStep ct st major minor flags ct.tag.padding_size ∧ (major = 3 ∨ major = 4) ∧
      flags &&& 0x40 = 0 ∧ 0 ≤ st.room ∧ 0 ≤ ct.tag.padding_size ∧ ct.tag.padding_size < 2 ^ 28 := by
  have main : ∀ (version minor flags : UInt8) (ws : List Wire) (padding : Nat) (ct : CTag)
      (_ : version = 3 ∨ version = 4) (_ : flags &&& 0x40 = 0) (_ : ws ≠ []) (_ : ∀ w ∈ ws, w.Readable version)
      (_ : (ws.flatMap (Wire.bytes version)).length + padding < 2 ^ 28) (_ : lastSeen ws padding)
      (_ : load_tag_with_buffer (ofB (wireTagBytes version minor flags ws padding))
        (10 + (ws.flatMap (Wire.bytes version)).length + padding : Nat) = .ok ct),
      ∃ major minor flags, InStep ct ⟨ws.map Wire.kept,
        ((ws.flatMap (Wire.bytes version)).length + padding : Nat) - framesSize (ws.map Wire.kept)⟩ major minor flags
          ct.tag.padding_size ∧ (major = 3 ∨ major = 4) ∧ flags &&& 0x40 = 0 ∧
        (0 : Int) ≤ ((ws.flatMap (Wire.bytes version)).length + padding : Nat) - framesSize (ws.map Wire.kept) ∧
        0 ≤ ct.tag.padding_size ∧ ct.tag.padding_size < 2 ^ 28 := by
    intro version minor flags ws padding ct hv hflag hne hR hs hlast h
    have h2 := load_buffer version minor flags ws padding [] [] _ hv hflag hne hR hs
      (by simp only [List.length_nil]; omega) hlast rfl
    rw [List.append_nil, List.append_nil] at h2
    have h3 := Res.ok.inj (h2.symm.trans h)
    have hk := kept_framesSize version ws (fun w hw => (hR w hw).1.1)
    subst h3
    refine ⟨version, minor, flags, ⟨by simp, by simpa using hne, ?_, ?_, rfl⟩, hv, hflag, ?_, by simp [toTag], ?_⟩
    · intro f hf
      obtain ⟨w, hw, rfl⟩ := List.mem_map.mp hf
      exact (hR w hw).1.2.1
    · unfold tagOf State.size
      dsimp only
      rw [show (((framesSize (ws.map Wire.kept) : Nat) : Int) +
        ((((ws.flatMap (Wire.bytes version)).length + padding : Nat) : Int) - (framesSize (ws.map Wire.kept) : Nat))) =
        (((ws.flatMap (Wire.bytes version)).length + padding : Nat) : Int) from by omega, u32_nat (by omega)]
      rfl
    · omega
    · simp only [toTag, List.length_nil]; omega
  cases h with
  | buffer version minor flags ws padding ct hv hflag hne hR hs hlast h =>
    exact main version minor flags ws padding ct hv hflag hne hR hs hlast h
  | file version minor flags ws padding audio ct hv hflag hne hR hs hlast h =>
    rw [load_file version minor flags ws padding audio hv hs] at h
    exact main version minor flags ws padding ct hv hflag hne hR hs hlast h

theorem cop_id_valid (op : COp) : ValidId op.frame.id := by
  cases op with
  | text field s e => exact field_valid field
  | comment s e => exact (show ValidId commId by decide)
  | cover m p => exact (show ValidId apicId by decide)
  | coverFile n p => exact (show ValidId apicId by decide)

theorem has_iff (st : State) (k : List UInt8) : st.has k = true ↔ ∃ f ∈ st.frames, f.id = k := by
  unfold State.has first
  simp

theorem put_ids (k : List UInt8) (f : SFrame) (fs : List SFrame) (hf : f.id = k) (h : ∃ g ∈ fs, g.id = k) :
    (put SFrame.id k f fs).map SFrame.id = fs.map SFrame.id := by
  induction fs with
  | nil => simp at h
  | cons x xs ih =>
    by_cases e : x.id = k
    · simp [put, e, hf]
    · simp only [put, if_neg e, List.map_cons]
      rw [ih]
      obtain ⟨g, hg, he⟩ := h
      rcases List.mem_cons.mp hg with rfl | hg
      · exact absurd he e
      · exact ⟨g, hg, he⟩

theorem set_keeps (st : State) (f : SFrame) (h : st.has f.id = true) :
    (st.set f).frames.map SFrame.id = st.frames.map SFrame.id ∧ (st.set f).room = st.room ∧
      ∀ k, (st.set f).has k = st.has k := by
  have h1 := put_ids f.id f st.frames rfl ((has_iff st f.id).mp h)
  refine ⟨h1, by simp [State.set, h], ?_⟩
  intro k
  rw [Bool.eq_iff_iff, has_iff, has_iff]
  have : ∀ fs : List SFrame, (∃ f ∈ fs, f.id = k) ↔ k ∈ fs.map SFrame.id := by simp
  rw [this, this, ← h1]
  rfl

/-- A setter for a frame that is present. -/
theorem setter_present [Platform] (rest : Bytes) (op : COp) (ct : CTag) (st : State) (major minor flags : UInt8) (p : Int)
    (hi : InStep ct st major minor flags p) (hv : op.Valid) (hh : st.has op.frame.id = true) :
    ∃ ct', op.run rest ct = .ok ct' ∧ InStep ct' (st.set op.frame) major minor flags p := by
  have hholds : ct.tag.Holds (st.frames.map SFrame.toFrame) := by
    rw [hi.tag]; exact tagOf_holds major minor flags st p hi.usable
  obtain ⟨s1, s2⟩ := set_step major minor flags st p op.frame (ofB [0]) hi.usable (cop_id_valid op) hv.1
  have hu := uniq_hit st.frames op.frame (cop_id_valid op).1 (fun g hg => (SFrame.wf_lengths g (hi.usable g hg).1).1)
    ((has_iff st _).mp hh)
  refine ⟨{ ct with tag := tagOf major minor flags (st.set op.frame) p, frames := compatList (st.set op.frame).frames },
    ?_, ⟨hi.raw, ?_, s2, rfl, rfl⟩⟩
  · rw [setter_eq rest op ct _ hv hholds, lit_eq, hi.tag, s1, hi.frames, hu]
    rfl
  · have := (set_keeps st op.frame hh).1
    intro e
    rw [e] at this
    exact hi.some (List.map_eq_nil_iff.mp this.symm)

/-- A setter for a frame that is absent. -/
theorem setter_absent [Platform] (rest : Bytes) (op : COp) (ct : CTag) (fs : List Frame) (es : List SFrame)
    (hv : op.Valid) (hh : ct.tag.Holds fs) (he : ct.frames = compatList es ∨ ct.frames = [none])
    (hes : ∀ f ∈ es, f.WF ∧ f.id ≠ op.frame.id) :
    op.run rest ct = .ub .nullDeref := by
  obtain ⟨t, h1, -⟩ := set_then_get ct.tag fs op.frame (ofB [0]) [] hh (cop_id_valid op) hv.1
  rw [setter_eq rest op ct fs hv hh, lit_eq, h1]
  simp only [Res.bind_ok]
  rcases he with he | he
  · rw [he, uniq_miss es op.frame (cop_id_valid op).1 (fun g hg => (SFrame.wf_lengths g (hes g hg).1).1)
      (fun g hg => (hes g hg).2)]
    rfl
  · rw [he]; rfl

theorem history_present [Platform] (rest : Bytes) (ops : List COp) (ct : CTag) (st : State) (major minor flags : UInt8)
    (p : Int) (hi : InStep ct st major minor flags p) (hv : ∀ op ∈ ops, op.Valid ∧ st.has op.frame.id = true) :
    ∃ ct', crunAll rest ops ct = .ok ct' ∧ InStep ct' (capplyAll ops st) major minor flags p ∧
      (capplyAll ops st).room = st.room ∧ ∀ k, (capplyAll ops st).has k = st.has k := by
  induction ops generalizing ct st with
  | nil => exact ⟨ct, rfl, hi, rfl, fun _ => rfl⟩
  | cons op ops ih =>
    obtain ⟨h1, h2⟩ := hv op (by simp)
    obtain ⟨ct1, r1, i1⟩ := setter_present rest op ct st major minor flags p hi h1 h2
    obtain ⟨-, k2, k3⟩ := set_keeps st op.frame h2
    obtain ⟨ct', r2, i2, e2, e3⟩ := ih ct1 (st.set op.frame) i1
      (fun o ho => ⟨(hv o (by simp [ho])).1, by rw [k3]; exact (hv o (by simp [ho])).2⟩)
    refine ⟨ct', ?_, i2, e2.trans k2, fun k => (e3 k).trans (k3 k)⟩
    simp only [crunAll]
    rw [r1]
    exact r2

/-! ## C41: setters and getters -/

theorem get_answers [Platform] (ct : CTag) (st : State) (major minor flags : UInt8) (p : Int) (k : List UInt8)
    (hi : InStep ct st major minor flags p) (hk : ValidId k) :
    Answers (get_from_list ct.frames (lit k)) (first SFrame.id k st.frames) := by
  rw [hi.frames, lit_eq, get_compat st.frames k (ofB [0]) hk (fun g hg => (SFrame.wf_lengths g (hi.usable g hg).1).1)]
  cases h : first SFrame.id k st.frames with
  | none => rfl
  | some f => exact ⟨_, rfl, compatOf_shows f (hi.usable f (List.mem_of_find?_eq_some h)).1⟩

theorem parsed_of_frame (c : CFrame) (op : COp) (h : c.frame = op.frame.toFrame) : Parsed c op := by
  cases op with
  | text field s e =>
    simp only [Parsed, parse_text_frame_content, h, COp.frame, SFrame.toFrame]
    rw [memcpySrc_self _ _ (by simp)]
    rfl
  | comment s e =>
    simp only [Parsed, parse_comment_frame_content, h, COp.frame, SFrame.toFrame]
    rfl
  | cover m pic =>
    simp only [Parsed, parse_apic_frame_content, h, COp.frame, SFrame.toFrame]
    rfl
  | coverFile n pic =>
    simp only [Parsed, parse_apic_frame_content, h, COp.frame, SFrame.toFrame]
    rfl

/-- **C41**, what holds: load a tag, call any setters for frames that the tag has; after one more such call the getter
returns an entry whose parsed content is what was set. Missing: setters for frames the tag does not have, and tags made by
`new_tag` (`set_absent_crashes`, `set_new_tag_crashes`). -/
theorem compat_set_get_partial [Platform] (ct : CTag) (st : State) (ops : List COp) (op : COp) (rest : Bytes)
    (hstart : CStart ct st) (hops : ∀ o ∈ ops, o.Valid ∧ st.has o.frame.id = true)
    (hv : op.Valid) (hh : st.has op.frame.id = true) :
    ∃ ct' ct'' c, crunAll rest ops ct = .ok ct' ∧ op.run rest ct' = .ok ct'' ∧ op.get ct'' = .ok (some c) ∧
      Shows c op.frame ∧ Parsed c op := by
  obtain ⟨major, minor, flags, hi, -⟩ := cstart_inStep ct st hstart
  obtain ⟨ct', r1, i1, -, e3⟩ := history_present rest ops ct st major minor flags _ hi hops
  obtain ⟨ct'', r2, i2⟩ := setter_present rest op ct' _ major minor flags _ i1 hv (by rw [e3]; exact hh)
  have ha := get_answers ct'' _ major minor flags _ op.frame.id i2 (cop_id_valid op)
  have hf : first SFrame.id op.frame.id ((capplyAll ops st).set op.frame).frames = some op.frame := by
    rcases split_first' (capplyAll ops st).frames op.frame.id with hm | ⟨a, g, b, hfs, hg, hb⟩
    · simp only [State.set]
      rw [put_miss _ _ _ hm, first_hit _ _ _ _ hm rfl]
    · simp only [State.set]
      rw [hfs, put_hit _ _ _ _ _ hb hg, first_hit _ _ _ _ hb rfl]
  rw [hf] at ha
  obtain ⟨c, hc, hs⟩ := ha
  refine ⟨ct', ct'', c, r1, r2, ?_, hs, parsed_of_frame c op hs.frame⟩
  cases op with
  | text field s e => cases field <;> exact hc
  | comment s e => exact hc
  | cover m pic => exact hc
  | coverFile n pic => exact hc

/-- **C41** for whole histories: every getter answers with the first frame of its id, where the setters replace the first
frame of their id; and the entries point to the frames of the tag, so that none of them points to a frame that has been
freed. -/
theorem compat_history_partial [Platform] (ct : CTag) (st : State) (ops : List COp) (rest : Bytes)
    (hstart : CStart ct st) (hops : ∀ o ∈ ops, o.Valid ∧ st.has o.frame.id = true) :
    ∃ ct', crunAll rest ops ct = .ok ct' ∧
      (∀ field : Field, Answers (field.get ct') (first SFrame.id field.id (capplyAll ops st).frames)) ∧
      Answers (tag_get_comment ct') (first SFrame.id commId (capplyAll ops st).frames) ∧
      Answers (tag_get_album_cover ct') (first SFrame.id apicId (capplyAll ops st).frames) ∧
      ShowsAll ct'.frames (capplyAll ops st).frames ∧
      ct'.frames.map (Option.map CFrame.frame) = ct'.tag.frames := by
  obtain ⟨major, minor, flags, hi, -⟩ := cstart_inStep ct st hstart
  obtain ⟨ct', r1, i1, -, -⟩ := history_present rest ops ct st major minor flags _ hi hops
  refine ⟨ct', r1, ?_, get_answers ct' _ major minor flags _ commId i1 (by decide),
    get_answers ct' _ major minor flags _ apicId i1 (by decide), ?_, ?_⟩
  · intro field
    have := get_answers ct' _ major minor flags _ field.id i1 (field_valid field)
    cases field <;> exact this
  · rw [i1.frames]; exact compatList_shows _ (fun f hf => (i1.usable f hf).1)
  · rw [i1.frames, i1.tag]
    show _ = toFrameList _
    cases h : (capplyAll ops st).frames with
    | nil => exact absurd h i1.some
    | cons f fs => simp [compatList, toFrameList, compatOf, Function.comp_def]

/-- **C41** fails for every frame the tag does not have. -/
theorem set_absent_crashes [Platform] (ct : CTag) (st : State) (ops : List COp) (op : COp) (rest : Bytes)
    (hstart : CStart ct st) (hops : ∀ o ∈ ops, o.Valid ∧ st.has o.frame.id = true)
    (hv : op.Valid) (hh : st.has op.frame.id = false) :
    ∃ ct', crunAll rest ops ct = .ok ct' ∧ op.run rest ct' = .ub .nullDeref := by
  obtain ⟨major, minor, flags, hi, -⟩ := cstart_inStep ct st hstart
  obtain ⟨ct', r1, i1, -, e3⟩ := history_present rest ops ct st major minor flags _ hi hops
  refine ⟨ct', r1, setter_absent rest op ct' ((capplyAll ops st).frames.map SFrame.toFrame) (capplyAll ops st).frames hv ?_
    (Or.inl i1.frames) ?_⟩
  · rw [i1.tag]; exact tagOf_holds major minor flags _ _ i1.usable
  · intro f hf
    refine ⟨(i1.usable f hf).1, fun e => ?_⟩
    have : st.has op.frame.id = true := by rw [← e3]; exact (has_iff _ _).mpr ⟨f, hf, e⟩
    rw [hh] at this
    exact absurd this (by simp)

/-- **C41** fails for every setter on a new tag. -/
theorem set_new_tag_crashes [Platform] (op : COp) (rest : Bytes) (hv : op.Valid) :
    op.run rest new_tag = .ub .nullDeref :=
  setter_absent rest op new_tag [] [] hv (new_holds _ _) (Or.inr rfl) (by simp)

/-- The hypotheses of the theorems above: a loaded tag with a title, a comment and a picture, and setters for them. -/
def sampleCOps : List COp :=
  [.text .title (.latin [0x48, 0x6F]) 0, .comment (.utf16 true [(0x41, 0)]) 1,
   .coverFile [0x61, 0x2E, 0x70, 0x6E, 0x67] [1, 2, 3], .cover (.latin [0x69]) [7], .text .title (.latin []) 0,
   .text .title (.latin [0x48]) 0]

example : ∃ ct st, @CStart lenient ct st ∧
    (∀ o ∈ sampleCOps, @COp.Valid lenient o ∧ st.has o.frame.id = true) ∧
    (∃ op, @COp.Valid lenient op ∧ st.has op.frame.id = false) := by
  obtain ⟨ct, -, -, h⟩ := @load_succeeds_partial lenient 3 0 0 (sampleFrames.map Wire.ofSFrame) 100 [] (Or.inl rfl)
    (by decide) (by decide) (by decide) (by decide) (by decide)
  exact ⟨ct, _, h, by decide, .text .artist (.latin [0x61]) 0, by decide⟩

/-- The claim of C41. -/
def C41_claim : Prop :=
  ∀ [Platform] (ct : CTag) (op : COp), (ct = new_tag ∨ ∃ st, CStart ct st) → op.Valid →
    ∃ ct' c, op.run [] ct = .ok ct' ∧ op.get ct' = .ok (some c) ∧ Parsed c op

theorem C41_false : ¬ C41_claim := by
  intro h
  obtain ⟨ct', c, h1, -⟩ := @h strict new_tag (.text .title (.latin [0x61]) 0) (Or.inl rfl) (by decide)
  rw [@set_new_tag_crashes strict _ _ (by decide)] at h1
  exact absurd h1 (by simp)

/-! ## C42: safety -/

theorem FrameList_free_nodes (fs : List Frame) (h : ∀ f ∈ fs, f.Sound) : FrameList_free (fs.map some) = .ok () := by
  induction fs with
  | nil => rfl
  | cons f fs ih =>
    simp only [List.map_cons, FrameList_free]
    rw [(h f (by simp)).2.1]
    simp only [Res.bind_ok]
    exact ih (fun g hg => h g (by simp [hg]))

theorem free_compatList (fs : List SFrame) : free_compat_frames (compatList fs) = .ok () := by
  induction fs with
  | nil => rfl
  | cons f fs ih => exact ih

/-- **C42**, what holds: after loading a tag and calling any setters for frames that it has, the tag can be freed, and it
can be written (as version 2.3, if its size fits) to any file: the file then has the frames, and the audio it had. Missing:
tags made by `new_tag`, files without a tag, tags without frames (`C42_false` and the theorems below). -/
theorem compat_safe_partial [Platform] (ct : CTag) (st : State) (ops : List COp) (rest : Bytes)
    (hstart : CStart ct st) (hops : ∀ o ∈ ops, o.Valid ∧ st.has o.frame.id = true) :
    ∃ ct', crunAll rest ops ct = .ok ct' ∧ free_tag ct' = .ok () ∧
      ∀ contents : List UInt8, ct.tag.header.major_version = 3 → (capplyAll ops st).size < 2 ^ 28 →
        ∃ ct'' : CTag, set_tag (some (ofB contents)) ct' =
          .ok (some (ofB (tagBytes ct.tag.header.minor_version ct.tag.header.flags (capplyAll ops st).frames
            st.room.toNat ++ audio contents)), ct'') ∧
          free_tag ct'' = .ok () := by
  obtain ⟨major, minor, flags, hi, -, hfl, hroom, hp, hp2⟩ := cstart_inStep ct st hstart
  obtain ⟨ct', r1, i1, e2, -⟩ := history_present rest ops ct st major minor flags _ hi hops
  have hfree : ∀ ct' : CTag, ct'.raw ≠ none → ct'.frames = compatList (capplyAll ops st).frames →
      ct'.tag.frames = ((capplyAll ops st).frames.map SFrame.toFrame).map some → free_tag ct' = .ok () := by
    intro ct' h1 h2 h3
    unfold free_tag
    cases hr : ct'.raw with
    | none => exact absurd hr h1
    | some r =>
      dsimp only
      rw [h2, h3, FrameList_free_nodes _ (by
        intro f hf
        obtain ⟨g, hg, rfl⟩ := List.mem_map.mp hf
        exact SFrame.sound g (i1.usable g hg))]
      simp only [Res.bind_ok]
      exact free_compatList _
  have hframes : ct'.tag.frames = ((capplyAll ops st).frames.map SFrame.toFrame).map some := by
    rw [i1.tag]
    show toFrameList _ = _
    cases h : (capplyAll ops st).frames with
    | nil => exact absurd h i1.some
    | cons f fs => simp [toFrameList]
  refine ⟨ct', r1, hfree ct' i1.raw i1.frames hframes, ?_⟩
  intro contents hm hsz
  have hm' : major = 3 := by
    rw [hi.tag] at hm; exact hm
  subst hm'
  obtain ⟨n, hn⟩ : ∃ n : Nat, st.room = n := ⟨st.room.toNat, by omega⟩
  have hsize : (capplyAll ops st).size = ((framesSize (capplyAll ops st).frames + n : Nat) : Int) := by
    unfold State.size; rw [e2, hn]; rfl
  have e : ct'.tag = toTag 3 minor flags (framesSize (capplyAll ops st).frames + n) (capplyAll ops st).frames
      ct.tag.padding_size := by
    rw [i1.tag]
    unfold tagOf
    rw [hsize, u32_nat (by omega)]
  obtain ⟨tag', hw⟩ := write_bytes contents minor flags (capplyAll ops st).frames n ct.tag.padding_size i1.usable
    (by omega) hp (by omega)
  refine ⟨{ ct' with tag := tag' }, ?_, hfree _ i1.raw i1.frames ?_⟩
  · have e3 : ct.tag.header.minor_version = minor ∧ ct.tag.header.flags = flags := by rw [hi.tag]; exact ⟨rfl, rfl⟩
    unfold set_tag
    rw [e, hw, hn, e3.1, e3.2]
    rfl
  · have h2 := write_tag_eq (ofB contents) (tagLength contents)
      (toTag 3 minor flags (framesSize (capplyAll ops st).frames + n) (capplyAll ops st).frames ct.tag.padding_size) rfl
      (existing_size contents) (show -2147481599 ≤ ct.tag.padding_size by omega)
      (show ct.tag.padding_size ≤ 2147483647 by omega)
    rw [hw] at h2
    obtain ⟨cs, -, h2⟩ := Res.bind_eq_ok.mp h2.symm
    simp only [Res.ok.injEq, Prod.mk.injEq] at h2
    rw [← hframes, e]
    show tag'.frames = _
    rw [← h2.2]

/-- **C49**: load a version 2.3 tag, call any setters for frames that it has, write it to a file and load the file: the
entries show the frames of the specification, so whatever was set is read back, the rest is unchanged. (The frames must be
ones the parser can read, see C11; files of version 2.4 have the problem of C12.) -/
theorem compat_roundtrip_partial [Platform] (ct : CTag) (st : State) (ops : List COp) (rest : Bytes) (contents : List UInt8)
    (hstart : CStart ct st) (hops : ∀ o ∈ ops, o.Valid ∧ st.has o.frame.id = true)
    (hv : ct.tag.header.major_version = 3) (hsz : (capplyAll ops st).size < 2 ^ 28)
    (hR : ∀ f ∈ (capplyAll ops st).frames, f.Readable) (hroom : 0 < st.room) :
    ∃ ct' ct'' file final, crunAll rest ops ct = .ok ct' ∧ set_tag (some (ofB contents)) ct' = .ok (file, ct'') ∧
      load_tag file = .ok final ∧ ShowsAll final.frames (capplyAll ops st).frames ∧ final.frames = ct'.frames ∧
      CStart final (capplyAll ops st) := by
  obtain ⟨ct', h1, -, h3⟩ := compat_safe_partial ct st ops rest hstart hops
  obtain ⟨ct'', h4, -⟩ := h3 contents hv hsz
  obtain ⟨major, minor, flags, hi, -, hfl, -⟩ := cstart_inStep ct st hstart
  obtain ⟨ct1, r1, i1, e2, -⟩ := history_present rest ops ct st major minor flags _ hi hops
  have e1 : ct1 = ct' := Res.ok.inj (r1.symm.trans h1)
  subst e1
  obtain ⟨n, hn⟩ : ∃ n : Nat, st.room = n := ⟨st.room.toNat, by omega⟩
  have hsize : (capplyAll ops st).size = ((framesSize (capplyAll ops st).frames + n : Nat) : Int) := by
    unfold State.size; rw [e2, hn]; rfl
  have hflag : ct.tag.header.flags &&& 0x40 = 0 := by rw [hi.tag]; exact hfl
  have hflat := ofSFrame_flat (capplyAll ops st).frames 3 (by decide)
  have hl := flatMap_bytes_length (capplyAll ops st).frames
  have hseen : lastSeen ((capplyAll ops st).frames.map Wire.ofSFrame) st.room.toNat := Or.inl (by omega)
  obtain ⟨final, l1, l2, l3⟩ := load_succeeds_partial 3 ct.tag.header.minor_version ct.tag.header.flags
    ((capplyAll ops st).frames.map Wire.ofSFrame) st.room.toNat (ofB (audio contents)) (Or.inl rfl) hflag
    (by simpa using i1.some) (by
      intro w hw
      obtain ⟨f, hf, rfl⟩ := List.mem_map.mp hw
      exact ofSFrame_readable f (hR f hf)) (by rw [hflat, hl]; omega) hseen
  rw [← tagBytes_wire, ← ofB_append] at l1
  rw [ofSFrame_map_kept, hflat, hl] at l3
  have e3 : (⟨(capplyAll ops st).frames, ((framesSize (capplyAll ops st).frames + st.room.toNat : Nat) : Int) -
      (framesSize (capplyAll ops st).frames : Nat)⟩ : State) = capplyAll ops st := by
    cases h : capplyAll ops st with
    | mk fs r =>
      rw [h] at e2
      simp only at e2 ⊢
      rw [State.mk.injEq]
      exact ⟨rfl, by omega⟩
  rw [e3] at l3
  obtain ⟨m2, n2, f2, i2, -⟩ := cstart_inStep final _ l3
  refine ⟨ct1, ct'', _, final, h1, h4, l1, ?_, ?_, l3⟩
  · rw [i2.frames]; exact compatList_shows _ (fun f hf => (i2.usable f hf).1)
  · rw [i2.frames, i1.frames]

/-- The hypotheses of the round trip are met. -/
example : ∃ ct st, @CStart lenient ct st ∧ (∀ o ∈ sampleCOps, @COp.Valid lenient o ∧ st.has o.frame.id = true) ∧
    ct.tag.header.major_version = 3 ∧ (capplyAll sampleCOps st).size < 2 ^ 28 ∧
    (∀ f ∈ (capplyAll sampleCOps st).frames, @SFrame.Readable lenient f) ∧ 0 < st.room := by
  obtain ⟨ct, -, h, h'⟩ := @load_succeeds_partial lenient 3 0 0 (sampleFrames.map Wire.ofSFrame) 100 [] (Or.inl rfl)
    (by decide) (by decide) (by decide) (by decide) (by decide)
  exact ⟨ct, _, h', by decide, by rw [h]; rfl, by decide, by decide, by decide⟩

/-- **C42** fails for every file without a tag: `load_tag` dereferences a null pointer instead of returning NULL. -/
theorem load_without_tag_crashes [Platform] (contents : List UInt8) (h : tagLength contents = 0) :
    load_tag (some (ofB contents)) = .ub .nullDeref ∧ load_tag none = .ub .nullDeref := by
  refine ⟨?_, rfl⟩
  obtain ⟨r, h1, -, h3⟩ := read_header_spec contents
  unfold load_tag
  rw [h1]
  cases r with
  | none => rfl
  | some hd => have := (h3 hd rfl).1; omega

/-- **C42** fails for new tags: `free_tag` reads the pointer `raw`, which `new_tag` does not set. -/
theorem free_new_tag_uninit : free_tag new_tag = .ub .uninit := rfl

/-- A picture from a file whose name has no dot: `strrchr` returns NULL. Whatever the tag and the picture. -/
theorem cover_without_dot_crashes [Platform] (name : List UInt8) (pic : Bytes) (ct : CTag) (h : 0x2E ∉ name)
    (hl : pic.length ≤ 2147483647) : tag_set_album_cover name (some pic) ct = .ub .nullDeref := by
  unfold tag_set_album_cover
  dsimp only
  rw [ck_nat hl]
  simp only [Res.bind_ok]
  rw [(afterLastDot_none name).mpr h]

/-- The claim of C42: `load_tag` returns (a tag or NULL) for every file whose header can be read, a new tag can be
modified and freed. -/
def C42_claim : Prop :=
  ∀ [Platform], (∀ contents, tagLength contents = 0 → ∃ r, load_tag (some (ofB contents)) = .ok r) ∧
    free_tag new_tag = .ok () ∧ (∀ op : COp, op.Valid → ∃ ct, op.run [] new_tag = .ok ct)

theorem C42_false : ¬ C42_claim := by
  intro h
  exact absurd (@h strict).2.1 (by rw [free_new_tag_uninit]; simp)

example : tagLength [0xFF, 0xFB, 0x90] = 0 := by decide

end Id3.Props
