import Verif.Spec.Effects
import Verif.Spec.Start
import Verif.Proof.History
import Verif.Proof.TagOutSmall

/-!
# C31 - C33, C44: histories of API calls

The specification is in `Verif/Spec/History.lean`: a history is a list of calls, `applyAll` says what it does to an
ordinary list of frames and to the room in the tag.
-/

namespace Id3.Props

open Id3 Spec

theorem start_eq [Platform] (tag : Tag) (st : State) (h : Start tag st) :
    (∀ f ∈ st.frames, f.Usable) ∧ ∃ major minor flags, tag = tagOf major minor flags st tag.padding_size := by
  cases h with
  | new => exact ⟨by simp, 3, 0, 0, rfl⟩
  | read version minor flags ws padding tag hv hflag hR hs hlast h =>
    refine ⟨?_, version, minor, flags, ?_⟩
    · intro f hf
      obtain ⟨w, hw, rfl⟩ := List.mem_map.mp hf
      exact (hR w hw).1.2.1
    · have h1 := beyond_length_ignored version minor flags ws padding [] hv hflag hR hs hlast
      rw [List.append_nil, h, Res.ok.injEq, Option.some.injEq] at h1
      rw [h1]
      unfold tagOf State.size
      dsimp only
      have e : u32 (((framesSize (ws.map Wire.kept) : Nat) : Int) +
          ((((ws.flatMap (Wire.bytes version)).length + padding : Nat) : Int) - (framesSize (ws.map Wire.kept) : Nat))) =
          (ws.flatMap (Wire.bytes version)).length + padding := by
        rw [show (((framesSize (ws.map Wire.kept) : Nat) : Int) +
          ((((ws.flatMap (Wire.bytes version)).length + padding : Nat) : Int) - (framesSize (ws.map Wire.kept) : Nat))) =
          (((ws.flatMap (Wire.bytes version)).length + padding : Nat) : Int) from by omega]
        exact u32_nat (by omega)
      rw [e]
      rfl

/-- Every well-formed tag is such a start. -/
theorem start_read [Platform] (version minor flags : UInt8) (ws : List Wire) (padding : Nat)
    (hv : version = 3 ∨ version = 4) (hflag : flags &&& 0x40 = 0) (hR : ∀ w ∈ ws, w.Readable version)
    (hs : (ws.flatMap (Wire.bytes version)).length + padding < 2 ^ 28) (hlast : lastSeen ws padding) :
    Start (toTag version minor flags ((ws.flatMap (Wire.bytes version)).length + padding) (ws.map Wire.kept) padding)
      ⟨ws.map Wire.kept, ((ws.flatMap (Wire.bytes version)).length + padding : Nat) - framesSize (ws.map Wire.kept)⟩ := by
  have h1 := beyond_length_ignored version minor flags ws padding [] hv hflag hR hs hlast
  rw [List.append_nil] at h1
  exact .read version minor flags ws padding _ hv hflag hR hs hlast h1

example : ∃ tag st, @Start strict tag st ∧ st.frames = sampleWire.map Wire.kept :=
  ⟨_, _, @start_read strict 3 0 0 sampleWire 7 (Or.inl rfl) (by decide) (by decide) (by decide) (by decide), rfl⟩

/-! ## C31: the tag is an ordered multimap -/

/-- **C31**: whatever the sequence of calls, as long as it does not delete a frame that is not there or the last of
several frames (see C29, C34), every call succeeds and afterwards every lookup gives what the list of frames gives. As
this holds for every prefix of a history, it covers lookups in between. -/
theorem history_refines_partial [Platform] (tag : Tag) (st : State) (ops : List Op) (rest r : Bytes) (hstart : Start tag st)
    (hs : SafeHistory ops st) :
    ∃ tag', runAll rest ops tag = .ok tag' ∧
      tag'.Holds ((applyAll ops st).frames.map SFrame.toFrame) ∧
      (∀ k, ValidId k → ID3v2_Tag_get_frame tag' (ofB k ++ r) =
        .ok ((first SFrame.id k (applyAll ops st).frames).map SFrame.toFrame)) ∧
      (∀ k, ValidId k → ID3v2_Tag_get_frames tag' (ofB k ++ r) = .ok (toFrameList (all SFrame.id k (applyAll ops st).frames))) := by
  obtain ⟨hu, major, minor, flags, ht⟩ := start_eq tag st hstart
  obtain ⟨h1, h2⟩ := history_step major minor flags tag.padding_size rest ops st hu hs
  rw [← ht] at h1
  have hh := tagOf_holds major minor flags (applyAll ops st) tag.padding_size h2
  refine ⟨_, h1, hh, ?_, ?_⟩
  · intro k hk
    rw [get_first _ _ k r hh hk, first_map SFrame.toFrame (k1 := SFrame.id) toFrame_key]
  · intro k hk
    rw [get_all _ _ k r hh hk, all_map SFrame.toFrame (k1 := SFrame.id) toFrame_key, toFrameList_nodes]

/-- A history with every kind of call. -/
def sampleHistory : List Op :=
  [.setText [0x54, 0x49, 0x54, 0x32] [0, 0] (.latin [0x48, 0x69]),
   .addComment [0, 0] [0x65, 0x6E, 0x67] (.latin [0x61]) (.utf16 true [(0x62, 0)]),
   .addComment [0, 0] [0x65, 0x6E, 0x67] (.latin [0x62]) (.latin [0x63]),
   .setApic [0, 0] (.latin [0x69]) 3 (.latin [0x64]) [0xAA, 0, 0xBB],
   .setComment [0, 0] [0x64, 0x65, 0x75] (.latin [0x64]) (.latin [0x64]),
   .deleteComment 1,
   .deleteComment 7,
   .setText [0x54, 0x49, 0x54, 0x32] [0, 0] (.utf16 false [(0x30, 0)]),
   .delete [0x54, 0x49, 0x54, 0x32]]

example : @SafeHistory strict sampleHistory ⟨[], 0⟩ := by decide
example : (applyAll sampleHistory ⟨[], 0⟩).frames =
    [.comment [0, 0] [0x64, 0x65, 0x75] (.latin [0x64]) (.latin [0x64]),
     .apic [0, 0] (.latin [0x69]) 3 (.latin [0x64]) [0xAA, 0, 0xBB]] := by decide

/-- The claim of C31 (for one getter), for all valid calls. -/
def C31_claim : Prop :=
  ∀ [Platform] (tag : Tag) (st : State) (ops : List Op) (k : List UInt8), Start tag st → (∀ op ∈ ops, op.Valid) → ValidId k →
    ∃ tag', runAll [] ops tag = .ok tag' ∧
      ID3v2_Tag_get_frame tag' (ofB k) = .ok ((first SFrame.id k (applyAll ops st).frames).map SFrame.toFrame)

/-- **C31** is false without the restriction: title, artist, delete artist, album. -/
theorem C31_false : ¬ C31_claim := by
  intro h
  obtain ⟨t, h1, h2⟩ := @h strict ID3v2_Tag_new_empty ⟨[], 0⟩
    [.setText [0x54, 0x49, 0x54, 0x32] [0, 0] (.latin [0x48, 0x69]),
     .setText [0x54, 0x50, 0x45, 0x31] [0, 0] (.latin [0x48, 0x6F]),
     .delete [0x54, 0x50, 0x45, 0x31],
     .setText [0x54, 0x41, 0x4C, 0x42] [0, 0] (.latin [0x48, 0x61])] [0x54, 0x41, 0x4C, 0x42] (@Start.new strict)
    (by decide) (by decide)
  have h3 := h1.symm.trans (rfl : _ = Res.ok _)
  rw [Res.ok.injEq] at h3
  subst h3
  exact absurd h2 (by decide)

/-! ## C44: truthful sizes -/

/-- **C44**: in a tag reached by a history, the size in the header of every frame is the number of bytes that are
written after the frame header. -/
theorem truthful_sizes_partial [Platform] (tag : Tag) (st : State) (ops : List Op) (rest : Bytes) (hstart : Start tag st)
    (hs : SafeHistory ops st) :
    ∃ tag', runAll rest ops tag = .ok tag' ∧
      ∀ f, some f ∈ tag'.frames → ∃ cs, Frame_to_char_stream f = .ok cs ∧ (cs.stream.length : Int) = 10 + f.header.size := by
  obtain ⟨hu, major, minor, flags, ht⟩ := start_eq tag st hstart
  obtain ⟨h1, h2⟩ := history_step major minor flags tag.padding_size rest ops st hu hs
  rw [← ht] at h1
  refine ⟨_, h1, ?_⟩
  intro f hf
  have : some f ∈ nodes ((applyAll ops st).frames.map SFrame.toFrame) := by
    rw [← toFrameList_nodes]; exact hf
  obtain ⟨g, hg, rfl⟩ : ∃ g ∈ (applyAll ops st).frames, g.toFrame = f := by
    cases hfs : (applyAll ops st).frames with
    | nil => rw [hfs] at this; simp [nodes] at this
    | cons x xs =>
      rw [hfs, nodes_eq _ (by simp)] at this
      simpa [hfs, eq_comm] using this
  refine ⟨_, frame_out g (h2 g hg), ?_⟩
  rw [csOut_stream, List.replicate_zero, List.append_nil, ofB_length, SFrame.bytes_length g (h2 g hg).1]
  show ((10 + g.body.length : Nat) : Int) = 10 + (g.body.length : Int)
  omega

/-! ## C32: the tag size -/

/-- **C32**, exactly: after any safe history the tag size is the size of the frames plus the room of the specification,
modulo 2^32; the other fields of the tag are unchanged. -/
theorem size_law_partial [Platform] (tag : Tag) (st : State) (ops : List Op) (rest : Bytes) (hstart : Start tag st)
    (hs : SafeHistory ops st) :
    ∃ tag', runAll rest ops tag = .ok tag' ∧
      tag'.header = { tag.header with tag_size := u32 (framesSize (applyAll ops st).frames + (applyAll ops st).room) } ∧
      tag'.padding_size = tag.padding_size := by
  obtain ⟨hu, major, minor, flags, ht⟩ := start_eq tag st hstart
  obtain ⟨h1, h2⟩ := history_step major minor flags tag.padding_size rest ops st hu hs
  rw [← ht] at h1
  refine ⟨_, h1, ?_, rfl⟩
  rw [ht]
  rfl

theorem keeps_room (ops : List Op) (st : State) (h : KeepsRoomAll ops st = true) : (applyAll ops st).room = st.room := by
  induction ops generalizing st with
  | nil => rfl
  | cons op ops ih =>
    simp only [KeepsRoomAll, Bool.and_eq_true] at h
    have := ih (op.apply st) h.2
    have e : (op.apply st).room = st.room := by
      have h1 := h.1
      cases op <;> simp only [KeepsRoom] at h1 <;> simp_all [Op.apply, State.set, SFrame.id]
    rw [← e, ← this]
    rfl

/-- **C32**, what holds: a tag read from a file that this library has written (frames in the library's form and
`padding` bytes of padding) and then only changed by replacing existing frames and deleting by id has a tag size equal
to the size of its frames plus its padding. Missing: creating frames and deleting by index (`C32_false`,
`size_law_partial` says what happens then). -/
theorem size_exact_partial [Platform] (tag : Tag) (minor flags : UInt8) (fs : List SFrame) (padding : Nat) (ops : List Op)
    (rest : Bytes) (hflag : flags &&& 0x40 = 0) (hR : ∀ f ∈ fs, f.Readable) (hsz : framesSize fs + padding < 2 ^ 28)
    (hlast : 0 < padding ∨ ∀ f, fs.getLast? = some f → f.body ≠ [])
    (hread : ID3v2_read_tag_from_buffer (ofB (tagBytes minor flags fs padding)) (10 + framesSize fs + padding : Nat) =
      .ok (some tag))
    (hs : SafeHistory ops ⟨fs, padding⟩) (hk : KeepsRoomAll ops ⟨fs, padding⟩ = true) :
    ∃ tag', runAll rest ops tag = .ok tag' ∧
      tag'.header.tag_size = u32 (framesSize (applyAll ops ⟨fs, padding⟩).frames + tag'.padding_size) ∧
      tag'.padding_size = padding := by
  have h0 := read_tag_bytes_partial minor flags fs padding [] hflag hR hsz hlast
  rw [List.append_nil, hread, Res.ok.injEq, Option.some.injEq] at h0
  have ht : tag = tagOf 3 minor flags ⟨fs, padding⟩ padding := by
    rw [h0]
    unfold tagOf State.size
    dsimp only
    rw [show ((framesSize fs : Nat) : Int) + (padding : Nat) = ((framesSize fs + padding : Nat) : Int) from rfl,
      u32_nat (by omega)]
  obtain ⟨h1, h2⟩ := history_step 3 minor flags padding rest ops ⟨fs, padding⟩ (fun f hf => (hR f hf).1) hs
  rw [← ht] at h1
  refine ⟨_, h1, ?_, rfl⟩
  show u32 ((applyAll ops ⟨fs, padding⟩).size) = _
  unfold State.size
  rw [keeps_room ops _ hk]
  rfl

example : @SafeHistory strict [.setText [0x54, 0x49, 0x54, 0x32] [0, 0] (.latin [0x48, 0x6F, 0x21]), .delete commId]
    ⟨sampleFrames, 5⟩ ∧
    KeepsRoomAll [.setText [0x54, 0x49, 0x54, 0x32] [0, 0] (.latin [0x48, 0x6F, 0x21]), .delete commId] ⟨sampleFrames, 5⟩ = true := by
  decide

/-- The claim of C32. -/
def C32_claim : Prop :=
  ∀ [Platform] (tag tag' : Tag) (st : State) (ops : List Op), Start tag st → SafeHistory ops st →
    runAll [] ops tag = .ok tag' →
    (tag'.header.tag_size : Int) = framesSize (applyAll ops st).frames + tag'.padding_size

/-- **C32** is false: setting the title of a new tag. -/
theorem C32_false : ¬ C32_claim := by
  intro h
  have := @h strict ID3v2_Tag_new_empty _ ⟨[], 0⟩ [.setText [0x54, 0x49, 0x54, 0x32] [0, 0] (.latin [0x48, 0x69])]
    (@Start.new strict) (by decide) rfl
  exact absurd this (by decide)

/-! ## C33: serialising -/

/-- What serialising does with the tag of a state: with enough room it succeeds, otherwise it overflows the buffer. -/
theorem serialise_iff [Platform] (major minor flags : UInt8) (st : State) (p : Int) (hu : ∀ f ∈ st.frames, f.Usable)
    (h1 : -2147483648 ≤ st.size + 10) (h2 : st.size + 10 ≤ 2147483647) :
    (0 ≤ st.room → ∃ cs, Tag_to_char_stream (tagOf major minor flags st p) = .ok cs) ∧
    (st.room < 0 → Tag_to_char_stream (tagOf major minor flags st p) = .ub .oobWrite) := by
  have hsz : (tagOf major minor flags st p).header.tag_size = u32 st.size := rfl
  by_cases h0 : 0 ≤ st.size
  · obtain ⟨n, hn⟩ : ∃ n : Nat, st.size = n := ⟨st.size.toNat, by omega⟩
    have hn' : (tagOf major minor flags st p).header.tag_size = n := by rw [hsz, hn]; exact u32_nat (by omega)
    have hroom : st.size = framesSize st.frames + st.room := rfl
    refine ⟨fun hr => ⟨_, tag_out _ st.frames rfl rfl hu (by omega) (by omega)⟩, fun hr => ?_⟩
    exact tag_out_overflow _ st.frames rfl rfl hu (by omega) (by omega)
  · refine ⟨fun hr => ?_, fun _ => tag_out_small _ st.size rfl hsz h1 (by omega)⟩
    have hroom : st.size = framesSize st.frames + st.room := rfl
    omega

/-- **C33**, exactly: after a safe history the tag can be serialised if and only if the room is not negative. -/
theorem serialise_after_history [Platform] (tag : Tag) (st : State) (ops : List Op) (rest : Bytes) (hstart : Start tag st)
    (hs : SafeHistory ops st) (h1 : -2147483648 ≤ (applyAll ops st).size + 10) (h2 : (applyAll ops st).size + 10 ≤ 2147483647) :
    ∃ tag', runAll rest ops tag = .ok tag' ∧
      ((∃ cs, Tag_to_char_stream tag' = .ok cs) ↔ 0 ≤ (applyAll ops st).room) ∧
      (Tag_to_char_stream tag' = .ub .oobWrite ↔ (applyAll ops st).room < 0) := by
  obtain ⟨hu, major, minor, flags, ht⟩ := start_eq tag st hstart
  obtain ⟨h3, h4⟩ := history_step major minor flags tag.padding_size rest ops st hu hs
  rw [← ht] at h3
  obtain ⟨h5, h6⟩ := serialise_iff major minor flags (applyAll ops st) tag.padding_size h4 h1 h2
  refine ⟨_, h3, ⟨?_, h5⟩, ⟨?_, h6⟩⟩
  · rintro ⟨cs, hcs⟩
    by_cases h : 0 ≤ (applyAll ops st).room
    · exact h
    · rw [h6 (by omega)] at hcs; exact absurd hcs (by simp)
  · intro hub
    by_cases h : (applyAll ops st).room < 0
    · exact h
    · obtain ⟨cs, hcs⟩ := h5 (by omega)
      rw [hcs] at hub; exact absurd hub (by simp)

/-- Each call costs at most ten bytes of room. -/
theorem room_lower (op : Op) (st : State) (h : ∀ id n, framesSize (eraseNth SFrame.id id n st.frames) ≤ framesSize st.frames) :
    st.room - 10 ≤ (op.apply st).room := by
  cases op <;> simp only [Op.apply, State.set, State.add, State.deleteAt]
  case setText => split <;> omega
  case setComment => split <;> omega
  case setApic => split <;> omega
  case delete => omega
  case addComment => omega
  case addApic => omega
  case deleteComment i =>
    split
    · omega
    · have := h commId i.toNat; dsimp only; omega
  case deleteApic i =>
    split
    · omega
    · have := h apicId i.toNat; dsimp only; omega

theorem eraseNth_framesSize (id : List UInt8) (n : Nat) (fs : List SFrame) :
    framesSize (eraseNth SFrame.id id n fs) ≤ framesSize fs := by
  induction fs generalizing n with
  | nil => cases n <;> simp [eraseNth]
  | cons f fs ih =>
    cases n with
    | zero =>
      unfold eraseNth
      split
      · rw [framesSize_cons]; omega
      · rw [framesSize_cons, framesSize_cons]; have := ih 0; omega
    | succ n =>
      unfold eraseNth
      rw [framesSize_cons, framesSize_cons]
      have := ih (if SFrame.id f = id then n else n + 1)
      omega

theorem room_lower_all (ops : List Op) (st : State) : st.room - 10 * ops.length ≤ (applyAll ops st).room := by
  induction ops generalizing st with
  | nil => simp [applyAll]
  | cons op ops ih =>
    have h1 := ih (op.apply st)
    have h2 := room_lower op st (fun id n => eraseNth_framesSize id n st.frames)
    have e : applyAll (op :: ops) st = applyAll ops (op.apply st) := rfl
    rw [e, List.length_cons]
    omega

/-- **C33**, what holds: a tag read from a well-formed file with at least ten bytes of padding for each later call can
be serialised after any safe history. -/
theorem write_safe_partial [Platform] (tag : Tag) (st : State) (ops : List Op) (rest : Bytes) (hstart : Start tag st)
    (hs : SafeHistory ops st) (hroom : 10 * (ops.length : Int) ≤ st.room) (h2 : (applyAll ops st).size + 10 ≤ 2147483647) :
    ∃ tag' cs, runAll rest ops tag = .ok tag' ∧ Tag_to_char_stream tag' = .ok cs := by
  have h := room_lower_all ops st
  have hsz : (applyAll ops st).size = framesSize (applyAll ops st).frames + (applyAll ops st).room := rfl
  obtain ⟨tag', h1, h3, -⟩ := serialise_after_history tag st ops rest hstart hs (by omega) h2
  obtain ⟨cs, hcs⟩ := h3.mpr (by omega)
  exact ⟨tag', cs, h1, hcs⟩

theorem eraseFirst_nil (k : List UInt8) : eraseFirst SFrame.id k [] = [] := rfl

theorem built_room (ops : List Op) (st : State) (hn : ∀ op ∈ ops, NoIndex op = true)
    (h0 : st.room ≤ 0) (h1 : st.frames ≠ [] → st.room < 0) :
    (applyAll ops st).frames ≠ [] → (applyAll ops st).room < 0 := by
  induction ops generalizing st with
  | nil => exact h1
  | cons op ops ih =>
    have hno := hn op (by simp)
    have hset : ∀ f : SFrame, (st.set f).room ≤ 0 ∧ (st.set f).room < 0 := by
      intro f
      simp only [State.set]
      split
      · next h =>
        have : st.frames ≠ [] := by
          intro e; simp [State.has, e, first] at h
        have := h1 this
        omega
      · omega
    refine ih (op.apply st) (fun o ho => hn o (by simp [ho])) ?_ ?_
    · cases op <;> simp only [NoIndex, Bool.false_eq_true] at hno <;> simp only [Op.apply]
      case setText => exact (hset _).1
      case setComment => exact (hset _).1
      case setApic => exact (hset _).1
      case addComment => simp only [State.add]; omega
      case addApic => simp only [State.add]; omega
      case delete => exact h0
    · intro hne
      cases op <;> simp only [NoIndex, Bool.false_eq_true] at hno <;> simp only [Op.apply] at hne ⊢
      case setText => exact (hset _).2
      case setComment => exact (hset _).2
      case setApic => exact (hset _).2
      case addComment => simp only [State.add]; omega
      case addApic => simp only [State.add]; omega
      case delete k =>
        apply h1
        intro e
        rw [e] at hne
        exact hne rfl

/-- **C33** fails for every tag built from scratch: after any history on a new tag (that does not delete by index) that
leaves at least one frame, serialising the tag writes out of bounds. -/
theorem built_tags_overflow [Platform] (ops : List Op) (rest : Bytes) (hs : SafeHistory ops ⟨[], 0⟩)
    (hn : ∀ op ∈ ops, NoIndex op = true) (hne : (applyAll ops ⟨[], 0⟩).frames ≠ [])
    (h1 : -2147483648 ≤ (applyAll ops ⟨[], 0⟩).size + 10) (h2 : (applyAll ops ⟨[], 0⟩).size + 10 ≤ 2147483647) :
    ∃ tag', runAll rest ops ID3v2_Tag_new_empty = .ok tag' ∧ Tag_to_char_stream tag' = .ub .oobWrite := by
  obtain ⟨tag', h3, -, h4⟩ := serialise_after_history _ _ ops rest Start.new hs h1 h2
  exact ⟨tag', h3, h4.mpr (built_room ops ⟨[], 0⟩ hn (by decide) (by simp) hne)⟩

example : @SafeHistory strict [.setText [0x54, 0x49, 0x54, 0x32] [0, 0] (.latin [0x48, 0x69])] ⟨[], 0⟩ ∧
    (applyAll [.setText [0x54, 0x49, 0x54, 0x32] [0, 0] (.latin [0x48, 0x69])] ⟨[], 0⟩).size = 4 := by decide

/-- The claim of C33. -/
def C33_claim : Prop :=
  ∀ [Platform] (tag tag' : Tag) (st : State) (ops : List Op), Start tag st → SafeHistory ops st →
    runAll [] ops tag = .ok tag' → ∃ cs, Tag_to_char_stream tag' = .ok cs

/-- **C33** is false. -/
theorem C33_false : ¬ C33_claim := by
  intro h
  obtain ⟨t, h1, h2⟩ := @built_tags_overflow strict [.setText [0x54, 0x49, 0x54, 0x32] [0, 0] (.latin [0x48, 0x69])] []
    (by decide) (by decide) (by decide) (by decide) (by decide)
  obtain ⟨cs, h3⟩ := @h strict ID3v2_Tag_new_empty t ⟨[], 0⟩ _ (@Start.new strict) (by decide) h1
  rw [h2] at h3
  exact absurd h3 (by simp)

/-- Setting a frame in a new tag and deleting it again leaves a tag size of 2^32 - 10; serialising it overflows. -/
theorem set_delete_overflow : (do
    let t ← @ID3v2_Tag_set_title strict ID3v2_Tag_new_empty (lit [0x48, 0x69])
    let t ← ID3v2_Tag_delete_title t
    return t.header.tag_size) = .ok 4294967286 := by decide

end Id3.Props
