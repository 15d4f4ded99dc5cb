import Verif.Spec.Entry
import Verif.Props.Truthful
import Verif.Props.Misread
import Verif.Props.CompatExact

/-!
# What the compatibility API loads from arbitrary bytes (C82), and the exact outcome of its sessions (C49)
-/

namespace Id3.Props

open Id3 Spec

/-- The entry of a frame of a tag that was read. -/
theorem to_entry [Platform] (f : Frame) (h : Solid f) (ht : Typed f) :
    (WritableFrame f → frame_to_compat_frame (some f) = .ok (entryOf f)) ∧
    (¬ WritableFrame f → ∃ e, frame_to_compat_frame (some f) = .ub e) := by
  have h4 := h.1
  have h2 := h.2.1
  have m1 : memcpySrc f.header.id 4 = .ok f.header.id := memcpySrc_self _ _ (by omega)
  have m2 : memcpySrc f.header.flags 1 = .ok (f.header.flags.take 1) := by
    unfold memcpySrc
    rw [if_neg (by omega), if_neg (by omega)]; rfl
  unfold frame_to_compat_frame
  dsimp only
  rw [m1, m2]
  simp only [Res.bind_ok]
  constructor
  · intro hw
    have htr : f.header.size = (bodyOf f.data).length := writable_truthful f h hw
    rw [(solid_out f h ht).1 hw]
    have hhead : (f.header.id ++ ofB (be32 f.header.size.toNat) ++ f.header.flags).length = 10 := by
      simp [h4, h2, be32]
    have r : CharStream_read { csOut (frameBytes f) 0 with cursor := 10 } f.header.size =
        .ok (bodyOf f.data, { csOut (frameBytes f) 0 with cursor := 10 + f.header.size }) := by
      have hl : (frameBytes f).length = 10 + (bodyOf f.data).length := by
        rw [frameBytes, List.length_append, hhead]
      unfold CharStream_read CharStream_get_cur csOut
      dsimp only
      simp only [List.replicate_zero, List.append_nil, Nat.add_zero]
      rw [clamp_mid (by omega) (by omega), if_pos (by omega)]
      simp only [Res.bind_ok]
      have : memcpySrc ((frameBytes f).drop (10 : Int).toNat) f.header.size = .ok (bodyOf f.data) := by
        rw [show ((10 : Int).toNat) = (f.header.id ++ ofB (be32 f.header.size.toNat) ++ f.header.flags).length from
          hhead.symm, frameBytes, List.drop_left]
        exact memcpySrc_self _ _ htr
      rw [this]
      rfl
    simp only [Res.bind_ok, CharStream_seek, r, Res.pure_eq]
    rw [intoArray_full _ (bodyOf f.data) htr]
    have e : intoArray 2 (f.header.flags.take 1) = f.header.flags.take 1 ++ [none] := by
      match hf : f.header.flags, h2 with
      | [a, b], _ => rfl
    rw [e]
    rfl
  · intro hw
    obtain ⟨e, he⟩ := (solid_out f h ht).2 hw
    exact ⟨e, by rw [he]; rfl⟩

theorem load_entries [Platform] (fs : List (Option Frame)) (hs : ∀ f, some f ∈ fs → Solid f ∧ Typed f) (acc : CList)
    (hacc : acc ≠ []) (hsome : ∀ x ∈ acc, x ≠ none) :
    ((∀ x ∈ fs, ∃ f, x = some f ∧ WritableFrame f) → load_frames acc fs = .ok (acc ++ fs.map (Option.map entryOf))) ∧
    ((¬ ∀ x ∈ fs, ∃ f, x = some f ∧ WritableFrame f) → ∃ e, load_frames acc fs = .ub e) := by
  induction fs generalizing acc with
  | nil => exact ⟨fun _ => by simp [load_frames], fun h => absurd (by simp) h⟩
  | cons x fs ih =>
    unfold load_frames
    cases x with
    | none => exact ⟨fun h => (by obtain ⟨f, hf, -⟩ := h none (by simp); cases hf), fun _ => ⟨_, rfl⟩⟩
    | some f =>
      obtain ⟨h1, h2⟩ := hs f (by simp)
      obtain ⟨e1, e2⟩ := to_entry f h1 h2
      by_cases hw : WritableFrame f
      · rw [e1 hw]
        simp only [Res.bind_ok]
        have ea : add_to_list acc (entryOf f) = acc ++ [some (entryOf f)] := by
          match acc, hacc with
          | none :: _, _ => exact absurd rfl (hsome none (by simp))
          | some g :: rest, _ => rfl
        rw [ea]
        obtain ⟨i1, i2⟩ := ih (fun g hg => hs g (by simp [hg])) (acc ++ [some (entryOf f)]) (by simp) (by
          intro y hy
          rcases List.mem_append.mp hy with hy | hy
          · exact hsome y hy
          · rw [List.mem_singleton.mp hy]; simp)
        constructor
        · intro h
          rw [i1 (fun y hy => h y (by simp [hy]))]
          simp
        · intro h
          refine i2 fun h' => h ?_
          intro y hy
          rcases List.mem_cons.mp hy with rfl | hy
          · exact ⟨f, rfl, hw⟩
          · exact h' y hy
      · constructor
        · intro h
          obtain ⟨g, hg, hgw⟩ := h (some f) (by simp)
          cases hg
          exact absurd hgw hw
        · intro _
          obtain ⟨e, he⟩ := e2 hw
          exact ⟨e, by rw [he]; rfl⟩

theorem load_entries_new [Platform] (fs : List (Option Frame)) (hne : fs ≠ []) (hs : ∀ f, some f ∈ fs → Solid f ∧ Typed f) :
    ((∀ x ∈ fs, ∃ f, x = some f ∧ WritableFrame f) → load_frames new_frame_list fs = .ok (fs.map (Option.map entryOf))) ∧
    ((¬ ∀ x ∈ fs, ∃ f, x = some f ∧ WritableFrame f) → ∃ e, load_frames new_frame_list fs = .ub e) := by
  match fs, hne with
  | none :: fs, _ =>
    exact ⟨fun h => (by obtain ⟨f, hf, -⟩ := h none (by simp); cases hf), fun _ => ⟨_, rfl⟩⟩
  | some f :: fs, _ =>
    obtain ⟨h1, h2⟩ := hs f (by simp)
    obtain ⟨e1, e2⟩ := to_entry f h1 h2
    unfold load_frames
    by_cases hw : WritableFrame f
    · rw [e1 hw]
      simp only [Res.bind_ok]
      obtain ⟨i1, i2⟩ := load_entries fs (fun g hg => hs g (by simp [hg])) [some (entryOf f)] (by simp) (by simp)
      constructor
      · intro h
        exact i1 (fun y hy => h y (by simp [hy]))
      · intro h
        refine i2 fun h' => h ?_
        intro y hy
        rcases List.mem_cons.mp hy with rfl | hy
        · exact ⟨f, rfl, hw⟩
        · exact h' y hy
    · constructor
      · intro h
        obtain ⟨g, hg, hgw⟩ := h (some f) (by simp)
        cases hg
        exact absurd hgw hw
      · intro _
        obtain ⟨e, he⟩ := e2 hw
        exact ⟨e, by rw [he]; rfl⟩

/-- `load_tag_with_buffer` once the tag is read. -/
theorem load_of_read [Platform] (b : Bytes) (n : Nat) (hn : n ≤ b.length) (t : Tag)
    (h : ID3v2_read_tag_from_buffer b n = .ok (some t)) (hx : ∀ e, t.header.extended_header_size = some e → e < 2 ^ 31) :
    (Showable t → load_tag_with_buffer b n = .ok (compatTag (b.take n) t)) ∧
    (¬ Showable t → ∃ e, load_tag_with_buffer b n = .ub e) := by
  have hm : memcpySrc b n = .ok (b.take n) := by
    unfold memcpySrc
    rw [if_neg (by omega), if_neg (by omega)]; rfl
  obtain ⟨hmade, -, hsz⟩ := read_buffer_inv b n t h
  have hty := obtainable_typed t (.read h)
  obtain ⟨h1, h2⟩ := load_entries_new t.frames (read_frames_ne b n t h)
    (fun f hf => ⟨made_solid f (hmade f hf), hty f hf⟩)
  unfold load_tag_with_buffer
  rw [h, hm]
  simp only [Res.bind_ok]
  constructor
  · intro hs
    rw [h1 hs]
    simp only [Res.bind_ok, Res.pure_eq]
    unfold compatTag
    rw [toInt32_nat (by omega)]
    cases hext : t.header.extended_header_size with
    | none => rfl
    | some e =>
      have := hx e hext
      simp only [Option.map_some]
      rw [toInt32_nat (by omega)]
  · intro hs
    obtain ⟨e, he⟩ := h2 hs
    exact ⟨e, by rw [he]; rfl⟩

theorem tagIn_extended [Platform] {b : Bytes} {t : Tag} (h : TagIn b t) :
    ∀ e, t.header.extended_header_size = some e → e < 2 ^ 31 := by
  obtain ⟨v, m, f, z, rest, ext, start, fs, stop, -, -, -, hx, -, rfl⟩ := h
  intro e he
  cases he
  split at hx
  · obtain ⟨x, -, -, rfl, -⟩ := hx
    have := looseSize_lt x
    omega
  · omega

/-- **C82**: for every buffer, `load_tag_with_buffer` returns exactly if the buffer holds a tag that can be shown, and what it
returns shows this tag. -/
theorem load_buffer_any [Platform] (b : List UInt8) (n : Nat) (hn : n ≤ b.length) (hb : n ≤ 2147483647) (ct : CTag) :
    load_tag_with_buffer (ofB b) n = .ok ct ↔
      ∃ t, TagIn (ofB (b.take n)) t ∧ Showable t ∧ ct = compatTag (ofB (b.take n)) t := by
  constructor
  · intro h
    have hr := (compat_view (ofB b) n ct h).1
    have hin := (C67_buffer b n hn hb ct.tag).mp hr
    obtain ⟨h1, h2⟩ := load_of_read (ofB b) n (by simpa using hn) ct.tag hr (tagIn_extended hin)
    by_cases hs : Showable ct.tag
    · rw [h1 hs, ofB_take] at h
      exact ⟨ct.tag, hin, hs, (Res.ok.inj h).symm⟩
    · obtain ⟨e, he⟩ := h2 hs
      rw [he] at h
      cases h
  · rintro ⟨t, hin, hs, rfl⟩
    have hr := (C67_buffer b n hn hb t).mpr hin
    rw [(load_of_read (ofB b) n (by simpa using hn) t hr (tagIn_extended hin)).1 hs, ofB_take]

theorem load_buffer_sat [Platform] (b : Bytes) (n : Nat) (hn : n ≤ b.length)
    (hx : ∀ t, ID3v2_read_tag_from_buffer b n = .ok (some t) → ∀ e, t.header.extended_header_size = some e → e < 2 ^ 31) :
    (∃ ct, load_tag_with_buffer b n = .ok ct) ∨ ∃ k, load_tag_with_buffer b n = .ub k := by
  have hs := sat_read_from_buffer b n (by omega)
  cases hr : ID3v2_read_tag_from_buffer b n with
  | ok r =>
    cases r with
    | none =>
      have hm : memcpySrc b n = .ok (b.take n) := by
        unfold memcpySrc
        rw [if_neg (by omega), if_neg (by omega)]; rfl
      right
      refine ⟨.nullDeref, ?_⟩
      unfold load_tag_with_buffer
      rw [hr, hm]
      rfl
    | some t =>
      obtain ⟨h1, h2⟩ := load_of_read b n hn t hr (hx t hr)
      by_cases h : Showable t
      · exact Or.inl ⟨_, h1 h⟩
      · exact Or.inr (h2 h)
  | ub k => right; exact ⟨k, by unfold load_tag_with_buffer; rw [hr]; rfl⟩
  | exit => rw [hr] at hs; exact absurd hs (by simp [Sat])
  | diverge => rw [hr] at hs; exact absurd hs (by simp [Sat])

/-- **C82**: in all other cases the behaviour is undefined: `load_tag_with_buffer` never returns NULL. -/
theorem load_buffer_any_undefined [Platform] (b : List UInt8) (n : Nat) (hn : n ≤ b.length) (hb : n ≤ 2147483647) :
    (∃ k, load_tag_with_buffer (ofB b) n = .ub k) ↔ ∀ t, TagIn (ofB (b.take n)) t → ¬ Showable t := by
  constructor
  · rintro ⟨k, hk⟩ t ht hs
    rw [(load_buffer_any b n hn hb _).mpr ⟨t, ht, hs, rfl⟩] at hk
    cases hk
  · intro h
    rcases load_buffer_sat (ofB b) n (by simpa using hn) (fun t ht => tagIn_extended ((C67_buffer b n hn hb t).mp ht)) with
      ⟨ct, hc⟩ | hk
    · obtain ⟨t, h1, h2, -⟩ := (load_buffer_any b n hn hb ct).mp hc
      exact absurd h2 (h t h1)
    · exact hk

/-- `load_tag` hands on the part of the file that the tag header speaks of. -/
theorem load_file_eq [Platform] (c : List UInt8) (h : tagLength c ≠ 0) :
    load_tag (some (ofB c)) = load_tag_with_buffer (padTo (tagLength c) (ofB c)) (tagLength c) := by
  obtain ⟨r, h1, h2, h3⟩ := read_header_spec c
  unfold load_tag
  rw [h1]
  simp only [Res.bind_ok]
  cases r with
  | none => exact absurd (h2 rfl) h
  | some hd =>
    obtain ⟨h4, h5⟩ := h3 hd rfl
    dsimp only
    rw [show (hd.tag_size : Int) + 10 = ((10 + hd.tag_size : Nat) : Int) from by omega, u32_nat (by omega),
      toInt32_nat (by omega), h4, intoArray_padTo, Int.toNat_natCast]

theorem read_padded [Platform] (c : List UInt8) (t : Tag) :
    ID3v2_read_tag_from_buffer (padTo (tagLength c) (ofB c)) (tagLength c) = .ok (some t) ↔
      TagIn (padTo (tagLength c) (ofB c)) t := by
  have hf := from_buffer_csAt (padTo (tagLength c) (ofB c)) [] (tagLength c) (by rw [padTo_length])
  rw [List.append_nil] at hf
  unfold ID3v2_read_tag_from_buffer
  rw [hf]
  exact tag_parse_iff (tail_padTo _ _) (by rw [padTo_length]; exact tagLength_lt c) t

/-- **C82** for files: `load_tag` returns exactly if the part of the file that the tag header speaks of (indeterminate bytes
where the file is shorter) holds a tag that can be shown, and what it returns shows this tag. -/
theorem load_file_any [Platform] (c : List UInt8) (ct : CTag) :
    load_tag (some (ofB c)) = .ok ct ↔
      ∃ t, TagIn (padTo (tagLength c) (ofB c)) t ∧ Showable t ∧ ct = compatTag (padTo (tagLength c) (ofB c)) t := by
  have hfull : (padTo (tagLength c) (ofB c)).take (tagLength c) = padTo (tagLength c) (ofB c) :=
    List.take_of_length_le (by rw [padTo_length]; omega)
  by_cases h0 : tagLength c = 0
  · rw [(load_without_tag_crashes c h0).1]
    constructor
    · intro h; cases h
    · rintro ⟨t, ht, -⟩
      have := tagIn_ten ht
      rw [padTo_length] at this
      omega
  · rw [load_file_eq c h0]
    constructor
    · intro h
      have hr := (compat_view _ _ ct h).1
      have hin := (read_padded c ct.tag).mp hr
      obtain ⟨h1, h2⟩ := load_of_read _ _ (by rw [padTo_length]; omega) ct.tag hr (tagIn_extended hin)
      by_cases hs : Showable ct.tag
      · rw [h1 hs, hfull] at h
        exact ⟨ct.tag, hin, hs, (Res.ok.inj h).symm⟩
      · obtain ⟨e, he⟩ := h2 hs
        rw [he] at h
        cases h
    · rintro ⟨t, hin, hs, rfl⟩
      rw [(load_of_read _ _ (by rw [padTo_length]; omega) t ((read_padded c t).mpr hin) (tagIn_extended hin)).1 hs, hfull]

/-- **C82** for files: in all other cases the behaviour is undefined. -/
theorem load_file_any_undefined [Platform] (c : List UInt8) :
    (∃ k, load_tag (some (ofB c)) = .ub k) ↔ ∀ t, TagIn (padTo (tagLength c) (ofB c)) t → ¬ Showable t := by
  constructor
  · rintro ⟨k, hk⟩ t ht hs
    rw [(load_file_any c _).mpr ⟨t, ht, hs, rfl⟩] at hk
    cases hk
  · intro h
    by_cases h0 : tagLength c = 0
    · exact ⟨_, (load_without_tag_crashes c h0).1⟩
    · have h1 := load_file_eq c h0
      rcases load_buffer_sat (padTo (tagLength c) (ofB c)) (tagLength c) (by rw [padTo_length]; omega)
        (fun t ht => tagIn_extended ((read_padded c t).mp ht)) with ⟨ct, hc⟩ | hk
      · rw [← h1] at hc
        obtain ⟨t, h1, h2, -⟩ := (load_file_any c ct).mp hc
        exact absurd h2 (h t h1)
      · rw [h1]; exact hk

/-- **C40, C49**, exactly and for both versions: `load_tag` of a file that starts with a tag that the library has written. -/
theorem load_written_all [Platform] (version minor flags : UInt8) (fs : List SFrame) (padding : Nat) (rest : List UInt8)
    (hv : version = 3 ∨ version = 4) (hflag : flags &&& 0x40 = 0) (hu : ∀ f ∈ fs, f.Usable)
    (hs : framesSize fs + padding < 2 ^ 28) :
    (∀ ct, load_tag (some (ofB (outBytes version minor flags fs padding ++ rest))) = .ok ct ↔
      ∃ t, ReadsAs version minor flags fs padding t ∧ Showable t ∧
        ct = compatTag (ofB (outBytes version minor flags fs padding)) t) ∧
    ((∃ k, load_tag (some (ofB (outBytes version minor flags fs padding ++ rest))) = .ub k) ↔
      ∀ t, ReadsAs version minor flags fs padding t → ¬ Showable t) := by
  have hl : (outBytes version minor flags fs padding).length = 10 + framesSize fs + padding := by
    rw [outBytes, List.length_append, List.length_append, flatMap_bytes_length, List.length_replicate]
    simp [tagHeaderBytes, synchsafe]
  have htl : tagLength (outBytes version minor flags fs padding ++ rest) =
      (outBytes version minor flags fs padding).length := by
    rw [hl, outBytes, List.append_assoc, List.append_assoc, tagLength_header version minor flags _ _ hv hs]
    omega
  have hpad : padTo (tagLength (outBytes version minor flags fs padding ++ rest))
      (ofB (outBytes version minor flags fs padding ++ rest)) = ofB (outBytes version minor flags fs padding) := by
    rw [htl]
    unfold padTo
    rw [ofB_take, List.take_left, ofB_length, List.length_append, Nat.sub_eq_zero_of_le (by omega)]
    simp
  have hread := (read_file_all version minor flags fs padding rest hv hflag hu hs).1
  constructor
  · intro ct
    rw [load_file_any]
    constructor
    · rintro ⟨t, h1, h2, h3⟩
      rw [hpad] at h3
      exact ⟨t, (hread t).mp ((C67_file _ t).mpr h1), h2, h3⟩
    · rintro ⟨t, h1, h2, h3⟩
      exact ⟨t, (C67_file _ t).mp ((hread t).mpr h1), h2, by rw [hpad]; exact h3⟩
  · rw [load_file_any_undefined]
    constructor
    · intro h t ht
      exact h t ((C67_file _ t).mp ((hread t).mpr ht))
    · intro h t ht
      exact h t ((hread t).mp ((C67_file _ t).mpr ht))

/-- **C49**, exactly, for both versions: load a tag, call any setters for frames that it has, write it to any file, load that
file. The file is the tag and the audio it had; loading it shows the tag that is read from it, or is undefined. -/
theorem compat_session_exact [Platform] (ct : CTag) (st : State) (ops : List COp) (rest : Bytes)
    (contents : List UInt8) (hstart : CStart ct st) (hops : ∀ o ∈ ops, o.Valid ∧ st.has o.frame.id = true)
    (hsz : (capplyAll ops st).size < 2 ^ 28) :
    ∃ ct' ct'' file, crunAll rest ops ct = .ok ct' ∧ set_tag (some (ofB contents)) ct' = .ok (file, ct'') ∧
      file = some (ofB (outBytes ct.tag.header.major_version ct.tag.header.minor_version ct.tag.header.flags
        (capplyAll ops st).frames st.room.toNat ++ audio contents)) ∧
      (∀ final, load_tag file = .ok final ↔
        ∃ t, ReadsAs ct.tag.header.major_version ct.tag.header.minor_version ct.tag.header.flags
            (capplyAll ops st).frames st.room.toNat t ∧ Showable t ∧
          final = compatTag (ofB (outBytes ct.tag.header.major_version ct.tag.header.minor_version ct.tag.header.flags
            (capplyAll ops st).frames st.room.toNat)) t) ∧
      ((∃ k, load_tag file = .ub k) ↔
        ∀ t, ReadsAs ct.tag.header.major_version ct.tag.header.minor_version ct.tag.header.flags
          (capplyAll ops st).frames st.room.toNat t → ¬ Showable t) := by
  obtain ⟨major, minor, flags, hi, hv, hfl, hroom, hp, hp2⟩ := cstart_inStep ct st hstart
  obtain ⟨ct', r1, i1, e2, -⟩ := history_present rest ops ct st major minor flags _ hi hops
  have hh : ct.tag.header.major_version = major ∧ ct.tag.header.minor_version = minor ∧ ct.tag.header.flags = flags := by
    rw [hi.tag]; exact ⟨rfl, rfl, rfl⟩
  rw [hh.1, hh.2.1, hh.2.2]
  obtain ⟨n, hn⟩ : ∃ n : Nat, st.room = n := ⟨st.room.toNat, by omega⟩
  have hn' : st.room.toNat = n := by omega
  have hsize : (capplyAll ops st).size = ((framesSize (capplyAll ops st).frames + n : Nat) : Int) := by
    unfold State.size; rw [e2, hn]; rfl
  have hs : framesSize (capplyAll ops st).frames + n < 2 ^ 28 := by omega
  have e : ct'.tag = toTag major minor flags (framesSize (capplyAll ops st).frames + n) (capplyAll ops st).frames
      ct.tag.padding_size := by
    rw [i1.tag]
    unfold tagOf
    rw [hsize, u32_nat (by omega)]
  obtain ⟨cs, h1, h2, h3⟩ := toTag_out major minor flags (framesSize (capplyAll ops st).frames + n) (capplyAll ops st).frames
    ct.tag.padding_size i1.usable hs (by omega)
  obtain ⟨tag'', hw⟩ := write_succeeds contents ct'.tag cs (by rw [e]; rfl) (by rw [e]; exact h1) (by rw [e]; exact hp)
    (by rw [e]; show ct.tag.padding_size ≤ _; omega)
  have hfile : cs.stream ++ ofB (audio contents) =
      ofB (outBytes major minor flags (capplyAll ops st).frames n ++ audio contents) := by
    rw [h2, ← ofB_append, Nat.add_sub_cancel_left]
    rfl
  refine ⟨ct', { ct' with tag := tag'' }, _, r1, ?_, rfl, ?_⟩
  · unfold set_tag
    rw [hw, hfile, hn']
    rfl
  · rw [hn']
    exact load_written_all major minor flags (capplyAll ops st).frames n (audio contents) hv hfl i1.usable hs

/-- **C82, C40**: for every file, the two APIs agree. `load_tag` returns exactly if `ID3v2_read_tag` returns a tag that can be
shown, and it shows this tag. -/
theorem load_agrees [Platform] (c : List UInt8) (ct : CTag) :
    load_tag (some (ofB c)) = .ok ct ↔
      ∃ t, ID3v2_read_tag (some (ofB c)) = .ok (some t) ∧ Showable t ∧
        ct = compatTag (padTo (tagLength c) (ofB c)) t := by
  rw [load_file_any]
  constructor
  · rintro ⟨t, h1, h2, h3⟩
    exact ⟨t, (C67_file c t).mpr h1, h2, h3⟩
  · rintro ⟨t, h1, h2, h3⟩
    exact ⟨t, (C67_file c t).mp h1, h2, h3⟩

/-! ## Concrete buffers and files -/

/-- A buffer whose tag can be shown. -/
example : @TagIn strict (ofB (slackTag.take 35)) slackRead ∧ @Showable strict slackRead ∧
    @load_tag_with_buffer strict (ofB slackTag) (35 : Nat) = .ok (compatTag (ofB slackTag) slackRead) := by
  have hs : @Showable strict slackRead := by
    intro x hx
    exact ⟨_, List.mem_singleton.mp hx, by decide⟩
  exact ⟨slack_holds, hs, (@load_buffer_any strict slackTag 35 (by decide) (by decide) _).mpr ⟨_, slack_holds, hs, rfl⟩⟩

/-- A file that is cut off in a frame: the entry has indeterminate bytes. -/
example : @load_tag strict (some (ofB cutTag)) = .ok (compatTag (ofB cutTag ++ [none, none, none]) cutRead) ∧
    (entryOf cutFrame).data = [some 0x42, none, none, none] := by
  refine ⟨(@load_file_any strict cutTag _).mpr ⟨_, cut_holds, ?_, rfl⟩, rfl⟩
  intro x hx
  exact ⟨_, List.mem_singleton.mp hx, by decide⟩

/-- An unknown frame of size -2. -/
def negativeTag : List UInt8 :=
  [0x49, 0x44, 0x33, 3, 0, 0, 0, 0, 0, 14] ++ [0x58, 0x59, 0x5A, 0x57, 0xFF, 0xFF, 0xFF, 0xFE, 0, 0, 0, 0, 0, 0]

def negativeFrame : Frame :=
  { header := { id := ofB [0x58, 0x59, 0x5A, 0x57], size := -2, flags := ofB [0, 0] }, data := .raw [] }

def negativeRead : Tag :=
  { header := { identifier := ofB [0x49, 0x44, 0x33], major_version := 3, minor_version := 0, flags := 0,
                tag_size := 14, extended_header_size := some 0 }
    frames := [some negativeFrame]
    padding_size := 4 }

/-- The native API reads it, the compatibility API cannot show it. -/
theorem negative_read : @ID3v2_read_tag strict (some (ofB negativeTag)) = .ok (some negativeRead) := by decide

theorem negative_not_shown [Platform] : ¬ Showable negativeRead := by
  intro h
  obtain ⟨f, hf, hw⟩ := h (some negativeFrame) (List.mem_singleton.mpr rfl)
  cases hf
  exact absurd hw.1 (by decide)

/-- **C82**: there is a file that the native API reads and that the compatibility API must not be asked to load. -/
theorem native_reads_more : ∃ (c : List UInt8) (t : Tag), @ID3v2_read_tag strict (some (ofB c)) = .ok (some t) ∧
    (∃ f, some f ∈ t.frames) ∧ ∃ k, @load_tag strict (some (ofB c)) = .ub k := by
  refine ⟨negativeTag, negativeRead, negative_read, ⟨_, List.mem_singleton.mpr rfl⟩,
    (@load_file_any_undefined strict negativeTag).mpr fun t ht => ?_⟩
  have h1 := (@C67_file strict negativeTag t).mpr ht
  rw [negative_read] at h1
  cases h1
  exact @negative_not_shown strict

/-- A session on a loaded tag meets the hypotheses, and the file can be loaded. -/
example : ∃ ct st, @CStart lenient ct st ∧ (∀ o ∈ sampleCOps, @COp.Valid lenient o ∧ st.has o.frame.id = true) ∧
    (capplyAll sampleCOps st).size < 2 ^ 28 ∧
    ∃ t, @ReadsAs lenient 3 0 0 (capplyAll sampleCOps st).frames st.room.toNat t ∧ @Showable lenient t := by
  obtain ⟨ct, -, -, h⟩ := @load_succeeds_partial lenient 3 0 0 (sampleFrames.map Wire.ofSFrame) 100 [] (Or.inl rfl)
    (by decide) (by decide) (by decide) (by decide) (by decide)
  refine ⟨ct, _, h, by decide, by decide, toTag 3 0 0 _ (seenBack _ _) _,
    @ReadsAs.same lenient 3 0 0 _ _ (fun h => absurd h (by decide)) _ rfl, ?_⟩
  have key : ∀ x ∈ (seenBack (capplyAll sampleCOps ⟨(sampleFrames.map Wire.ofSFrame).map Wire.kept, 100⟩).frames 100),
      @WritableFrame lenient x.toFrame := by decide
  intro x hx
  obtain ⟨f, hf, rfl⟩ := List.mem_map.mp hx
  exact ⟨_, rfl, key f hf⟩

end Id3.Props
