import Verif.Spec.Effects
import Verif.Spec.Start
import Verif.Proof.File
import Verif.Props.Header
import Verif.Props.History

/-!
# C19 - C22, C24, C45: reading, writing and deleting the tag of a file
-/

namespace Id3.Props

open Id3 Spec

/-! ## C19: the audio is preserved -/

/-- **C19**, for every file and every tag: if `ID3v2_write_tag` returns, the new file is the serialised tag followed by
the audio of the old file, and nothing else. -/
theorem write_preserves_audio [Platform] (contents : List UInt8) (tag tag' : Tag) (file : File)
    (hid : tag.header.identifier = ofB [0x49, 0x44, 0x33])
    (h : ID3v2_write_tag (some (ofB contents)) tag = .ok (file, tag')) :
    ∃ cs, Tag_to_char_stream tag = .ok cs ∧ file = some (cs.stream ++ ofB (audio contents)) := by
  obtain ⟨h1, h2⟩ := write_range _ _ _ h
  rw [write_tag_eq _ (tagLength contents) tag hid (existing_size contents) h1 h2] at h
  obtain ⟨cs, hc, h⟩ := Res.bind_eq_ok.mp h
  simp only [Res.ok.injEq, Prod.mk.injEq] at h
  refine ⟨cs, hc, ?_⟩
  rw [← h.1, ofB_drop]
  rfl

/-- **C19**: and it does return for every tag that can be serialised (see C33). -/
theorem write_succeeds [Platform] (contents : List UInt8) (tag : Tag) (cs : CharStream)
    (hid : tag.header.identifier = ofB [0x49, 0x44, 0x33]) (hc : Tag_to_char_stream tag = .ok cs)
    (hp : 0 ≤ tag.padding_size) (hp2 : tag.padding_size ≤ 2147483647) :
    ∃ tag', ID3v2_write_tag (some (ofB contents)) tag = .ok (some (cs.stream ++ ofB (audio contents)), tag') := by
  rw [write_tag_eq _ (tagLength contents) tag hid (existing_size contents) (by omega) hp2, hc]
  simp only [Res.bind_ok]
  rw [ofB_drop]
  exact ⟨_, rfl⟩

/-- **C19** in bytes: writing a version 2.3 tag of `fs` with room for `padding` bytes of padding. -/
theorem write_bytes [Platform] (contents : List UInt8) (minor flags : UInt8) (fs : List SFrame) (padding : Nat) (p : Int)
    (hu : ∀ f ∈ fs, f.Usable) (hs : framesSize fs + padding < 2 ^ 28) (hp : 0 ≤ p) (hp2 : p ≤ 2147483647) :
    ∃ tag', ID3v2_write_tag (some (ofB contents)) (toTag 3 minor flags (framesSize fs + padding) fs p) =
      .ok (some (ofB (tagBytes minor flags fs padding ++ audio contents)), tag') := by
  obtain ⟨cs, h1, h2, -⟩ := serialised_tag minor flags fs padding p hu hs
  obtain ⟨tag', h⟩ := write_succeeds contents _ cs rfl h1 hp hp2
  refine ⟨tag', ?_⟩
  rw [h, h2, ofB_append]

example : audio ([0x49, 0x44, 0x33, 3, 0, 0, 0, 0, 0, 2, 9, 9] ++ [0xFF, 0xFB, 0x90]) = [0xFF, 0xFB, 0x90] := by decide
example : audio [0xFF, 0xFB, 0x90] = [0xFF, 0xFB, 0x90] := by decide

/-! ## C21: deleting the tag -/

/-- **C21**: whatever the file, deleting the tag leaves exactly its audio. -/
theorem delete_leaves_audio [Platform] (contents : List UInt8) :
    ID3v2_delete_tag (some (ofB contents)) = .ok (some (ofB (audio contents))) := by
  rw [delete_eq _ _ (existing_size contents), ofB_drop]
  rfl

/-- **C21**: a file without a supported tag is left alone. -/
theorem delete_without_tag [Platform] (contents : List UInt8)
    (h : ID3v2_read_tag_header (some (ofB contents)) = .ok none) :
    ID3v2_delete_tag (some (ofB contents)) = .ok (some (ofB contents)) := by
  unfold ID3v2_delete_tag
  rw [h]
  rfl

/-- **C21**: a missing file stays missing. -/
theorem delete_missing [Platform] : ID3v2_delete_tag none = .ok none := rfl

/-! ## C22: repeated writes and deletes -/

theorem write_tagged [Platform] (file file' : File) (a : List UInt8) (tag tag' : Tag) (hf : Tagged file a)
    (hw : Writable tag) (h : ID3v2_write_tag file tag = .ok (file', tag')) :
    Tagged file' a ∧ ∃ cs, Tag_to_char_stream tag = .ok cs ∧ file' = some (cs.stream ++ ofB a) ∧
      cs.stream.length = 10 + tag.header.tag_size := by
  obtain ⟨c, n, rfl, hn, ha⟩ := hf
  obtain ⟨h1, h2⟩ := write_range _ _ _ h
  obtain ⟨hid, hv, hsz⟩ := hw
  rw [write_tag_eq c n tag hid hn h1 h2] at h
  obtain ⟨cs, hc, h⟩ := Res.bind_eq_ok.mp h
  simp only [Res.ok.injEq, Prod.mk.injEq] at h
  rw [ha] at h
  obtain ⟨t1, t2, rest, t3⟩ := tag_out_inv tag cs hid hc
  have hlen : cs.stream.length = 10 + tag.header.tag_size := by
    rw [show (tag.header.tag_size : Int) + 10 = ((10 + tag.header.tag_size : Nat) : Int) from by omega, u32_nat (by omega),
      toInt32_nat (by omega)] at t2
    omega
  refine ⟨⟨_, 10 + tag.header.tag_size, h.1.symm, ?_, ?_⟩, cs, hc, h.1.symm, hlen⟩
  · rw [t3, headerOut_eq _ hsz, List.append_assoc]
    exact existing_size_header _ _ _ _ _ hv hsz
  · rw [← hlen, List.drop_left]

/-- **C22**: after any number of writes to any file, the file is the last tag followed by the original audio: earlier
tags leave no trace, and the length is 10 + tag size + length of the audio. Deleting the tag then gives the original
audio. (Each write must return, see C33.) -/
theorem last_write_wins [Platform] (contents : List UInt8) (tags : List Tag) (last : Tag) (file : File)
    (hw : ∀ t ∈ tags ++ [last], Writable t) (h : writeAll (tags ++ [last]) (some (ofB contents)) = .ok file) :
    ∃ cs, Tag_to_char_stream last = .ok cs ∧ file = some (cs.stream ++ ofB (audio contents)) ∧
      (cs.stream ++ ofB (audio contents)).length = 10 + last.header.tag_size + (audio contents).length ∧
      ID3v2_delete_tag file = .ok (some (ofB (audio contents))) := by
  have h0 : Tagged (some (ofB contents)) (audio contents) :=
    ⟨_, _, rfl, existing_size contents, by rw [ofB_drop]; rfl⟩
  generalize some (ofB contents) = f at h h0
  induction tags generalizing f with
  | nil =>
    simp only [List.nil_append, writeAll] at h
    obtain ⟨⟨f', t'⟩, h1, h2⟩ := Res.bind_eq_ok.mp h
    simp only [Res.ok.injEq] at h2
    subst h2
    obtain ⟨⟨c, n, e1, e2, e3⟩, cs, hc, hf, hl⟩ := write_tagged _ _ _ _ _ h0 (hw last (by simp)) h1
    refine ⟨cs, hc, hf, by simp [hl], ?_⟩
    rw [e1, delete_eq _ _ e2, e3]
  | cons t ts ih =>
    simp only [List.cons_append, writeAll] at h
    obtain ⟨⟨f', t'⟩, h1, h2⟩ := Res.bind_eq_ok.mp h
    exact ih (fun x hx => hw x (by rw [List.cons_append]; exact List.mem_cons_of_mem _ hx)) f' h2 (write_tagged _ _ _ _ _ h0 (hw t (by simp)) h1).1

/-- **C22**: deleting undoes writing. -/
theorem delete_undoes_write [Platform] (contents : List UInt8) (tag tag' : Tag) (file : File) (hw : Writable tag)
    (h : ID3v2_write_tag (some (ofB contents)) tag = .ok (file, tag')) :
    ID3v2_delete_tag file = ID3v2_delete_tag (some (ofB contents)) := by
  obtain ⟨cs, -, -, -, h1⟩ := last_write_wins contents [] tag file (by simpa using hw) (by
    simp only [List.nil_append, writeAll]
    rw [h]
    rfl)
  rw [h1, delete_leaves_audio]

/-- **C22**: writing the same tag again changes nothing. -/
theorem write_twice [Platform] (contents : List UInt8) (tag tag' tag'' : Tag) (file file' : File) (hw : Writable tag)
    (h : ID3v2_write_tag (some (ofB contents)) tag = .ok (file, tag')) (h' : ID3v2_write_tag file tag' = .ok (file', tag'')) :
    file' = file := by
  have h0 : Tagged (some (ofB contents)) (audio contents) :=
    ⟨_, _, rfl, existing_size contents, by rw [ofB_drop]; rfl⟩
  obtain ⟨h1, cs, h2, h3, -⟩ := write_tagged _ _ _ _ _ h0 hw h
  have hp := write_range _ _ _ h
  have e : tag' = { tag with padding_size := notedPadding tag.padding_size } := by
    rw [write_tag_eq _ (tagLength contents) tag hw.1 (existing_size contents) hp.1 hp.2, h2] at h
    simp only [Res.bind_ok, Res.ok.injEq, Prod.mk.injEq] at h
    exact h.2.symm
  obtain ⟨-, cs', h4, h5, -⟩ := write_tagged _ _ _ tag' tag'' h1 (by rw [e]; exact hw) h'
  rw [e, tag_out_padding, h2, Res.ok.injEq] at h4
  subst h4
  rw [h5, h3]

/-- A tag with a title and six bytes of padding. -/
def titleTag : Tag := toTag 3 0 0 20 [.text [0x54, 0x49, 0x54, 0x32] [0, 0] (.latin [0x48, 0x69])] 0

set_option maxRecDepth 4000 in
/-- The claims above are about real writes: a title written twice to a file with an older tag. -/
example : @writeAll strict [titleTag, titleTag] (some (ofB ([0x49, 0x44, 0x33, 4, 0, 0, 0, 0, 0, 1, 7] ++ [1, 2, 3]))) =
    .ok (some (ofB (tagBytes 0 0 [.text [0x54, 0x49, 0x54, 0x32] [0, 0] (.latin [0x48, 0x69])] 6 ++ [1, 2, 3]))) ∧
    Writable titleTag := by
  decide

/-- **C22** for tags of every size: if the write returns, the file is the tag followed by the audio of the old file, its
length is 10 + tag size + length of the audio, and deleting removes only 10 + (tag size modulo 512 MiB) bytes: the rest of
the tag stays in the file, in front of the audio. -/
theorem write_delete_exact [Platform] (contents : List UInt8) (tag tag' : Tag) (file : File)
    (hid : tag.header.identifier = ofB [0x49, 0x44, 0x33])
    (hv : tag.header.major_version = 3 ∨ tag.header.major_version = 4) (hs : tag.header.tag_size < 2 ^ 31)
    (h : ID3v2_write_tag (some (ofB contents)) tag = .ok (file, tag')) :
    ∃ new, file = some (new ++ ofB (audio contents)) ∧ new.length = 10 + tag.header.tag_size ∧
      ID3v2_delete_tag file = .ok (some (new.drop (10 + tag.header.tag_size % 2 ^ 29) ++ ofB (audio contents))) := by
  obtain ⟨cs, hc, rfl⟩ := write_preserves_audio contents tag tag' file hid h
  obtain ⟨t1, t2, rest, t3⟩ := tag_out_inv tag cs hid hc
  have h10 : 10 ≤ cs.stream.length := by rw [t3]; simp
  have hlen : cs.stream.length = 10 + tag.header.tag_size := by
    rw [show (tag.header.tag_size : Int) + 10 = ((10 + tag.header.tag_size : Nat) : Int) from by omega,
      u32_nat (by omega)] at t2
    unfold toInt32 at t2
    split at t2 <;> omega
  refine ⟨cs.stream, rfl, hlen, ?_⟩
  rw [delete_eq _ (10 + tag.header.tag_size % 2 ^ 29) (by
    rw [t3, List.append_assoc]; exact existing_size_headerOut _ _ hv)]
  rw [List.drop_append_of_le_length (by omega)]

/-- **C22**, how large a tag may be: deleting undoes writing exactly for tags of less than 512 MiB. -/
theorem delete_undoes_write_iff [Platform] (contents : List UInt8) (tag tag' : Tag) (file : File)
    (hid : tag.header.identifier = ofB [0x49, 0x44, 0x33])
    (hv : tag.header.major_version = 3 ∨ tag.header.major_version = 4) (hs : tag.header.tag_size < 2 ^ 31)
    (h : ID3v2_write_tag (some (ofB contents)) tag = .ok (file, tag')) :
    ID3v2_delete_tag file = ID3v2_delete_tag (some (ofB contents)) ↔ tag.header.tag_size < 2 ^ 29 := by
  obtain ⟨new, -, hl, hd⟩ := write_delete_exact contents tag tag' file hid hv hs h
  rw [hd, delete_leaves_audio]
  constructor
  · intro e
    have e := congrArg List.length (Option.some.inj (Res.ok.inj e))
    simp only [List.length_append, List.length_drop] at e
    omega
  · intro hn
    rw [List.drop_eq_nil_of_le (by omega)]
    rfl

/-- **C22**: writing a second time replaces the first tag exactly if the first is smaller than 512 MiB; the new file is
the second tag, what deleting would have left of the first, and the audio. -/
theorem write_over_exact [Platform] (contents : List UInt8) (tag₁ tag₁' tag₂ tag₂' : Tag) (file₁ file₂ : File)
    (hid₁ : tag₁.header.identifier = ofB [0x49, 0x44, 0x33])
    (hv : tag₁.header.major_version = 3 ∨ tag₁.header.major_version = 4) (hs : tag₁.header.tag_size < 2 ^ 31)
    (hid₂ : tag₂.header.identifier = ofB [0x49, 0x44, 0x33])
    (h₁ : ID3v2_write_tag (some (ofB contents)) tag₁ = .ok (file₁, tag₁'))
    (h₂ : ID3v2_write_tag file₁ tag₂ = .ok (file₂, tag₂')) :
    ∃ cs left, Tag_to_char_stream tag₂ = .ok cs ∧ ID3v2_delete_tag file₁ = .ok (some (left ++ ofB (audio contents))) ∧
      left.length = tag₁.header.tag_size - tag₁.header.tag_size % 2 ^ 29 ∧
      file₂ = some (cs.stream ++ (left ++ ofB (audio contents))) := by
  obtain ⟨cs, hc, rfl⟩ := write_preserves_audio contents tag₁ tag₁' file₁ hid₁ h₁
  obtain ⟨new, hf, hl, hd⟩ := write_delete_exact contents tag₁ tag₁' _ hid₁ hv hs h₁
  have hn : cs.stream = new := List.append_cancel_right (Option.some.inj hf)
  subst hn
  obtain ⟨-, -, rest, t3⟩ := tag_out_inv tag₁ cs hid₁ hc
  have he : existingTagSize (some (cs.stream ++ ofB (audio contents))) =
      .ok (10 + tag₁.header.tag_size % 2 ^ 29 : Nat) := by
    rw [t3, List.append_assoc]; exact existing_size_headerOut _ _ hv
  obtain ⟨p1, p2⟩ := write_range _ _ _ h₂
  rw [write_tag_eq _ _ tag₂ hid₂ he p1 p2] at h₂
  obtain ⟨cs₂, hc₂, h₂⟩ := Res.bind_eq_ok.mp h₂
  simp only [Res.ok.injEq, Prod.mk.injEq] at h₂
  refine ⟨cs₂, _, hc₂, hd, by rw [List.length_drop]; omega, ?_⟩
  rw [← h₂.1, List.drop_append_of_le_length (by omega)]

/-- A new tag that announces `n` bytes. -/
def hugeTag (n : Nat) : Tag :=
  { ID3v2_Tag_new_empty with header := { ID3v2_Tag_new_empty.header with tag_size := n } }

/-- Such writes exist: tags of every size can be written, so that both sides of `delete_undoes_write_iff` occur. -/
theorem oversized_write [Platform] (contents : List UInt8) (n : Nat) (hn : n + 10 < 2 ^ 31) :
    ∃ file tag', ID3v2_write_tag (some (ofB contents)) (hugeTag n) = .ok (file, tag') := by
  have hc := tag_header_out (hugeTag n) rfl (by show n + 10 ≤ _; omega)
  obtain ⟨tag', h⟩ := write_succeeds contents (hugeTag n) _ rfl hc (Int.le_refl 0) (show (0 : Int) ≤ _ by decide)
  exact ⟨_, tag', h⟩

/-- **C22** needs a limit on the size: deleting a tag of 512 MiB leaves all of it but the header in the file. -/
theorem oversized_tag_forgotten [Platform] (contents : List UInt8) : ∃ file tag' new,
    ID3v2_write_tag (some (ofB contents)) (hugeTag (2 ^ 29)) = .ok (file, tag') ∧ new.length = 2 ^ 29 ∧
      ID3v2_delete_tag file = .ok (some (new ++ ofB (audio contents))) := by
  obtain ⟨file, tag', h⟩ := oversized_write contents (2 ^ 29) (by decide)
  obtain ⟨new, -, hl, hd⟩ := write_delete_exact contents _ tag' file rfl (.inl rfl) (by decide) h
  refine ⟨file, tag', _, h, ?_, hd⟩
  rw [List.length_drop, hl]
  show 10 + 2 ^ 29 - (10 + 2 ^ 29 % 2 ^ 29) = 2 ^ 29
  omega

/-! ## C20: write, then read -/

/-- **C20**, what holds: a version 2.3 tag of frames that can be read back, with room for them, is returned by
`ID3v2_read_tag` after having been written to any file. Missing: version 2.4 with frames of 256 bytes or more (C12),
frames the parser cannot handle (C11), and tags that cannot be written (C33). -/
theorem write_then_read_partial [Platform] (contents : List UInt8) (minor flags : UInt8) (fs : List SFrame) (padding : Nat)
    (p : Int) (hflag : flags &&& 0x40 = 0) (hR : ∀ f ∈ fs, f.Readable) (hs : framesSize fs + padding < 2 ^ 28)
    (hlast : 0 < padding ∨ ∀ f, fs.getLast? = some f → f.body ≠ []) (hp : 0 ≤ p) (hp2 : p ≤ 2147483647) :
    ∃ file tag' tag'', ID3v2_write_tag (some (ofB contents)) (toTag 3 minor flags (framesSize fs + padding) fs p) =
        .ok (file, tag') ∧
      ID3v2_read_tag file = .ok (some tag'') ∧ tag''.frames = tag'.frames ∧ tag''.header = tag'.header ∧
      tag''.padding_size = padding := by
  obtain ⟨tag', h⟩ := write_bytes contents minor flags fs padding p (fun f hf => (hR f hf).1) hs hp hp2
  have hr := read_tag_bytes_partial minor flags fs padding [] hflag hR hs hlast
  rw [List.append_nil] at hr
  have e : ofB (tagBytes minor flags fs padding ++ audio contents) =
      ofB (tagHeaderBytes 3 minor flags (framesSize fs + padding)) ++
        ofB (fs.flatMap SFrame.bytes ++ List.replicate padding 0) ++ ofB (audio contents) := by
    simp [tagBytes]
  have e2 : ofB (tagBytes minor flags fs padding) =
      ofB (tagHeaderBytes 3 minor flags (framesSize fs + padding)) ++
        ofB (fs.flatMap SFrame.bytes ++ List.replicate padding 0) := by
    simp [tagBytes]
  refine ⟨_, tag', toTag 3 minor flags (framesSize fs + padding) fs padding, h, ?_, ?_, ?_, ?_⟩
  · rw [e, read_tag_prefix 3 minor flags _ _ _ (Or.inl rfl) hs (by rw [ofB_length, List.length_append, flatMap_bytes_length, List.length_replicate]), ← e2, ← hr, Nat.add_assoc]
  all_goals
    have hw := write_tag_eq (ofB contents) (tagLength contents) (toTag 3 minor flags (framesSize fs + padding) fs p) rfl
      (existing_size contents) (show -2147481599 ≤ p by omega) hp2
    rw [h] at hw
    obtain ⟨cs, -, hw⟩ := Res.bind_eq_ok.mp hw.symm
    simp only [Res.ok.injEq, Prod.mk.injEq] at hw
    first
      | rfl
      | rw [← hw.2]; rfl

/-- **C20** for a whole session: start from a new tag or a version 2.3 tag read earlier, make any safe sequence of calls,
write the tag to a file and read the file: the frames are those of the specification. -/
theorem session_roundtrip_partial [Platform] (contents : List UInt8) (tag : Tag) (st : State) (ops : List Op) (rest : Bytes)
    (hstart : Start tag st) (hs : SafeHistory ops st)
    (hv : tag.header.major_version = 3) (hflag : tag.header.flags &&& 0x40 = 0)
    (hroom : 0 < (applyAll ops st).room) (hsz : (applyAll ops st).size < 2 ^ 28)
    (hR : ∀ f ∈ (applyAll ops st).frames, f.Readable)
    (hp : 0 ≤ tag.padding_size) (hp2 : tag.padding_size ≤ 2147483647) :
    ∃ tag' file tag'' final, runAll rest ops tag = .ok tag' ∧
      ID3v2_write_tag (some (ofB contents)) tag' = .ok (file, tag'') ∧
      ID3v2_read_tag file = .ok (some final) ∧
      final.frames = toFrameList (applyAll ops st).frames ∧ final.header = tag'.header := by
  obtain ⟨hu, major, minor, flags, ht⟩ := start_eq tag st hstart
  obtain ⟨h1, h2⟩ := history_step major minor flags tag.padding_size rest ops st hu hs
  rw [← ht] at h1
  have hm : major = 3 := by rw [ht] at hv; exact hv
  have hfl : flags &&& 0x40 = 0 := by rw [ht] at hflag; exact hflag
  subst hm
  obtain ⟨n, hn⟩ : ∃ n : Nat, (applyAll ops st).room = n := ⟨(applyAll ops st).room.toNat, by omega⟩
  have hsize : (applyAll ops st).size = ((framesSize (applyAll ops st).frames + n : Nat) : Int) := by
    unfold State.size; rw [hn]; rfl
  have hsz' : framesSize (applyAll ops st).frames + n < 2 ^ 28 := by omega
  have e : tagOf 3 minor flags (applyAll ops st) tag.padding_size =
      toTag 3 minor flags (framesSize (applyAll ops st).frames + n) (applyAll ops st).frames tag.padding_size := by
    unfold tagOf
    rw [hsize, u32_nat (by omega)]
  rw [e] at h1
  obtain ⟨file, t1, t2, w1, w2, w3, w4, -⟩ := write_then_read_partial contents minor flags (applyAll ops st).frames n
    tag.padding_size hfl hR hsz' (Or.inl (by omega)) hp hp2
  have hw := write_tag_eq (ofB contents) (tagLength contents)
    (toTag 3 minor flags (framesSize (applyAll ops st).frames + n) (applyAll ops st).frames tag.padding_size) rfl
      (existing_size contents) (show -2147481599 ≤ tag.padding_size by omega) hp2
  rw [w1] at hw
  obtain ⟨cs, -, hw⟩ := Res.bind_eq_ok.mp hw.symm
  simp only [Res.ok.injEq, Prod.mk.injEq] at hw
  refine ⟨_, file, t1, t2, h1, w1, w2, ?_, ?_⟩
  · rw [w3, ← hw.2]; rfl
  · rw [w4, ← hw.2]

/-- Such a session: a tag read from a file with 100 bytes of padding, a new title, a new comment, the picture deleted. -/
def sampleSession : List Op :=
  [.setText [0x54, 0x49, 0x54, 0x32] [0, 0] (.latin [0x48, 0x6F, 0x21]),
   .addComment [0, 0] [0x65, 0x6E, 0x67] (.latin [0x62]) (.latin [0x63]), .deleteApic 0]

example : ∃ tag st, @Start strict tag st ∧ @SafeHistory strict sampleSession st ∧ tag.header.major_version = 3 ∧
    tag.header.flags &&& 0x40 = 0 ∧ 0 < (applyAll sampleSession st).room ∧ (applyAll sampleSession st).size < 2 ^ 28 ∧
    (∀ f ∈ (applyAll sampleSession st).frames, @SFrame.Readable strict f) ∧ 0 ≤ tag.padding_size ∧
    tag.padding_size ≤ 2147483647 ∧ (applyAll sampleSession st).frames.length = 4 :=
  ⟨_, _, @start_read strict 3 0 0 (sampleFrames.map Wire.ofSFrame) 100 (Or.inl rfl) (by decide) (by decide) (by decide)
    (by decide), by decide, by decide, by decide, by decide, by decide, by decide, by decide, by decide, by decide⟩

/-! ## C24: padding -/

/-- The claim of C24: the tag in a written file has at least 2048 bytes of padding. -/
def C24_claim : Prop :=
  ∀ [Platform] (contents : List UInt8) (tag tag' tag'' : Tag) (file : File), Writable tag →
    ID3v2_write_tag (some (ofB contents)) tag = .ok (file, tag') → ID3v2_read_tag file = .ok (some tag'') →
    2048 ≤ tag''.padding_size

/-- **C24** never holds for a tag with less room: the padding is noted in the in-memory tag but not written. The file has
exactly the padding for which the tag size has room, whatever `padding_size` says. -/
theorem padding_in_file_partial [Platform] (contents : List UInt8) (minor flags : UInt8) (fs : List SFrame) (padding : Nat)
    (p : Int) (hflag : flags &&& 0x40 = 0) (hR : ∀ f ∈ fs, f.Readable) (hs : framesSize fs + padding < 2 ^ 28)
    (hlast : 0 < padding ∨ ∀ f, fs.getLast? = some f → f.body ≠ []) (hp : 0 ≤ p) (hp2 : p ≤ 2147483647) :
    ∃ file tag' tag'', ID3v2_write_tag (some (ofB contents)) (toTag 3 minor flags (framesSize fs + padding) fs p) =
        .ok (file, tag') ∧
      2048 ≤ tag'.padding_size ∧ ID3v2_read_tag file = .ok (some tag'') ∧ tag''.padding_size = padding := by
  obtain ⟨file, t1, t2, w1, w2, -, -, w5⟩ := write_then_read_partial contents minor flags fs padding p hflag hR hs hlast hp hp2
  refine ⟨file, t1, t2, w1, ?_, w2, w5⟩
  have hw := write_tag_eq (ofB contents) (tagLength contents) (toTag 3 minor flags (framesSize fs + padding) fs p) rfl
      (existing_size contents) (show -2147481599 ≤ p by omega) hp2
  rw [w1] at hw
  obtain ⟨cs, -, hw⟩ := Res.bind_eq_ok.mp hw.symm
  simp only [Res.ok.injEq, Prod.mk.injEq] at hw
  rw [← hw.2]
  show 2048 ≤ notedPadding p
  rw [noted_eq]
  split
  · omega
  · split <;> omega

theorem C24_false : ¬ C24_claim := by
  intro h
  obtain ⟨file, t1, t2, w1, -, w2, w3⟩ := @padding_in_file_partial strict [1, 2, 3] 0 0 sampleFrames 5 0 (by decide)
    (by decide) (by decide) (by decide) (by decide) (by decide)
  have := @h strict _ _ _ _ _ ⟨rfl, Or.inl rfl, by decide⟩ w1 w2
  omega

/-! ## C45: what a write changes -/

/-- **C45**: the file begins with "ID3", the version, revision and flags of the tag and its size; the in-memory tag keeps
its header and frames, and its padding size becomes 2048 unless it was larger. For every file and every tag whose
padding size is not negative. -/
theorem write_effect [Platform] (contents : List UInt8) (tag tag' : Tag) (file : File) (hw : Writable tag)
    (hp : 0 ≤ tag.padding_size)
    (h : ID3v2_write_tag (some (ofB contents)) tag = .ok (file, tag')) :
    (∃ rest, file = some (ofB (tagHeaderBytes tag.header.major_version tag.header.minor_version tag.header.flags
        tag.header.tag_size) ++ rest)) ∧
      tag'.header = tag.header ∧ tag'.frames = tag.frames ∧ 2048 ≤ tag'.padding_size ∧
      tag'.padding_size = if tag.padding_size < 2048 then 2048 else tag.padding_size := by
  have hr := write_range _ _ _ h
  rw [write_tag_eq _ (tagLength contents) tag hw.1 (existing_size contents) hr.1 hr.2] at h
  obtain ⟨cs, hc, h⟩ := Res.bind_eq_ok.mp h
  simp only [Res.ok.injEq, Prod.mk.injEq] at h
  obtain ⟨-, -, rest, t3⟩ := tag_out_inv tag cs hw.1 hc
  have e : notedPadding tag.padding_size = if tag.padding_size < 2048 then 2048 else tag.padding_size := by
    rw [noted_eq, if_neg (by omega)]
  refine ⟨⟨rest ++ (ofB contents).drop (tagLength contents), ?_⟩, ?_, ?_, ?_, ?_⟩
  · rw [← h.1, t3, headerOut_eq _ hw.2.2, List.append_assoc]
  · rw [← h.2]
  · rw [← h.2]
  · rw [← h.2]; show 2048 ≤ notedPadding _; rw [e]; split <;> omega
  · rw [← h.2]; exact e

/-- A negative padding size is possible: an extended header that claims to be longer than the tag. Such a tag is written
with a padding size below 2048. -/
theorem negative_padding : ∃ t, @ID3v2_read_tag_from_buffer strict
    (ofB [0x49, 0x44, 0x33, 3, 0, 0x40, 0, 0, 0, 20, 0, 0, 7, 0x68, 0, 0, 0, 0, 0, 0, 0, 0, 0, 0, 0, 0, 0, 0, 0, 0]) 30 =
      .ok (some t) ∧ t.padding_size = -970 := ⟨_, rfl, by decide⟩

/-! ## C46: writing to a file that cannot be opened -/

/-- The claim of C46: writing to a missing file does nothing (or creates it), but does not crash. -/
def C46_claim : Prop := ∀ [Platform] (tag : Tag), ∃ r, ID3v2_write_tag none tag = .ok r

/-- **C46** never holds: whatever the tag, the call does not return normally, and if the tag can be serialised a null
pointer is dereferenced. -/
theorem write_missing_file [Platform] (tag : Tag) :
    (∀ r, ID3v2_write_tag none tag ≠ .ok r) ∧
    (∀ cs, tag.header.identifier = ofB [0x49, 0x44, 0x33] → 0 ≤ tag.padding_size → tag.padding_size ≤ 2147483647 →
      Tag_to_char_stream tag = .ok cs → ID3v2_write_tag none tag = .ub .nullDeref) := by
  constructor
  · intro r h
    unfold ID3v2_write_tag at h
    obtain ⟨n, -, h⟩ := Res.bind_eq_ok.mp h
    obtain ⟨a, -, h⟩ := Res.bind_eq_ok.mp h
    obtain ⟨b, -, h⟩ := Res.bind_eq_ok.mp h
    obtain ⟨c, -, h⟩ := Res.bind_eq_ok.mp h
    obtain ⟨d, -, h⟩ := Res.bind_eq_ok.mp h
    simp at h
  · intro cs hid hp hp2 hc
    have hb : -2147483648 ≤ notedPadding tag.padding_size ∧ notedPadding tag.padding_size ≤ 2147483647 := by
      rw [noted_eq]; split
      · omega
      · split <;> omega
    unfold ID3v2_write_tag existingTagSize
    rw [read_header_missing]
    simp only [Res.bind_ok, Res.pure_eq]
    rw [show ck (2048 - tag.padding_size) = .ok (2048 - tag.padding_size) from by unfold ck; rw [if_pos (by omega)]]
    simp only [Res.bind_ok]
    rw [show ck (tag.padding_size + clamp_int (2048 - tag.padding_size) 0 2048) = .ok (notedPadding tag.padding_size) from by
      unfold ck; exact if_pos hb]
    simp only [Res.bind_ok]
    rw [tag_out_padding, hc]
    simp only [Res.bind_ok]
    obtain ⟨h1, -, -⟩ := tag_out_inv tag cs hid hc
    rw [memcpySrc_self _ _ h1.symm]
    simp

theorem C46_false : ¬ C46_claim := by
  intro h
  obtain ⟨r, hr⟩ := @h strict ID3v2_Tag_new_empty
  exact (@write_missing_file strict ID3v2_Tag_new_empty).1 r hr

/-- **C46**, what holds: reading, deleting, and writing a NULL tag do nothing for a missing file. -/
theorem missing_file_partial [Platform] : ID3v2_read_tag none = .ok none ∧ ID3v2_read_tag_header none = .ok none ∧
    ID3v2_delete_tag none = .ok none ∧ ID3v2_write_tag_ptr none none = .ok (none, none) := ⟨rfl, rfl, rfl, rfl⟩

end Id3.Props
