import Verif.Spec.Effects
import Verif.Proof.Defect
import Verif.Proof.V24
import Verif.Props.Exact
import Verif.Props.File

/-!
# C11, C20: exactly what reading a tag does, whatever its frames

The theorems of `Props/Tag.lean` and `Props/File.lean` on reading are about frames that the parser can handle. Here are the
others: the first frame that the parser cannot handle is fatal, and nothing else goes wrong.
-/

namespace Id3.Props

open Id3 Spec

theorem bytes_enc (version : UInt8) : Wire.bytes version = encBytes (fun w => sizeBytes version w.sizeField) := rfl

theorem sane_coded [Platform] (version : UInt8) (w : Wire) (h : w.Sane version) :
    w.Coded version (fun w => sizeBytes version w.sizeField) :=
  ⟨h.1, h.2.1, by simp, sizeBytes_read version _ h.2.2⟩

/-- **C11, C13, C14**, exactly: reading a buffer that holds a tag of any frames (well-formed, with strings that the library
can handle and sizes that fit the size fields) and anything behind it. -/
theorem read_exact [Platform] (version minor flags : UInt8) (ws : List Wire) (padding : Nat) (after : Bytes)
    (hv : version = 3 ∨ version = 4) (hflag : flags &&& 0x40 = 0) (hR : ∀ w ∈ ws, w.Sane version)
    (hs : (ws.flatMap (Wire.bytes version)).length + padding < 2 ^ 28) :
    ID3v2_read_tag_from_buffer (ofB (wireTagBytes version minor flags ws padding) ++ after)
        (10 + (ws.flatMap (Wire.bytes version)).length + padding : Nat) =
      outcome version minor flags ((ws.flatMap (Wire.bytes version)).length + padding) ws padding := by
  unfold ID3v2_read_tag_from_buffer
  rw [from_buffer_csAt _ after _ (by simp [wireTagBytes, tagHeaderBytes, synchsafe]; omega)]
  simp only [Res.bind_ok]
  exact tag_parse_exact version minor flags _ ws padding hv hflag (fun w hw => sane_coded version w (hR w hw)) hs

/-- **C11**, exactly: a tag is read with all its frames if and only if each of them fits the parser's arrays and the last
one is not an empty frame at the very end. -/
theorem read_all_iff [Platform] (version minor flags : UInt8) (ws : List Wire) (padding : Nat) (after : Bytes)
    (hv : version = 3 ∨ version = 4) (hflag : flags &&& 0x40 = 0) (hR : ∀ w ∈ ws, w.Sane version)
    (hs : (ws.flatMap (Wire.bytes version)).length + padding < 2 ^ 28) :
    (∃ t, ID3v2_read_tag_from_buffer (ofB (wireTagBytes version minor flags ws padding) ++ after)
        (10 + (ws.flatMap (Wire.bytes version)).length + padding : Nat) = .ok (some t) ∧
        t.frames = toFrameList (ws.map Wire.kept)) ↔
      lastSeen ws padding ∧ ∀ w ∈ ws, w.FitsStack := by
  rw [read_exact version minor flags ws padding after hv hflag hR hs]
  have hsl := seen_lost ws padding
  have hiff : lastSeen ws padding ↔ lostFrames ws padding = [] := by
    unfold lastSeen lostFrames
    cases h : ws.getLast? with
    | none => simp
    | some w =>
      simp only [Option.some.injEq, forall_eq']
      split
      · next hp => simp [hp.1, hp.2]
      · next hp =>
        refine ⟨fun _ => rfl, fun _ => ?_⟩
        by_cases h0 : padding = 0
        · exact Or.inr (fun hb => hp ⟨h0, hb⟩)
        · exact Or.inl (by omega)
  constructor
  · rintro ⟨t, h1, h2⟩
    unfold outcome at h1
    split at h1
    · simp at h1
    next hd =>
    simp only [Res.ok.injEq, Option.some.injEq] at h1
    rw [← h1, toTag_frames] at h2
    have hlost : lostFrames ws padding = [] := by
      by_cases hl : lostFrames ws padding = []
      · exact hl
      · exfalso
        have h3 : ws.map Wire.kept = (seenFrames ws padding).map Wire.kept ++ (lostFrames ws padding).map Wire.kept := by
          conv => lhs; rw [hsl, List.map_append]
        have hne : ws.map Wire.kept ≠ [] := by
          rw [h3]; simp [hl]
        have hl1 : (toFrameList (ws.map Wire.kept)).length = (ws.map Wire.kept).length := by
          cases h : ws.map Wire.kept with
          | nil => exact absurd h hne
          | cons f fs => simp [toFrameList]
        have hpos := List.length_pos_iff.mpr hl
        cases hs' : (seenFrames ws padding).map Wire.kept with
        | nil =>
          rw [hs'] at h2
          cases h : ws.map Wire.kept with
          | nil => exact absurd h hne
          | cons f fs => rw [h] at h2; simp [toFrameList] at h2
        | cons g gs =>
          have := congrArg List.length h2
          rw [hl1, h3, hs'] at this
          simp [toFrameList] at this
          exact hl this
    refine ⟨hiff.mpr hlost, ?_⟩
    intro w hw
    rw [hlost, List.append_nil] at hsl
    rw [← hsl, List.findSome?_eq_none_iff] at hd
    exact (defect_none w).mp (hd w hw)
  · rintro ⟨h1, h2⟩
    have hlost := hiff.mp h1
    rw [hlost, List.append_nil] at hsl
    unfold outcome
    have hd : ws.findSome? Wire.defect = none := by
      rw [List.findSome?_eq_none_iff]
      intro w hw
      exact (defect_none w).mpr (h2 w hw)
    rw [← hsl, hd]
    exact ⟨_, rfl, rfl⟩

/-! ## Tags written by the library -/

theorem defect_ofSFrame [Platform] (f : SFrame) : (Wire.ofSFrame f).defect = f.defect := by
  cases f <;> simp [Wire.ofSFrame, Wire.defect, SFrame.defect]

/-- How a frame that the library has written looks in a tag of the given version: in version 2.4 the size field is read as
a synchsafe integer (for comments, whose size is not used, as any number). -/
def asWritten (version : UInt8) : SFrame → Wire
  | .comment flags lang desc txt =>
    .comment commId flags (decSize version (be32 (SFrame.comment flags lang desc txt).body.length)).toNat txt.encoding lang desc
      txt
  | f => Wire.ofSFrame f

theorem asWritten_coded [Platform] (version : UInt8) (f : SFrame) (hv : version = 3 ∨ version = 4) (hu : f.Usable)
    (hsm : SmallIn version f) : (asWritten version f).Coded version (fun w => be32 w.body.length) := by
  have hlen := hu.2.1
  rw [SFrame.bytes_length _ hu.1] at hlen
  have hwf := ofSFrame_WF f hu.1
  have hdec : version = 4 ∨ decSize version (be32 f.body.length) = (f.body.length : Nat) := by
    rcases hv with h | h
    · right
      have := sizeBytes_read version f.body.length (by subst h; simp [maxFrameSize]; omega)
      unfold decSize
      subst h
      exact this
    · exact Or.inl h
  cases f with
  | comment a b c d =>
    refine ⟨hwf, hu, rfl, ?_⟩
    show decSize version (be32 (SFrame.comment a b c d).body.length) = _
    obtain ⟨m, hm⟩ : ∃ m : Nat, decSize version (be32 (SFrame.comment a b c d).body.length) = m := by
      rcases hdec with h | h
      · subst h; exact ⟨_, decSize_four _⟩
      · exact ⟨_, h⟩
    rw [hm]
    show (m : Int) = ((decSize version (be32 (SFrame.comment a b c d).body.length)).toNat : Nat)
    rw [hm]; simp
  | text a b c =>
    refine ⟨hwf, hu, rfl, ?_⟩
    show decSize version (be32 (Wire.ofSFrame (SFrame.text a b c)).body.length) = _
    rw [ofSFrame_body]
    rcases hdec with h | h
    · rcases hsm h with ⟨_, _, _, _, h'⟩ | h'
      · simp at h'
      · subst h; rw [decSize_be32_small _ h']; exact congrArg _ (ofSFrame_sizeField (.text a b c)).symm
    · rw [h]; exact congrArg _ (ofSFrame_sizeField (.text a b c)).symm
  | apic a b c d e =>
    refine ⟨hwf, hu, rfl, ?_⟩
    show decSize version (be32 (Wire.ofSFrame (SFrame.apic a b c d e)).body.length) = _
    rw [ofSFrame_body]
    rcases hdec with h | h
    · rcases hsm h with ⟨_, _, _, _, h'⟩ | h'
      · simp at h'
      · subst h; rw [decSize_be32_small _ h']; exact congrArg _ (ofSFrame_sizeField (.apic a b c d e)).symm
    · rw [h]; exact congrArg _ (ofSFrame_sizeField (.apic a b c d e)).symm
  | other a b c =>
    refine ⟨hwf, hu, rfl, ?_⟩
    show decSize version (be32 (Wire.ofSFrame (SFrame.other a b c)).body.length) = _
    rw [ofSFrame_body]
    rcases hdec with h | h
    · rcases hsm h with ⟨_, _, _, _, h'⟩ | h'
      · simp at h'
      · subst h; rw [decSize_be32_small _ h']; exact congrArg _ (ofSFrame_sizeField (.other a b c)).symm
    · rw [h]; exact congrArg _ (ofSFrame_sizeField (.other a b c)).symm

theorem asWritten_body (version : UInt8) (f : SFrame) : (asWritten version f).body = f.body := by
  cases f with
  | comment => simp [asWritten, Wire.body, SFrame.body]
  | text a b c => exact ofSFrame_body (.text a b c)
  | apic a b c d e => exact ofSFrame_body (.apic a b c d e)
  | other a b c => exact ofSFrame_body (.other a b c)

theorem asWritten_kept (version : UInt8) (f : SFrame) : (asWritten version f).kept = f := by
  cases f <;> rfl

theorem asWritten_defect [Platform] (version : UInt8) (f : SFrame) : (asWritten version f).defect = f.defect := by
  cases f with
  | comment => rfl
  | text a b c => exact defect_ofSFrame (.text a b c)
  | apic a b c d e => exact defect_ofSFrame (.apic a b c d e)
  | other a b c => exact defect_ofSFrame (.other a b c)

theorem asWritten_bytes (version : UInt8) (f : SFrame) : encBytes (fun w => be32 w.body.length) (asWritten version f) = f.bytes := by
  unfold encBytes
  dsimp only
  rw [asWritten_body]
  cases f with
  | comment => simp [asWritten, Wire.bytesWith, Wire.id, Wire.flags, Wire.body, SFrame.bytes, SFrame.id, SFrame.flags, SFrame.body]
  | text a b c => exact ofSFrame_bytesWith (.text a b c) _
  | apic a b c d e => exact ofSFrame_bytesWith (.apic a b c d e) _
  | other a b c => exact ofSFrame_bytesWith (.other a b c) _

theorem outcome_written [Platform] (version minor flags : UInt8) (fs : List SFrame) (padding : Nat) :
    outcome version minor flags (framesSize fs + padding) (fs.map (asWritten version)) padding =
      readBack version minor flags fs padding := by
  have h1 : seenFrames (fs.map (asWritten version)) padding =
      (if LastLost fs padding then fs.dropLast else fs).map (asWritten version) := by
    unfold seenFrames
    rw [List.getLast?_map]
    by_cases hl : LastLost fs padding
    · rw [if_pos hl]
      obtain ⟨h0, f, hf, hb⟩ := hl
      rw [hf]
      simp only [Option.map_some]
      rw [if_pos ⟨h0, by rw [asWritten_body]; exact hb⟩, List.map_dropLast]
    · rw [if_neg hl]
      cases h : fs.getLast? with
      | none => rfl
      | some f =>
        simp only [Option.map_some]
        rw [if_neg (fun hh => hl ⟨hh.1, f, h, by rw [← asWritten_body version]; exact hh.2⟩)]
  have h2 : seenPadding (fs.map (asWritten version)) padding = if LastLost fs padding then 10 else padding := by
    unfold seenPadding
    rw [List.getLast?_map]
    by_cases hl : LastLost fs padding
    · rw [if_pos hl]
      obtain ⟨h0, f, hf, hb⟩ := hl
      rw [hf]
      simp only [Option.map_some]
      rw [if_pos ⟨h0, by rw [asWritten_body]; exact hb⟩]
    · rw [if_neg hl]
      cases h : fs.getLast? with
      | none => rfl
      | some f =>
        simp only [Option.map_some]
        rw [if_neg (fun hh => hl ⟨hh.1, f, h, by rw [← asWritten_body version]; exact hh.2⟩)]
  unfold outcome readBack
  dsimp only
  rw [h1, h2]
  generalize (if LastLost fs padding then fs.dropLast else fs) = l
  have h4 : (l.map (asWritten version)).map Wire.kept = l := by
    induction l with
    | nil => rfl
    | cons f l ih => simp only [List.map_cons, asWritten_kept]; rw [ih]
  have h3 : (l.map (asWritten version)).findSome? Wire.defect = l.findSome? SFrame.defect := by
    clear h4
    induction l with
    | nil => rfl
    | cons f l ih => simp only [List.map_cons, List.findSome?_cons, asWritten_defect, ih]
  rw [h3, h4]

/-- **C11, C12**, exactly: reading a tag that the library has written (version 2.3, or version 2.4 with small frames). -/
theorem read_back_exact [Platform] (version minor flags : UInt8) (fs : List SFrame) (padding : Nat) (after : Bytes)
    (hv : version = 3 ∨ version = 4) (hflag : flags &&& 0x40 = 0) (hu : ∀ f ∈ fs, f.Usable)
    (hsm : ∀ f ∈ fs, SmallIn version f) (hs : framesSize fs + padding < 2 ^ 28) :
    ID3v2_read_tag_from_buffer (ofB (outBytes version minor flags fs padding) ++ after) (10 + framesSize fs + padding : Nat) =
      readBack version minor flags fs padding := by
  have hflat : (fs.map (asWritten version)).flatMap (encBytes (fun w => be32 w.body.length)) = fs.flatMap SFrame.bytes := by
    rw [List.flatMap_map]
    congr 1
    funext f
    exact asWritten_bytes version f
  have hl := flatMap_bytes_length fs
  have e : outBytes version minor flags fs padding =
      encTagBytes version minor flags (fun w => be32 w.body.length) (fs.map (asWritten version)) padding := by
    unfold outBytes encTagBytes
    rw [hflat, hl]
  unfold ID3v2_read_tag_from_buffer
  rw [from_buffer_csAt _ after _ (by simp [outBytes, tagHeaderBytes, synchsafe, hl]; omega)]
  simp only [Res.bind_ok]
  rw [e, tag_parse_exact version minor flags _ _ padding hv hflag (by
    intro w hw
    obtain ⟨f, hf, rfl⟩ := List.mem_map.mp hw
    exact asWritten_coded version f hv (hu f hf) (hsm f hf)) (by rw [hflat, hl]; exact hs), hflat, hl]
  exact outcome_written version minor flags fs padding

/-- **C20**, exactly: reading a file that starts with a tag that the library has written. -/
theorem read_file_exact [Platform] (version minor flags : UInt8) (fs : List SFrame) (padding : Nat) (rest : List UInt8)
    (hv : version = 3 ∨ version = 4) (hflag : flags &&& 0x40 = 0) (hu : ∀ f ∈ fs, f.Usable)
    (hsm : ∀ f ∈ fs, SmallIn version f) (hs : framesSize fs + padding < 2 ^ 28) :
    ID3v2_read_tag (some (ofB (outBytes version minor flags fs padding ++ rest))) =
      readBack version minor flags fs padding := by
  have e : ofB (outBytes version minor flags fs padding ++ rest) =
      ofB (tagHeaderBytes version minor flags (framesSize fs + padding)) ++
        ofB (fs.flatMap SFrame.bytes ++ List.replicate padding 0) ++ ofB rest := by
    simp [outBytes]
  have e2 : ofB (outBytes version minor flags fs padding) =
      ofB (tagHeaderBytes version minor flags (framesSize fs + padding)) ++
        ofB (fs.flatMap SFrame.bytes ++ List.replicate padding 0) := by
    simp [outBytes]
  rw [e, read_tag_prefix version minor flags _ _ _ hv hs
    (by rw [ofB_length, List.length_append, flatMap_bytes_length, List.length_replicate]), ← e2]
  have := read_back_exact version minor flags fs padding [] hv hflag hu hsm hs
  rw [List.append_nil, Nat.add_assoc] at this
  exact this

theorem start_header [Platform] (tag : Tag) (st : State) (h : Start tag st) :
    (tag.header.major_version = 3 ∨ tag.header.major_version = 4) ∧ tag.header.flags &&& 0x40 = 0 ∧
      0 ≤ tag.padding_size ∧ tag.padding_size < 2 ^ 28 := by
  cases h with
  | new => exact ⟨Or.inl rfl, rfl, by decide, by decide⟩
  | read version minor flags ws padding tag hv hflag hR hs hlast h =>
    have h1 := beyond_length_ignored version minor flags ws padding [] hv hflag hR hs hlast
    rw [List.append_nil, h, Res.ok.injEq, Option.some.injEq] at h1
    rw [h1]
    exact ⟨hv, hflag, by simp [toTag], by simp only [toTag]; omega⟩

/-- **C19, C20** for every session: the file after writing, whatever the calls were. -/
theorem session_file [Platform] (contents : List UInt8) (tag : Tag) (st : State) (ops : List Op) (rest : Bytes)
    (st' : Full) (b : List UInt8) (hstart : Start tag st) (hvalid : ∀ op ∈ ops, op.Valid)
    (he : effectAll ops st.full = some st') (hser : Full.serialise st' = .bytes b) (hsz : st'.size < 2 ^ 28) :
    ∃ tag' tag'' file, runAll rest ops tag = .ok tag' ∧
      ID3v2_write_tag (some (ofB contents)) tag' = .ok (file, tag'') ∧
      file = some (ofB (outBytes tag.header.major_version tag.header.minor_version tag.header.flags st'.seen
        (st'.size - framesSize st'.seen).toNat ++ audio contents)) ∧
      (∀ f ∈ st'.seen, f.Usable) ∧ (tag.header.major_version = 3 ∨ tag.header.major_version = 4) ∧
      tag.header.flags &&& 0x40 = 0 ∧ framesSize st'.seen + (st'.size - framesSize st'.seen).toNat < 2 ^ 28 := by
  obtain ⟨hv, hflag, hp, hp2⟩ := start_header tag st hstart
  have hge : (framesSize st'.seen : Int) ≤ st'.size ∧ b = st'.seen.flatMap SFrame.bytes := by
    unfold Full.serialise at hser
    split at hser
    · simp at hser
    · split at hser
      · simp at hser
      · exact ⟨by omega, (Written.bytes.inj hser).symm⟩
  obtain ⟨hge, hb⟩ := hge
  obtain ⟨tag', h1, h2⟩ := serialise_exact tag st ops rest st' hstart hvalid he (by omega) (by omega)
  rw [hser] at h2
  obtain ⟨cs, header, h3, h4, -, h6⟩ := h2
  obtain ⟨hu, major, minor, flags, ht⟩ := start_eq tag st hstart
  obtain ⟨h7, -⟩ := effects_full major minor flags tag.padding_size rest ops st.full (State.full_ok st hu) hvalid
  rw [State.full_tag, ← ht] at h7
  obtain ⟨h8, h9⟩ := h7 st' he
  have e : tag' = fullTag major minor flags st' tag.padding_size := Res.ok.inj (h1.symm.trans h8)
  obtain ⟨n, hn⟩ : ∃ n : Nat, st'.size = (framesSize st'.seen + n : Nat) := ⟨(st'.size - framesSize st'.seen).toNat, by omega⟩
  have hpad : (st'.size - framesSize st'.seen).toNat = n := by omega
  obtain ⟨tag'', hw⟩ := write_succeeds contents tag' cs (by rw [e]; rfl) h3 (by rw [e]; exact hp)
    (by rw [e]; show tag.padding_size ≤ _; omega)
  have hfile : cs.stream ++ ofB (audio contents) =
      ofB (outBytes tag.header.major_version tag.header.minor_version tag.header.flags st'.seen n ++ audio contents) := by
    rw [h4, h6 hsz, hb, hn, Int.toNat_natCast, flatMap_bytes_length, Nat.add_sub_cancel_left, ← ofB_append]
    rfl
  refine ⟨tag', tag'', _, h1, hw, ?_, h9.1, hv, hflag, ?_⟩
  · rw [hfile, hpad]
  · rw [hpad]; omega

/-- **C24**, exactly, for every session: the padding behind the tag in the file is what the tag had to spare at the start,
minus ten bytes for every frame that was created, plus the frames that were deleted by index (and those behind the empty
node, if no frame is seen). Neither `padding_size` nor the default padding counts. -/
theorem session_padding [Platform] (contents : List UInt8) (tag : Tag) (st : State) (ops : List Op) (rest : Bytes)
    (st' : Full) (b : List UInt8) (hstart : Start tag st) (hvalid : ∀ op ∈ ops, op.Valid)
    (he : effectAll ops st.full = some st') (hser : Full.serialise st' = .bytes b) (hsz : st'.size < 2 ^ 28) :
    0 ≤ st.room + gainAll ops st.full + totalSize (st'.hidden.getD []) ∧
    ∃ tag' tag'' file, runAll rest ops tag = .ok tag' ∧
      ID3v2_write_tag (some (ofB contents)) tag' = .ok (file, tag'') ∧
      file = some (ofB (outBytes tag.header.major_version tag.header.minor_version tag.header.flags st'.seen
        (st.room + gainAll ops st.full + totalSize (st'.hidden.getD [])).toNat ++ audio contents)) := by
  have hge : (framesSize st'.seen : Int) ≤ st'.size := by
    unfold Full.serialise at hser
    split at hser
    · simp at hser
    · omega
  obtain ⟨tag', tag'', file, h1, h2, h3, h4, -⟩ := session_file contents tag st ops rest st' b hstart hvalid he hser hsz
  obtain ⟨hu, -⟩ := start_eq tag st hstart
  have h5 := gain_exact ops st.full st' he
  rw [start_room st fun f hf => (hu f hf).1] at h5
  have h6 : totalSize st'.frames = framesSize st'.seen + totalSize (st'.hidden.getD []) := by
    rw [Full.frames, totalSize_append, totalSize_bytes _ fun f hf => (h4 f hf).1]
  have h7 : st'.size - framesSize st'.seen = st.room + gainAll ops st.full + totalSize (st'.hidden.getD []) := by omega
  refine ⟨by omega, tag', tag'', file, h1, h2, ?_⟩
  rw [h3, h7]

/-- **C20** for every session: start from a new tag or one read from a file, make any calls, in any order, with any
arguments, write the tag to any file and read the file. If writing returns (`Full.serialise` says when), the file is the tag
and the audio it had, and reading it gives what `readBack` says: the frames that could be seen in the tag, unless one of
them is too large for the parser. (For version 2.4 the frames must be small, see C12.) -/
theorem session_exact_partial [Platform] (contents : List UInt8) (tag : Tag) (st : State) (ops : List Op) (rest : Bytes)
    (st' : Full) (b : List UInt8) (hstart : Start tag st) (hvalid : ∀ op ∈ ops, op.Valid)
    (he : effectAll ops st.full = some st') (hser : Full.serialise st' = .bytes b) (hsz : st'.size < 2 ^ 28)
    (hsm : ∀ f ∈ st'.seen, SmallIn tag.header.major_version f) :
    ∃ tag' tag'' file, runAll rest ops tag = .ok tag' ∧
      ID3v2_write_tag (some (ofB contents)) tag' = .ok (file, tag'') ∧
      file = some (ofB (outBytes tag.header.major_version tag.header.minor_version tag.header.flags st'.seen
        (st'.size - framesSize st'.seen).toNat ++ audio contents)) ∧
      ID3v2_read_tag file = readBack tag.header.major_version tag.header.minor_version tag.header.flags st'.seen
        (st'.size - framesSize st'.seen).toNat := by
  obtain ⟨tag', tag'', file, h1, h2, h3, h4, h5, h6, h7⟩ :=
    session_file contents tag st ops rest st' b hstart hvalid he hser hsz
  refine ⟨tag', tag'', file, h1, h2, h3, ?_⟩
  rw [h3]
  exact read_file_exact _ _ _ _ _ _ h5 h6 h4 hsm h7

/-- **C20, C33** for every session, when writing does not return: it overflows the buffer or ends the process. -/
theorem session_fails_exact [Platform] (contents : List UInt8) (tag : Tag) (st : State) (ops : List Op) (rest : Bytes)
    (st' : Full) (hstart : Start tag st) (hvalid : ∀ op ∈ ops, op.Valid) (he : effectAll ops st.full = some st')
    (h1 : -2147483648 ≤ st'.size + 10) (h2 : st'.size + 10 ≤ 2147483647) :
    ∃ tag', runAll rest ops tag = .ok tag' ∧
      (ID3v2_write_tag (some (ofB contents)) tag' = .ub .oobWrite ↔ Full.serialise st' = .overflow) ∧
      (ID3v2_write_tag (some (ofB contents)) tag' = .exit ↔ Full.serialise st' = .exits) ∧
      ((∃ r, ID3v2_write_tag (some (ofB contents)) tag' = .ok r) ↔ ∃ b, Full.serialise st' = .bytes b) := by
  obtain ⟨hv, hflag, hp, hp2⟩ := start_header tag st hstart
  obtain ⟨tag', h3, h4⟩ := serialise_exact tag st ops rest st' hstart hvalid he h1 h2
  obtain ⟨hu, major, minor, flags, ht⟩ := start_eq tag st hstart
  obtain ⟨h7, -⟩ := effects_full major minor flags tag.padding_size rest ops st.full (State.full_ok st hu) hvalid
  rw [State.full_tag, ← ht] at h7
  obtain ⟨h8, h9⟩ := h7 st' he
  have e : tag' = fullTag major minor flags st' tag.padding_size := Res.ok.inj (h3.symm.trans h8)
  refine ⟨tag', h3, ?_⟩
  rw [write_tag_eq (ofB contents) (tagLength contents) tag' (by rw [e]; rfl) (existing_size contents)
    (by rw [e]; show _ ≤ tag.padding_size; omega) (by rw [e]; show tag.padding_size ≤ _; omega)]
  cases hser : Full.serialise st' with
  | bytes b =>
    rw [hser] at h4
    obtain ⟨cs, header, h5, -⟩ := h4
    rw [h5]
    simp
  | overflow =>
    rw [hser] at h4
    rw [h4]
    simp
  | exits =>
    rw [hser] at h4
    rw [h4]
    simp

/-- Read a tag with a title and padding; set a picture without data: the tag is written, reading it is undefined. -/
example : ∃ tag st, @Start strict tag st ∧ ∃ st' b, effectAll [.setApic [0, 0] (.latin [0x69]) 3 (.latin [0x64]) []] st.full =
      some st' ∧ Full.serialise st' = .bytes b ∧ st'.size < 2 ^ 28 ∧
      @readBack strict 3 0 0 st'.seen (st'.size - framesSize st'.seen).toNat = .ub .vlaSize :=
  ⟨_, _, @start_read strict 3 0 0 [.text [0x54, 0x49, 0x54, 0x32] [0, 0] 0 (.latin [0x48, 0x69]) []] 20 (Or.inl rfl)
    (by decide) (by decide) (by decide) (by decide), _, _, rfl, rfl, by decide, by decide⟩

/-- Read a version 2.4 tag with a title, an artist and padding; change the title, delete both: the file then has a tag
without frames. Delete the artist only: writing ends the process. -/
example : ∃ tag st, @Start strict tag st ∧ tag.header.major_version = 4 ∧
    (∃ st' b, effectAll [.setText [0x54, 0x49, 0x54, 0x32] [0, 0] (.latin [0x48]), .delete [0x54, 0x50, 0x45, 0x31],
        .delete [0x54, 0x49, 0x54, 0x32]] st.full = some st' ∧ Full.serialise st' = .bytes b ∧ st'.size < 2 ^ 28 ∧
      @readBack strict 4 0 0 st'.seen (st'.size - framesSize st'.seen).toNat = .ok (some (toTag 4 0 0 20 [] 20))) ∧
    (∃ st', effectAll [.delete [0x54, 0x50, 0x45, 0x31]] st.full = some st' ∧ Full.serialise st' = .exits) :=
  ⟨_, _, @start_read strict 4 0 0 [.text [0x54, 0x49, 0x54, 0x32] [0, 0] 0 (.latin [0x48, 0x69]) [],
      .text [0x54, 0x50, 0x45, 0x31] [0, 0] 0 (.latin [0x48, 0x69]) []] 20 (Or.inr rfl)
    (by decide) (by decide) (by decide) (by decide), rfl, ⟨_, _, rfl, rfl, by decide, by decide⟩, ⟨_, rfl, by decide⟩⟩

/-- **C20**, exactly: writing a tag to any file and reading the file. -/
theorem write_read_exact [Platform] (contents : List UInt8) (version minor flags : UInt8) (fs : List SFrame) (padding : Nat)
    (p : Int) (hv : version = 3 ∨ version = 4) (hflag : flags &&& 0x40 = 0) (hu : ∀ f ∈ fs, f.Usable)
    (hsm : ∀ f ∈ fs, SmallIn version f) (hs : framesSize fs + padding < 2 ^ 28) (hp : 0 ≤ p) (hp2 : p ≤ 2147483647) :
    ∃ tag', ID3v2_write_tag (some (ofB contents)) (toTag version minor flags (framesSize fs + padding) fs p) =
        .ok (some (ofB (outBytes version minor flags fs padding ++ audio contents)), tag') ∧
      ID3v2_read_tag (some (ofB (outBytes version minor flags fs padding ++ audio contents))) =
        readBack version minor flags fs padding := by
  obtain ⟨cs, h1, h2, -⟩ := toTag_out version minor flags (framesSize fs + padding) fs p hu hs (by omega)
  obtain ⟨tag', hw⟩ := write_succeeds contents _ cs rfl h1 hp hp2
  refine ⟨tag', ?_, ?_⟩
  · rw [hw, h2, Nat.add_sub_cancel_left, ← ofB_append]; rfl
  · exact read_file_exact version minor flags fs padding _ hv hflag hu hsm hs

end Id3.Props
