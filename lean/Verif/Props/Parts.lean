import Verif.Spec.Format
import Verif.Props.StableIff
import Verif.Props.Commute
import Verif.Props.Fault
import Verif.Props.Endian
import Verif.Props.ExtHeader
import Verif.Proof.Misread

/-!
# What is left of the claims that are false (C16, C61, C62, C64, C65, C66, C83)

Each theorem is the claim of the same number, with the conditions under which it is true. The full claims and their refutations
(`C16_claim`, `C16_false`, …), and the theorems that say what happens otherwise, are in the other files.
-/

namespace Id3.Props

open Spec

/-! ## C16 -/

/-- The frames of a tag, from any position on. -/
theorem items_wires [Platform] (version : UInt8) (ws : List Wire) (size : Nat) (pre post : Bytes)
    (ht : Tail (pre ++ (ofB (ws.flatMap (Wire.bytes version)) ++ post))) (h10 : 10 ≤ pre.length)
    (hb : pre.length + (ofB (ws.flatMap (Wire.bytes version)) ++ post).length ≤ 2147483647)
    (hlt : ∀ a w b, ws = a ++ w :: b → pre.length + (a.flatMap (Wire.bytes version)).length < size)
    (hR : ∀ w ∈ ws, w.Readable version) (stop : Nat)
    (hend : Items version size (pre.length + (ws.flatMap (Wire.bytes version)).length) post [] stop) :
    Items version size pre.length (ofB (ws.flatMap (Wire.bytes version)) ++ post) (ws.map fun w => w.kept.toFrame) stop := by
  induction ws generalizing pre with
  | nil => simpa using hend
  | cons w ws ih =>
    have e : ofB ((w :: ws).flatMap (Wire.bytes version)) ++ post =
        ofB (w.bytes version) ++ (ofB (ws.flatMap (Wire.bytes version)) ++ post) := by simp
    rw [e] at ht hb ⊢
    have hpl : (pre ++ ofB (w.bytes version)).length = pre.length + (w.bytes version).length := by simp
    have hl : ((w :: ws).flatMap (Wire.bytes version)).length =
        (w.bytes version).length + (ws.flatMap (Wire.bytes version)).length := by simp
    have hp := (parses_readable version w (hR w (by simp))).2 pre (ofB (ws.flatMap (Wire.bytes version)) ++ post)
      (by rw [List.length_append, ofB_length] at hb; omega)
    rw [items_known ht (by omega) hb (by simpa using hlt [] w ws rfl) hp]
    refine ⟨_, rfl, ih (pre ++ ofB (w.bytes version)) (by rw [List.append_assoc]; exact ht) (by omega) ?_ ?_ ?_ ?_⟩
    · rw [hpl]; rw [List.length_append, ofB_length] at hb; omega
    · intro a x b h
      have := hlt (w :: a) x b (by rw [h]; rfl)
      rw [List.flatMap_cons, List.length_append] at this
      omega
    · exact fun x hx => hR x (by simp [hx])
    · rw [hpl, Nat.add_assoc, ← hl]
      exact hend

/-- **C16**, what holds: the frames that follow an extended header are read if it is empty, that is, if there are just the four
bytes of its size, and the size is zero. For all others `extended_header_first_frame` says that they are not. -/
theorem C16_partial [Platform] (version minor flags : UInt8) (ws : List Wire) (padding : Nat)
    (hv : version = 3 ∨ version = 4) (hflag : flags &&& 0x40 = 0x40) (hR : ∀ w ∈ ws, w.Readable version)
    (hs : 4 + (ws.flatMap (Wire.bytes version)).length + padding < 2 ^ 28) (hlast : lastSeen ws padding) :
    ∃ t, ID3v2_read_tag_from_buffer (ofB (emptyExtTag version minor flags ws padding))
        (emptyExtTag version minor flags ws padding).length = .ok (some t) ∧ t.frames = toFrameList (ws.map Wire.kept) := by
  have hl : (emptyExtTag version minor flags ws padding).length = 14 + (ws.flatMap (Wire.bytes version)).length + padding := by
    simp [emptyExtTag, tagHeaderBytes, synchsafe]
    omega
  have hwf : ∀ w ∈ ws, (w.bytes version).length = 10 + w.body.length := fun w hw => Wire.bytes_length version w (hR w hw).1.1
  generalize hF : ws.flatMap (Wire.bytes version) = F at *
  have hstop : ∃ stop, Items version (4 + F.length + padding) (14 + F.length) (ofB (List.replicate padding 0)) [] stop := by
    by_cases hp : padding ≤ 10
    · exact ⟨_, .stop _ _ (by omega)⟩
    · refine ⟨14 + F.length, ?_⟩
      rw [show padding = 4 + (padding - 4) from by omega, ← List.replicate_append_replicate, ofB_append]
      exact .padding _ _ (by omega)
  obtain ⟨stop, hstop⟩ := hstop
  let N := 4 + F.length + padding
  have hbuf : ofB (emptyExtTag version minor flags ws padding) =
      ofB (tagHeaderBytes version minor flags N ++ [0, 0, 0, 0]) ++ (ofB F ++ ofB (List.replicate padding 0)) := by
    rw [← ofB_append, ← ofB_append]
    unfold emptyExtTag
    rw [hF]
    simp [N, List.append_assoc]
  have hpre : (ofB (tagHeaderBytes version minor flags N ++ [0, 0, 0, 0])).length = 14 := by simp [tagHeaderBytes, synchsafe]
  have hit := items_wires version ws N (ofB (tagHeaderBytes version minor flags N ++ [0, 0, 0, 0]))
    (ofB (List.replicate padding 0)) (by rw [hF, ← hbuf]; exact tail_ofB _) (by omega)
    (by rw [hF, hpre, List.length_append, ofB_length, ofB_length, List.length_replicate]; omega) (by
      intro a w b h
      rw [hpre]
      have hw := hwf w (by rw [h]; simp)
      have hFl : F.length = (a.flatMap (Wire.bytes version)).length + ((w.bytes version).length +
          (b.flatMap (Wire.bytes version)).length) := by rw [← hF, h]; simp
      show _ < 4 + F.length + padding
      rcases hlast with hp | hp
      · omega
      · cases hb : b with
        | nil =>
          have := List.length_pos_iff.mpr (hp w (by rw [h, hb]; simp))
          omega
        | cons x b' =>
          have hx := hwf x (by rw [h, hb]; simp)
          rw [hb, List.flatMap_cons, List.length_append] at hFl
          omega) hR stop (by rw [hpre, hF]; exact hstop)
  rw [hF, hpre] at hit
  have htake : (emptyExtTag version minor flags ws padding).take (emptyExtTag version minor flags ws padding).length =
      emptyExtTag version minor flags ws padding := List.take_of_length_le (Nat.le_refl _)
  have hin := C67_buffer (emptyExtTag version minor flags ws padding) _ (Nat.le_refl _) (by rw [hl]; omega)
  rw [htake] at hin
  refine ⟨_, (hin _).mpr ⟨version, minor, flags, synchsafe N, ofB [0, 0, 0, 0] ++ (ofB F ++ ofB (List.replicate padding 0)), 0, 14,
    ws.map (fun w => w.kept.toFrame), stop, hv, rfl, ?_, ?_, ?_, rfl⟩, ?_⟩
  · rw [hbuf, ofB_append, List.append_assoc]
    rfl
  · rw [if_pos hflag]
    exact ⟨[0, 0, 0, 0], rfl, rfl, rfl, rfl⟩
  · rw [hbuf, List.drop_append, hpre, List.drop_of_length_le (by omega), looseSize_synchsafe N (by omega)]
    exact hit
  · show Spec.nodes _ = _
    rw [← nodes_toFrame, List.map_map]
    rfl

/-- A tag of version 2.3 with an empty extended header and the title "Hi". -/
example : ∃ t, @ID3v2_read_tag_from_buffer strict
      (ofB (emptyExtTag 3 0 0x40 [.text [0x54, 0x49, 0x54, 0x32] [0, 0] 0 (.latin [0x48, 0x69]) []] 5))
      (emptyExtTag 3 0 0x40 [.text [0x54, 0x49, 0x54, 0x32] [0, 0] 0 (.latin [0x48, 0x69]) []] 5).length = .ok (some t) ∧
    t.frames = toFrameList [.text [0x54, 0x49, 0x54, 0x32] [0, 0] (.latin [0x48, 0x69])] :=
  @C16_partial strict 3 0 0x40 [.text [0x54, 0x49, 0x54, 0x32] [0, 0] 0 (.latin [0x48, 0x69]) []] 5 (.inl rfl) (by decide)
    (by decide) (by decide) (by decide)

/-! ## C61 -/

/-- **C61**, what holds: as long as the last of several frames was not deleted (then nothing is hidden), setting a frame twice is
setting it to the second value, setters for different ids can be called in either order, and setting a frame that the tag has
and deleting it is deleting it. -/
theorem C61_partial [Platform] (tag : Tag) (st : State) (ops : List Op) (op op' : Op) (f g : SFrame) (rest r : Bytes)
    (st' : Full) (hstart : Start tag st) (hv : ∀ op ∈ ops, op.Valid) (he : effectAll ops st.full = some st')
    (hop : Stores op f) (hop' : Stores op' g) (hvo : op.Valid) (hvo' : op'.Valid) (hh : st'.hidden = none) :
    (f.id = g.id → runAll rest (ops ++ [op, op']) tag = runAll rest (ops ++ [op']) tag) ∧
    (f.id ≠ g.id → ∃ t1 t2, runAll rest (ops ++ [op, op']) tag = .ok t1 ∧ runAll rest (ops ++ [op', op]) tag = .ok t2 ∧
      t1.header = t2.header ∧
      (∀ k, ValidId k → ID3v2_Tag_get_frame t1 (ofB k ++ r) = ID3v2_Tag_get_frame t2 (ofB k ++ r) ∧
        ID3v2_Tag_get_frames t1 (ofB k ++ r) = ID3v2_Tag_get_frames t2 (ofB k ++ r)) ∧
      (st'.has f.id = true ∨ st'.has g.id = true → t1 = t2)) ∧
    (st'.has f.id = true → runAll rest (ops ++ [op, .delete f.id]) tag = runAll rest (ops ++ [.delete f.id]) tag) :=
  ⟨fun hid => last_set_wins tag st ops op op' f g rest st' hstart hv he hop hop' hvo hvo' hid (.inr (.inr hh)),
   fun hid => setters_commute tag st ops op op' f g rest r st' hstart hv he hop hop' hvo hvo' hid hh,
   fun hhas => delete_forgets_set tag st ops op f rest st' hstart hv he hop hvo hhas⟩

/-! ## C62 -/

/-- **C62**, what holds: reading and writing back twice or more often is the same as once, if the version is 2.3 or no frame
(but comments) has 256 bytes or more. -/
theorem C62_partial [Platform] (version minor flags : UInt8) (ws : List Wire) (padding : Nat) (rest : List UInt8)
    (hv : version = 3 ∨ version = 4) (hflag : flags &&& 0x40 = 0) (hR : ∀ w ∈ ws, w.Sane version)
    (hs : (ws.flatMap (Wire.bytes version)).length + padding < 2 ^ 28)
    (hd : ∀ w ∈ seenFrames ws padding, w.defect = none)
    (hsm : version = 4 → ∀ w ∈ seenFrames ws padding, (∃ a b c d, w.kept = .comment a b c d) ∨ w.kept.body.length < 256) (n : Nat) :
    readWrites (n + 1) (some (ofB (wireTagBytes version minor flags ws padding ++ rest))) =
      readWrites 1 (some (ofB (wireTagBytes version minor flags ws padding ++ rest))) := by
  obtain ⟨p, -, h⟩ := rewrites_stable version minor flags ws padding rest hv hflag hR hs hd hsm
  rw [h n, h 0]

/-! ## C64, C65, C66 -/

/-- **C64**, what holds: if the three files can be opened and rewound, the old header can be read, reads end at the end of the
file only and nothing that is written is lost up to the end of the new file, then the function returns and the file has the
new tag followed by the audio. If one of the files cannot be opened, the function does not return, but the file is unchanged. -/
theorem C64_partial [Platform] (e : WriteFaults) (contents : List UInt8) (tag : Tag) (cs : CharStream)
    (hid : tag.header.identifier = ofB [0x49, 0x44, 0x33]) (hc : Tag_to_char_stream tag = .ok cs)
    (hp : 0 ≤ tag.padding_size) (hp2 : tag.padding_size ≤ 2147483647) :
    (HeaderReadable e.header → e.source.seeks = true → e.temp.seeks = true → e.tmp ∧ e.source.opens ∧ e.dest →
      (∀ k, e.source.stops = some k → (audio contents).length ≤ k) →
      (∀ k, e.temp.stops = some k → cs.stream.length + (audio contents).length ≤ k) →
      (∀ j < cs.stream.length + (audio contents).length, e.tmpLost j = false ∧ e.destLost j = false) →
      ∃ tag', ID3v2_write_tag_io e (some (ofB contents)) tag = (some (cs.stream ++ ofB (audio contents)), .ok tag')) ∧
    (¬ (e.tmp ∧ e.source.opens ∧ e.dest) →
      ID3v2_write_tag_io e (some (ofB contents)) tag = (some (ofB contents), .ub .nullDeref)) := by
  constructor
  · intro h1 h2 h3 h4 h5 h6 h7
    exact (write_complete_iff e contents tag cs hid hc hp hp2 h1 h2 h3 h4).mpr
      ⟨h5, fun j hj => (h7 j hj).1, h6, fun j hj => (h7 j hj).2⟩
  · intro h
    obtain ⟨tag', h'⟩ := write_faults_exact e contents tag cs hid hc hp hp2
    rw [h', if_neg h]

/-- **C65**, what holds: the file is unchanged if there is no tag or its header cannot be read. If the three files can be opened
and rewound, reads end at the end of the file only and nothing that is written is lost up to the end of the audio, then the
function returns and the file has exactly the audio. -/
theorem C65_partial [Platform] (e : WriteFaults) (contents : List UInt8) :
    (tagLength contents = 0 ∨ ¬ HeaderReadable e.header →
      ID3v2_delete_tag_io e (some (ofB contents)) = (some (ofB contents), .ok ())) ∧
    (HeaderReadable e.header → e.source.seeks = true → e.temp.seeks = true → e.tmp ∧ e.source.opens ∧ e.dest →
      (∀ k, e.source.stops = some k ∨ e.temp.stops = some k → (audio contents).length ≤ k) →
      (∀ j < (audio contents).length, e.tmpLost j = false ∧ e.destLost j = false) →
      ID3v2_delete_tag_io e (some (ofB contents)) = (some (ofB (audio contents)), .ok ())) := by
  constructor
  · intro h
    rw [delete_faults_exact, if_pos h]
  · intro h1 h2 h3 h4 h5 h6
    by_cases ht : tagLength contents = 0
    · rw [delete_faults_exact, if_pos (.inl ht), audio, ht]
      rfl
    · exact (delete_complete_iff e contents ht h1 h2 h3 h4).mpr
        ⟨fun k hk => h5 k (.inl hk), fun j hj => (h6 j hj).1, fun k hk => h5 k (.inr hk), fun j hj => (h6 j hj).2⟩

/-- **C66**, what holds: the function returns NULL or does what it does when nothing fails, if the file can be opened the second
time and the tag can then be read up to its end (or the end of the file). -/
theorem C66_partial [Platform] (header body : ReadFaults) (allocates : Bool) (contents : List UInt8)
    (ho : body.opens = true) (hr : ∀ k, body.stops = some k → min (tagLength contents) contents.length ≤ k) :
    ID3v2_read_tag_io header body allocates (some (ofB contents)) =
      if HeaderReadable header ∧ allocates then ID3v2_read_tag (some (ofB contents)) else .ok none := by
  have hd : body.deliver (ofB (contents.take (tagLength contents))) = ofB (contents.take (tagLength contents)) :=
    (deliver_all _ _).mpr (by simpa only [ofB_length, List.length_take] using hr)
  have h0 := read_faults_exact .none .none true contents
  rw [read_no_faults] at h0
  rw [read_faults_exact, hd, h0]
  have hn : HeaderReadable .none := ⟨rfl, by simp [ReadFaults.none]⟩
  by_cases ht : tagLength contents = 0
  · simp [ht]
  · by_cases hh : HeaderReadable header
    · have h1 : ¬ (tagLength contents = 0 ∨ ¬ HeaderReadable .none) := by
        rintro (h | h)
        · exact ht h
        · exact h hn
      rw [if_neg h1]
      cases allocates <;> simp [ht, hh, ho, ReadFaults.deliver, ReadFaults.none]
    · simp [hh]

/-! ## C83 -/

/-- **C83**, what holds: the file that is written depends neither on the byte order nor on the sign of `char` if all sizes in
the tag read the same backwards; in any case the call ends in the same way and does the same to the tag. -/
theorem C83_partial (p p' : Platform) (h : SameButChar p p') (o o' : ByteOrder) (file : File) (tag : Tag) :
    ((∀ f t, @ID3v2_write_tag p file tag = .ok (f, t) → f.map (swapAll (tagFields tag)) = f) →
      @ID3v2_write_tagOn p o file tag = @ID3v2_write_tagOn p' o' file tag) ∧
    (@ID3v2_write_tagOn p o file tag >>= fun r => .ok r.2) = (@ID3v2_write_tagOn p' o' file tag >>= fun r => .ok r.2) := by
  rw [@write_on p, @write_on p', ← (C83_sign p p' h).2.2.2.2.1 file tag]
  cases hw : @ID3v2_write_tag p file tag with
  | ok r =>
    obtain ⟨f, t⟩ := r
    refine ⟨fun hs => ?_, rfl⟩
    have hs := hs f t rfl
    have ht : ∀ o, f.map (turned o (tagFields tag)) = f := by
      intro o
      cases o with
      | little => cases f <;> rfl
      | big => exact hs
    simp only [Res.bind_ok, ht]
  | ub u => exact ⟨fun _ => rfl, rfl⟩
  | exit => exact ⟨fun _ => rfl, rfl⟩
  | diverge => exact ⟨fun _ => rfl, rfl⟩

/-! ## Concrete cases -/

/-- The last byte of the file, which the tag does not need, cannot be read: the tag is. -/
example : @ID3v2_read_tag_io strict .none ⟨true, true, some 10⟩ true (some (ofB [0x49, 0x44, 0x33, 3, 0, 0, 0, 0, 0, 0, 0xFF])) =
    @ID3v2_read_tag strict (some (ofB [0x49, 0x44, 0x33, 3, 0, 0, 0, 0, 0, 0, 0xFF])) := by
  have := @C66_partial strict .none ⟨true, true, some 10⟩ true [0x49, 0x44, 0x33, 3, 0, 0, 0, 0, 0, 0, 0xFF] rfl (by decide)
  rw [if_pos (by decide)] at this
  exact this

/-- A disk with room for one more byte is enough for one byte of audio. -/
example : @ID3v2_delete_tag_io strict { WriteFaults.none with tmpLost := fun j => decide (1 ≤ j) }
    (some (ofB [0x49, 0x44, 0x33, 3, 0, 0, 0, 0, 0, 0, 0xFF])) = (some (ofB [0xFF]), .ok ()) :=
  (@C65_partial strict { WriteFaults.none with tmpLost := fun j => decide (1 ≤ j) }
    [0x49, 0x44, 0x33, 3, 0, 0, 0, 0, 0, 0, 0xFF]).2 (by decide) rfl rfl (by decide)
    (by simp [WriteFaults.none, ReadFaults.none]) (by decide)

/-- An empty tag is written the same everywhere: its only size is zero. -/
example : ∀ f t, @ID3v2_write_tag lenient (some (ofB [0xFF])) ID3v2_Tag_new_empty = .ok (f, t) →
    f.map (swapAll (tagFields ID3v2_Tag_new_empty)) = f := by
  intro f t h
  obtain ⟨tag', h'⟩ := @write_bytes_on lenient .little [0xFF] 3 0 0 [] 0 0 (by simp) (by decide) (by decide) (by decide)
  rw [@write_on_little lenient] at h'
  rw [show ID3v2_Tag_new_empty = toTag 3 0 0 (framesSize [] + 0) [] 0 from rfl] at h ⊢
  rw [h'] at h
  cases h
  decide

end Id3.Props
