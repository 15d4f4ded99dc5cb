import Verif.Proof.Endian
import Verif.Proof.Sign
import Verif.Props.Any
import Verif.Props.Misread
import Verif.Props.Stable

/-!
# C83: other targets

What the calls do should not depend on the byte order of the machine, nor on whether `char` is signed there: files are
carried from one machine to another.
-/

namespace Id3.Props

open Id3 Spec

/-! ## Where the bytes are -/

theorem fields_in [Platform] (l : FrameList) (c : Nat) (cs cs' : CharStream) (hc : cs.cursor = c) (hl : c ≤ cs.stream.length)
    (h : Tag_write_frames cs l = .ok cs') :
    cs'.size = cs.size ∧ cs'.stream.length = cs.stream.length ∧ ∀ k ∈ sizeFields c l, k + 4 ≤ cs'.stream.length := by
  induction l generalizing c cs with
  | nil =>
    cases h
    exact ⟨rfl, rfl, by simp [sizeFields]⟩
  | cons x l ih =>
    cases x with
    | none => cases h
    | some f =>
      unfold Tag_write_frames at h
      obtain ⟨fcs, h1, h⟩ := Res.bind_eq_ok.mp h
      obtain ⟨c1, h2, h⟩ := Res.bind_eq_ok.mp h
      obtain ⟨e1, e2⟩ := frame_out_size h1
      have w := write_inv h2
      obtain ⟨i1, i2, i3⟩ := ih (c + (f.header.size + 10).toNat) c1 (by omega) (by omega) h
      refine ⟨by rw [i1, w.2.2.2.2.2.1], by rw [i2, w.2.2.2.2.2.2.1], ?_⟩
      intro k hk
      simp only [sizeFields, List.mem_cons] at hk
      rcases hk with rfl | hk
      · rw [i2, w.2.2.2.2.2.2.1]; omega
      · exact i3 k hk

/-- The bytes of a tag that can be written are as many as the stream has room for, and the sizes are inside. -/
theorem tag_fields_in [Platform] (t : Tag) (cs : CharStream) (h : Tag_to_char_stream t = .ok cs) :
    cs.size = cs.stream.length ∧ ∀ k ∈ tagFields t, k + 4 ≤ cs.stream.length := by
  unfold Tag_to_char_stream at h
  dsimp only at h
  obtain ⟨c1, h1, h⟩ := Res.bind_eq_ok.mp h
  obtain ⟨c2, h2, h⟩ := Res.bind_eq_ok.mp h
  obtain ⟨c3, h3, h⟩ := Res.bind_eq_ok.mp h
  obtain ⟨c4, h4, h⟩ := Res.bind_eq_ok.mp h
  obtain ⟨v, h5, h⟩ := Res.bind_eq_ok.mp h
  obtain ⟨c5, h6, h7⟩ := Res.bind_eq_ok.mp h
  have w1 := write_inv h1
  have w2 := write_inv h2
  have w3 := write_inv h3
  have w4 := write_inv h4
  have w5 := write_inv h6
  generalize hm : toInt32 (u32 (t.header.tag_size + 10)) = m at *
  have z1 : (CharStream_new m).cursor = 0 := rfl
  have z2 : (CharStream_new m).size = m := rfl
  have z3 : (CharStream_new m).stream.length = m.toNat := by simp [CharStream_new]
  have e : c5.size = c5.stream.length := by omega
  unfold tagFields
  clear h
  generalize t.frames = l at h7 ⊢
  match l, h7 with
  | [], h => cases h
  | none :: _, h =>
    cases h
    exact ⟨e, by simp [sizeFields]; omega⟩
  | some f :: rest, h =>
    obtain ⟨i1, i2, i3⟩ := fields_in (some f :: rest) 10 c5 cs (by omega) (by omega) h
    refine ⟨by omega, ?_⟩
    intro k hk
    rcases List.mem_cons.1 hk with rfl | hk
    · omega
    · exact i3 k hk

theorem swapAll_length {α : Type} (ks : List Nat) (s : List α) : (swapAll ks s).length = s.length := by
  induction ks generalizing s with
  | nil => rfl
  | cons k ks ih => show (swapAll ks (swapAt k s)).length = _; rw [ih, swapAt_length]

theorem swapAll_left {α : Type} (ks : List Nat) (s t : List α) (h : ∀ k ∈ ks, k + 4 ≤ s.length) :
    swapAll ks (s ++ t) = swapAll ks s ++ t := by
  induction ks generalizing s with
  | nil => rfl
  | cons k ks ih =>
    show swapAll ks (swapAt k (s ++ t)) = swapAll ks (swapAt k s) ++ t
    rw [swapAt_left k s t (h k (by simp)), ih _ (by rw [swapAt_length]; exact fun k hk => h k (by simp [hk]))]

theorem turned_length {α : Type} (o : ByteOrder) (ks : List Nat) (s : List α) : (turned o ks s).length = s.length := by
  cases o
  · rfl
  · exact swapAll_length ks s

theorem turned_left {α : Type} (o : ByteOrder) (ks : List Nat) (s t : List α) (h : ∀ k ∈ ks, k + 4 ≤ s.length) :
    turned o ks (s ++ t) = turned o ks s ++ t := by
  cases o
  · rfl
  · exact swapAll_left ks s t h

/-- **C83**, what holds on every target: the call returns for the same files and tags, and does the same to the tag. And what
differs: in the file, on a big-endian target, the bytes of every size are the other way round. -/
theorem write_on [Platform] (o : ByteOrder) (file : File) (tag : Tag) :
    ID3v2_write_tagOn o file tag = (ID3v2_write_tag file tag >>= fun r => .ok (r.1.map (turned o (tagFields tag)), r.2)) := by
  unfold ID3v2_write_tagOn ID3v2_write_tag
  cases existingTagSize file with
  | ok n =>
    simp only [Res.bind_ok]
    cases ck (2048 - tag.padding_size) with
    | ok p =>
      simp only [Res.bind_ok]
      cases ck (tag.padding_size + clamp_int p 0 2048) with
      | ok q =>
        simp only [Res.bind_ok]
        rw [tag_on, bind_mapStream]
        have ef : ∀ q, tagFields { tag with padding_size := q } = tagFields tag := fun _ => rfl
        cases h : Tag_to_char_stream { tag with padding_size := q } with
        | ok cs =>
          obtain ⟨h1, h2⟩ := tag_fields_in _ cs h
          rw [ef] at h2
          have m1 : memcpySrc cs.stream cs.size = .ok cs.stream := by
            unfold memcpySrc
            rw [if_neg (by omega), if_neg (by omega), List.take_of_length_le (by omega)]
          have m2 : memcpySrc (turned o (tagFields tag) cs.stream) cs.size = .ok (turned o (tagFields tag) cs.stream) := by
            unfold memcpySrc
            rw [turned_length, if_neg (by omega), if_neg (by omega), List.take_of_length_le (by rw [turned_length]; omega)]
          simp only [Res.bind_ok, ef, m1]
          show (memcpySrc (turned o (tagFields tag) cs.stream) cs.size >>= _) = _
          rw [m2]
          cases file with
          | none => rfl
          | some contents =>
            simp only [Res.bind_ok, Res.pure_eq, Option.map_some]
            rw [turned_left o _ _ _ h2]
        | ub u => rfl
        | exit => rfl
        | diverge => rfl
      | ub u => rfl
      | exit => rfl
      | diverge => rfl
    | ub u => rfl
    | exit => rfl
    | diverge => rfl
  | ub u => rfl
  | exit => rfl
  | diverge => rfl

/-- On a little-endian target the model of this file is that of all the others. -/
theorem write_on_little [Platform] (file : File) (tag : Tag) : ID3v2_write_tagOn .little file tag = ID3v2_write_tag file tag :=
  write_little file tag

/-! ## The bytes -/

theorem be32_length (n : Nat) : (be32 n).length = 4 := rfl

theorem synchsafe_length (n : Nat) : (synchsafe n).length = 4 := rfl

theorem field_length (o : ByteOrder) (b : List UInt8) : (field o b).length = b.length := by
  cases o <;> simp [field]

theorem bytesOn_length (o : ByteOrder) (f : SFrame) : (bytesOn o f).length = f.bytes.length := by
  simp [bytesOn, SFrame.bytes, field_length]

theorem swap_frames (fs : List SFrame) (done : List UInt8) (rest : List UInt8) (hu : ∀ f ∈ fs, f.WF) :
    swapAll (sizeFields done.length (fs.map (fun f => some f.toFrame))) (done ++ (fs.flatMap SFrame.bytes ++ rest)) =
      done ++ (fs.flatMap (bytesOn .big) ++ rest) := by
  induction fs generalizing done with
  | nil => rfl
  | cons f fs ih =>
    have hwf := hu f (by simp)
    have hl : f.id.length = 4 := by
      cases f with
      | text => exact hwf.1
      | comment => rfl
      | apic => rfl
      | other => exact hwf.1
    have hsz : (f.toFrame.header.size + 10).toNat = f.bytes.length := by
      rw [SFrame.bytes_length f hwf]
      have : f.toFrame.header.size = f.body.length := by cases f <;> rfl
      omega
    show swapAll (sizeFields (done.length + (f.toFrame.header.size + 10).toNat) (fs.map _))
      (swapAt (done.length + 4) (done ++ ((f :: fs).flatMap SFrame.bytes ++ rest))) = _
    have e : swapAt (done.length + 4) (done ++ ((f :: fs).flatMap SFrame.bytes ++ rest)) =
        (done ++ bytesOn .big f) ++ (fs.flatMap SFrame.bytes ++ rest) := by
      have e1 : done ++ ((f :: fs).flatMap SFrame.bytes ++ rest) =
          (done ++ f.id) ++ be32 f.body.length ++ (f.flags ++ f.body ++ (fs.flatMap SFrame.bytes ++ rest)) := by
        simp [SFrame.bytes]
      have e2 : done.length + 4 = (done ++ f.id).length := by simp [hl]
      rw [e1, e2, swapAt_append _ _ _ (be32_length _)]
      simp [bytesOn, field]
    rw [e, hsz, ← bytesOn_length .big f, ← List.length_append, ih (done ++ bytesOn .big f) (fun g hg => hu g (by simp [hg]))]
    simp

theorem turned_out (o : ByteOrder) (version minor flags : UInt8) (fs : List SFrame) (padding : Nat) (p : Int)
    (rest : List UInt8) (hu : ∀ f ∈ fs, f.WF) :
    turned o (tagFields (toTag version minor flags (framesSize fs + padding) fs p))
        (outBytes version minor flags fs padding ++ rest) =
      outBytesOn o version minor flags fs padding ++ rest := by
  cases o with
  | little => rfl
  | big =>
    show swapAll (sizeFields 10 (toFrameList fs)) (swapAt 6 _) = _
    have e : swapAt 6 (outBytes version minor flags fs padding ++ rest) =
        tagHeaderBytesOn .big version minor flags (framesSize fs + padding) ++
          (fs.flatMap SFrame.bytes ++ (List.replicate padding 0 ++ rest)) := by
      have e1 : outBytes version minor flags fs padding ++ rest =
          [0x49, 0x44, 0x33, version, minor, flags] ++ synchsafe (framesSize fs + padding) ++
            (fs.flatMap SFrame.bytes ++ (List.replicate padding 0 ++ rest)) := by
        simp [outBytes, tagHeaderBytes]
      rw [e1, show 6 = ([0x49, 0x44, 0x33, version, minor, flags] : List UInt8).length from rfl,
        swapAt_append _ _ _ (synchsafe_length _)]
      rfl
    rw [e]
    have hl : (tagHeaderBytesOn .big version minor flags (framesSize fs + padding)).length = 10 := rfl
    cases fs with
    | nil => simp [toFrameList, sizeFields, swapAll, outBytesOn]
    | cons f fs =>
      have := swap_frames (f :: fs) (tagHeaderBytesOn .big version minor flags (framesSize (f :: fs) + padding))
        (List.replicate padding 0 ++ rest) hu
      rw [hl] at this
      show swapAll (sizeFields 10 ((f :: fs).map (fun f => some f.toFrame))) _ = _
      rw [this]
      simp [outBytesOn]

theorem turned_ofB (o : ByteOrder) (ks : List Nat) (s : List UInt8) : turned o ks (ofB s) = ofB (turned o ks s) := by
  cases o with
  | little => rfl
  | big =>
    show swapAll ks (ofB s) = ofB (swapAll ks s)
    induction ks generalizing s with
    | nil => rfl
    | cons k ks ih =>
      show swapAll ks (swapAt k (ofB s)) = ofB (swapAll ks (swapAt k s))
      rw [show swapAt k (ofB s) = ofB (swapAt k s) from by simp [swapAt, ofB], ih]

/-- **C83**, in bytes: what is written on a target of either byte order. -/
theorem write_bytes_on [Platform] (o : ByteOrder) (contents : List UInt8) (version minor flags : UInt8) (fs : List SFrame)
    (padding : Nat) (p : Int) (hu : ∀ f ∈ fs, f.Usable) (hs : framesSize fs + padding < 2 ^ 28) (hp : 0 ≤ p)
    (hp2 : p ≤ 2147483647) :
    ∃ tag', ID3v2_write_tagOn o (some (ofB contents)) (toTag version minor flags (framesSize fs + padding) fs p) =
      .ok (some (ofB (outBytesOn o version minor flags fs padding ++ audio contents)), tag') := by
  obtain ⟨cs, h1, h2, -⟩ := toTag_out version minor flags (framesSize fs + padding) fs p hu hs (by omega)
  obtain ⟨tag', hw⟩ := write_succeeds contents _ cs rfl h1 hp hp2
  refine ⟨tag', ?_⟩
  rw [write_on, hw, h2, Nat.add_sub_cancel_left, ← ofB_append]
  simp only [Res.bind_ok, Option.map_some, turned_ofB]
  rw [← turned_out o version minor flags fs padding p _ (fun f hf => (hu f hf).1)]
  rfl

/-! ## When it makes a difference -/

theorem append_cancel {α : Type} {a a' b b' : List α} (h : a ++ b = a' ++ b') (hl : a.length = a'.length) : a = a' ∧ b = b' :=
  List.append_inj h hl

/-- **C83**, exactly: the bytes are the same on both targets if and only if all sizes read the same backwards. -/
theorem byte_order_iff (version minor flags : UInt8) (fs : List SFrame) (padding : Nat) :
    outBytesOn .big version minor flags fs padding = outBytesOn .little version minor flags fs padding ↔
      (synchsafe (framesSize fs + padding)).reverse = synchsafe (framesSize fs + padding) ∧
        ∀ f ∈ fs, (be32 f.body.length).reverse = be32 f.body.length := by
  have hf : ∀ fs : List SFrame, fs.flatMap (bytesOn .big) = fs.flatMap (bytesOn .little) ↔
      ∀ f ∈ fs, (be32 f.body.length).reverse = be32 f.body.length := by
    intro fs
    induction fs with
    | nil => simp
    | cons f fs ih =>
      simp only [List.flatMap_cons, List.forall_mem_cons, ← ih]
      constructor
      · intro h
        obtain ⟨h1, h2⟩ := append_cancel h (by rw [bytesOn_length, bytesOn_length])
        refine ⟨?_, h2⟩
        unfold bytesOn field at h1
        simp only [List.append_assoc] at h1
        exact (append_cancel (List.append_cancel_left h1) (by simp)).1
      · rintro ⟨h1, h2⟩
        rw [h2]
        unfold bytesOn field
        dsimp only
        rw [h1]
  unfold outBytesOn tagHeaderBytesOn
  rw [← hf]
  constructor
  · intro h
    have h := List.append_cancel_right h
    obtain ⟨h1, h2⟩ := append_cancel h (by simp [field_length])
    exact ⟨List.append_cancel_left h1, h2⟩
  · rintro ⟨h1, h2⟩
    rw [h2]
    simp only [field, h1]

/-- A tag with a frame of 1 to 65535 bytes (without its header) is not written the same. -/
theorem byte_order_matters (version minor flags : UInt8) (fs : List SFrame) (padding : Nat) (f : SFrame) (hf : f ∈ fs)
    (h0 : f.body.length ≠ 0) (h1 : f.body.length < 65536) :
    outBytesOn .big version minor flags fs padding ≠ outBytesOn .little version minor flags fs padding := by
  intro h
  have := ((byte_order_iff version minor flags fs padding).mp h).2 f hf
  simp only [be32, List.reverse_cons, List.reverse_nil, List.nil_append, List.cons_append, List.cons.injEq] at this
  obtain ⟨e1, e2, -⟩ := this
  have e1 := congrArg UInt8.toNat e1
  have e2 := congrArg UInt8.toNat e2
  simp only [UInt8.toNat_ofNat'] at e1 e2
  have z1 : f.body.length / 2 ^ 24 = 0 := by omega
  have z2 : f.body.length / 2 ^ 16 = 0 := by omega
  rw [z1] at e1
  rw [z2] at e2
  omega

/-- The claim of C83: the byte order of the target does not matter. -/
def C83_claim : Prop := ∀ [Platform] (o o' : ByteOrder) (file : File) (tag : Tag),
  ID3v2_write_tagOn o file tag = ID3v2_write_tagOn o' file tag

/-- **C83 does not hold.** -/
theorem C83_false : ¬ C83_claim := by
  intro h
  obtain ⟨t1, h1⟩ := @write_bytes_on strict .big [] 3 0 0 [.text [0x54, 0x49, 0x54, 0x32] [0, 0] (.latin [0x48, 0x69])] 10 0
    (by decide) (by decide) (by decide) (by decide)
  obtain ⟨t2, h2⟩ := @write_bytes_on strict .little [] 3 0 0 [.text [0x54, 0x49, 0x54, 0x32] [0, 0] (.latin [0x48, 0x69])] 10 0
    (by decide) (by decide) (by decide) (by decide)
  rw [@h strict .big .little, h2] at h1
  simp only [Res.ok.injEq, Prod.mk.injEq, Option.some.injEq] at h1
  have h3 : outBytesOn .little 3 0 0 [.text [0x54, 0x49, 0x54, 0x32] [0, 0] (.latin [0x48, 0x69])] 10 =
    outBytesOn .big 3 0 0 [.text [0x54, 0x49, 0x54, 0x32] [0, 0] (.latin [0x48, 0x69])] 10 :=
      List.append_cancel_right (ofB_inj.mp h1.1)
  revert h3
  decide

/-! ## What becomes of a file -/

theorem synchsafe_backwards (n : Nat) : (synchsafe n).reverse = synchsafe (backwards n) := by
  have d0 : n % 128 < 128 := Nat.mod_lt _ (by decide)
  have d1 : n / 128 % 128 < 128 := Nat.mod_lt _ (by decide)
  have d2 : n / 128 ^ 2 % 128 < 128 := Nat.mod_lt _ (by decide)
  have d3 : n / 128 ^ 3 % 128 < 128 := Nat.mod_lt _ (by decide)
  unfold backwards synchsafe
  generalize n % 128 = a at *
  generalize n / 128 % 128 = b at *
  generalize n / 128 ^ 2 % 128 = c at *
  generalize n / 128 ^ 3 % 128 = d at *
  have e0 : (a * 128 ^ 3 + b * 128 ^ 2 + c * 128 + d) / 128 ^ 3 % 128 = a := by omega
  have e1 : (a * 128 ^ 3 + b * 128 ^ 2 + c * 128 + d) / 128 ^ 2 % 128 = b := by omega
  have e2 : (a * 128 ^ 3 + b * 128 ^ 2 + c * 128 + d) / 128 % 128 = c := by omega
  have e3 : (a * 128 ^ 3 + b * 128 ^ 2 + c * 128 + d) % 128 = d := by omega
  rw [e0, e1, e2, e3]
  rfl

theorem backwards_lt (n : Nat) : backwards n < 2 ^ 28 := by
  have d0 : n % 128 < 128 := Nat.mod_lt _ (by decide)
  have d1 : n / 128 % 128 < 128 := Nat.mod_lt _ (by decide)
  have d2 : n / 128 ^ 2 % 128 < 128 := Nat.mod_lt _ (by decide)
  have d3 : n / 128 ^ 3 % 128 < 128 := Nat.mod_lt _ (by decide)
  unfold backwards
  omega

theorem header_backwards (version minor flags : UInt8) (n : Nat) :
    tagHeaderBytesOn .big version minor flags n = tagHeaderBytes version minor flags (backwards n) := by
  unfold tagHeaderBytesOn tagHeaderBytes field
  dsimp only
  rw [synchsafe_backwards]

/-- A file with a tag that was written on a big-endian machine: everybody takes the first `10 + backwards size` bytes for
the tag. -/
theorem big_endian_length (version minor flags : UInt8) (fs : List SFrame) (padding : Nat) (rest : List UInt8)
    (hv : version = 3 ∨ version = 4) :
    tagLength (outBytesOn .big version minor flags fs padding ++ rest) = 10 + backwards (framesSize fs + padding) := by
  unfold outBytesOn
  rw [header_backwards, List.append_assoc, List.append_assoc]
  exact @tagLength_header strict version minor flags _ _ hv (backwards_lt _)

/-- **C83**: what is left of a file after its tag was written on a big-endian machine and deleted, on any machine. -/
theorem big_endian_write_delete [Platform] (contents : List UInt8) (version minor flags : UInt8) (fs : List SFrame)
    (padding : Nat) (p : Int) (hv : version = 3 ∨ version = 4) (hu : ∀ f ∈ fs, f.Usable)
    (hs : framesSize fs + padding < 2 ^ 28) (hp : 0 ≤ p) (hp2 : p ≤ 2147483647) :
    ∃ file tag', ID3v2_write_tagOn .big (some (ofB contents)) (toTag version minor flags (framesSize fs + padding) fs p) =
        .ok (file, tag') ∧
      ID3v2_delete_tag file = .ok (some (ofB ((outBytesOn .big version minor flags fs padding ++ audio contents).drop
        (10 + backwards (framesSize fs + padding))))) := by
  obtain ⟨tag', h⟩ := write_bytes_on .big contents version minor flags fs padding p hu hs hp hp2
  refine ⟨_, tag', h, ?_⟩
  rw [delete_leaves_audio, audio, big_endian_length _ _ _ _ _ _ hv]

/-- **C83**: all the audio is lost, if the size of the tag is no multiple of 128 and there is less than 2 MiB of audio. -/
theorem big_endian_delete_empties [Platform] (contents : List UInt8) (version minor flags : UInt8) (fs : List SFrame)
    (padding : Nat) (p : Int) (hv : version = 3 ∨ version = 4) (hu : ∀ f ∈ fs, f.Usable)
    (hs : framesSize fs + padding < 2 ^ 28) (hp : 0 ≤ p) (hp2 : p ≤ 2147483647)
    (h128 : (framesSize fs + padding) % 128 ≠ 0) (ha : framesSize fs + padding + (audio contents).length ≤ 2 ^ 21) :
    ∃ file tag', ID3v2_write_tagOn .big (some (ofB contents)) (toTag version minor flags (framesSize fs + padding) fs p) =
        .ok (file, tag') ∧ ID3v2_delete_tag file = .ok (some []) := by
  obtain ⟨file, tag', h1, h2⟩ := big_endian_write_delete contents version minor flags fs padding p hv hu hs hp hp2
  refine ⟨file, tag', h1, ?_⟩
  rw [h2, List.drop_of_length_le]
  · rfl
  · have hf : (fs.flatMap (bytesOn .big)).length = framesSize fs := by
      rw [← flatMap_bytes_length]
      clear h1 h2 hu hs h128 ha
      induction fs with
      | nil => rfl
      | cons f fs ih => simp only [List.flatMap_cons, List.length_append, bytesOn_length, ih]
    have hb : 2 ^ 21 ≤ backwards (framesSize fs + padding) := by
      unfold backwards
      omega
    simp only [outBytesOn, tagHeaderBytesOn, List.length_append, field_length, hf, List.length_replicate, synchsafe_length,
      List.length_cons, List.length_nil]
    omega

/-- The title "Hi", ten bytes of padding, and audio. -/
example : ∃ file tag', @ID3v2_write_tagOn strict .big (some (ofB [0xFF, 0xFB, 0x90]))
      (toTag 3 0 0 24 [.text [0x54, 0x49, 0x54, 0x32] [0, 0] (.latin [0x48, 0x69])] 0) = .ok (file, tag') ∧
    @ID3v2_delete_tag strict file = .ok (some []) :=
  @big_endian_delete_empties strict [0xFF, 0xFB, 0x90] 3 0 0 [.text [0x54, 0x49, 0x54, 0x32] [0, 0] (.latin [0x48, 0x69])] 10 0
    (.inl rfl) (by decide) (by decide) (by decide) (by decide) (by decide) (by decide)

/-! ## Reading it -/

theorem item_text_size [Platform] {v : UInt8} {id size : List UInt8} {more r' : Bytes} {f : Frame} (hid : IdOf 0x54 id)
    (hz : size.length = 4) (h : Item v (ofB (id ++ size) ++ more) f r') :
    ∃ n : Nat, frameSize v size = 1 + n ∧ n ≤ Platform.stack := by
  have cut : ∀ {id' size' : List UInt8} {more' : Bytes}, ofB (id ++ size) ++ more = ofB (id' ++ size') ++ more' →
      id'.length = 4 → size'.length = 4 → id = id' ∧ size = size' := by
    intro id' size' more' e h1 h2
    have := (append_cancel e (by simp [hid.1, hz, h1, h2])).1
    exact append_cancel (ofB_inj.mp this) (by rw [hid.1, h1])
  have c3 : ∀ {id' size' fl : List UInt8} {more' : Bytes}, ofB (id' ++ size' ++ fl) ++ more' =
      ofB (id' ++ size') ++ (ofB fl ++ more') := by
    intro id' size' fl more'
    rw [ofB_append, List.append_assoc]
  generalize hr : ofB (id ++ size) ++ more = r at h
  cases h with
  | text id' size' flags enc s more' n hid' hz' hf hn hst hs hfit hcmp =>
    rw [c3] at hr
    obtain ⟨rfl, rfl⟩ := cut hr hid'.1 hz'
    exact ⟨n, hn, hst⟩
  | comment id' size' flags enc lang desc txt more' hid' hz' =>
    rw [c3] at hr
    obtain ⟨rfl, rfl⟩ := cut hr hid'.1 hz'
    exact absurd (hid.2.symm.trans hid'.2) (by decide)
  | apic id' size' flags enc mime pt desc more' n hid' hz' =>
    rw [c3] at hr
    obtain ⟨rfl, rfl⟩ := cut hr hid'.1 hz'
    exact absurd (hid.2.symm.trans hid'.2) (by decide)
  | other id' size' more' hid' hz' hT =>
    obtain ⟨rfl, rfl⟩ := cut hr hid' hz'
    exact absurd hid.2 hT

/-- The size of a text frame of less than 256 bytes, backwards. -/
theorem size_backwards (v : UInt8) (n : Nat) (h0 : 0 < n) (h : n < 256) :
    frameSize v (be32 n).reverse < 0 ∨ (n * 2 ^ 21 : Nat) ≤ frameSize v (be32 n).reverse := by
  have e : (be32 n).reverse = [UInt8.ofNat n, 0, 0, 0] := by
    have e1 : n / 2 ^ 24 = 0 := by omega
    have e2 : n / 2 ^ 16 = 0 := by omega
    have e3 : n / 2 ^ 8 = 0 := by omega
    simp [be32, e1, e2, e3]
  have en : (UInt8.ofNat n).toNat = n := by rw [UInt8.toNat_ofNat']; omega
  rw [e]
  unfold frameSize
  split
  · right
    simp [looseSize, en]
  · simp only [plainSize, en, show (0 : UInt8).toNat = 0 from rfl]
    split <;> omega

theorem padTo_append (n : Nat) (a d : Bytes) (h : a.length ≤ n) : padTo n (a ++ d) = a ++ padTo (n - a.length) d := by
  unfold padTo
  rw [List.take_append, List.take_of_length_le h, List.length_append, List.append_assoc]
  congr 3
  omega

/-- **C83**: reading a file whose tag was written on a big-endian machine has undefined behaviour on every machine, if the first
frame is a text frame of less than 256 bytes: its size is taken for more bytes than there is stack. -/
theorem big_endian_read_undefined [Platform] (version minor flags : UInt8) (id fl : List UInt8) (s : Str) (fs : List SFrame)
    (padding : Nat) (rest : List UInt8) (hv : version = 3 ∨ version = 4) (hx : flags &&& 0x40 = 0)
    (hid : IdOf 0x54 id) (hl : 1 + s.bytes.length < 256)
    (hst : Platform.stack + 1 < (1 + s.bytes.length) * 2 ^ 21)
    (hb : 10 < backwards (framesSize (.text id fl s :: fs) + padding)) :
    ∃ u, ID3v2_read_tag (some (ofB (outBytesOn .big version minor flags (.text id fl s :: fs) padding ++ rest))) = .ub u := by
  rw [C67_file_undefined, big_endian_length _ _ _ _ _ _ hv]
  refine ⟨by omega, ?_⟩
  intro t h
  have hlt := backwards_lt (framesSize (.text id fl s :: fs) + padding)
  have hC : outBytesOn .big version minor flags (.text id fl s :: fs) padding ++ rest =
      tagHeaderBytes version minor flags (backwards (framesSize (.text id fl s :: fs) + padding)) ++
        ((id ++ (be32 (1 + s.bytes.length)).reverse) ++
          (fl ++ (SFrame.text id fl s).body ++ fs.flatMap (bytesOn .big) ++ List.replicate padding 0 ++ rest)) := by
    have e : (SFrame.text id fl s).body.length = 1 + s.bytes.length := by
      simp [SFrame.body]
      omega
    unfold outBytesOn
    rw [header_backwards]
    simp only [List.flatMap_cons, bytesOn, field, e, List.append_assoc]
    rfl
  rw [hC] at h
  generalize fl ++ (SFrame.text id fl s).body ++ fs.flatMap (bytesOn .big) ++ List.replicate padding 0 ++ rest = W at h
  generalize backwards (framesSize (.text id fl s :: fs) + padding) = bw at hb h hlt
  have h8 : (id ++ (be32 (1 + s.bytes.length)).reverse).length = 8 := by simp [hid.1, be32]
  rw [ofB_append (tagHeaderBytes version minor flags bw), padTo_append _ _ _ (by simp [tagHeaderBytes, synchsafe]),
    ofB_append (id ++ _), padTo_append _ _ _ (by simp only [ofB_length, h8]; simp [tagHeaderBytes, synchsafe]; omega),
    tagIn_header version minor flags bw _ hv hx hlt] at h
  obtain ⟨gs, stop, hi, -⟩ := h
  generalize padTo _ (ofB W) = more at hi
  generalize hr : ofB (id ++ (be32 (1 + s.bytes.length)).reverse) ++ more = r at hi
  cases hi with
  | stop c r h => omega
  | padding c r h =>
    rw [ofB_append, List.append_assoc] at hr
    have := ofB_inj.mp (append_cancel hr (by simp [hid.1])).1
    rw [this] at hid
    exact absurd hid.2 (by decide)
  | frame c r f r' fs' c' h hi hs =>
    subst hr
    obtain ⟨n, h1, h2⟩ := item_text_size hid (by simp [be32]) hi
    rcases size_backwards version (1 + s.bytes.length) (by omega) hl with h3 | h3
    · omega
    · omega

/-- The title "Hi" in a tag of version 2.3, carried to a machine with a stack of 8192 bytes. -/
example : ∃ u, @ID3v2_read_tag strict (some (ofB (outBytesOn .big 3 0 0
    [.text [0x54, 0x49, 0x54, 0x32] [0, 0] (.latin [0x48, 0x69])] 10 ++ [0xFF, 0xFB, 0x90]))) = .ub u :=
  @big_endian_read_undefined strict 3 0 0 [0x54, 0x49, 0x54, 0x32] [0, 0] (.latin [0x48, 0x69]) [] 10 [0xFF, 0xFB, 0x90]
    (.inl rfl) (by decide) ⟨rfl, rfl⟩ (by decide) (by decide) (by decide)

/-! ## The sign of `char` -/

/-- **C83**: what is read and written does not depend on the sign of `char`. -/
theorem C83_sign (p p' : Platform) (h : SameButChar p p') :
    (∀ buffer n, @ID3v2_read_tag_from_buffer p buffer n = @ID3v2_read_tag_from_buffer p' buffer n) ∧
    (∀ buffer, @ID3v2_read_tag_header_from_buffer p buffer = @ID3v2_read_tag_header_from_buffer p' buffer) ∧
    (∀ file, @ID3v2_read_tag_header p file = @ID3v2_read_tag_header p' file) ∧
    (∀ file, @ID3v2_read_tag p file = @ID3v2_read_tag p' file) ∧
    (∀ file tag, @ID3v2_write_tag p file tag = @ID3v2_write_tag p' file tag) ∧
    (∀ file, @ID3v2_delete_tag p file = @ID3v2_delete_tag p' file) := by
  obtain ⟨b, n, s⟩ := p
  obtain ⟨b', n', s'⟩ := p'
  obtain ⟨rfl, rfl⟩ := h
  refine ⟨fun x k => ?_, fun x => ?_, fun x => ?_, fun x => ?_, fun x t => ?_, fun x => ?_⟩
  · exact (ID3v2_read_tag_from_buffer_sign _ _ s x k).trans (ID3v2_read_tag_from_buffer_sign _ _ s' x k).symm
  · exact (ID3v2_read_tag_header_from_buffer_sign _ _ s x).trans (ID3v2_read_tag_header_from_buffer_sign _ _ s' x).symm
  · exact (ID3v2_read_tag_header_sign _ _ s x).trans (ID3v2_read_tag_header_sign _ _ s' x).symm
  · exact (ID3v2_read_tag_sign _ _ s x).trans (ID3v2_read_tag_sign _ _ s' x).symm
  · exact (ID3v2_write_tag_sign _ _ s x t).trans (ID3v2_write_tag_sign _ _ s' x t).symm
  · exact (ID3v2_delete_tag_sign _ _ s x).trans (ID3v2_delete_tag_sign _ _ s' x).symm

/-- **C83** for the calls that change a tag in memory (the setters of single fields call these), and for the string helpers. -/
theorem C83_sign_setters (p p' : Platform) (h : SameButChar p p') :
    (∀ tag input, @ID3v2_Tag_set_text_frame p tag input = @ID3v2_Tag_set_text_frame p' tag input) ∧
    (∀ tag input, @ID3v2_Tag_set_comment_frame p tag input = @ID3v2_Tag_set_comment_frame p' tag input) ∧
    (∀ tag input, @ID3v2_Tag_add_comment_frame p tag input = @ID3v2_Tag_add_comment_frame p' tag input) ∧
    (∀ tag input, @ID3v2_Tag_set_apic_frame p tag input = @ID3v2_Tag_set_apic_frame p' tag input) ∧
    (∀ tag input, @ID3v2_Tag_add_apic_frame p tag input = @ID3v2_Tag_add_apic_frame p' tag input) ∧
    (∀ tag lang x, @ID3v2_Tag_set_comment p tag lang x = @ID3v2_Tag_set_comment p' tag lang x) ∧
    (∀ tag mime n x, @ID3v2_Tag_set_album_cover p tag mime n x = @ID3v2_Tag_set_album_cover p' tag mime n x) ∧
    (∀ x, @ID3v2_strlen p x = @ID3v2_strlen p' x) ∧
    (∀ x, @ID3v2_strlent p x = @ID3v2_strlent p' x) ∧
    (∀ x, @ID3v2_to_unicode p x = @ID3v2_to_unicode p' x) := by
  obtain ⟨b, n, s⟩ := p
  obtain ⟨b', n', s'⟩ := p'
  obtain ⟨rfl, rfl⟩ := h
  refine ⟨fun t x => ?_, fun t x => ?_, fun t x => ?_, fun t x => ?_, fun t x => ?_, fun t l x => ?_, fun t m k x => ?_,
    fun x => ?_, fun x => ?_, fun x => ?_⟩
  · exact (ID3v2_Tag_set_text_frame_sign _ _ s t x).trans (ID3v2_Tag_set_text_frame_sign _ _ s' t x).symm
  · exact (ID3v2_Tag_set_comment_frame_sign _ _ s t x).trans (ID3v2_Tag_set_comment_frame_sign _ _ s' t x).symm
  · exact (ID3v2_Tag_add_comment_frame_sign _ _ s t x).trans (ID3v2_Tag_add_comment_frame_sign _ _ s' t x).symm
  · exact (ID3v2_Tag_set_apic_frame_sign _ _ s t x).trans (ID3v2_Tag_set_apic_frame_sign _ _ s' t x).symm
  · exact (ID3v2_Tag_add_apic_frame_sign _ _ s t x).trans (ID3v2_Tag_add_apic_frame_sign _ _ s' t x).symm
  · exact (ID3v2_Tag_set_comment_sign _ _ s t l x).trans (ID3v2_Tag_set_comment_sign _ _ s' t l x).symm
  · exact (ID3v2_Tag_set_album_cover_sign _ _ s t m k x).trans (ID3v2_Tag_set_album_cover_sign _ _ s' t m k x).symm
  · exact (ID3v2_strlen_sign _ _ s x).trans (ID3v2_strlen_sign _ _ s' x).symm
  · exact (ID3v2_strlent_sign _ _ s x).trans (ID3v2_strlent_sign _ _ s' x).symm
  · exact (ID3v2_to_unicode_sign _ _ s x).trans (ID3v2_to_unicode_sign _ _ s' x).symm

/-- **C83** for the calls of the compatibility API on files and buffers. -/
theorem C83_sign_compat (p p' : Platform) (h : SameButChar p p') :
    (∀ file, @load_tag p file = @load_tag p' file) ∧
    (∀ buffer n, @load_tag_with_buffer p buffer n = @load_tag_with_buffer p' buffer n) ∧
    (∀ file tag, @set_tag p file tag = @set_tag p' file tag) ∧
    (∀ file, @remove_tag p file = @remove_tag p' file) ∧
    (∀ name image tag, @tag_set_album_cover p name image tag = @tag_set_album_cover p' name image tag) := by
  obtain ⟨b, n, s⟩ := p
  obtain ⟨b', n', s'⟩ := p'
  obtain ⟨rfl, rfl⟩ := h
  refine ⟨fun x => ?_, fun x k => ?_, fun x t => ?_, fun x => ?_, fun i x t => ?_⟩
  · exact (load_tag_sign _ _ s x).trans (load_tag_sign _ _ s' x).symm
  · exact (load_tag_with_buffer_sign _ _ s x k).trans (load_tag_with_buffer_sign _ _ s' x k).symm
  · exact (set_tag_sign _ _ s x t).trans (set_tag_sign _ _ s' x t).symm
  · exact (remove_tag_sign _ _ s x).trans (remove_tag_sign _ _ s' x).symm
  · exact (tag_set_album_cover_sign _ _ s i x t).trans (tag_set_album_cover_sign _ _ s' i x t).symm

/-- Intel and ARM. -/
example : SameButChar { memcmpLenient := true, stack := 8388608, charSigned := true } lenient := ⟨rfl, rfl⟩

end Id3.Props
