import Verif.Proof.TagParse

/-!
# Frames of the library as frames in the wild
-/

namespace Id3

open Spec

@[simp] theorem ofSFrame_id (f : SFrame) : (Wire.ofSFrame f).id = f.id := by cases f <;> rfl
@[simp] theorem ofSFrame_flags (f : SFrame) : (Wire.ofSFrame f).flags = f.flags := by cases f <;> rfl
@[simp] theorem ofSFrame_body (f : SFrame) : (Wire.ofSFrame f).body = f.body := by
  cases f <;> simp [Wire.ofSFrame, Wire.body, SFrame.body]
@[simp] theorem ofSFrame_sizeField (f : SFrame) : (Wire.ofSFrame f).sizeField = f.body.length := by
  cases f <;> simp [Wire.ofSFrame, Wire.body, SFrame.body, Wire.sizeField]
@[simp] theorem ofSFrame_kept (f : SFrame) : (Wire.ofSFrame f).kept = f := by cases f <;> rfl

theorem ofSFrame_bytesWith (f : SFrame) (szb : List UInt8) :
    (Wire.ofSFrame f).bytesWith szb = f.id ++ szb ++ f.flags ++ f.body := by
  simp [Wire.bytesWith]

theorem ofSFrame_bytes (f : SFrame) (version : UInt8) (hv : version ≠ 4) : (Wire.ofSFrame f).bytes version = f.bytes := by
  simp [Wire.bytes, ofSFrame_bytesWith, sizeBytes, hv, SFrame.bytes]

theorem ofSFrame_WF (f : SFrame) (h : f.WF) : (Wire.ofSFrame f).WF := by
  cases f <;> simp_all [Wire.ofSFrame, Wire.WF, SFrame.WF, commId, apicId]

theorem ofSFrame_keepable [Platform] (f : SFrame) (h : f.Readable) : (Wire.ofSFrame f).Keepable :=
  ⟨ofSFrame_WF f h.1.1, by rw [ofSFrame_kept]; exact h.1, h.2⟩

theorem ofSFrame_readable [Platform] (f : SFrame) (h : f.Readable) : (Wire.ofSFrame f).Readable 3 := by
  refine ⟨ofSFrame_keepable f h, ?_⟩
  have h1 := h.1.2.1
  rw [SFrame.bytes_length _ h.1.1] at h1
  rw [ofSFrame_sizeField]
  simp [maxFrameSize]; omega

theorem ofSFrame_flat (fs : List SFrame) (version : UInt8) (hv : version ≠ 4) :
    (fs.map Wire.ofSFrame).flatMap (Wire.bytes version) = fs.flatMap SFrame.bytes := by
  induction fs with
  | nil => rfl
  | cons f fs ih => simp only [List.map_cons, List.flatMap_cons, ih, ofSFrame_bytes _ _ hv]

theorem ofSFrame_map_kept (fs : List SFrame) : (fs.map Wire.ofSFrame).map Wire.kept = fs := by
  induction fs with
  | nil => rfl
  | cons f fs ih => simp [ih]

/-- A tag written by the library is a tag in the wild. -/
theorem tagBytes_wire (minor flags : UInt8) (fs : List SFrame) (padding : Nat) :
    tagBytes minor flags fs padding = wireTagBytes 3 minor flags (fs.map Wire.ofSFrame) padding := by
  unfold tagBytes wireTagBytes
  dsimp only
  rw [ofSFrame_flat _ _ (by decide), flatMap_bytes_length]

theorem Wire.kept_WF (w : Wire) (h : w.WF) : w.kept.WF := by
  cases w with
  | text => exact h
  | comment => exact ⟨h.2.2.1, h.2.2.2.1, h.2.2.2.2.1, h.2.2.2.2.2⟩
  | apic => exact ⟨h.2.2.1, h.2.2.2.1, h.2.2.2.2⟩
  | other => exact h

/-- The library never keeps more bytes than there were. -/
theorem Wire.kept_length (version : UInt8) (w : Wire) (h : w.WF) : w.kept.bytes.length ≤ (w.bytes version).length := by
  rw [SFrame.bytes_length _ (Wire.kept_WF w h), Wire.bytes_length version w h]
  cases w <;> simp [Wire.kept, SFrame.body, Wire.body] <;> omega

theorem kept_framesSize (version : UInt8) (ws : List Wire) (h : ∀ w ∈ ws, w.WF) :
    framesSize (ws.map Wire.kept) ≤ (ws.flatMap (Wire.bytes version)).length := by
  induction ws with
  | nil => simp [framesSize]
  | cons w ws ih =>
    have h1 := Wire.kept_length version w (h w (by simp))
    have h2 := ih (fun x hx => h x (by simp [hx]))
    rw [List.map_cons, framesSize_cons, List.flatMap_cons, List.length_append]
    omega

theorem toTag_frames (major minor flags : UInt8) (n : Nat) (fs : List SFrame) (p : Int) :
    (toTag major minor flags n fs p).frames = toFrameList fs := rfl

/-- Serialising a tag that represents `fs`. -/
theorem toTag_out [Platform] (version minor flags : UInt8) (size : Nat) (fs : List SFrame) (p : Int)
    (hu : ∀ f ∈ fs, f.Usable) (hs : size < 2 ^ 28) (hfit : framesSize fs ≤ size) :
    ∃ cs, Tag_to_char_stream (toTag version minor flags size fs p) = .ok cs ∧
      cs.stream = ofB (tagHeaderBytes version minor flags size ++ fs.flatMap SFrame.bytes ++
        List.replicate (size - framesSize fs) 0) ∧ cs.size = (10 + size : Nat) := by
  refine ⟨_, tag_out (toTag version minor flags size fs p) fs rfl rfl hu (by show size + 10 ≤ _; omega) hfit, ?_, ?_⟩
  · rw [headerOut_eq _ hs, csOut_stream]
    simp [toTag, ofB]
  · have e := flatMap_bytes_length fs
    simp only [csOut, ofB_length, List.length_append, headerOut_length, e]
    show ((10 + framesSize fs + (size - framesSize fs) : Nat) : Int) = _
    rw [Nat.add_assoc, Nat.add_sub_of_le hfit]

/-- Reading a buffer that holds a tag of readable chunks and anything else. -/
theorem read_chunks [Platform] (version minor flags : UInt8) (cs : List (List UInt8 × Frame)) (padding : Nat)
    (trail after : Bytes) (n : Int) (hv : version = 3 ∨ version = 4) (hflag : flags &&& 0x40 = 0)
    (hR : ∀ c ∈ cs, Parses version c.1 c.2)
    (hs : (chunksFlat cs).length + padding < 2 ^ 28)
    (htrail : (chunksFlat cs).length + padding + trail.length + 10 ≤ 2147483647)
    (hlast : 0 < padding ∨ ∀ c, cs.getLast? = some c → 10 < c.1.length)
    (hn : n = (10 + (chunksFlat cs).length + padding + trail.length : Nat)) :
    ID3v2_read_tag_from_buffer (ofB (tagHeaderBytes version minor flags ((chunksFlat cs).length + padding) ++
        chunksFlat cs ++ List.replicate padding 0) ++ trail ++ after) n =
      .ok (some (parsedTag version minor flags ((chunksFlat cs).length + padding) (cs.map (fun c => c.2))
        (padding + trail.length))) := by
  unfold ID3v2_read_tag_from_buffer
  rw [from_buffer_csAt _ after n (by
    rw [hn]; simp [tagHeaderBytes, synchsafe]; omega)]
  simp only [Res.bind_ok]
  exact tag_parse_chunks version minor flags cs padding trail hv hflag hR hs htrail hlast

/-- Reading a buffer that holds a tag of readable frames, `trail`, and (beyond the given length) `after`. -/
theorem read_wire [Platform] (version minor flags : UInt8) (ws : List Wire) (padding : Nat) (trail after : Bytes)
    (n : Int) (hv : version = 3 ∨ version = 4) (hflag : flags &&& 0x40 = 0)
    (hR : ∀ w ∈ ws, w.Readable version)
    (hs : (ws.flatMap (Wire.bytes version)).length + padding < 2 ^ 28)
    (htrail : (ws.flatMap (Wire.bytes version)).length + padding + trail.length + 10 ≤ 2147483647)
    (hlast : lastSeen ws padding)
    (hn : n = (10 + (ws.flatMap (Wire.bytes version)).length + padding + trail.length : Nat)) :
    ID3v2_read_tag_from_buffer (ofB (wireTagBytes version minor flags ws padding) ++ trail ++ after) n =
      .ok (some (toTag version minor flags ((ws.flatMap (Wire.bytes version)).length + padding) (ws.map Wire.kept)
        (padding + trail.length : Nat))) := by
  unfold ID3v2_read_tag_from_buffer
  rw [from_buffer_csAt _ after n (by
    rw [hn]; simp [wireTagBytes, tagHeaderBytes, synchsafe]; omega)]
  simp only [Res.bind_ok]
  exact tag_parse version minor flags ws padding trail hv hflag hR hs htrail hlast

theorem lastSeen_ofSFrame (fs : List SFrame) (padding : Nat)
    (h : 0 < padding ∨ ∀ f, fs.getLast? = some f → f.body ≠ []) : lastSeen (fs.map Wire.ofSFrame) padding := by
  rcases h with h | h
  · exact Or.inl h
  · right
    intro w hw
    rw [List.getLast?_map] at hw
    cases hl : fs.getLast? with
    | none => rw [hl] at hw; simp at hw
    | some f =>
      rw [hl] at hw; simp at hw; subst hw
      rw [ofSFrame_body]; exact h f hl

end Id3
