import Verif.Proof.Parse

/-!
# Serialising a tag
-/

namespace Id3

open Spec

theorem framesSize_cons (f : SFrame) (fs : List SFrame) : framesSize (f :: fs) = f.bytes.length + framesSize fs := by
  simp [framesSize]

theorem framesSize_nil : framesSize [] = 0 := rfl

theorem flatMap_bytes_length (fs : List SFrame) : (fs.flatMap SFrame.bytes).length = framesSize fs := by
  induction fs with
  | nil => rfl
  | cons f fs ih => rw [framesSize_cons, List.flatMap_cons, List.length_append, ih]

theorem csOut_stream (d : Bytes) (n : Nat) : (csOut d n).stream = d ++ List.replicate n (some 0) := rfl

/-- Writing the frames, when there is room for all of them. -/
theorem write_frames_fit [Platform] (fs : List SFrame) (hu : ∀ f ∈ fs, f.Usable) (done : Bytes) (room : Nat)
    (hr : done.length + room ≤ 2147483647) (hfit : framesSize fs ≤ room) :
    Tag_write_frames (csOut done room) (fs.map (fun f => some f.toFrame)) =
      .ok (csOut (done ++ ofB (fs.flatMap SFrame.bytes)) (room - framesSize fs)) := by
  induction fs generalizing done room with
  | nil => simp [Tag_write_frames, framesSize]
  | cons f fs ih =>
    rw [framesSize_cons] at hfit
    simp only [List.map_cons, Tag_write_frames]
    rw [frame_out f (hu f (by simp))]
    simp only [Res.bind_ok]
    have hc : (csOut (ofB f.bytes) 0).stream = ofB f.bytes := by simp [csOut]
    rw [hc, write_csOut' _ _ _ _ (by simp [csOut]) (by simp; omega) (by simp; omega)]
    simp only [Res.bind_ok, ofB_length]
    rw [ih (fun g hg => hu g (by simp [hg])) _ _ (by simp; omega) (by omega)]
    simp only [List.flatMap_cons, ofB_append, framesSize_cons, List.append_assoc]
    rw [Nat.sub_sub]

/-- Writing the frames, when there is not enough room: a heap buffer overflow. -/
theorem write_frames_overflow [Platform] (fs : List SFrame) (hu : ∀ f ∈ fs, f.Usable) (done : Bytes) (room : Nat)
    (hr : done.length + room ≤ 2147483647) (hfit : room < framesSize fs) :
    Tag_write_frames (csOut done room) (fs.map (fun f => some f.toFrame)) = .ub .oobWrite := by
  induction fs generalizing done room with
  | nil => simp [framesSize] at hfit
  | cons f fs ih =>
    rw [framesSize_cons] at hfit
    simp only [List.map_cons, Tag_write_frames]
    rw [frame_out f (hu f (by simp))]
    simp only [Res.bind_ok]
    have hc : (csOut (ofB f.bytes) 0).stream = ofB f.bytes := by simp [csOut]
    rw [hc]
    by_cases h : f.bytes.length ≤ room
    · rw [write_csOut' _ _ _ _ (by simp [csOut]) (by simp; omega) (by simp; omega)]
      simp only [Res.bind_ok, ofB_length]
      rw [ih (fun g hg => hu g (by simp [hg])) _ _ (by simp; omega) (by omega)]
    · rw [write_csOut_oob _ _ _ _ (by simp [csOut]) (by simp; omega)]
      simp

theorem write_frames_append [Platform] (cs : CharStream) (a b : FrameList) :
    Tag_write_frames cs (a ++ b) = (Tag_write_frames cs a >>= fun cs => Tag_write_frames cs b) := by
  induction a generalizing cs with
  | nil => simp [Tag_write_frames]
  | cons x xs ih =>
    cases x with
    | none => rfl
    | some f =>
      simp only [List.cons_append, Tag_write_frames]
      cases Frame_to_char_stream f with
      | ok c =>
        simp only [Res.bind_ok]
        cases CharStream_write cs c.stream c.size with
        | ok c' => simp only [Res.bind_ok]; exact ih c'
        | _ => rfl
      | _ => rfl

/-- The ten bytes of the tag header as the library writes them, for any size. -/
def headerOut (h : TagHeader) : List UInt8 :=
  [0x49, 0x44, 0x33, h.major_version, h.minor_version, h.flags] ++ itob (encoded (BitVec.ofNat 32 h.tag_size))

@[simp] theorem itob_length (v : BitVec 32) : (itob v).length = 4 := rfl

@[simp] theorem headerOut_length (h : TagHeader) : (headerOut h).length = 10 := rfl

theorem headerOut_eq (h : TagHeader) (hs : h.tag_size < 2 ^ 28) :
    headerOut h = tagHeaderBytes h.major_version h.minor_version h.flags h.tag_size := by
  unfold headerOut tagHeaderBytes; rw [encoded_synchsafe _ hs]

theorem u32_nat {n : Nat} (h : n < 4294967296) : u32 (n : Int) = n := by
  unfold u32; omega

theorem toInt32_nat {n : Nat} (h : n < 2147483648) : toInt32 n = n := by
  unfold toInt32; rw [if_pos (by omega)]; omega

/-- Everything `Tag_to_char_stream` does before the frames. -/
theorem tag_header_out [Platform] (t : Tag) (hid : t.header.identifier = ofB [0x49, 0x44, 0x33])
    (hs : t.header.tag_size + 10 ≤ 2147483647) :
    Tag_to_char_stream t =
      (match t.frames with
        | [] => .ub .nullDeref
        | none :: _ => .ok (csOut (ofB (headerOut t.header)) t.header.tag_size)
        | frames => Tag_write_frames (csOut (ofB (headerOut t.header)) t.header.tag_size) frames) := by
  unfold Tag_to_char_stream
  have e : toInt32 (u32 ((t.header.tag_size : Int) + 10)) = ((t.header.tag_size + 10 : Nat) : Int) := by
    rw [show (t.header.tag_size : Int) + 10 = ((t.header.tag_size + 10 : Nat) : Int) from rfl, u32_nat (by omega),
      toInt32_nat (by omega)]
  rw [e, CharStream_new_csOut _ _ rfl]
  dsimp only
  rw [hid]
  rw [write_csOut' _ _ _ _ (by simp) (by simp) (by simp)]
  simp only [Res.bind_ok]
  rw [write_csOut' _ _ _ _ (by simp) (by simp) (by simp)]
  simp only [Res.bind_ok]
  rw [write_csOut' _ _ _ _ (by simp) (by simp) (by simp)]
  simp only [Res.bind_ok]
  rw [write_csOut' _ _ _ _ (by simp) (by simp) (by simp)]
  simp only [Res.bind_ok]
  rw [syncint_encode_eq]
  simp only [Res.bind_ok]
  rw [write_csOut' _ _ _ _ (by simp) (by simp) (by simp)]
  simp only [Res.bind_ok]
  have e2 : csOut ([] ++ ofB [73, 68, 51] ++ [some t.header.major_version] ++ [some t.header.minor_version] ++
      [some t.header.flags] ++ ofB (itob (encoded (BitVec.ofNat 32 t.header.tag_size))))
      (t.header.tag_size + 10 - (ofB [73, 68, 51]).length - [some t.header.major_version].length -
        [some t.header.minor_version].length - [some t.header.flags].length -
        (ofB (itob (encoded (BitVec.ofNat 32 t.header.tag_size)))).length) =
      csOut (ofB (headerOut t.header)) t.header.tag_size := by
    simp [headerOut]
  rw [e2]
  cases t.frames with
  | nil => rfl
  | cons x xs => cases x <;> simp

theorem toFrameList_cons (f : SFrame) (fs : List SFrame) :
    toFrameList (f :: fs) = (f :: fs).map (fun f => some f.toFrame) := rfl

/-- Serialising a tag with enough room for its frames. -/
theorem tag_out [Platform] (t : Tag) (fs : List SFrame) (hid : t.header.identifier = ofB [0x49, 0x44, 0x33])
    (hfr : t.frames = toFrameList fs) (hu : ∀ f ∈ fs, f.Usable) (hs : t.header.tag_size + 10 ≤ 2147483647)
    (hfit : framesSize fs ≤ t.header.tag_size) :
    Tag_to_char_stream t =
      .ok (csOut (ofB (headerOut t.header ++ fs.flatMap SFrame.bytes)) (t.header.tag_size - framesSize fs)) := by
  rw [tag_header_out t hid hs, hfr]
  cases fs with
  | nil => simp [toFrameList, framesSize]
  | cons f fs =>
    rw [toFrameList_cons]
    have := write_frames_fit (f :: fs) hu (ofB (headerOut t.header)) t.header.tag_size (by simp; omega) hfit
    simp only [List.map_cons] at this ⊢
    rw [this]; simp

/-- Serialising a tag whose size field is too small for its frames. -/
theorem tag_out_overflow [Platform] (t : Tag) (fs : List SFrame)
    (hid : t.header.identifier = ofB [0x49, 0x44, 0x33])
    (hfr : t.frames = toFrameList fs) (hu : ∀ f ∈ fs, f.Usable) (hs : t.header.tag_size + 10 ≤ 2147483647)
    (hfit : t.header.tag_size < framesSize fs) :
    Tag_to_char_stream t = .ub .oobWrite := by
  rw [tag_header_out t hid hs, hfr]
  cases fs with
  | nil => simp [framesSize] at hfit
  | cons f fs =>
    rw [toFrameList_cons]
    have := write_frames_overflow (f :: fs) hu (ofB (headerOut t.header)) t.header.tag_size (by simp; omega) hfit
    simp only [List.map_cons] at this ⊢
    rw [this]

end Id3
