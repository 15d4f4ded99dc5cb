import Verif.Spec.Compat
import Verif.Props.File

/-!
# The compatibility layer
-/

namespace Id3

open Spec

/-- The entry made from a frame. -/
def compatOf (f : SFrame) : CFrame :=
  { frame_id := ofB f.id, size := f.body.length, flags := intoArray 2 ((ofB f.flags).take 1), data := ofB f.body,
    frame := f.toFrame }

theorem SFrame.wf_lengths (f : SFrame) (h : f.WF) : f.id.length = 4 ∧ f.flags.length = 2 := by
  cases f <;> simp_all [SFrame.WF, SFrame.id, SFrame.flags, commId, apicId]

theorem to_compat [Platform] (f : SFrame) (h : f.Usable) :
    frame_to_compat_frame (some f.toFrame) = .ok (compatOf f) := by
  obtain ⟨h4, h2⟩ := SFrame.wf_lengths f h.1
  unfold frame_to_compat_frame
  dsimp only
  have e1 : f.toFrame.header.id = ofB f.id := by cases f <;> rfl
  have e2 : f.toFrame.header.flags = ofB f.flags := by cases f <;> rfl
  have e3 : f.toFrame.header.size = f.body.length := by cases f <;> rfl
  have m1 : memcpySrc (ofB f.id) 4 = .ok (ofB f.id) := by
    unfold memcpySrc
    rw [if_neg (by omega), if_neg (by simp; omega), List.take_of_length_le (by simp; omega)]
  have m2 : memcpySrc (ofB f.flags) 1 = .ok ((ofB f.flags).take 1) := by
    unfold memcpySrc
    rw [if_neg (by omega), if_neg (by simp; omega)]; rfl
  rw [e1, e2, e3, m1, m2, frame_out f h]
  have hl := SFrame.bytes_length f h.1
  have hb : f.bytes.drop 10 = f.body := by
    unfold SFrame.bytes
    rw [List.drop_append_of_le_length (by simp; omega)]
    rw [List.drop_of_length_le (by simp; omega), List.nil_append]
  have r : CharStream_read { csOut (ofB f.bytes) 0 with cursor := 10 } f.body.length =
      .ok (ofB f.body, { csOut (ofB f.bytes) 0 with cursor := 10 + f.body.length }) := by
    unfold CharStream_read CharStream_get_cur csOut
    dsimp only
    simp only [List.replicate_zero, List.append_nil, Nat.add_zero, ofB_length]
    rw [clamp_mid (by omega) (by omega), if_pos (by omega)]
    simp only [Res.bind_ok]
    have : memcpySrc ((ofB f.bytes).drop (10 : Int).toNat) f.body.length = .ok (ofB f.body) := by
      rw [ofB_drop]
      unfold memcpySrc
      rw [show ((10 : Int).toNat) = 10 from rfl, hb, if_neg (by omega), if_neg (by simp),
        List.take_of_length_le (by simp)]
    rw [this]
    rfl
  simp only [Res.bind_ok, CharStream_seek, r, Res.pure_eq]
  rw [intoArray_full _ (ofB f.body) (by simp)]
  rfl

theorem compatOf_shows (f : SFrame) (h : f.WF) : Shows (compatOf f) f := by
  obtain ⟨h4, h2⟩ := SFrame.wf_lengths f h
  refine ⟨rfl, rfl, ?_, rfl, rfl⟩
  match hf : f.flags, h2 with
  | [a, b], _ => simp [compatOf, hf, intoArray, ofB]

theorem idEq_ofB (a b : List UInt8) (ha : a.length = 4) (hb : b.length = 4) :
    idEq (ofB a) (ofB b) = .ok (decide (a = b)) := by
  have m : ∀ a : List UInt8, a.length = 4 → memcpySrc (ofB a) 4 = .ok (ofB a) := by
    intro a ha
    unfold memcpySrc
    rw [if_neg (by omega), if_neg (by simp; omega), List.take_of_length_le (by simp; omega)]
  unfold idEq
  rw [m a ha, m b hb]
  simp only [Res.bind_ok, loadAll_ofB, Res.pure_eq]
  congr 1
  by_cases h : a = b <;> simp [h]

/-- The compat list of the frames. -/
def compatList (fs : List SFrame) : CList := fs.map (fun f => some (compatOf f))

theorem uniq_hit (fs : List SFrame) (f : SFrame) (hf : f.id.length = 4) (hfs : ∀ g ∈ fs, g.id.length = 4)
    (h : ∃ g ∈ fs, g.id = f.id) :
    add_uniq_to_list (compatList fs) (compatOf f) = .ok (compatList (put SFrame.id f.id f fs)) := by
  induction fs with
  | nil => simp at h
  | cons x xs ih =>
    simp only [compatList, List.map_cons, add_uniq_to_list]
    show (do if ← idEq (ofB x.id) (ofB f.id) then _ else _ : Res CList) = _
    rw [idEq_ofB _ _ (hfs x (by simp)) hf]
    simp only [Res.bind_ok, decide_eq_true_eq, put]
    by_cases e : x.id = f.id
    · rw [if_pos e, if_pos e]; rfl
    · rw [if_neg e, if_neg e]
      have := ih (fun g hg => hfs g (by simp [hg])) (by
        obtain ⟨g, hg, he⟩ := h
        rcases List.mem_cons.mp hg with rfl | hg
        · exact absurd he e
        · exact ⟨g, hg, he⟩)
      unfold compatList at this
      rw [this]; rfl

theorem uniq_miss (fs : List SFrame) (f : SFrame) (hf : f.id.length = 4) (hfs : ∀ g ∈ fs, g.id.length = 4)
    (h : ∀ g ∈ fs, g.id ≠ f.id) :
    add_uniq_to_list (compatList fs) (compatOf f) = .ub .nullDeref := by
  induction fs with
  | nil => rfl
  | cons x xs ih =>
    simp only [compatList, List.map_cons, add_uniq_to_list]
    show (do if ← idEq (ofB x.id) (ofB f.id) then _ else _ : Res CList) = _
    rw [idEq_ofB _ _ (hfs x (by simp)) hf]
    simp only [Res.bind_ok, decide_eq_true_eq]
    rw [if_neg (h x (by simp))]
    have := ih (fun g hg => hfs g (by simp [hg])) (fun g hg => h g (by simp [hg]))
    unfold compatList at this
    rw [this]; rfl

theorem get_compat (fs : List SFrame) (k : List UInt8) (rest : Bytes) (hk : ValidId k) (hfs : ∀ g ∈ fs, g.id.length = 4) :
    get_from_list (compatList fs) (ofB k ++ rest) = .ok ((first SFrame.id k fs).map compatOf) := by
  induction fs with
  | nil => rfl
  | cons x xs ih =>
    simp only [compatList, List.map_cons, get_from_list]
    rw [show (compatOf x).frame_id = ofB x.id from rfl, strncmp_ofB 4 x.id k rest (hfs x (by simp)) hk.1 hk.2]
    simp only [Res.bind_ok]
    by_cases e : x.id = k
    · simp [first, e]
    · have := ih (fun g hg => hfs g (by simp [hg]))
      unfold compatList at this
      simp [first, e, this]

theorem load_frames_list [Platform] (done fs : List SFrame) (hd : done ≠ []) (hu : ∀ f ∈ fs, f.Usable) :
    load_frames (compatList done) (fs.map (fun f => some f.toFrame)) = .ok (compatList (done ++ fs)) := by
  induction fs generalizing done with
  | nil => simp [load_frames]
  | cons f fs ih =>
    simp only [List.map_cons, load_frames]
    rw [to_compat f (hu f (by simp))]
    simp only [Res.bind_ok]
    have : add_to_list (compatList done) (compatOf f) = compatList (done ++ [f]) := by
      cases done with
      | nil => exact absurd rfl hd
      | cons d ds => simp [compatList, add_to_list]
    rw [this, ih _ (by simp) (fun g hg => hu g (by simp [hg]))]
    simp

/-- Loading the frames of a tag that has some. -/
theorem load_frames_new [Platform] (fs : List SFrame) (hne : fs ≠ []) (hu : ∀ f ∈ fs, f.Usable) :
    load_frames new_frame_list (toFrameList fs) = .ok (compatList fs) := by
  cases fs with
  | nil => exact absurd rfl hne
  | cons f fs =>
    have e : toFrameList (f :: fs) = some f.toFrame :: fs.map (fun f => some f.toFrame) := rfl
    rw [e]
    simp only [load_frames]
    rw [to_compat f (hu f (by simp))]
    simp only [Res.bind_ok]
    exact load_frames_list [f] fs (by simp) (fun g hg => hu g (by simp [hg]))

/-- A stored frame is found. -/
theorem set_then_get [Platform] (tag : Tag) (fs : List Frame) (new : SFrame) (r r' : Bytes) (h : tag.Holds fs)
    (hk : ValidId new.id) (hn : new.Usable) :
    ∃ t, Tag_set_frame tag (ofB new.id ++ r) new.toFrame = .ok t ∧
      ID3v2_Tag_get_frame t (ofB new.id ++ r') = .ok (some new.toFrame) := by
  obtain ⟨t, h1, h2, -⟩ := Props.set_frame tag fs new.id r new h hk hn
  refine ⟨t, h1, ?_⟩
  rw [Props.get_first t _ new.id r' h2 hk, (Props.put_effect new.id new.toFrame fs (toFrame_key _)).stored]

/-- The part common to all setters. -/
theorem setter_common [Platform] (ct : CTag) (fs : List Frame) (new : SFrame) (hh : ct.tag.Holds fs)
    (hk : ValidId new.id) (hn : new.Usable) :
    (do
      let t ← Tag_set_frame ct.tag (lit new.id) new.toFrame
      compat_update ct t (← ID3v2_Tag_get_frame t (lit new.id))) = (do
      let t ← Tag_set_frame ct.tag (lit new.id) new.toFrame
      let frames ← add_uniq_to_list ct.frames (compatOf new)
      return { ct with tag := t, frames := frames }) := by
  obtain ⟨t, h1, h2⟩ := set_then_get ct.tag fs new (ofB [0]) (ofB [0]) hh hk hn
  rw [lit_eq, h1]
  simp only [Res.bind_ok]
  rw [h2]
  simp only [Res.bind_ok, compat_update, to_compat new hn]

theorem afterLastDot_none (name : List UInt8) : afterLastDot name = none ↔ 0x2E ∉ name := by
  induction name with
  | nil => simp [afterLastDot]
  | cons c cs ih =>
    unfold afterLastDot
    cases h : afterLastDot cs with
    | some r =>
      have : 0x2E ∈ cs := Decidable.byContradiction fun hn => by
        rw [ih.mpr hn] at h; exact absurd h (by simp)
      simp [this]
    | none =>
      have := ih.mp h
      by_cases hc : c = 0x2E
      · simp [hc]
      · simp [hc, this, Ne.symm hc]

theorem afterLastDot_some (name r : List UInt8) (h : afterLastDot name = some r) :
    0x2E ∉ r ∧ ∃ a, name = a ++ 0x2E :: r := by
  induction name with
  | nil => simp [afterLastDot] at h
  | cons c cs ih =>
    unfold afterLastDot at h
    cases h' : afterLastDot cs with
    | some r' =>
      rw [h'] at h; simp at h; subst h
      obtain ⟨h1, a, h2⟩ := ih h'
      exact ⟨h1, c :: a, by rw [h2]; rfl⟩
    | none =>
      rw [h'] at h
      simp only at h
      by_cases hc : c = 0x2E
      · rw [if_pos hc] at h
        simp at h; subst h
        exact ⟨(afterLastDot_none cs).mp h', [], by rw [hc]; rfl⟩
      · rw [if_neg hc] at h; exact absurd h (by simp)

/-- The extension is "png" exactly when the name ends in ".png". -/
theorem ext_png (name r : List UInt8) (h : afterLastDot name = some r) : r = [0x70, 0x6E, 0x67] ↔ isPng name := by
  obtain ⟨h1, a, rfl⟩ := afterLastDot_some name r h
  unfold isPng
  constructor
  · rintro rfl
    exact ⟨a, rfl⟩
  · rintro ⟨b, hb⟩
    have hb' := congrArg List.reverse hb
    simp only [List.reverse_append, List.reverse_cons, List.reverse_nil, List.nil_append, List.cons_append,
      List.append_assoc] at hb'
    have hr : ∀ (x : List UInt8) (b a : List UInt8), 0x2E ∉ x →
        0x67 :: 0x6E :: 0x70 :: 0x2E :: b = x ++ 0x2E :: a → x = [0x67, 0x6E, 0x70] := by
      intro x b a hx e
      match x, hx, e with
      | [], _, e => simp at e
      | [_], _, e => simp at e
      | [_, _], _, e => simp at e
      | [x0, x1, x2], _, e => simp at e; obtain ⟨rfl, rfl, rfl, -⟩ := e; rfl
      | x0 :: x1 :: x2 :: x3 :: xs, hx, e =>
        simp at e; obtain ⟨-, -, -, rfl, -⟩ := e; simp at hx
    have := hr r.reverse b.reverse a.reverse (by simpa using h1) hb'
    rw [← List.reverse_reverse r, this]; rfl

theorem field_valid (field : Field) : ValidId field.id := by cases field <;> decide

/-- What every setter does: store the frame in the tag, then its entry in the compat list. -/
theorem setter_eq [Platform] (rest : Bytes) (op : COp) (ct : CTag) (fs : List Frame) (hv : op.Valid)
    (hh : ct.tag.Holds fs) :
    op.run rest ct = (do
      let t ← Tag_set_frame ct.tag (lit op.frame.id) op.frame.toFrame
      let frames ← add_uniq_to_list ct.frames (compatOf op.frame)
      return { ct with tag := t, frames := frames }) := by
  have cover : ∀ (mime : Str) (pic : List UInt8) (r1 r2 : Bytes),
      (SFrame.apic [0, 0] mime 3 (.utf16 true []) pic).Usable →
      tag_set_album_cover_from_bytes (ofB pic ++ r1) (mime.inMemory r2) pic.length ct = (do
        let t ← Tag_set_frame ct.tag (lit apicId) (SFrame.apic [0, 0] mime 3 (.utf16 true []) pic).toFrame
        let frames ← add_uniq_to_list ct.frames (compatOf (SFrame.apic [0, 0] mime 3 (.utf16 true []) pic))
        return { ct with tag := t, frames := frames }) := by
    intro mime pic r1 r2 hu
    refine Eq.trans ?_ (setter_common ct fs (SFrame.apic [0, 0] mime 3 (.utf16 true []) pic) hh
      (show ValidId apicId by decide) hu)
    have e : ID3v2_Tag_set_album_cover ct.tag (mime.inMemory r2) pic.length (ofB pic ++ r1) =
        Tag_set_frame ct.tag (lit apicId) (SFrame.apic [0, 0] mime 3 (.utf16 true []) pic).toFrame := by
      unfold ID3v2_Tag_set_album_cover ID3v2_Tag_set_apic_frame ApicFrame_of_input Str.inMemory
      dsimp only
      have := apic_new hu (ofB [0]) (ofB [0]) r2 r1 pic.length rfl
      rw [show NO_FLAGS = ofB [0, 0] ++ ofB [0] from lit_eq _,
        show EMPTY_UNICODE_STR = ofB (Str.utf16 true []).bytes ++ ofB [0] from lit_eq _, this]
      rfl
    unfold tag_set_album_cover_from_bytes
    rw [e]; rfl
  cases op with
  | text field s encoding =>
    have hu : (SFrame.text field.id [0, 0] s).Usable := hv.1
    refine Eq.trans ?_ (setter_common ct fs (SFrame.text field.id [0, 0] s) hh (field_valid field) hu)
    have e : ∀ k, (SFrame.text k [0, 0] s).Usable →
        ID3v2_Tag_set_text_frame ct.tag { id := lit k, flags := NO_FLAGS, text := s.inMemory rest } =
          Tag_set_frame ct.tag (lit k) (SFrame.text k [0, 0] s).toFrame := by
      intro k hu
      unfold ID3v2_Tag_set_text_frame Str.inMemory
      dsimp only
      have := text_new hu (ofB [0]) (ofB [0]) rest
      rw [← lit_eq] at this
      rw [show NO_FLAGS = ofB [0, 0] ++ ofB [0] from lit_eq _, this]
      rfl
    cases field <;> exact congrArg (fun x : Res Tag => x >>= _) (e _ hu)
  | comment s encoding =>
    have hu : (SFrame.comment [0, 0] [0x65, 0x6E, 0x67] (.utf16 true []) s).Usable := hv.1
    refine Eq.trans ?_ (setter_common ct fs (SFrame.comment [0, 0] [0x65, 0x6E, 0x67] (.utf16 true []) s) hh
      (show ValidId commId by decide) hu)
    have e : ID3v2_Tag_set_comment ct.tag (lit [0x65, 0x6E, 0x67]) (s.inMemory rest) =
        Tag_set_frame ct.tag (lit commId) (SFrame.comment [0, 0] [0x65, 0x6E, 0x67] (.utf16 true []) s).toFrame := by
      unfold ID3v2_Tag_set_comment ID3v2_Tag_set_comment_frame Str.inMemory
      dsimp only
      have := comment_new hu (ofB [0]) (ofB [0]) (ofB [0]) rest
      rw [show NO_FLAGS = ofB [0, 0] ++ ofB [0] from lit_eq _,
        show EMPTY_UNICODE_STR = ofB (Str.utf16 true []).bytes ++ ofB [0] from lit_eq _, lit_eq, this]
      rfl
    exact congrArg (fun x : Res Tag => x >>= _) e
  | cover mime pic => exact cover mime pic rest rest hv.1
  | coverFile name pic =>
    have hu : (SFrame.apic [0, 0] (.latin (if isPng name then png else jpeg)) 3 (.utf16 true []) pic).Usable := hv.1
    have hl : pic.length ≤ 2147483647 := by
      have := hu.2.1
      rw [SFrame.bytes_length _ hu.1] at this
      simp only [SFrame.body, List.length_append] at this
      omega
    refine Eq.trans ?_ (cover (.latin (if isPng name then png else jpeg)) pic [] [] hu)
    show tag_set_album_cover name (some (ofB pic)) ct = _
    unfold tag_set_album_cover
    dsimp only
    rw [ofB_length, ck_nat hl]
    simp only [Res.bind_ok]
    cases h : afterLastDot name with
    | none => exact absurd hv.2 ((afterLastDot_none name).mp h)
    | some ext =>
      dsimp only
      rw [List.append_nil]
      congr 1
      by_cases hp : isPng name
      · rw [if_pos ((ext_png name ext h).mpr hp), if_pos hp]; rfl
      · rw [if_neg (fun e => hp ((ext_png name ext h).mp e)), if_neg hp]; rfl

end Id3
