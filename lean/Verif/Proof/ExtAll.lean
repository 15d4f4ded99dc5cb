import Verif.Proof.ExtHeader
import Verif.Proof.Made

/-!
# Extended headers of every size
-/

namespace Id3

open Spec

theorem head_take_drop (s : Bytes) (n : Nat) : ((s.drop n).take 4).head? = s[n]? := by
  rw [List.head?_eq_getElem?, List.getElem?_take_of_lt (by omega), List.getElem?_drop]
  rfl

theorem frameHeader_new_id {i f : Bytes} {n : Int} {h : FrameHeader} (e : FrameHeader_new i f n = .ok h) :
    h.id = i.take 4 := ((sat_frameHeader_new i f n).of_ok e).1

theorem text_new_id [Platform] {i f t : Bytes} {g : Frame} (e : TextFrame_new i f t = .ok g) : g.header.id = i.take 4 := by
  unfold TextFrame_new at e
  obtain ⟨_, -, e⟩ := Res.bind_eq_ok.mp e
  obtain ⟨_, -, e⟩ := Res.bind_eq_ok.mp e
  obtain ⟨_, h, e⟩ := Res.bind_eq_ok.mp e
  cases e
  exact frameHeader_new_id h

theorem comment_new_id [Platform] {f l d t : Bytes} {g : Frame} (e : CommentFrame_new f l d t = .ok g) :
    g.header.id = ofB [0x43, 0x4F, 0x4D, 0x4D] := by
  unfold CommentFrame_new at e
  obtain ⟨_, -, e⟩ := Res.bind_eq_ok.mp e
  obtain ⟨_, -, e⟩ := Res.bind_eq_ok.mp e
  obtain ⟨_, -, e⟩ := Res.bind_eq_ok.mp e
  obtain ⟨_, h, e⟩ := Res.bind_eq_ok.mp e
  cases e
  exact frameHeader_new_id h

theorem apic_new_id [Platform] {f d m x : Bytes} {p : UInt8} {n : Int} {g : Frame}
    (e : ApicFrame_new f d p m n x = .ok g) : g.header.id = ofB [0x41, 0x50, 0x49, 0x43] := by
  unfold ApicFrame_new at e
  obtain ⟨_, -, e⟩ := Res.bind_eq_ok.mp e
  obtain ⟨_, -, e⟩ := Res.bind_eq_ok.mp e
  obtain ⟨_, -, e⟩ := Res.bind_eq_ok.mp e
  obtain ⟨_, -, e⟩ := Res.bind_eq_ok.mp e
  obtain ⟨_, h, e⟩ := Res.bind_eq_ok.mp e
  cases e
  exact frameHeader_new_id h

/-- A frame starts with the byte at the cursor. -/
theorem frame_parse_first [Platform] {s : Bytes} {cs cs' : CharStream} {v : UInt8} {f : Frame} (h1 : cs.stream = s)
    (h2 : cs.size = s.length) (h3 : cs.cursor + 10 ≤ s.length) (e : Frame_parse cs v = .ok (some f, cs')) :
    f.header.id.head? = s[cs.cursor.toNat]? := by
  unfold Frame_parse at e
  obtain ⟨⟨h, c⟩, hh, e⟩ := Res.bind_eq_ok.mp e
  have hat := (sat_frameHeader_parse s cs v h1 h2).of_ok hh
  cases h with
  | none => cases e
  | some h =>
    dsimp only at e
    obtain ⟨hc, hc', hid⟩ := hat.some h rfl
    have h0 := hat.start
    dsimp only at hc hc'
    have hcur : c.cursor = cs.cursor + 10 := by omega
    have hhd : h.id.head? = s[cs.cursor.toNat]? := by rw [hid, head_take_drop]
    obtain ⟨b, hb, e⟩ := Res.bind_eq_ok.mp e
    split at e
    · obtain ⟨c1, hc1, e⟩ := Res.bind_eq_ok.mp e
      have hs := (sat_seek_cur s c (-10) hat.good).of_ok hc1
      have hs2 := hs.2.2 (by omega)
      have hcc : c1.cursor = cs.cursor := by omega
      obtain ⟨⟨g, c2⟩, e1, e⟩ := Res.bind_eq_ok.mp e
      cases e
      unfold TextFrame_parse at e1
      obtain ⟨⟨h', _⟩, hh', e1⟩ := Res.bind_eq_ok.mp e1
      dsimp only at e1
      obtain ⟨_, -, e1⟩ := Res.bind_eq_ok.mp e1
      cases h' with
      | none => cases e1
      | some h' =>
        dsimp only at e1
        have hat' := (sat_frameHeader_parse s c1 v hs.1.stream hs.1.size).of_ok hh'
        obtain ⟨_, -, e1⟩ := Res.bind_eq_ok.mp e1
        obtain ⟨_, -, e1⟩ := Res.bind_eq_ok.mp e1
        obtain ⟨⟨_, _⟩, -, e1⟩ := Res.bind_eq_ok.mp e1
        obtain ⟨_, e2, e1⟩ := Res.bind_eq_ok.mp e1
        cases e1
        rw [text_new_id e2, (hat'.some h' rfl).2.2, List.take_take, Nat.min_self, head_take_drop, hcc]
    · obtain ⟨b2, hb2, e⟩ := Res.bind_eq_ok.mp e
      split at e
      · next hb2t =>
        obtain ⟨c1, -, e⟩ := Res.bind_eq_ok.mp e
        obtain ⟨⟨g, c2⟩, e1, e⟩ := Res.bind_eq_ok.mp e
        cases e
        rw [← hhd, ((sat_idStartsWith h _).of_ok hb2).mp hb2t]
        unfold CommentFrame_parse at e1
        obtain ⟨⟨h', _⟩, -, e1⟩ := Res.bind_eq_ok.mp e1
        dsimp only at e1
        obtain ⟨_, -, e1⟩ := Res.bind_eq_ok.mp e1
        obtain ⟨⟨_, _⟩, -, e1⟩ := Res.bind_eq_ok.mp e1
        obtain ⟨_, -, e1⟩ := Res.bind_eq_ok.mp e1
        obtain ⟨_, -, e1⟩ := Res.bind_eq_ok.mp e1
        obtain ⟨_, -, e1⟩ := Res.bind_eq_ok.mp e1
        obtain ⟨⟨_, _⟩, -, e1⟩ := Res.bind_eq_ok.mp e1
        obtain ⟨_, -, e1⟩ := Res.bind_eq_ok.mp e1
        obtain ⟨_, -, e1⟩ := Res.bind_eq_ok.mp e1
        obtain ⟨_, -, e1⟩ := Res.bind_eq_ok.mp e1
        obtain ⟨⟨_, _⟩, -, e1⟩ := Res.bind_eq_ok.mp e1
        cases h' with
        | none => cases e1
        | some h' =>
          dsimp only at e1
          obtain ⟨_, e2, e1⟩ := Res.bind_eq_ok.mp e1
          cases e1
          rw [comment_new_id e2]; rfl
      · obtain ⟨b3, hb3, e⟩ := Res.bind_eq_ok.mp e
        split at e
        · next hb3t =>
          obtain ⟨c1, -, e⟩ := Res.bind_eq_ok.mp e
          obtain ⟨⟨g, c2⟩, e1, e⟩ := Res.bind_eq_ok.mp e
          cases e
          rw [← hhd, ((sat_idStartsWith h _).of_ok hb3).mp hb3t]
          unfold ApicFrame_parse at e1
          obtain ⟨⟨h', _⟩, -, e1⟩ := Res.bind_eq_ok.mp e1
          dsimp only at e1
          obtain ⟨_, -, e1⟩ := Res.bind_eq_ok.mp e1
          obtain ⟨_, -, e1⟩ := Res.bind_eq_ok.mp e1
          obtain ⟨_, -, e1⟩ := Res.bind_eq_ok.mp e1
          obtain ⟨_, -, e1⟩ := Res.bind_eq_ok.mp e1
          obtain ⟨⟨_, _⟩, -, e1⟩ := Res.bind_eq_ok.mp e1
          obtain ⟨⟨_, _⟩, -, e1⟩ := Res.bind_eq_ok.mp e1
          obtain ⟨_, -, e1⟩ := Res.bind_eq_ok.mp e1
          obtain ⟨_, -, e1⟩ := Res.bind_eq_ok.mp e1
          obtain ⟨_, -, e1⟩ := Res.bind_eq_ok.mp e1
          obtain ⟨⟨_, _⟩, -, e1⟩ := Res.bind_eq_ok.mp e1
          cases h' with
          | none => cases e1
          | some h' =>
            dsimp only at e1
            obtain ⟨_, -, e1⟩ := Res.bind_eq_ok.mp e1
            obtain ⟨_, -, e1⟩ := Res.bind_eq_ok.mp e1
            obtain ⟨⟨_, _⟩, -, e1⟩ := Res.bind_eq_ok.mp e1
            obtain ⟨_, e2, e1⟩ := Res.bind_eq_ok.mp e1
            cases e1
            rw [apic_new_id e2]; rfl
        · obtain ⟨⟨_, _⟩, -, e⟩ := Res.bind_eq_ok.mp e
          cases e
          exact hhd

theorem loop_first [Platform] (fuel : Nat) {s : Bytes} {cs cs' : CharStream} {v : UInt8} {size : Nat} {l : FrameList}
    (h1 : cs.stream = s) (h2 : cs.size = s.length) (h3 : cs.cursor + 10 ≤ s.length)
    (e : Tag_parse_loop fuel cs size v FrameList_new = .ok (l, cs')) :
    l = [none] ∨ ∃ f r, l = some f :: r ∧ f.header.id.head? = s[cs.cursor.toNat]? := by
  cases fuel with
  | zero => cases e
  | succ fuel =>
    unfold Tag_parse_loop at e
    split at e
    · obtain ⟨⟨o, c⟩, hp, e⟩ := Res.bind_eq_ok.mp e
      cases o with
      | none => cases e; exact .inl rfl
      | some f =>
        dsimp only [FrameList_new, FrameList_add_frame] at e
        obtain ⟨r, rfl⟩ := loop_keeps_head _ _ _ _ _ _ _ _ e
        exact .inr ⟨f, r, rfl, frame_parse_first h1 h2 h3 hp⟩
    · cases e; exact .inl rfl

/-- With an extended header of any size, the first frame starts inside the tag header or the extended header. -/
theorem parse_ext_any [Platform] (version minor flags s0 s1 s2 s3 x0 x1 x2 x3 : UInt8) (post : Bytes)
    (hv : version = 3 ∨ version = 4) (hflag : flags &&& 0x40 = 0x40) (h0 : 0 < sizeValue x0 x1 x2 x3)
    (hp : sizeValue x0 x1 x2 x3 ≤ post.length + 4) (t : Option Tag)
    (ht : Tag_parse (csAt [] (ofB [0x49, 0x44, 0x33, version, minor, flags, s0, s1, s2, s3] ++
      (ofB [x0, x1, x2, x3] ++ post))) = .ok t) :
    ∃ tag, t = some tag ∧ (tag.frames = [none] ∨ ∃ f r, tag.frames = some f :: r ∧ f.header.id.head? =
      (ofB [0x49, 0x44, 0x33, version, minor, flags, s0, s1, s2, s3] ++
        (ofB [x0, x1, x2, x3] ++ post))[sizeValue x0 x1 x2 x3]?) := by
  have hlt := sizeValue_lt x0 x1 x2 x3
  unfold Tag_parse at ht
  rw [tag_header_parse_all, if_pos rfl, if_pos hv, if_pos hflag] at ht
  simp only [Res.bind_ok, ID3v2_Tag_new] at ht
  have e : (ofB [x0, x1, x2, x3] ++ post).take 4 = ofB [x0, x1, x2, x3] := rfl
  have e6 : decodeSizeIndet (intoArray 4 (ofB [x0, x1, x2, x3])) = some (sizeValue x0 x1 x2 x3) := by
    have : intoArray 4 (ofB [x0, x1, x2, x3]) = ofB [x0, x1, x2, x3] := rfl
    rw [this]
    unfold decodeSizeIndet
    rw [btoi_ofB' _ 4 rfl]
    exact congrArg some (syncint_decode_bytes x0 x1 x2 x3)
  rw [e, e6] at ht
  generalize hE : sizeValue x0 x1 x2 x3 = E at *
  generalize hS : ofB [0x49, 0x44, 0x33, version, minor, flags, s0, s1, s2, s3] ++ (ofB [x0, x1, x2, x3] ++ post) = S at *
  have hSl : S.length = post.length + 14 := by rw [← hS]; simp
  simp only [show (E > 0) = True from by simp [h0], if_true] at ht
  obtain ⟨c, hc, ht⟩ := Res.bind_eq_ok.mp ht
  have hcs : c = { stream := S, size := S.length, cursor := (E : Int) } := by
    unfold CharStream_seek at hc
    dsimp only at hc
    rw [toInt32_nat (by omega)] at hc
    cases hc
    have e1 : ofB [0x49, 0x44, 0x33, version, minor, flags, s0, s1, s2, s3] ++ ofB [x0, x1, x2, x3] ++
        (ofB [x0, x1, x2, x3] ++ post).drop 4 = S := by
      rw [← hS, List.append_assoc]; rfl
    simp only [csAt, e1]
  subst hcs
  obtain ⟨⟨l, cs'⟩, hl, ht⟩ := Res.bind_eq_ok.mp ht
  have := loop_first _ (s := S) rfl rfl (by dsimp only; omega) hl
  obtain ⟨p, -, ht⟩ := Res.bind_eq_ok.mp ht
  cases ht
  exact ⟨_, rfl, by simpa using this⟩

end Id3
