import Verif.Model.Null
import Verif.Spec.Format
import Verif.Props.File

/-!
# C28 - C30 for the named functions, C50: NULL tags, C51: files and buffers, C52: unsynchronisation, C53: footers
-/

namespace Id3.Props

open Id3 Spec

/-! ## C28, C29, C30: the named functions -/

/-- **C28** for the eleven named getters: the first frame with the id, or NULL. -/
theorem named_getters (p : (Tag → Res (Option Frame)) × List UInt8) (hp : p ∈ getterApi) (tag : Tag) (fs : List Frame)
    (h : tag.Holds fs) : p.1 tag = .ok (first Frame.key p.2 fs) := by
  have main : ∀ k : List UInt8, ValidId k → ID3v2_Tag_get_frame tag (lit k) = .ok (first Frame.key k fs) := by
    intro k hk
    rw [lit_eq]
    exact get_first tag fs k _ h hk
  simp only [getterApi, List.mem_cons, List.not_mem_nil, or_false] at hp
  rcases hp with rfl | rfl | rfl | rfl | rfl | rfl | rfl | rfl | rfl | rfl | rfl
  all_goals exact main _ (by decide)

/-- **C28** for the two getters of lists: all the frames with the id, in order. -/
theorem named_list_getters (tag : Tag) (fs : List Frame) (h : tag.Holds fs) :
    ID3v2_Tag_get_comment_frames tag = .ok (nodes (all Frame.key [0x43, 0x4F, 0x4D, 0x4D] fs)) ∧
    ID3v2_Tag_get_apic_frames tag = .ok (nodes (all Frame.key [0x41, 0x50, 0x49, 0x43] fs)) := by
  have main : ∀ k : List UInt8, ValidId k → ID3v2_Tag_get_frames tag (lit k) = .ok (nodes (all Frame.key k fs)) := by
    intro k hk
    rw [lit_eq]
    exact get_all tag fs k _ h hk
  exact ⟨main _ (by decide), main _ (by decide)⟩

/-- **C29** for the eleven named deleters: the first frame with the id is removed and the tag size shrinks by its size
with header; if there is none, NULL is dereferenced. -/
theorem named_deleters_partial (p : (Tag → Res Tag) × List UInt8) (hp : p ∈ deleterApi) (tag : Tag) (fs : List Frame)
    (h : tag.Holds fs) (ht : ¬ removesTail Frame.key p.2 0 fs) :
    match first Frame.key p.2 fs with
    | none => p.1 tag = .ub .nullDeref
    | some f => ∃ tag', p.1 tag = .ok tag' ∧ tag'.Holds (eraseFirst Frame.key p.2 fs) ∧
        tag'.header.tag_size = u32 (tag.header.tag_size - (f.header.size + 10)) ∧ tag'.padding_size = tag.padding_size := by
  have main : ∀ k : List UInt8, ValidId k → ¬ removesTail Frame.key k 0 fs →
      match first Frame.key k fs with
      | none => ID3v2_Tag_delete_frame tag (lit k) = .ub .nullDeref
      | some f => ∃ tag', ID3v2_Tag_delete_frame tag (lit k) = .ok tag' ∧ tag'.Holds (eraseFirst Frame.key k fs) ∧
        tag'.header.tag_size = u32 (tag.header.tag_size - (f.header.size + 10)) ∧
        tag'.padding_size = tag.padding_size := by
    intro k hk ht
    rw [lit_eq]
    by_cases ha : all Frame.key k fs = []
    · rw [first_miss k fs (by simpa [all, List.filter_eq_nil_iff] using ha)]
      exact delete_absent_crashes tag fs k _ h hk ha
    · obtain ⟨tag', f, h1, h2, h3, h4, h5⟩ := delete_first_partial tag fs k (ofB [0]) h hk ha ht
      rw [h3]
      exact ⟨tag', h1, h2, h4, h5⟩
  simp only [deleterApi, List.mem_cons, List.not_mem_nil, or_false] at hp
  rcases hp with rfl | rfl | rfl | rfl | rfl | rfl | rfl | rfl | rfl | rfl | rfl
  all_goals exact main _ (by decide) ht

example : ¬ removesTail Frame.key [0x54, 0x49, 0x54, 0x32] 0 (sampleFrames.map SFrame.toFrame) ∧
    (first Frame.key [0x54, 0x49, 0x54, 0x32] (sampleFrames.map SFrame.toFrame)).isSome := by decide

/-- **C30** for the two functions of the API: the frame with this index among the frames of the kind is removed, and
an index out of range changes nothing. -/
theorem named_deleters_at_partial (p : (Tag → Int → Res Tag) × List UInt8) (hp : p ∈ deleterAtApi) (tag : Tag)
    (fs : List Frame) (index : Int) (h : tag.Holds fs) (ht : ¬ removesTail Frame.key p.2 index.toNat fs) :
    ∃ tag', p.1 tag index = .ok tag' ∧ tag'.header = tag.header ∧ tag'.padding_size = tag.padding_size ∧
      tag'.Holds (if 0 ≤ index ∧ index < (all Frame.key p.2 fs).length then eraseNth Frame.key p.2 index.toNat fs
        else fs) := by
  have main : ∀ k : List UInt8, ValidId k → ¬ removesTail Frame.key k index.toNat fs →
      ∃ tag', ID3v2_Tag_delete_frame_at tag (lit k) index = .ok tag' ∧ tag'.header = tag.header ∧
        tag'.padding_size = tag.padding_size ∧
        tag'.Holds (if 0 ≤ index ∧ index < (all Frame.key k fs).length then eraseNth Frame.key k index.toNat fs
          else fs) := by
    intro k hk ht
    rw [lit_eq]
    by_cases hi : 0 ≤ index ∧ index < (all Frame.key k fs).length
    · rw [if_pos hi]
      obtain ⟨tag', h1, h2, h3, h4⟩ := delete_at_partial tag fs k (ofB [0]) index.toNat h hk (by omega) ht
      rw [Int.toNat_of_nonneg hi.1] at h1
      exact ⟨tag', h1, h3, h4, h2⟩
    · rw [if_neg hi]
      exact ⟨tag, delete_at_out_of_range tag fs k (ofB [0]) index h hk (by omega), rfl, rfl, h⟩
  simp only [deleterAtApi, List.mem_cons, List.not_mem_nil, or_false] at hp
  rcases hp with rfl | rfl
  all_goals exact main _ (by decide) ht

/-! ## C50: NULL tags -/

/-- **C50**: for every file without a tag `ID3v2_read_tag` returns NULL; with this NULL the getters return NULL,
`ID3v2_write_tag` leaves the file alone, and deletion by index does nothing. Missing: the setters, the adders and
deletion by id (`null_tag_crashes`). -/
theorem null_tag_partial [Platform] (contents : List UInt8) (h : tagLength contents = 0) :
    ∃ tag, ID3v2_read_tag (some (ofB contents)) = .ok tag ∧ tag = none ∧
      (∀ id, ID3v2_Tag_get_frame_ptr tag id = .ok none) ∧ (∀ id, ID3v2_Tag_get_frames_ptr tag id = .ok none) ∧
      (∀ file, ID3v2_write_tag_ptr file tag = .ok (file, tag)) ∧
      (∀ id index, ID3v2_Tag_delete_frame_at_ptr tag id index = .ok tag) := by
  refine ⟨none, ?_, rfl, fun _ => rfl, fun _ => rfl, fun _ => rfl, fun _ _ => rfl⟩
  obtain ⟨r, h1, h2, h3⟩ := read_header_spec contents
  unfold ID3v2_read_tag
  rw [h1]
  cases r with
  | none => rfl
  | some hd => have := (h3 hd rfl).1; omega

/-- **C50**: the setters, the adders and deletion by id dereference NULL. -/
theorem null_tag_crashes [Platform] (k fl lang : List UInt8) (s desc mime : Str) (pt : UInt8) (pic : List UInt8)
    (id : Bytes) (hk : (SFrame.text k fl s).Usable) (hc : (SFrame.comment fl lang desc s).Usable)
    (ha : (SFrame.apic fl mime pt desc pic).Usable) :
    ID3v2_Tag_set_text_frame_ptr none (textInput k fl s [] [] []) = .ub .nullDeref ∧
    ID3v2_Tag_set_comment_frame_ptr none (commentInput fl lang desc s [] [] [] []) = .ub .nullDeref ∧
    ID3v2_Tag_add_comment_frame_ptr none (commentInput fl lang desc s [] [] [] []) = .ub .nullDeref ∧
    ID3v2_Tag_set_apic_frame_ptr none (apicInput fl mime pt desc pic [] [] [] []) = .ub .nullDeref ∧
    ID3v2_Tag_add_apic_frame_ptr none (apicInput fl mime pt desc pic [] [] [] []) = .ub .nullDeref ∧
    ID3v2_Tag_delete_frame_ptr none id = .ub .nullDeref := by
  refine ⟨?_, ?_, ?_, ?_, ?_, rfl⟩
  · unfold ID3v2_Tag_set_text_frame_ptr textInput Str.inMemory
    dsimp only
    rw [text_new hk]; rfl
  · unfold ID3v2_Tag_set_comment_frame_ptr commentInput Str.inMemory
    dsimp only
    rw [comment_new hc]; rfl
  · unfold ID3v2_Tag_add_comment_frame_ptr commentInput Str.inMemory
    dsimp only
    rw [comment_new hc]; rfl
  · unfold ID3v2_Tag_set_apic_frame_ptr ApicFrame_of_input apicInput Str.inMemory
    dsimp only
    rw [apic_new ha _ _ _ _ _ rfl]; rfl
  · unfold ID3v2_Tag_add_apic_frame_ptr ApicFrame_of_input apicInput Str.inMemory
    dsimp only
    rw [apic_new ha _ _ _ _ _ rfl]; rfl

/-- **C50**: for pointers that are not NULL the functions are those that all the other theorems are about. -/
theorem pointer_same [Platform] (t : Tag) :
    (∀ id, ID3v2_Tag_get_frame_ptr (some t) id = ID3v2_Tag_get_frame t id) ∧
    (∀ id, ID3v2_Tag_get_frames_ptr (some t) id = do return some (← ID3v2_Tag_get_frames t id)) ∧
    (∀ i, ID3v2_Tag_set_text_frame_ptr (some t) i = do return some (← ID3v2_Tag_set_text_frame t i)) ∧
    (∀ i, ID3v2_Tag_set_comment_frame_ptr (some t) i = do return some (← ID3v2_Tag_set_comment_frame t i)) ∧
    (∀ i, ID3v2_Tag_add_comment_frame_ptr (some t) i = do return some (← ID3v2_Tag_add_comment_frame t i)) ∧
    (∀ i, ID3v2_Tag_set_apic_frame_ptr (some t) i = do return some (← ID3v2_Tag_set_apic_frame t i)) ∧
    (∀ i, ID3v2_Tag_add_apic_frame_ptr (some t) i = do return some (← ID3v2_Tag_add_apic_frame t i)) ∧
    (∀ id, ID3v2_Tag_delete_frame_ptr (some t) id = do return some (← ID3v2_Tag_delete_frame t id)) ∧
    (∀ id n, ID3v2_Tag_delete_frame_at_ptr (some t) id n = do return some (← ID3v2_Tag_delete_frame_at t id n)) ∧
    (∀ file, ID3v2_write_tag_ptr file (some t) = do
      let r ← ID3v2_write_tag file t
      return (r.1, some r.2)) := by
  refine ⟨fun _ => rfl, fun _ => rfl, fun i => ?_, fun i => ?_, fun i => ?_, fun i => ?_, fun i => ?_, fun _ => rfl,
    fun _ _ => rfl, fun _ => rfl⟩
  · unfold ID3v2_Tag_set_text_frame_ptr ID3v2_Tag_set_text_frame
    cases TextFrame_new i.id i.flags i.text <;> rfl
  · unfold ID3v2_Tag_set_comment_frame_ptr ID3v2_Tag_set_comment_frame
    cases CommentFrame_new i.flags i.language i.short_description i.comment <;> rfl
  · unfold ID3v2_Tag_add_comment_frame_ptr ID3v2_Tag_add_comment_frame
    cases CommentFrame_new i.flags i.language i.short_description i.comment <;> rfl
  · unfold ID3v2_Tag_set_apic_frame_ptr ID3v2_Tag_set_apic_frame
    cases ApicFrame_of_input i <;> rfl
  · unfold ID3v2_Tag_add_apic_frame_ptr ID3v2_Tag_add_apic_frame
    cases ApicFrame_of_input i <;> rfl

/-- **C01, C02, C50**: the string functions do not check for NULL; for other pointers they are those of C01 and C02. -/
theorem null_string [Platform] :
    ID3v2_strlen_ptr none = .ub .nullDeref ∧ ID3v2_strlent_ptr none = .ub .nullDeref ∧
    ID3v2_to_unicode_ptr none = .ub .nullDeref ∧
    ∀ s, ID3v2_strlen_ptr (some s) = ID3v2_strlen s ∧ ID3v2_strlent_ptr (some s) = ID3v2_strlent s ∧
      ID3v2_to_unicode_ptr (some s) = ID3v2_to_unicode s :=
  ⟨rfl, rfl, rfl, fun _ => ⟨rfl, rfl, rfl⟩⟩

/-- The claim of C50 in full: the other functions of the API return on the NULL that reading a file without a tag
returns. -/
def C50_claim : Prop :=
  ∀ [Platform] (k fl : List UInt8) (s : Str) (id : Bytes), (SFrame.text k fl s).Usable →
    (∃ tag, ID3v2_Tag_set_text_frame_ptr none (textInput k fl s [] [] []) = .ok tag) ∧
    ∃ tag, ID3v2_Tag_delete_frame_ptr none id = .ok tag

theorem C50_false : ¬ C50_claim := by
  intro h
  obtain ⟨t, ht⟩ := (@h strict [0x54, 0x49, 0x54, 0x32] [0, 0] (.latin [0x48]) [] (by decide)).2
  cases ht

example : @SFrame.Usable strict (.text [0x54, 0x49, 0x54, 0x32] [0, 0] (.latin [0x48])) ∧
    @SFrame.Usable strict (.comment [0, 0] [0x65, 0x6E, 0x67] (.utf16 true []) (.latin [0x48])) ∧
    @SFrame.Usable strict (.apic [0, 0] (.latin [0x69]) 3 (.latin [0x64]) [1, 2]) ∧
    tagLength [0xFF, 0xFB, 0x90, 0, 0, 0, 0, 0, 0, 0, 0] = 0 := by decide

/-! ## C51: files and buffers -/

/-- **C51**: whatever a file holds, if the tag announced by its header is all there, then reading the file is reading
its contents from a buffer with the length of the tag (the same tag, or the same crash). -/
theorem file_is_buffer [Platform] (contents : List UInt8) (h0 : 0 < tagLength contents)
    (h : tagLength contents ≤ contents.length) :
    ID3v2_read_tag (some (ofB contents)) = ID3v2_read_tag_from_buffer (ofB contents) (tagLength contents : Nat) := by
  obtain ⟨r, h1, h2, h3⟩ := read_header_spec contents
  unfold ID3v2_read_tag
  rw [h1]
  simp only [Res.bind_ok]
  cases r with
  | none => have := h2 rfl; omega
  | some hd =>
    obtain ⟨h4, h5⟩ := h3 hd rfl
    dsimp only
    rw [show (hd.tag_size : Int) + 10 = (tagLength contents : Nat) from by omega, u32_nat (by omega),
      toInt32_nat (by omega)]
    unfold ID3v2_read_tag_from_buffer intoArray CharStream_from_buffer memcpySrc
    have hl : (ofB contents).length = contents.length := by simp
    have e : (List.take (tagLength contents) (ofB contents)).length = tagLength contents := by
      rw [List.length_take, hl]; omega
    simp only [Int.toNat_natCast]
    rw [e, Nat.sub_self, List.replicate_zero, List.append_nil, e, hl, List.take_take, Nat.min_self]
    simp only [if_neg (show ¬ ((tagLength contents : Nat) : Int) < 0 by omega),
      if_neg (show ¬ ((tagLength contents : Nat) : Int) < (tagLength contents : Nat) by omega),
      if_neg (show ¬ ((contents.length : Nat) : Int) < (tagLength contents : Nat) by omega)]

/-- **C51**: a file without a tag gives NULL, and so does its contents in a buffer (of at least ten bytes, a header). -/
theorem file_is_buffer_untagged [Platform] (contents : List UInt8) (n : Nat) (h0 : tagLength contents = 0)
    (hn : 10 ≤ n) (h : n ≤ contents.length) :
    ID3v2_read_tag (some (ofB contents)) = .ok none ∧ ID3v2_read_tag_from_buffer (ofB contents) n = .ok none := by
  constructor
  · obtain ⟨r, h1, h2, h3⟩ := read_header_spec contents
    unfold ID3v2_read_tag
    rw [h1]
    cases r with
    | none => rfl
    | some hd => have := (h3 hd rfl).1; omega
  · rcases ten_or_less contents with hl | ⟨b0, b1, b2, b3, b4, b5, s0, s1, s2, s3, rest, rfl⟩
    · omega
    · unfold ID3v2_read_tag_from_buffer Tag_parse
      have hr : rest.length + 10 = ([b0, b1, b2, b3, b4, b5, s0, s1, s2, s3] ++ rest).length := by simp
      rw [← List.take_append_drop (n - 10) rest, ← List.append_assoc, ofB_append, from_buffer_csAt _ _ _ (by
        simp only [ofB, List.length_map, List.length_append, List.length_take, List.length_cons, List.length_nil]
        omega)]
      rw [ofB_append, Res.bind_ok, tag_header_parse_all]
      by_cases hid : [b0, b1, b2] = [0x49, 0x44, 0x33]
      · by_cases hv : b3 = 3 ∨ b3 = 4
        · simp only [List.cons.injEq, and_true] at hid
          have : tagLength ([b0, b1, b2, b3, b4, b5, s0, s1, s2, s3] ++ rest) ≠ 0 := by
            show (if _ then _ else _) ≠ 0
            rw [if_pos ⟨hid.1, hid.2.1, hid.2.2, hv⟩]; omega
          exact absurd h0 this
        · rw [if_pos hid, if_neg hv]; rfl
      · rw [if_neg hid]; rfl

/-- **C51**: two files that agree on the bytes of a complete tag read the same, whatever follows. -/
theorem read_tag_local [Platform] (contents more : List UInt8) (h0 : 0 < tagLength contents)
    (h : tagLength contents ≤ contents.length) :
    ID3v2_read_tag (some (ofB (contents ++ more))) = ID3v2_read_tag (some (ofB contents)) := by
  have e : tagLength (contents ++ more) = tagLength contents := by
    rcases ten_or_less contents with hl | ⟨b0, b1, b2, b3, b4, b5, s0, s1, s2, s3, rest, rfl⟩
    · rw [tagLength_short _ hl] at h0; omega
    · rfl
  rw [file_is_buffer contents h0 h, file_is_buffer _ (by omega) (by simp; omega), e]
  unfold ID3v2_read_tag_from_buffer CharStream_from_buffer memcpySrc
  rw [ofB_append, Int.toNat_natCast, List.take_append_of_le_length (by simpa using h)]
  rw [if_neg (by omega), if_neg (by simp; omega), if_neg (by omega), if_neg (by simp; omega)]

example : tagLength (tagBytes 0 0 sampleFrames 5 ++ [0xFF, 0xFB]) = 88 ∧
    (tagBytes 0 0 sampleFrames 5 ++ [0xFF, 0xFB]).length = 90 := by decide

/-! ## C52: unsynchronisation -/

/-- **C52**: a version 2.3 tag with the unsynchronisation flag is read right if unsynchronisation did not change it, that
is, if no 0xFF in it is followed by a zero byte or a byte from 0xE0 on. Missing: the tags it did change. -/
theorem unsync_partial [Platform] (minor flags : UInt8) (fs : List SFrame) (padding : Nat) (rest : Bytes)
    (hflag : (flags ||| unsyncFlag) &&& 0x40 = 0) (hR : ∀ f ∈ fs, f.Readable) (hs : framesSize fs + padding < 2 ^ 28)
    (hlast : 0 < padding ∨ ∀ f, fs.getLast? = some f → f.body ≠ [])
    (hu : unsync (fs.flatMap SFrame.bytes ++ List.replicate padding 0) =
      fs.flatMap SFrame.bytes ++ List.replicate padding 0) :
    ID3v2_read_tag_from_buffer (ofB (unsyncTagBytes minor flags fs padding) ++ rest)
        ((unsyncTagBytes minor flags fs padding).length : Nat) =
      .ok (some (toTag 3 minor (flags ||| unsyncFlag) (framesSize fs + padding) fs padding)) := by
  have e : unsyncTagBytes minor flags fs padding = tagBytes minor (flags ||| unsyncFlag) fs padding := by
    unfold unsyncTagBytes tagBytes
    dsimp only
    rw [hu, List.length_append, flatMap_bytes_length, List.length_replicate, List.append_assoc]
  have hl : (tagBytes minor (flags ||| unsyncFlag) fs padding).length = 10 + framesSize fs + padding := by
    unfold tagBytes
    simp only [List.length_append, flatMap_bytes_length, List.length_replicate]; rfl
  rw [e, hl]
  exact read_tag_bytes_partial minor (flags ||| unsyncFlag) fs padding rest hflag hR hs hlast

example : unsync ((sampleFrames.take 1).flatMap SFrame.bytes ++ List.replicate 5 0) =
    (sampleFrames.take 1).flatMap SFrame.bytes ++ List.replicate 5 0 := by decide

/-- The claim of C52 in full, for the frames of which unsynchronisation left the sizes alone: the frames come back. -/
def C52_claim : Prop :=
  ∀ [Platform] (fs : List SFrame) (padding : Nat), (∀ f ∈ fs, f.Readable) → framesSize fs + padding < 2 ^ 28 →
    0 < padding → ∃ t, ID3v2_read_tag_from_buffer (ofB (unsyncTagBytes 0 0 fs padding))
        ((unsyncTagBytes 0 0 fs padding).length : Nat) = .ok (some t) ∧
      t.frames = toFrameList fs

/-- **C52** is false: a title in UTF-16 comes back wrong, because its byte order mark was unsynchronised. -/
theorem C52_false : ¬ C52_claim := by
  intro h
  obtain ⟨t, h1, h2⟩ := @h strict [.text [0x54, 0x49, 0x54, 0x32] [0, 0] (.utf16 true [(0x48, 0)])] 5 (by decide)
    (by decide) (by decide)
  have h3 : (match @ID3v2_read_tag_from_buffer strict (ofB (unsyncTagBytes 0 0
      [.text [0x54, 0x49, 0x54, 0x32] [0, 0] (.utf16 true [(0x48, 0)])] 5))
      ((unsyncTagBytes 0 0 [.text [0x54, 0x49, 0x54, 0x32] [0, 0] (.utf16 true [(0x48, 0)])] 5).length : Nat) with
      | .ok (some t) => decide (t.frames = toFrameList [.text [0x54, 0x49, 0x54, 0x32] [0, 0] (.utf16 true [(0x48, 0)])])
      | _ => false) = true := by
    rw [h1]; exact decide_eq_true h2
  exact absurd h3 (by decide)

/-! ## C53: footers -/

/-- **C53**: deleting a version 2.4 tag with a footer leaves the footer in front of the audio, whatever the frames and
the audio are. -/
theorem footer_left_behind [Platform] (minor flags : UInt8) (ws : List Wire) (audio : List UInt8)
    (hs : (ws.flatMap (Wire.bytes 4)).length < 2 ^ 28) :
    ID3v2_delete_tag (some (ofB (footedTagBytes minor flags ws ++ audio))) =
      .ok (some (ofB (footerBytes minor (flags ||| footerFlag) (ws.flatMap (Wire.bytes 4)).length ++ audio))) := by
  have e : ofB (footedTagBytes minor flags ws ++ audio) = ofB (tagHeaderBytes 4 minor (flags ||| footerFlag)
      (ws.flatMap (Wire.bytes 4)).length) ++ (ofB (ws.flatMap (Wire.bytes 4)) ++
        ofB (footerBytes minor (flags ||| footerFlag) (ws.flatMap (Wire.bytes 4)).length ++ audio)) := by
    simp [footedTagBytes, wireTagBytes]
  rw [e, delete_eq _ _ (existing_size_header 4 minor _ _ _ (Or.inr rfl) hs), ← List.append_assoc, List.drop_left' (by
    simp [tagHeaderBytes, synchsafe]; omega)]

/-- The claim of C53: deleting the tag leaves the audio. -/
def C53_claim : Prop :=
  ∀ [Platform] (minor flags : UInt8) (ws : List Wire) (audio : List UInt8), (ws.flatMap (Wire.bytes 4)).length < 2 ^ 28 →
    ID3v2_delete_tag (some (ofB (footedTagBytes minor flags ws ++ audio))) = .ok (some (ofB audio))

/-- **C53** is false, for every tag with a footer. -/
theorem C53_false : ¬ C53_claim := by
  intro h
  have h1 := @h strict 0 0 [] [] (by decide)
  rw [@footer_left_behind strict 0 0 [] [] (by decide)] at h1
  exact absurd h1 (by decide)

/-- **C53**, what holds: the frames of such a tag are read right. -/
theorem footer_read_partial [Platform] (minor flags : UInt8) (ws : List Wire) (audio : List UInt8)
    (hflag : (flags ||| footerFlag) &&& 0x40 = 0) (hR : ∀ w ∈ ws, w.Readable 4)
    (hs : (ws.flatMap (Wire.bytes 4)).length < 2 ^ 28) (hlast : lastSeen ws 0) :
    ID3v2_read_tag (some (ofB (footedTagBytes minor flags ws ++ audio))) =
      .ok (some (toTag 4 minor (flags ||| footerFlag) (ws.flatMap (Wire.bytes 4)).length (ws.map Wire.kept) 0)) := by
  have e : ofB (footedTagBytes minor flags ws ++ audio) = ofB (tagHeaderBytes 4 minor (flags ||| footerFlag)
      (ws.flatMap (Wire.bytes 4)).length) ++ ofB (ws.flatMap (Wire.bytes 4)) ++
        ofB (footerBytes minor (flags ||| footerFlag) (ws.flatMap (Wire.bytes 4)).length ++ audio) := by
    simp [footedTagBytes, wireTagBytes]
  have h := read_wire 4 minor (flags ||| footerFlag) ws 0 [] [] _ (Or.inr rfl) hflag hR hs (by
    simp only [List.length_nil]; omega) hlast rfl
  rw [e, read_tag_prefix 4 minor _ _ _ _ (Or.inr rfl) hs (by simp)]
  simp only [wireTagBytes, List.append_nil, List.replicate_zero, ofB_append, List.length_nil, Nat.add_zero] at h
  exact h

example : (∀ w ∈ sampleWire, @Wire.Readable strict 4 w) ∧ (sampleWire.flatMap (Wire.bytes 4)).length < 2 ^ 28 ∧
    lastSeen sampleWire 0 ∧ (0 ||| footerFlag) &&& 0x40 = 0 := by decide

end Id3.Props
