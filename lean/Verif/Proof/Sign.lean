import Verif.Proof.Parse
import Verif.Model.Compat

/-! # The sign of `char` makes no difference -/

namespace Id3

variable (b : Bool) (n : Nat) (s : Bool)

/-- What is done with the `int` of a `char` gives the same if it only depends on the `char`. -/
theorem getc_bind {β : Type} (cs : CharStream) (k k' : Int × CharStream → Res β)
    (h : ∀ s s' v c, k (@charToInt ⟨b, n, s⟩ v, c) = k' (@charToInt ⟨b, n, s'⟩ v, c)) (h' : ∀ x c, x = -1 → k (x, c) = k' (x, c)) :
    (@CharStream_getc ⟨b, n, s⟩ cs >>= k) = (@CharStream_getc ⟨b, n, true⟩ cs >>= k') := by
  unfold CharStream_getc
  by_cases hc : cs.cursor ≥ cs.size
  · simp only [if_pos hc]
    exact h' _ _ rfl
  · simp only [if_neg hc]
    cases CharStream_get_cur cs with
    | ok p =>
      match p with
      | [] => rfl
      | none :: _ => rfl
      | some v :: _ => exact h s true v _
    | ub u => rfl
    | exit => rfl
    | diverge => rfl

theorem charToInt_small (v : UInt8) (m : Nat) (hm : m < 128) : @charToInt ⟨b, n, s⟩ v = m ↔ v.toNat = m := by
  have := v.toNat_lt
  unfold charToInt
  cases s
  · simp only [Bool.false_eq_true, if_false, ite_self]
    omega
  · simp only [if_true]
    split <;> omega

/-- Two numbers that are taken for the same `char`. -/
def SameChar (x y : Int) : Prop := toChar x = toChar y ∧ (x = 3 ↔ y = 3) ∧ (x = 4 ↔ y = 4)

theorem sameChar (s s' : Bool) (v : UInt8) : SameChar (@charToInt ⟨b, n, s⟩ v) (@charToInt ⟨b, n, s'⟩ v) := by
  refine ⟨by rw [@toChar_charToInt ⟨b, n, s⟩, @toChar_charToInt ⟨b, n, s'⟩], ?_, ?_⟩
  · rw [show (3 : Int) = ((3 : Nat) : Int) from rfl, charToInt_small b n s v 3 (by decide), charToInt_small b n s' v 3 (by decide)]
  · rw [show (4 : Int) = ((4 : Nat) : Int) from rfl, charToInt_small b n s v 4 (by decide), charToInt_small b n s' v 4 (by decide)]

/-- `getc_bind` with one relation for both cases. -/
theorem getc_same {β : Type} (cs : CharStream) (k k' : Int × CharStream → Res β)
    (h : ∀ x y c, SameChar x y → k (x, c) = k' (y, c)) :
    (@CharStream_getc ⟨b, n, s⟩ cs >>= k) = (@CharStream_getc ⟨b, n, true⟩ cs >>= k') :=
  getc_bind b n s cs k k' (fun s s' v c => h _ _ c (sameChar b n s s' v)) (fun x c _ => h x x c ⟨rfl, Iff.rfl, Iff.rfl⟩)

theorem bind_same {α β : Type} (x : Res α) (k k' : α → Res β) (h : ∀ a, k a = k' a) : (x >>= k) = (x >>= k') := by
  rw [show k = k' from funext h]

theorem tag_header_sign (cs : CharStream) : @TagHeader_parse ⟨b, n, s⟩ cs = @TagHeader_parse ⟨b, n, true⟩ cs := by
  unfold TagHeader_parse
  refine bind_same _ _ _ fun has => ?_
  cases has with
  | false => rfl
  | true =>
    simp only [Bool.not_true, Bool.false_eq_true, if_false]
    refine bind_same _ _ _ fun ⟨_, c⟩ => ?_
    refine getc_same b n s c _ _ fun x y c hv => ?_
    refine getc_same b n s c _ _ fun x2 y2 c hm => ?_
    dsimp only
    have e : (x ≠ 3 ∧ x ≠ 4) ↔ (y ≠ 3 ∧ y ≠ 4) := by
      rw [Ne, Ne, Ne, Ne, hv.2.1, hv.2.2]
    by_cases h : x ≠ 3 ∧ x ≠ 4
    · rw [if_pos h, if_pos (e.mp h)]
    · rw [if_neg h, if_neg (fun h' => h (e.mpr h'))]
      refine getc_same b n s c _ _ fun x3 y3 c hf => ?_
      refine bind_same _ _ _ fun ⟨d, c⟩ => ?_
      dsimp only
      refine bind_same _ _ _ fun w => ?_
      simp only [hasExtendedHeader, TagHeader_new, hv.1, hm.1, hf.1]
      rfl

theorem memcmpEq_sign (p : Bytes) (l : List UInt8) : @memcmpEq ⟨b, n, s⟩ p l = @memcmpEq ⟨b, n, true⟩ p l := by
  rfl

theorem vla_sign (k : Int) : @vla ⟨b, n, s⟩ k = @vla ⟨b, n, true⟩ k := by
  rfl

theorem string_has_bom_sign (x : Bytes) : @string_has_bom ⟨b, n, s⟩ x = @string_has_bom ⟨b, n, true⟩ x := by
  unfold string_has_bom
  simp only [memcmpEq_sign b n s]

theorem ID3v2_strlen_sign (x : Bytes) : @ID3v2_strlen ⟨b, n, s⟩ x = @ID3v2_strlen ⟨b, n, true⟩ x := by
  unfold ID3v2_strlen
  simp only [string_has_bom_sign b n s]

theorem ID3v2_strlent_sign (x : Bytes) : @ID3v2_strlent ⟨b, n, s⟩ x = @ID3v2_strlent ⟨b, n, true⟩ x := by
  unfold ID3v2_strlent
  simp only [string_has_bom_sign b n s, ID3v2_strlen_sign b n s]

theorem ID3v2_to_unicode_sign (x : Bytes) : @ID3v2_to_unicode ⟨b, n, s⟩ x = @ID3v2_to_unicode ⟨b, n, true⟩ x := by
  unfold ID3v2_to_unicode
  simp only [string_has_bom_sign b n s]

theorem FrameHeader_parse_sign (cs : CharStream) (v : UInt8) : @FrameHeader_parse ⟨b, n, s⟩ cs v = @FrameHeader_parse ⟨b, n, true⟩ cs v := by
  unfold FrameHeader_parse
  simp only [memcmpEq_sign b n s]

theorem TextFrameData_new_sign (x : Bytes) : @TextFrameData_new ⟨b, n, s⟩ x = @TextFrameData_new ⟨b, n, true⟩ x := by
  unfold TextFrameData_new
  simp only [string_has_bom_sign b n s, ID3v2_strlen_sign b n s]

theorem TextFrame_new_sign (id : Bytes) (flags : Bytes) (x : Bytes) : @TextFrame_new ⟨b, n, s⟩ id flags x = @TextFrame_new ⟨b, n, true⟩ id flags x := by
  unfold TextFrame_new
  simp only [TextFrameData_new_sign b n s]

theorem TextFrame_parse_sign (cs : CharStream) (v : UInt8) : @TextFrame_parse ⟨b, n, s⟩ cs v = @TextFrame_parse ⟨b, n, true⟩ cs v := by
  unfold TextFrame_parse
  simp only [vla_sign b n s, FrameHeader_parse_sign b n s, TextFrame_new_sign b n s]

theorem CommentFrameData_new_sign (l : Bytes) (d : Bytes) (x : Bytes) : @CommentFrameData_new ⟨b, n, s⟩ l d x = @CommentFrameData_new ⟨b, n, true⟩ l d x := by
  unfold CommentFrameData_new
  simp only [string_has_bom_sign b n s, ID3v2_strlent_sign b n s]

theorem CommentFrame_new_sign (flags : Bytes) (l : Bytes) (d : Bytes) (x : Bytes) : @CommentFrame_new ⟨b, n, s⟩ flags l d x = @CommentFrame_new ⟨b, n, true⟩ flags l d x := by
  unfold CommentFrame_new
  simp only [ID3v2_strlent_sign b n s, CommentFrameData_new_sign b n s]

theorem CommentFrame_parse_sign (cs : CharStream) (v : UInt8) : @CommentFrame_parse ⟨b, n, s⟩ cs v = @CommentFrame_parse ⟨b, n, true⟩ cs v := by
  unfold CommentFrame_parse
  simp only [vla_sign b n s, ID3v2_strlent_sign b n s, FrameHeader_parse_sign b n s, CommentFrame_new_sign b n s]

theorem CommentFrame_to_char_stream_sign (h : FrameHeader) (d : CommentFrameData) : @CommentFrame_to_char_stream ⟨b, n, s⟩ h d = @CommentFrame_to_char_stream ⟨b, n, true⟩ h d := by
  unfold CommentFrame_to_char_stream
  simp only [ID3v2_strlent_sign b n s]

theorem ApicFrameData_new_sign (d : Bytes) (pt : UInt8) (m : Bytes) (k : Int) (x : Bytes) : @ApicFrameData_new ⟨b, n, s⟩ d pt m k x = @ApicFrameData_new ⟨b, n, true⟩ d pt m k x := by
  unfold ApicFrameData_new
  simp only [string_has_bom_sign b n s, ID3v2_strlent_sign b n s]

theorem ApicFrame_new_sign (flags : Bytes) (d : Bytes) (pt : UInt8) (m : Bytes) (k : Int) (x : Bytes) : @ApicFrame_new ⟨b, n, s⟩ flags d pt m k x = @ApicFrame_new ⟨b, n, true⟩ flags d pt m k x := by
  unfold ApicFrame_new
  simp only [ID3v2_strlent_sign b n s, ApicFrameData_new_sign b n s]

theorem ApicFrame_to_char_stream_sign (h : FrameHeader) (d : ApicFrameData) : @ApicFrame_to_char_stream ⟨b, n, s⟩ h d = @ApicFrame_to_char_stream ⟨b, n, true⟩ h d := by
  unfold ApicFrame_to_char_stream
  simp only [ID3v2_strlent_sign b n s]

theorem Frame_to_char_stream_sign (f : Frame) : @Frame_to_char_stream ⟨b, n, s⟩ f = @Frame_to_char_stream ⟨b, n, true⟩ f := by
  unfold Frame_to_char_stream
  simp only [CommentFrame_to_char_stream_sign b n s, ApicFrame_to_char_stream_sign b n s]

theorem Tag_write_frames_sign (cs : CharStream) (l : FrameList) : @Tag_write_frames ⟨b, n, s⟩ cs l = @Tag_write_frames ⟨b, n, true⟩ cs l := by
  induction l generalizing cs with
  | nil => rfl
  | cons x l ih =>
    cases x with
    | none => rfl
    | some f =>
      unfold Tag_write_frames
      simp only [Frame_to_char_stream_sign b n s, ih]

theorem Tag_to_char_stream_sign (t : Tag) : @Tag_to_char_stream ⟨b, n, s⟩ t = @Tag_to_char_stream ⟨b, n, true⟩ t := by
  unfold Tag_to_char_stream
  simp only [Tag_write_frames_sign b n s]

theorem ID3v2_Tag_set_text_frame_sign (tag : Tag) (i : TextFrameInput) : @ID3v2_Tag_set_text_frame ⟨b, n, s⟩ tag i = @ID3v2_Tag_set_text_frame ⟨b, n, true⟩ tag i := by
  unfold ID3v2_Tag_set_text_frame
  simp only [TextFrame_new_sign b n s]

theorem ID3v2_Tag_set_artist_sign (tag : Tag) (x : Bytes) : @ID3v2_Tag_set_artist ⟨b, n, s⟩ tag x = @ID3v2_Tag_set_artist ⟨b, n, true⟩ tag x := by
  unfold ID3v2_Tag_set_artist
  simp only [ID3v2_Tag_set_text_frame_sign b n s]

theorem ID3v2_Tag_set_album_sign (tag : Tag) (x : Bytes) : @ID3v2_Tag_set_album ⟨b, n, s⟩ tag x = @ID3v2_Tag_set_album ⟨b, n, true⟩ tag x := by
  unfold ID3v2_Tag_set_album
  simp only [ID3v2_Tag_set_text_frame_sign b n s]

theorem ID3v2_Tag_set_title_sign (tag : Tag) (x : Bytes) : @ID3v2_Tag_set_title ⟨b, n, s⟩ tag x = @ID3v2_Tag_set_title ⟨b, n, true⟩ tag x := by
  unfold ID3v2_Tag_set_title
  simp only [ID3v2_Tag_set_text_frame_sign b n s]

theorem ID3v2_Tag_set_track_sign (tag : Tag) (x : Bytes) : @ID3v2_Tag_set_track ⟨b, n, s⟩ tag x = @ID3v2_Tag_set_track ⟨b, n, true⟩ tag x := by
  unfold ID3v2_Tag_set_track
  simp only [ID3v2_Tag_set_text_frame_sign b n s]

theorem ID3v2_Tag_set_album_artist_sign (tag : Tag) (x : Bytes) : @ID3v2_Tag_set_album_artist ⟨b, n, s⟩ tag x = @ID3v2_Tag_set_album_artist ⟨b, n, true⟩ tag x := by
  unfold ID3v2_Tag_set_album_artist
  simp only [ID3v2_Tag_set_text_frame_sign b n s]

theorem ID3v2_Tag_set_genre_sign (tag : Tag) (x : Bytes) : @ID3v2_Tag_set_genre ⟨b, n, s⟩ tag x = @ID3v2_Tag_set_genre ⟨b, n, true⟩ tag x := by
  unfold ID3v2_Tag_set_genre
  simp only [ID3v2_Tag_set_text_frame_sign b n s]

theorem ID3v2_Tag_set_year_sign (tag : Tag) (x : Bytes) : @ID3v2_Tag_set_year ⟨b, n, s⟩ tag x = @ID3v2_Tag_set_year ⟨b, n, true⟩ tag x := by
  unfold ID3v2_Tag_set_year
  simp only [ID3v2_Tag_set_text_frame_sign b n s]

theorem ID3v2_Tag_set_disc_number_sign (tag : Tag) (x : Bytes) : @ID3v2_Tag_set_disc_number ⟨b, n, s⟩ tag x = @ID3v2_Tag_set_disc_number ⟨b, n, true⟩ tag x := by
  unfold ID3v2_Tag_set_disc_number
  simp only [ID3v2_Tag_set_text_frame_sign b n s]

theorem ID3v2_Tag_set_composer_sign (tag : Tag) (x : Bytes) : @ID3v2_Tag_set_composer ⟨b, n, s⟩ tag x = @ID3v2_Tag_set_composer ⟨b, n, true⟩ tag x := by
  unfold ID3v2_Tag_set_composer
  simp only [ID3v2_Tag_set_text_frame_sign b n s]

theorem ID3v2_Tag_set_comment_frame_sign (tag : Tag) (i : CommentFrameInput) : @ID3v2_Tag_set_comment_frame ⟨b, n, s⟩ tag i = @ID3v2_Tag_set_comment_frame ⟨b, n, true⟩ tag i := by
  unfold ID3v2_Tag_set_comment_frame
  simp only [CommentFrame_new_sign b n s]

theorem ID3v2_Tag_add_comment_frame_sign (tag : Tag) (i : CommentFrameInput) : @ID3v2_Tag_add_comment_frame ⟨b, n, s⟩ tag i = @ID3v2_Tag_add_comment_frame ⟨b, n, true⟩ tag i := by
  unfold ID3v2_Tag_add_comment_frame
  simp only [CommentFrame_new_sign b n s]

theorem ID3v2_Tag_set_comment_sign (tag : Tag) (l : Bytes) (x : Bytes) : @ID3v2_Tag_set_comment ⟨b, n, s⟩ tag l x = @ID3v2_Tag_set_comment ⟨b, n, true⟩ tag l x := by
  unfold ID3v2_Tag_set_comment
  simp only [ID3v2_Tag_set_comment_frame_sign b n s]

theorem ApicFrame_of_input_sign (i : ApicFrameInput) : @ApicFrame_of_input ⟨b, n, s⟩ i = @ApicFrame_of_input ⟨b, n, true⟩ i := by
  unfold ApicFrame_of_input
  simp only [ApicFrame_new_sign b n s]

theorem ID3v2_Tag_set_apic_frame_sign (tag : Tag) (i : ApicFrameInput) : @ID3v2_Tag_set_apic_frame ⟨b, n, s⟩ tag i = @ID3v2_Tag_set_apic_frame ⟨b, n, true⟩ tag i := by
  unfold ID3v2_Tag_set_apic_frame
  simp only [ApicFrame_of_input_sign b n s]

theorem ID3v2_Tag_add_apic_frame_sign (tag : Tag) (i : ApicFrameInput) : @ID3v2_Tag_add_apic_frame ⟨b, n, s⟩ tag i = @ID3v2_Tag_add_apic_frame ⟨b, n, true⟩ tag i := by
  unfold ID3v2_Tag_add_apic_frame
  simp only [ApicFrame_of_input_sign b n s]

theorem ID3v2_Tag_set_album_cover_sign (tag : Tag) (m : Bytes) (k : Int) (x : Bytes) : @ID3v2_Tag_set_album_cover ⟨b, n, s⟩ tag m k x = @ID3v2_Tag_set_album_cover ⟨b, n, true⟩ tag m k x := by
  unfold ID3v2_Tag_set_album_cover
  simp only [ID3v2_Tag_set_apic_frame_sign b n s]

theorem ApicFrame_parse_sign (cs : CharStream) (v : UInt8) : @ApicFrame_parse ⟨b, n, s⟩ cs v = @ApicFrame_parse ⟨b, n, true⟩ cs v := by
  unfold ApicFrame_parse
  simp only [FrameHeader_parse_sign b n s, ID3v2_strlent_sign b n s, vla_sign b n s, ApicFrame_new_sign b n s]
  refine bind_same _ _ _ fun ⟨header, c⟩ => ?_
  dsimp only
  refine bind_same _ _ _ fun c => ?_
  refine bind_same _ _ _ fun p => ?_
  refine bind_same _ _ _ fun m => ?_
  refine bind_same _ _ _ fun _ => ?_
  refine bind_same _ _ _ fun ⟨d, c⟩ => ?_
  dsimp only
  refine getc_same b n s c _ _ fun x y c h => ?_
  simp only [h.1]

theorem Frame_parse_sign (cs : CharStream) (v : UInt8) : @Frame_parse ⟨b, n, s⟩ cs v = @Frame_parse ⟨b, n, true⟩ cs v := by
  unfold Frame_parse
  simp only [FrameHeader_parse_sign b n s, TextFrame_parse_sign b n s, CommentFrame_parse_sign b n s, ApicFrame_parse_sign b n s]

theorem Tag_parse_loop_sign (fuel : Nat) (cs : CharStream) (z : Nat) (v : UInt8) (l : FrameList) : @Tag_parse_loop ⟨b, n, s⟩ fuel cs z v l = @Tag_parse_loop ⟨b, n, true⟩ fuel cs z v l := by
  induction fuel generalizing cs l with
  | zero => rfl
  | succ fuel ih =>
    unfold Tag_parse_loop
    simp only [Frame_parse_sign b n s, ih]

theorem Tag_parse_sign (cs : CharStream) : @Tag_parse ⟨b, n, s⟩ cs = @Tag_parse ⟨b, n, true⟩ cs := by
  unfold Tag_parse
  simp only [Tag_parse_loop_sign b n s, tag_header_sign b n s]

theorem ID3v2_read_tag_from_buffer_sign (buffer : Bytes) (k : Int) : @ID3v2_read_tag_from_buffer ⟨b, n, s⟩ buffer k = @ID3v2_read_tag_from_buffer ⟨b, n, true⟩ buffer k := by
  unfold ID3v2_read_tag_from_buffer
  simp only [Tag_parse_sign b n s]

theorem ID3v2_read_tag_header_from_buffer_sign (buffer : Bytes) : @ID3v2_read_tag_header_from_buffer ⟨b, n, s⟩ buffer = @ID3v2_read_tag_header_from_buffer ⟨b, n, true⟩ buffer := by
  unfold ID3v2_read_tag_header_from_buffer
  simp only [tag_header_sign b n s]

theorem ID3v2_read_tag_header_sign (file : File) : @ID3v2_read_tag_header ⟨b, n, s⟩ file = @ID3v2_read_tag_header ⟨b, n, true⟩ file := by
  unfold ID3v2_read_tag_header
  simp only [ID3v2_read_tag_header_from_buffer_sign b n s]

theorem ID3v2_read_tag_sign (file : File) : @ID3v2_read_tag ⟨b, n, s⟩ file = @ID3v2_read_tag ⟨b, n, true⟩ file := by
  unfold ID3v2_read_tag
  simp only [ID3v2_read_tag_from_buffer_sign b n s, ID3v2_read_tag_header_sign b n s]

theorem existingTagSize_sign (file : File) : @existingTagSize ⟨b, n, s⟩ file = @existingTagSize ⟨b, n, true⟩ file := by
  unfold existingTagSize
  simp only [ID3v2_read_tag_header_sign b n s]

theorem ID3v2_write_tag_sign (file : File) (tag : Tag) : @ID3v2_write_tag ⟨b, n, s⟩ file tag = @ID3v2_write_tag ⟨b, n, true⟩ file tag := by
  unfold ID3v2_write_tag
  simp only [Tag_to_char_stream_sign b n s, existingTagSize_sign b n s]

theorem ID3v2_delete_tag_sign (file : File) : @ID3v2_delete_tag ⟨b, n, s⟩ file = @ID3v2_delete_tag ⟨b, n, true⟩ file := by
  unfold ID3v2_delete_tag
  simp only [ID3v2_read_tag_header_sign b n s]

theorem frame_to_compat_frame_sign (f : Option Frame) : @frame_to_compat_frame ⟨b, n, s⟩ f = @frame_to_compat_frame ⟨b, n, true⟩ f := by
  unfold frame_to_compat_frame
  simp only [Frame_to_char_stream_sign b n s]

theorem load_frames_sign (acc : CList) (l : FrameList) : @load_frames ⟨b, n, s⟩ acc l = @load_frames ⟨b, n, true⟩ acc l := by
  induction l generalizing acc with
  | nil => rfl
  | cons x l ih =>
    unfold load_frames
    simp only [frame_to_compat_frame_sign b n s, ih]

theorem load_tag_with_buffer_sign (buffer : Bytes) (k : Int) : @load_tag_with_buffer ⟨b, n, s⟩ buffer k = @load_tag_with_buffer ⟨b, n, true⟩ buffer k := by
  unfold load_tag_with_buffer
  simp only [ID3v2_read_tag_from_buffer_sign b n s, load_frames_sign b n s]

theorem load_tag_sign (file : File) : @load_tag ⟨b, n, s⟩ file = @load_tag ⟨b, n, true⟩ file := by
  unfold load_tag
  simp only [ID3v2_read_tag_header_sign b n s, load_tag_with_buffer_sign b n s]

theorem remove_tag_sign (file : File) : @remove_tag ⟨b, n, s⟩ file = @remove_tag ⟨b, n, true⟩ file := by
  unfold remove_tag
  simp only [ID3v2_delete_tag_sign b n s]

theorem set_tag_sign (file : File) (tag : CTag) : @set_tag ⟨b, n, s⟩ file tag = @set_tag ⟨b, n, true⟩ file tag := by
  unfold set_tag
  simp only [ID3v2_write_tag_sign b n s]

theorem compat_update_sign (tag : CTag) (t : Tag) (f : Option Frame) : @compat_update ⟨b, n, s⟩ tag t f = @compat_update ⟨b, n, true⟩ tag t f := by
  unfold compat_update
  simp only [frame_to_compat_frame_sign b n s]

theorem tag_set_title_sign (x : Bytes) (e : UInt8) (tag : CTag) : @tag_set_title ⟨b, n, s⟩ x e tag = @tag_set_title ⟨b, n, true⟩ x e tag := by
  unfold tag_set_title
  simp only [ID3v2_Tag_set_title_sign b n s, compat_update_sign b n s]

theorem tag_set_artist_sign (x : Bytes) (e : UInt8) (tag : CTag) : @tag_set_artist ⟨b, n, s⟩ x e tag = @tag_set_artist ⟨b, n, true⟩ x e tag := by
  unfold tag_set_artist
  simp only [ID3v2_Tag_set_artist_sign b n s, compat_update_sign b n s]

theorem tag_set_album_sign (x : Bytes) (e : UInt8) (tag : CTag) : @tag_set_album ⟨b, n, s⟩ x e tag = @tag_set_album ⟨b, n, true⟩ x e tag := by
  unfold tag_set_album
  simp only [ID3v2_Tag_set_album_sign b n s, compat_update_sign b n s]

theorem tag_set_album_artist_sign (x : Bytes) (e : UInt8) (tag : CTag) : @tag_set_album_artist ⟨b, n, s⟩ x e tag = @tag_set_album_artist ⟨b, n, true⟩ x e tag := by
  unfold tag_set_album_artist
  simp only [ID3v2_Tag_set_album_artist_sign b n s, compat_update_sign b n s]

theorem tag_set_genre_sign (x : Bytes) (e : UInt8) (tag : CTag) : @tag_set_genre ⟨b, n, s⟩ x e tag = @tag_set_genre ⟨b, n, true⟩ x e tag := by
  unfold tag_set_genre
  simp only [ID3v2_Tag_set_genre_sign b n s, compat_update_sign b n s]

theorem tag_set_track_sign (x : Bytes) (e : UInt8) (tag : CTag) : @tag_set_track ⟨b, n, s⟩ x e tag = @tag_set_track ⟨b, n, true⟩ x e tag := by
  unfold tag_set_track
  simp only [ID3v2_Tag_set_track_sign b n s, compat_update_sign b n s]

theorem tag_set_year_sign (x : Bytes) (e : UInt8) (tag : CTag) : @tag_set_year ⟨b, n, s⟩ x e tag = @tag_set_year ⟨b, n, true⟩ x e tag := by
  unfold tag_set_year
  simp only [ID3v2_Tag_set_year_sign b n s, compat_update_sign b n s]

theorem tag_set_comment_sign (x : Bytes) (e : UInt8) (tag : CTag) : @tag_set_comment ⟨b, n, s⟩ x e tag = @tag_set_comment ⟨b, n, true⟩ x e tag := by
  unfold tag_set_comment
  simp only [ID3v2_Tag_set_comment_sign b n s, compat_update_sign b n s]

theorem tag_set_disc_number_sign (x : Bytes) (e : UInt8) (tag : CTag) : @tag_set_disc_number ⟨b, n, s⟩ x e tag = @tag_set_disc_number ⟨b, n, true⟩ x e tag := by
  unfold tag_set_disc_number
  simp only [ID3v2_Tag_set_disc_number_sign b n s, compat_update_sign b n s]

theorem tag_set_composer_sign (x : Bytes) (e : UInt8) (tag : CTag) : @tag_set_composer ⟨b, n, s⟩ x e tag = @tag_set_composer ⟨b, n, true⟩ x e tag := by
  unfold tag_set_composer
  simp only [ID3v2_Tag_set_composer_sign b n s, compat_update_sign b n s]

theorem tag_set_album_cover_from_bytes_sign (x : Bytes) (m : Bytes) (k : Int) (tag : CTag) : @tag_set_album_cover_from_bytes ⟨b, n, s⟩ x m k tag = @tag_set_album_cover_from_bytes ⟨b, n, true⟩ x m k tag := by
  unfold tag_set_album_cover_from_bytes
  simp only [ID3v2_Tag_set_album_cover_sign b n s, compat_update_sign b n s]

theorem tag_set_album_cover_sign (name : List UInt8) (image : File) (tag : CTag) : @tag_set_album_cover ⟨b, n, s⟩ name image tag = @tag_set_album_cover ⟨b, n, true⟩ name image tag := by
  unfold tag_set_album_cover
  simp only [tag_set_album_cover_from_bytes_sign b n s]

end Id3
