import Verif.Model.Lib

/-!
# The value-level functions never report a use after free or a bad free

These kinds of undefined behaviour can only come from the heap.
-/

namespace Id3

/-- The outcome is not a use after free and not a bad free. -/
def NoMem {α : Type} (x : Res α) : Prop := x ≠ .ub .useAfterFree ∧ x ≠ .ub .badFree

namespace NoMem

theorem ok {α : Type} (a : α) : NoMem (.ok a) := ⟨nofun, nofun⟩
theorem pure {α : Type} (a : α) : NoMem (Pure.pure a : Res α) := ⟨nofun, nofun⟩
theorem ub {α : Type} {k : UB} (h : k ≠ .useAfterFree ∧ k ≠ .badFree) : NoMem (.ub k : Res α) :=
  ⟨fun e => h.1 (Res.ub.inj e), fun e => h.2 (Res.ub.inj e)⟩
theorem exit {α : Type} : NoMem (.exit : Res α) := ⟨nofun, nofun⟩
theorem diverge {α : Type} : NoMem (.diverge : Res α) := ⟨nofun, nofun⟩

theorem bind {α β : Type} {x : Res α} {f : α → Res β} (hx : NoMem x) (hf : ∀ a, NoMem (f a)) : NoMem (x >>= f) := by
  cases x with
  | ok a => exact hf a
  | ub k => exact ub ⟨fun e => hx.1 (by rw [e]), fun e => hx.2 (by rw [e])⟩
  | exit => exact exit
  | diverge => exact diverge

end NoMem

/-- A call whose outcomes are known. -/
syntax "nomem_leaf" : tactic
macro_rules | `(tactic| nomem_leaf) => `(tactic| with_reducible assumption)

macro "nomem" : tactic => `(tactic| repeat' (first
  | with_reducible apply NoMem.bind
  | intro _
  | nomem_leaf
  | with_reducible exact NoMem.ok _ | with_reducible exact NoMem.pure _ | with_reducible exact NoMem.exit
  | with_reducible exact NoMem.diverge
  | exact NoMem.ub (by decide)
  | dsimp only
  | split))

theorem nomem_load (b : MByte) : NoMem (load b) := by unfold load; nomem
theorem nomem_ck (n : Int) : NoMem (ck n) := by unfold ck; nomem
theorem nomem_vla [Platform] (n : Int) : NoMem (vla n) := by unfold vla; nomem
theorem nomem_memcpySrc (p : Bytes) (n : Int) : NoMem (memcpySrc p n) := by unfold memcpySrc; nomem
theorem nomem_memcmpSeq (p : Bytes) (l : List UInt8) : NoMem (memcmpSeq p l) := by
  induction l generalizing p with
  | nil => unfold memcmpSeq; nomem
  | cons x xs ih =>
    cases p with
    | nil => unfold memcmpSeq; nomem
    | cons b p =>
      unfold memcmpSeq
      have := ih p
      have := nomem_load b
      nomem
theorem nomem_memcmpEq [Platform] (p : Bytes) (l : List UInt8) : NoMem (memcmpEq p l) := by
  have := nomem_memcmpSeq p l
  unfold memcmpEq
  nomem

macro_rules | `(tactic| nomem_leaf) => `(tactic| first
  | with_reducible exact nomem_load _ | with_reducible exact nomem_ck _ | with_reducible exact nomem_vla _
  | with_reducible exact nomem_memcpySrc _ _ | with_reducible exact nomem_memcmpEq _ _)

theorem nomem_bom [Platform] (s : Bytes) : NoMem (string_has_bom s) := by unfold string_has_bom; nomem
theorem nomem_c_strlen (s : Bytes) : NoMem (c_strlen s) := by
  induction s with
  | nil => unfold c_strlen; nomem
  | cons b s ih => unfold c_strlen; nomem
theorem nomem_utf16 : ∀ s : Bytes, NoMem (utf16_scan s)
  | [] => by unfold utf16_scan; nomem
  | [_] => by unfold utf16_scan; nomem
  | _ :: _ :: s => by
    have := nomem_utf16 s
    unfold utf16_scan; nomem
theorem nomem_strlen [Platform] (s : Bytes) : NoMem (ID3v2_strlen s) := by
  have := nomem_bom s
  have := nomem_c_strlen s
  have := nomem_utf16 s
  unfold ID3v2_strlen; nomem
theorem nomem_strlent [Platform] (s : Bytes) : NoMem (ID3v2_strlent s) := by
  have := nomem_bom s
  have := nomem_strlen s
  unfold ID3v2_strlent; nomem
theorem nomem_loadAll (s : Bytes) : NoMem (loadAll s) := by
  induction s with
  | nil => unfold loadAll; nomem
  | cons b s ih => unfold loadAll; nomem
theorem nomem_btoi (p : Bytes) (n : Nat) : NoMem (btoi p n) := by
  have := nomem_loadAll
  unfold btoi
  refine .bind (nomem_memcpySrc _ _) fun a => .bind (this a) fun _ => .pure _
theorem nomem_encode_loop : ∀ (k : Nat) (m v o : BitVec 32), NoMem (syncint_encode_loop k m v o)
  | 0, _, _, _ => by unfold syncint_encode_loop; nomem
  | k + 1, m, v, o => by
    unfold syncint_encode_loop
    dsimp only
    split
    · exact nomem_encode_loop k _ _ _
    · nomem
theorem nomem_encode (v : BitVec 32) : NoMem (syncint_encode v) := nomem_encode_loop _ _ _ _

theorem nomem_from_buffer (b : Bytes) (n : Int) : NoMem (CharStream_from_buffer b n) := by
  unfold CharStream_from_buffer; nomem
theorem nomem_get_cur (cs : CharStream) : NoMem (CharStream_get_cur cs) := by unfold CharStream_get_cur; nomem
theorem nomem_write (cs : CharStream) (d : Bytes) (n : Int) : NoMem (CharStream_write cs d n) := by
  have := nomem_get_cur cs
  unfold CharStream_write; nomem
theorem nomem_read (cs : CharStream) (n : Int) : NoMem (CharStream_read cs n) := by
  have := nomem_get_cur cs
  unfold CharStream_read; nomem
theorem nomem_getc [Platform] (cs : CharStream) : NoMem (CharStream_getc cs) := by
  have := nomem_get_cur cs
  unfold CharStream_getc; nomem
theorem nomem_slice (cs : CharStream) (n : Int) : NoMem (CharStream_slice cs n) := by
  have := nomem_get_cur cs
  unfold CharStream_slice; nomem
theorem nomem_seek (cs : CharStream) (n : Int) (w : Whence) : NoMem (CharStream_seek cs n w) := by
  unfold CharStream_seek; nomem

macro_rules | `(tactic| nomem_leaf) => `(tactic| first
  | with_reducible exact nomem_bom _ | with_reducible exact nomem_strlen _ | with_reducible exact nomem_strlent _
  | with_reducible exact nomem_btoi _ _ | with_reducible exact nomem_encode _
  | with_reducible exact nomem_from_buffer _ _ | with_reducible exact nomem_get_cur _
  | with_reducible exact nomem_write _ _ _ | with_reducible exact nomem_read _ _
  | with_reducible exact nomem_getc _ | with_reducible exact nomem_slice _ _ | with_reducible exact nomem_seek _ _ _)

theorem nomem_tagHeader_parse [Platform] (cs : CharStream) : NoMem (TagHeader_parse cs) := by
  unfold TagHeader_parse; nomem
theorem nomem_frameHeader_new (i f : Bytes) (n : Int) : NoMem (FrameHeader_new i f n) := by
  unfold FrameHeader_new; nomem
macro_rules | `(tactic| nomem_leaf) => `(tactic| first
  | with_reducible exact nomem_frameHeader_new _ _ _)
theorem nomem_frameHeader_parse [Platform] (cs : CharStream) (v : UInt8) : NoMem (FrameHeader_parse cs v) := by
  have := nomem_frameHeader_new
  unfold FrameHeader_parse
  nomem
theorem nomem_frameHeader_out (h : FrameHeader) : NoMem (FrameHeader_to_char_stream h) := by
  unfold FrameHeader_to_char_stream; nomem
theorem nomem_starts (h : FrameHeader) (c : UInt8) : NoMem (idStartsWith h c) := by
  unfold idStartsWith; nomem

theorem nomem_isText (h : FrameHeader) : NoMem (FrameHeader_isTextFrame h) := nomem_starts _ _
theorem nomem_isComment (h : FrameHeader) : NoMem (FrameHeader_isCommentFrame h) := nomem_starts _ _
theorem nomem_isApic (h : FrameHeader) : NoMem (FrameHeader_isApicFrame h) := nomem_starts _ _
macro_rules | `(tactic| nomem_leaf) => `(tactic| first
  | with_reducible exact nomem_isText _ | with_reducible exact nomem_isComment _ | with_reducible exact nomem_isApic _)

theorem nomem_text_data [Platform] (t : Bytes) : NoMem (TextFrameData_new t) := by unfold TextFrameData_new; nomem
macro_rules | `(tactic| nomem_leaf) => `(tactic| first
  | with_reducible exact nomem_text_data _)
theorem nomem_text_new [Platform] (i f t : Bytes) : NoMem (TextFrame_new i f t) := by
  unfold TextFrame_new
  nomem
macro_rules | `(tactic| nomem_leaf) => `(tactic| first
  | with_reducible exact nomem_frameHeader_parse _ _
  | with_reducible exact nomem_text_new _ _ _)
theorem nomem_text_parse [Platform] (cs : CharStream) (v : UInt8) : NoMem (TextFrame_parse cs v) := by
  unfold TextFrame_parse
  nomem
macro_rules | `(tactic| nomem_leaf) => `(tactic| first
  | with_reducible exact nomem_frameHeader_out _)
theorem nomem_text_out (h : FrameHeader) (d : TextFrameData) : NoMem (TextFrame_to_char_stream h d) := by
  unfold TextFrame_to_char_stream
  nomem
theorem nomem_comment_data [Platform] (l s c : Bytes) : NoMem (CommentFrameData_new l s c) := by
  unfold CommentFrameData_new; nomem
macro_rules | `(tactic| nomem_leaf) => `(tactic| first
  | with_reducible exact nomem_comment_data _ _ _)
theorem nomem_comment_new [Platform] (f l s c : Bytes) : NoMem (CommentFrame_new f l s c) := by
  unfold CommentFrame_new
  nomem
macro_rules | `(tactic| nomem_leaf) => `(tactic| first
  | with_reducible exact nomem_comment_new _ _ _ _)
theorem nomem_comment_parse [Platform] (cs : CharStream) (v : UInt8) : NoMem (CommentFrame_parse cs v) := by
  unfold CommentFrame_parse
  nomem
theorem nomem_comment_out [Platform] (h : FrameHeader) (d : CommentFrameData) :
    NoMem (CommentFrame_to_char_stream h d) := by
  unfold CommentFrame_to_char_stream
  nomem
theorem nomem_apic_data [Platform] (d : Bytes) (t : UInt8) (m : Bytes) (n : Int) (p : Bytes) :
    NoMem (ApicFrameData_new d t m n p) := by
  unfold ApicFrameData_new; nomem
macro_rules | `(tactic| nomem_leaf) => `(tactic| first
  | with_reducible exact nomem_apic_data _ _ _ _ _)
theorem nomem_apic_new [Platform] (f d : Bytes) (t : UInt8) (m : Bytes) (n : Int) (p : Bytes) :
    NoMem (ApicFrame_new f d t m n p) := by
  unfold ApicFrame_new
  nomem
macro_rules | `(tactic| nomem_leaf) => `(tactic| first
  | with_reducible exact nomem_apic_new _ _ _ _ _ _)
theorem nomem_apic_parse [Platform] (cs : CharStream) (v : UInt8) : NoMem (ApicFrame_parse cs v) := by
  unfold ApicFrame_parse
  nomem
theorem nomem_apic_out [Platform] (h : FrameHeader) (d : ApicFrameData) : NoMem (ApicFrame_to_char_stream h d) := by
  unfold ApicFrame_to_char_stream
  nomem
macro_rules | `(tactic| nomem_leaf) => `(tactic| first
  | with_reducible exact nomem_starts _ _
  | with_reducible exact nomem_text_parse _ _
  | with_reducible exact nomem_comment_parse _ _
  | with_reducible exact nomem_apic_parse _ _)
theorem nomem_frame_parse [Platform] (cs : CharStream) (v : UInt8) : NoMem (Frame_parse cs v) := by
  unfold Frame_parse
  nomem
macro_rules | `(tactic| nomem_leaf) => `(tactic| first
  | with_reducible exact nomem_text_out _ _
  | with_reducible exact nomem_comment_out _ _
  | with_reducible exact nomem_apic_out _ _)
theorem nomem_frame_out [Platform] (f : Frame) : NoMem (Frame_to_char_stream f) := by
  unfold Frame_to_char_stream
  nomem
theorem nomem_frame_free (f : Frame) : NoMem (ID3v2_Frame_free f) := by
  unfold ID3v2_Frame_free
  nomem

theorem nomem_strncmp : ∀ (n : Nat) (a b : Bytes), NoMem (strncmpEq n a b)
  | 0, _, _ => by unfold strncmpEq; nomem
  | _ + 1, [], _ => by unfold strncmpEq; nomem
  | _ + 1, _ :: _, [] => by unfold strncmpEq; nomem
  | n + 1, _ :: a, _ :: b => by
    have := nomem_strncmp n a b
    unfold strncmpEq
    nomem
theorem nomem_idMatches (f : Frame) (i : Bytes) : NoMem (idMatches f i) := nomem_strncmp _ _ _

theorem nomem_get : ∀ (l : FrameList) (i : Bytes), NoMem (FrameList_get_frame_by_id l i)
  | [], _ => by unfold FrameList_get_frame_by_id; nomem
  | none :: _, _ => by unfold FrameList_get_frame_by_id; nomem
  | some f :: l, i => by
    have := nomem_get l i
    have := nomem_idMatches f i
    unfold FrameList_get_frame_by_id
    nomem
theorem nomem_matching : ∀ (l : FrameList) (i : Bytes), NoMem (FrameList_matching l i)
  | [], _ => by unfold FrameList_matching; nomem
  | none :: _, _ => by unfold FrameList_matching; nomem
  | some f :: l, i => by
    have := nomem_matching l i
    have := nomem_idMatches f i
    unfold FrameList_matching
    nomem
theorem nomem_remove : ∀ (l : FrameList) (i : Bytes), NoMem (FrameList_remove_frame_by_id l i)
  | [], _ => by unfold FrameList_remove_frame_by_id; nomem
  | none :: _, _ => by unfold FrameList_remove_frame_by_id; nomem
  | some f :: l, i => by
    have := nomem_remove l i
    have := nomem_idMatches f i
    unfold FrameList_remove_frame_by_id
    nomem

macro_rules | `(tactic| nomem_leaf) => `(tactic| first
  | with_reducible exact nomem_frame_parse _ _)
theorem nomem_parse_loop [Platform] : ∀ (k : Nat) (cs : CharStream) (n : Nat) (v : UInt8) (l : FrameList),
    NoMem (Tag_parse_loop k cs n v l)
  | 0, _, _, _, _ => by unfold Tag_parse_loop; nomem
  | k + 1, cs, n, v, l => by
    unfold Tag_parse_loop
    have ih := nomem_parse_loop k
    repeat' (first | with_reducible exact ih _ _ _ _ | nomem)
macro_rules | `(tactic| nomem_leaf) => `(tactic| first
  | with_reducible exact nomem_tagHeader_parse _
  | with_reducible exact nomem_parse_loop _ _ _ _ _)
theorem nomem_tag_parse [Platform] (cs : CharStream) : NoMem (Tag_parse cs) := by
  unfold Tag_parse
  nomem
macro_rules | `(tactic| nomem_leaf) => `(tactic| first
  | with_reducible exact nomem_frame_out _)
theorem nomem_write_frames [Platform] : ∀ (l : FrameList) (cs : CharStream), NoMem (Tag_write_frames cs l)
  | [], _ => by unfold Tag_write_frames; nomem
  | none :: _, _ => by unfold Tag_write_frames; nomem
  | some f :: l, cs => by
    unfold Tag_write_frames
    have ih := nomem_write_frames l
    repeat' (first | with_reducible exact ih _ | nomem)
macro_rules | `(tactic| nomem_leaf) => `(tactic| first
  | with_reducible exact nomem_write_frames _ _)
theorem nomem_tag_out [Platform] (t : Tag) : NoMem (Tag_to_char_stream t) := by
  unfold Tag_to_char_stream
  nomem
macro_rules | `(tactic| nomem_leaf) => `(tactic| first
  | with_reducible exact nomem_get _ _)
theorem nomem_tag_get (t : Tag) (i : Bytes) : NoMem (ID3v2_Tag_get_frame t i) := by
  unfold ID3v2_Tag_get_frame
  nomem
macro_rules | `(tactic| nomem_leaf) => `(tactic| first
  | with_reducible exact nomem_matching _ _)
theorem nomem_tag_gets (t : Tag) (i : Bytes) : NoMem (ID3v2_Tag_get_frames t i) := by
  unfold ID3v2_Tag_get_frames FrameList_get_frames_by_id
  nomem
macro_rules | `(tactic| nomem_leaf) => `(tactic| first
  | with_reducible exact nomem_frame_free _)
theorem nomem_set_frame (t : Tag) (i : Bytes) (f : Frame) : NoMem (Tag_set_frame t i f) := by
  unfold Tag_set_frame
  nomem
macro_rules | `(tactic| nomem_leaf) => `(tactic| first
  | with_reducible exact nomem_set_frame _ _ _)
theorem nomem_set_text [Platform] (t : Tag) (i : TextFrameInput) : NoMem (ID3v2_Tag_set_text_frame t i) := by
  unfold ID3v2_Tag_set_text_frame
  nomem
theorem nomem_set_comment [Platform] (t : Tag) (i : CommentFrameInput) : NoMem (ID3v2_Tag_set_comment_frame t i) := by
  unfold ID3v2_Tag_set_comment_frame
  nomem
theorem nomem_add_comment [Platform] (t : Tag) (i : CommentFrameInput) : NoMem (ID3v2_Tag_add_comment_frame t i) := by
  unfold ID3v2_Tag_add_comment_frame
  nomem
theorem nomem_apic_input [Platform] (i : ApicFrameInput) : NoMem (ApicFrame_of_input i) := nomem_apic_new _ _ _ _ _ _
macro_rules | `(tactic| nomem_leaf) => `(tactic| first
  | with_reducible exact nomem_apic_input _)
theorem nomem_set_apic [Platform] (t : Tag) (i : ApicFrameInput) : NoMem (ID3v2_Tag_set_apic_frame t i) := by
  unfold ID3v2_Tag_set_apic_frame
  nomem
theorem nomem_add_apic [Platform] (t : Tag) (i : ApicFrameInput) : NoMem (ID3v2_Tag_add_apic_frame t i) := by
  unfold ID3v2_Tag_add_apic_frame
  nomem
macro_rules | `(tactic| nomem_leaf) => `(tactic| first
  | with_reducible exact nomem_remove _ _)
theorem nomem_delete (t : Tag) (i : Bytes) : NoMem (ID3v2_Tag_delete_frame t i) := by
  unfold ID3v2_Tag_delete_frame
  nomem
theorem nomem_delete_at (t : Tag) (i : Bytes) (n : Int) : NoMem (ID3v2_Tag_delete_frame_at t i n) := by
  unfold ID3v2_Tag_delete_frame_at
  nomem
macro_rules | `(tactic| nomem_leaf) => `(tactic| first
  | with_reducible exact nomem_tag_parse _)
theorem nomem_read_buffer [Platform] (b : Bytes) (n : Int) : NoMem (ID3v2_read_tag_from_buffer b n) := by
  unfold ID3v2_read_tag_from_buffer
  nomem
theorem nomem_read_header_buffer [Platform] (b : Bytes) : NoMem (ID3v2_read_tag_header_from_buffer b) := by
  unfold ID3v2_read_tag_header_from_buffer
  nomem
macro_rules | `(tactic| nomem_leaf) => `(tactic| first
  | with_reducible exact nomem_read_header_buffer _)
theorem nomem_read_header [Platform] (f : File) : NoMem (ID3v2_read_tag_header f) := by
  unfold ID3v2_read_tag_header
  nomem
macro_rules | `(tactic| nomem_leaf) => `(tactic| first
  | with_reducible exact nomem_read_header _
  | with_reducible exact nomem_read_buffer _ _)
theorem nomem_read_tag [Platform] (f : File) : NoMem (ID3v2_read_tag f) := by
  unfold ID3v2_read_tag
  nomem
theorem nomem_existing [Platform] (f : File) : NoMem (existingTagSize f) := by
  unfold existingTagSize
  nomem
macro_rules | `(tactic| nomem_leaf) => `(tactic| first
  | with_reducible exact nomem_existing _
  | with_reducible exact nomem_tag_out _)
theorem nomem_write_tag [Platform] (f : File) (t : Tag) : NoMem (ID3v2_write_tag f t) := by
  unfold ID3v2_write_tag
  nomem
theorem nomem_delete_tag [Platform] (f : File) : NoMem (ID3v2_delete_tag f) := by
  unfold ID3v2_delete_tag
  nomem

end Id3
