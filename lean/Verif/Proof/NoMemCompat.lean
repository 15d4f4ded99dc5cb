import Verif.Proof.NoMem
import Verif.Model.Compat

/-!
# The value-level functions of the compatibility API never report a use after free or a bad free
-/

namespace Id3

macro_rules | `(tactic| nomem_leaf) => `(tactic| first
  | with_reducible exact nomem_loadAll _ | with_reducible exact nomem_strncmp _ _ _ | with_reducible exact nomem_frame_out _
  | with_reducible exact nomem_seek _ _ _ | with_reducible exact nomem_read _ _
  | with_reducible exact nomem_memcpySrc _ _
  | with_reducible exact nomem_read_buffer _ _ | with_reducible exact nomem_read_header _
  | with_reducible exact nomem_frame_free _ | with_reducible exact nomem_ck _)

theorem nomem_compat_frame [Platform] (f : Option Frame) : NoMem (frame_to_compat_frame f) := by
  unfold frame_to_compat_frame
  nomem

theorem nomem_idEq (a b : Bytes) : NoMem (idEq a b) := by
  unfold idEq
  nomem

theorem nomem_add_uniq (c : CFrame) : ∀ l : CList, NoMem (add_uniq_to_list l c)
  | [] => by unfold add_uniq_to_list; nomem
  | none :: l => by unfold add_uniq_to_list; nomem
  | some f :: l => by
    have := nomem_add_uniq c l
    have := nomem_idEq f.frame_id c.frame_id
    unfold add_uniq_to_list
    nomem

theorem nomem_get_entry (id : Bytes) : ∀ l : CList, NoMem (get_from_list l id)
  | [] => by unfold get_from_list; nomem
  | none :: l => by unfold get_from_list; nomem
  | some f :: l => by
    have := nomem_get_entry id l
    unfold get_from_list
    nomem

theorem nomem_load_frames [Platform] : ∀ (l : FrameList) (acc : CList), NoMem (load_frames acc l)
  | [], acc => by unfold load_frames; nomem
  | f :: l, acc => by
    unfold load_frames
    exact (nomem_compat_frame f).bind fun c => nomem_load_frames l _

theorem nomem_load_buffer [Platform] (b : Bytes) (n : Int) : NoMem (load_tag_with_buffer b n) := by
  have := fun l acc => nomem_load_frames l acc
  unfold load_tag_with_buffer
  refine (nomem_read_buffer _ _).bind fun t => (nomem_memcpySrc _ _).bind fun r => ?_
  cases t with
  | none => nomem
  | some t =>
    dsimp only
    exact (nomem_load_frames _ _).bind fun _ => .ok _

theorem nomem_load_tag [Platform] (f : File) : NoMem (load_tag f) := by
  unfold load_tag
  refine (nomem_read_header _).bind fun h => ?_
  cases h with
  | none => nomem
  | some h =>
    cases f with
    | none => nomem
    | some c => exact nomem_load_buffer _ _

theorem nomem_set_ctag [Platform] (f : File) (t : CTag) : NoMem (set_tag f t) := by
  unfold set_tag
  exact (nomem_write_tag _ _).bind fun _ => .ok _

theorem nomem_list_free : ∀ l : FrameList, NoMem (FrameList_free l)
  | [] => by unfold FrameList_free; nomem
  | none :: l => nomem_list_free l
  | some f :: l => by
    have := nomem_list_free l
    unfold FrameList_free
    nomem

theorem nomem_free_entries : ∀ l : CList, NoMem (free_compat_frames l)
  | [] => by unfold free_compat_frames; nomem
  | none :: l => by unfold free_compat_frames; nomem
  | some f :: l => nomem_free_entries l

theorem nomem_free_ctag (t : CTag) : NoMem (free_tag t) := by
  have := nomem_list_free t.tag.frames
  have := nomem_free_entries t.frames
  unfold free_tag
  nomem

theorem nomem_parse_text (c : CFrame) : NoMem (parse_text_frame_content c) := by
  unfold parse_text_frame_content
  nomem

theorem nomem_parse_comment (c : CFrame) : NoMem (parse_comment_frame_content c) := by
  unfold parse_comment_frame_content
  nomem

theorem nomem_parse_picture (c : CFrame) : NoMem (parse_apic_frame_content c) := by
  unfold parse_apic_frame_content
  nomem

theorem nomem_update_ctag [Platform] (v : CTag) (t : Tag) (f : Option Frame) : NoMem (compat_update v t f) := by
  unfold compat_update
  exact (nomem_compat_frame f).bind fun c => (nomem_add_uniq c _).bind fun _ => .ok _

theorem nomem_set_comment_ctag [Platform] (b : Bytes) (e : UInt8) (v : CTag) : NoMem (tag_set_comment b e v) :=
  (nomem_set_comment _ _).bind fun _ => (nomem_tag_get _ _).bind fun _ => nomem_update_ctag _ _ _

theorem nomem_set_cover_ctag [Platform] (b m : Bytes) (n : Int) (v : CTag) :
    NoMem (tag_set_album_cover_from_bytes b m n v) :=
  (nomem_set_apic _ _).bind fun _ => (nomem_tag_get _ _).bind fun _ => nomem_update_ctag _ _ _

theorem nomem_set_cover_file [Platform] (name : List UInt8) (image : File) (v : CTag) :
    NoMem (tag_set_album_cover name image v) := by
  unfold tag_set_album_cover
  cases image with
  | none => nomem
  | some b =>
    refine (nomem_ck _).bind fun n => ?_
    cases afterLastDot name with
    | none => nomem
    | some e => exact nomem_set_cover_ctag _ _ _ _

end Id3
