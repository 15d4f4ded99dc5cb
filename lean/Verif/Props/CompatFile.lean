import Verif.Props.File
import Verif.Props.Compat

/-!
# C57: the file functions of the compatibility API
-/

namespace Id3.Props

open Id3 Spec

/-- **C57**: `remove_tag` leaves exactly the audio of the file, whatever the file contains. -/
theorem remove_tag_leaves_audio [Platform] (contents : List UInt8) :
    remove_tag (some (ofB contents)) = .ok (some (ofB (audio contents))) := delete_leaves_audio contents

/-- A file that does not exist is not created. -/
theorem remove_tag_missing [Platform] : remove_tag none = .ok none := rfl

/-- **C57**: `set_tag` replaces the tag of the file and keeps the audio. The compat tag keeps its entries, its header
fields and its raw bytes, and the native tag inside it keeps its header and frames. -/
theorem set_tag_effect [Platform] (contents : List UInt8) (ct ct' : CTag) (file : File) (hw : Writable ct.tag)
    (hp : 0 ≤ ct.tag.padding_size) (h : set_tag (some (ofB contents)) ct = .ok (file, ct')) :
    (∃ body, file = some (ofB (tagHeaderBytes ct.tag.header.major_version ct.tag.header.minor_version ct.tag.header.flags
        ct.tag.header.tag_size) ++ body ++ ofB (audio contents))) ∧
      ct'.frames = ct.frames ∧ ct'.tag_header = ct.tag_header ∧ ct'.raw = ct.raw ∧
      ct'.tag.header = ct.tag.header ∧ ct'.tag.frames = ct.tag.frames := by
  unfold set_tag at h
  obtain ⟨⟨f, t⟩, h1, h2⟩ := Res.bind_eq_ok.mp h
  cases h2
  obtain ⟨cs, hc, hf⟩ := write_preserves_audio contents _ _ _ hw.1 h1
  obtain ⟨-, e1, e2, -⟩ := write_effect contents _ _ _ hw hp h1
  obtain ⟨-, -, rest, t3⟩ := tag_out_inv _ cs hw.1 hc
  refine ⟨⟨rest, ?_⟩, rfl, rfl, rfl, e1, e2⟩
  rw [hf, t3, headerOut_eq _ hw.2.2]

/-- **C57**: removing the tag that `set_tag` wrote gives the file that removing the old tag would have given. -/
theorem remove_undoes_set [Platform] (contents : List UInt8) (ct ct' : CTag) (file : File) (hw : Writable ct.tag)
    (h : set_tag (some (ofB contents)) ct = .ok (file, ct')) :
    remove_tag file = remove_tag (some (ofB contents)) := by
  unfold set_tag at h
  obtain ⟨⟨f, t⟩, h1, h2⟩ := Res.bind_eq_ok.mp h
  cases h2
  exact delete_undoes_write contents _ _ _ hw h1

/-- A tag with a title and ten bytes of padding. -/
def titled : List UInt8 := [0x49, 0x44, 0x33, 3, 0, 0, 0, 0, 0, 24, 0x54, 0x49, 0x54, 0x32, 0, 0, 0, 4, 0, 0, 0, 0x68, 0x69, 0,
  0, 0, 0, 0, 0, 0, 0, 0, 0, 0]

set_option maxRecDepth 10000 in
/-- Loading a tag from a buffer and writing it to a file that has another tag meets the hypotheses. -/
example : ∃ ct ct' file, @load_tag_with_buffer strict (ofB titled) 34 = .ok ct ∧
    @set_tag strict (some (ofB (titled ++ [1, 2, 3]))) ct = .ok (file, ct') ∧ Writable ct.tag ∧
    0 ≤ ct.tag.padding_size ∧ ct.frames.length = 1 ∧ audio (titled ++ [1, 2, 3]) = [1, 2, 3] :=
  ⟨_, _, _, rfl, rfl, by decide, by decide, rfl, by decide⟩

/-- **C42**: what can be done with the tag that `new_tag` returns. Its header says "ID3" and nothing else, all getters return
NULL, and `set_tag` writes an empty tag. (The setters and `free_tag` crash: `set_new_tag_crashes`, `free_new_tag_uninit`.) -/
theorem new_compat_tag [Platform] (contents : List UInt8) :
    new_tag.tag_header.tag = ofB [0x49, 0x44, 0x33] ∧
    tag_get_title new_tag = .ok none ∧ tag_get_artist new_tag = .ok none ∧ tag_get_album new_tag = .ok none ∧
    tag_get_album_artist new_tag = .ok none ∧ tag_get_genre new_tag = .ok none ∧ tag_get_track new_tag = .ok none ∧
    tag_get_year new_tag = .ok none ∧ tag_get_comment new_tag = .ok none ∧ tag_get_disc_number new_tag = .ok none ∧
    tag_get_composer new_tag = .ok none ∧ tag_get_album_cover new_tag = .ok none ∧
    ∃ t, set_tag (some (ofB contents)) new_tag =
      .ok (some (ofB ([0x49, 0x44, 0x33, 3, 0, 0, 0, 0, 0, 0] ++ audio contents)), t) := by
  obtain ⟨t, h⟩ := write_bytes contents 0 0 [] 0 0 (by simp) (by decide) (by decide) (by decide)
  refine ⟨rfl, rfl, rfl, rfl, rfl, rfl, rfl, rfl, rfl, rfl, rfl, rfl, { new_tag with tag := t }, ?_⟩
  unfold set_tag
  have e : new_tag.tag = toTag 3 0 0 (framesSize [] + 0) [] 0 := rfl
  rw [e, h]
  rfl

end Id3.Props
