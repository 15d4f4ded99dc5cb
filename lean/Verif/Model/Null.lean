import Verif.Model.Lib

/-!
# The functions of src/modules/tag.c on a NULL tag

The rest of the model takes tags that are not NULL. `ID3v2_read_tag` returns NULL for a file without a tag; here are the
functions of the API that a program might then call with this NULL.
-/

namespace Id3

/-- src/modules/tag.c:201-222 `ID3v2_Tag_set_text_frame`: line 205 follows `tag->frames` after the frame was made. The nine
named setters (lines 224-330) pass the tag on. -/
def ID3v2_Tag_set_text_frame_ptr [Platform] (tag : Option Tag) (input : TextFrameInput) : Res (Option Tag) := do
  let new_frame ← TextFrame_new input.id input.flags input.text
  match tag with
  | none => .ub .nullDeref
  | some t => return some (← Tag_set_frame t input.id new_frame)

/-- src/modules/tag.c:335-356 `ID3v2_Tag_set_comment_frame`: the getter (line 339) returns NULL, line 343 follows
`tag->frames`. -/
def ID3v2_Tag_set_comment_frame_ptr [Platform] (tag : Option Tag) (input : CommentFrameInput) : Res (Option Tag) := do
  let new_frame ← CommentFrame_new input.flags input.language input.short_description input.comment
  match tag with
  | none => .ub .nullDeref
  | some t => return some (← Tag_set_frame t COMMENT_ID new_frame)

/-- src/modules/tag.c:358-364 `ID3v2_Tag_add_comment_frame`. -/
def ID3v2_Tag_add_comment_frame_ptr [Platform] (tag : Option Tag) (input : CommentFrameInput) : Res (Option Tag) := do
  let new_frame ← CommentFrame_new input.flags input.language input.short_description input.comment
  match tag with
  | none => .ub .nullDeref
  | some t => return some (Tag_append t new_frame)

/-- src/modules/tag.c:382-409 `ID3v2_Tag_set_apic_frame`: as for comments, line 396. -/
def ID3v2_Tag_set_apic_frame_ptr [Platform] (tag : Option Tag) (input : ApicFrameInput) : Res (Option Tag) := do
  let new_frame ← ApicFrame_of_input input
  match tag with
  | none => .ub .nullDeref
  | some t => return some (← Tag_set_frame t ALBUM_COVER_ID new_frame)

/-- src/modules/tag.c:411-423 `ID3v2_Tag_add_apic_frame`. -/
def ID3v2_Tag_add_apic_frame_ptr [Platform] (tag : Option Tag) (input : ApicFrameInput) : Res (Option Tag) := do
  let new_frame ← ApicFrame_of_input input
  match tag with
  | none => .ub .nullDeref
  | some t => return some (Tag_append t new_frame)

/-- src/modules/tag.c:455-462 `ID3v2_Tag_delete_frame`: line 457 follows `tag->frames`. The named deleters (lines 464-507,
532-535, 560-563) pass the tag on. -/
def ID3v2_Tag_delete_frame_ptr (tag : Option Tag) (frame_id : Bytes) : Res (Option Tag) :=
  match tag with
  | none => .ub .nullDeref
  | some t => do return some (← ID3v2_Tag_delete_frame t frame_id)

/-- src/modules/tag.c:509-530 and 537-558: the getter of the list returns NULL for a NULL tag, the loop does not start and
unlinking NULL does nothing. -/
def ID3v2_Tag_delete_frame_at_ptr (tag : Option Tag) (frame_id : Bytes) (index : Int) : Res (Option Tag) :=
  match tag with
  | none => .ok none
  | some t => do return some (← ID3v2_Tag_delete_frame_at t frame_id index)

end Id3
