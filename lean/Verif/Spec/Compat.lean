import Verif.Model.Compat
import Verif.Spec.History

/-!
# Specification of the compatibility API

What an entry of a compat tag shows of a frame, and histories of setter calls.
-/

namespace Id3.Spec

open Id3

/-- The entry `c` of a compat tag shows the frame `f`: its id, its size, its first flag byte, its body, and a pointer to
the frame. -/
structure Shows (c : CFrame) (f : SFrame) : Prop where
  id : c.frame_id = ofB f.id
  size : c.size = f.body.length
  flag : c.flags[0]? = some f.flags[0]?
  data : c.data = ofB f.body
  frame : c.frame = f.toFrame

/-- The text fields of the compat API. -/
inductive Field where
  | title | artist | album | albumArtist | genre | track | year | discNumber | composer
deriving DecidableEq, Repr

/-- The frame id of a field. -/
def Field.id : Field → List UInt8
  | .title => [0x54, 0x49, 0x54, 0x32]        -- TIT2
  | .artist => [0x54, 0x50, 0x45, 0x31]       -- TPE1
  | .album => [0x54, 0x41, 0x4C, 0x42]        -- TALB
  | .albumArtist => [0x54, 0x50, 0x45, 0x32]  -- TPE2
  | .genre => [0x54, 0x43, 0x4F, 0x4E]        -- TCON
  | .track => [0x54, 0x52, 0x43, 0x4B]        -- TRCK
  | .year => [0x54, 0x59, 0x45, 0x52]         -- TYER
  | .discNumber => [0x54, 0x50, 0x4F, 0x53]   -- TPOS
  | .composer => [0x54, 0x43, 0x4F, 0x4D]     -- TCOM

/-- The setter of a field. -/
def Field.set [Platform] : Field → Bytes → UInt8 → CTag → Res CTag
  | .title => tag_set_title
  | .artist => tag_set_artist
  | .album => tag_set_album
  | .albumArtist => tag_set_album_artist
  | .genre => tag_set_genre
  | .track => tag_set_track
  | .year => tag_set_year
  | .discNumber => tag_set_disc_number
  | .composer => tag_set_composer

/-- The getter of a field. -/
def Field.get : Field → CTag → Res (Option CFrame)
  | .title => tag_get_title
  | .artist => tag_get_artist
  | .album => tag_get_album
  | .albumArtist => tag_get_album_artist
  | .genre => tag_get_genre
  | .track => tag_get_track
  | .year => tag_get_year
  | .discNumber => tag_get_disc_number
  | .composer => tag_get_composer

/-- A setter call of the compat API. -/
inductive COp where
  | text (field : Field) (s : Str) (encoding : UInt8)
  | comment (s : Str) (encoding : UInt8)
  /-- `tag_set_album_cover_from_bytes` -/
  | cover (mime : Str) (pic : List UInt8)
  /-- `tag_set_album_cover`: the name of the image file and its contents -/
  | coverFile (name : List UInt8) (pic : List UInt8)
deriving DecidableEq, Repr

/-- "image/png" -/
def png : List UInt8 := [0x69, 0x6D, 0x61, 0x67, 0x65, 0x2F, 0x70, 0x6E, 0x67]
/-- "image/jpeg" -/
def jpeg : List UInt8 := [0x69, 0x6D, 0x61, 0x67, 0x65, 0x2F, 0x6A, 0x70, 0x65, 0x67]

/-- The name ends in ".png". -/
def isPng (name : List UInt8) : Prop := [0x2E, 0x70, 0x6E, 0x67] <:+ name

instance (name : List UInt8) : Decidable (isPng name) := by unfold isPng; infer_instance

/-- The frame a setter stores. Comments are in English with an empty description, covers are front covers (type 3). -/
def COp.frame : COp → SFrame
  | .text field s _ => .text field.id [0, 0] s
  | .comment s _ => .comment [0, 0] [0x65, 0x6E, 0x67] (.utf16 true []) s
  | .cover mime pic => .apic [0, 0] mime 3 (.utf16 true []) pic
  | .coverFile name pic => .apic [0, 0] (.latin (if isPng name then png else jpeg)) 3 (.utf16 true []) pic

/-- Calling the setter; `rest` is what follows the arguments in memory. -/
def COp.run [Platform] (rest : Bytes) : COp → CTag → Res CTag
  | .text field s encoding => field.set (s.inMemory rest) encoding
  | .comment s encoding => tag_set_comment (s.inMemory rest) encoding
  | .cover mime pic => tag_set_album_cover_from_bytes (ofB pic ++ rest) (mime.inMemory rest) pic.length
  | .coverFile name pic => tag_set_album_cover name (some (ofB pic))

/-- The getter that belongs to a setter. -/
def COp.get : COp → CTag → Res (Option CFrame)
  | .text field _ _ => field.get
  | .comment _ _ => tag_get_comment
  | .cover _ _ => tag_get_album_cover
  | .coverFile _ _ => tag_get_album_cover

/-- The arguments make sense: well-formed strings, the frame fits an `int`, and the name of an image has a dot. -/
def COp.Valid [Platform] (op : COp) : Prop :=
  op.frame.Usable ∧ match op with
    | .coverFile name _ => 0x2E ∈ name
    | _ => True

instance [Platform] (op : COp) : Decidable op.Valid := by
  unfold COp.Valid; cases op <;> infer_instance

/-- Calling several setters. -/
def crunAll [Platform] (rest : Bytes) : List COp → CTag → Res CTag
  | [], tag => .ok tag
  | op :: ops, tag => do
    let tag ← op.run rest tag
    crunAll rest ops tag

/-- The effect of several setters on the frames. -/
def capplyAll (ops : List COp) (st : State) : State := ops.foldl (fun st op => st.set op.frame) st

end Id3.Spec
