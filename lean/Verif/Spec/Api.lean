import Verif.Model.Lib

/-!
# The named functions of the API, and the size field of the tag header
-/

namespace Id3.Spec

open Id3

/-- The named getters with their frame ids. -/
def getterApi : List ((Tag → Res (Option Frame)) × List UInt8) :=
  [(ID3v2_Tag_get_title_frame, [0x54, 0x49, 0x54, 0x32]),
   (ID3v2_Tag_get_artist_frame, [0x54, 0x50, 0x45, 0x31]),
   (ID3v2_Tag_get_album_frame, [0x54, 0x41, 0x4C, 0x42]),
   (ID3v2_Tag_get_album_artist_frame, [0x54, 0x50, 0x45, 0x32]),
   (ID3v2_Tag_get_genre_frame, [0x54, 0x43, 0x4F, 0x4E]),
   (ID3v2_Tag_get_track_frame, [0x54, 0x52, 0x43, 0x4B]),
   (ID3v2_Tag_get_year_frame, [0x54, 0x59, 0x45, 0x52]),
   (ID3v2_Tag_get_disc_number_frame, [0x54, 0x50, 0x4F, 0x53]),
   (ID3v2_Tag_get_composer_frame, [0x54, 0x43, 0x4F, 0x4D]),
   (ID3v2_Tag_get_comment_frame, [0x43, 0x4F, 0x4D, 0x4D]),
   (ID3v2_Tag_get_album_cover_frame, [0x41, 0x50, 0x49, 0x43])]

/-- The named deleters with their frame ids. -/
def deleterApi : List ((Tag → Res Tag) × List UInt8) :=
  [(ID3v2_Tag_delete_title, [0x54, 0x49, 0x54, 0x32]),
   (ID3v2_Tag_delete_artist, [0x54, 0x50, 0x45, 0x31]),
   (ID3v2_Tag_delete_album, [0x54, 0x41, 0x4C, 0x42]),
   (ID3v2_Tag_delete_album_artist, [0x54, 0x50, 0x45, 0x32]),
   (ID3v2_Tag_delete_genre, [0x54, 0x43, 0x4F, 0x4E]),
   (ID3v2_Tag_delete_track, [0x54, 0x52, 0x43, 0x4B]),
   (ID3v2_Tag_delete_year, [0x54, 0x59, 0x45, 0x52]),
   (ID3v2_Tag_delete_disc_number, [0x54, 0x50, 0x4F, 0x53]),
   (ID3v2_Tag_delete_composer, [0x54, 0x43, 0x4F, 0x4D]),
   (ID3v2_Tag_delete_comment, [0x43, 0x4F, 0x4D, 0x4D]),
   (ID3v2_Tag_delete_album_cover, [0x41, 0x50, 0x49, 0x43])]

/-- The deleters by index with their frame ids. -/
def deleterAtApi : List ((Tag → Int → Res Tag) × List UInt8) :=
  [(ID3v2_Tag_delete_comment_frame, [0x43, 0x4F, 0x4D, 0x4D]),
   (ID3v2_Tag_delete_apic_frame, [0x41, 0x50, 0x49, 0x43])]

/-- The named setters and getters for text frames with their frame ids. -/
def textApi [Platform] : List ((Tag → Bytes → Res Tag) × (Tag → Res (Option Frame)) × List UInt8) :=
  [(ID3v2_Tag_set_title, ID3v2_Tag_get_title_frame, [0x54, 0x49, 0x54, 0x32]),
   (ID3v2_Tag_set_artist, ID3v2_Tag_get_artist_frame, [0x54, 0x50, 0x45, 0x31]),
   (ID3v2_Tag_set_album, ID3v2_Tag_get_album_frame, [0x54, 0x41, 0x4C, 0x42]),
   (ID3v2_Tag_set_album_artist, ID3v2_Tag_get_album_artist_frame, [0x54, 0x50, 0x45, 0x32]),
   (ID3v2_Tag_set_genre, ID3v2_Tag_get_genre_frame, [0x54, 0x43, 0x4F, 0x4E]),
   (ID3v2_Tag_set_track, ID3v2_Tag_get_track_frame, [0x54, 0x52, 0x43, 0x4B]),
   (ID3v2_Tag_set_year, ID3v2_Tag_get_year_frame, [0x54, 0x59, 0x45, 0x52]),
   (ID3v2_Tag_set_disc_number, ID3v2_Tag_get_disc_number_frame, [0x54, 0x50, 0x4F, 0x53]),
   (ID3v2_Tag_set_composer, ID3v2_Tag_get_composer_frame, [0x54, 0x43, 0x4F, 0x4D])]

/-- The size bytes of the tag header as `Tag_to_char_stream` computes them from the size. -/
def sizeOut (n : Nat) : Res (List UInt8) := do return itob (← syncint_encode (BitVec.ofNat 32 n))

/-- The size `TagHeader_parse` computes from four size bytes. -/
def sizeIn (bytes : List UInt8) : Res Nat := do return (syncint_decode (← btoi (ofB bytes) 4)).toNat

end Id3.Spec
