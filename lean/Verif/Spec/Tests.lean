import Verif.Model.Tests
import Verif.Spec.Effects
import Verif.Spec.Compat

/-!
# Specification of the project's own tests

What the tests store in a file, what they delete and what they compare with, in terms of frames.
-/

namespace Id3.Spec

/-- TPE1, TALB, TIT2, TRCK, TPE2, TCON, TYER, TPOS, TCOM: the text frames that the tests use. -/
def testTextIds : List (List UInt8) :=
  [[0x54, 0x50, 0x45, 0x31], [0x54, 0x41, 0x4C, 0x42], [0x54, 0x49, 0x54, 0x32], [0x54, 0x52, 0x43, 0x4B],
   [0x54, 0x50, 0x45, 0x32], [0x54, 0x43, 0x4F, 0x4E], [0x54, 0x59, 0x45, 0x52], [0x54, 0x50, 0x4F, 0x53],
   [0x54, 0x43, 0x4F, 0x4D]]

/-- Those and APIC. -/
def testIdsNoComment : List (List UInt8) := testTextIds ++ [apicId]

/-- Those and COMM. -/
def testIds : List (List UInt8) := testIdsNoComment ++ [commId]

/-- "image/png" -/
def pngStr : Str := .latin [0x69, 0x6D, 0x61, 0x67, 0x65, 0x2F, 0x70, 0x6E, 0x67]

/-- The empty UTF-16 string. -/
def emptyStr : Str := .utf16 true []

/-- "eng" -/
def engLang : List UInt8 := [0x65, 0x6E, 0x67]

/-- Values for `edit_test`. -/
structure EditValues where
  artist : Str
  album : Str
  title : Str
  track : Str
  album_artist : Str
  genre : Str
  year : Str
  disc_number : Str
  composer : Str
  comment : Str
  short_desc : Str
  description : Str
  picture : List UInt8

/-- The texts, in the order of `testTextIds`. -/
def EditValues.texts (v : EditValues) : List Str :=
  [v.artist, v.album, v.title, v.track, v.album_artist, v.genre, v.year, v.disc_number, v.composer]

/-- The text frames. -/
def EditValues.textFrames (v : EditValues) : List SFrame :=
  List.zipWith (fun id s => SFrame.text id [0, 0] s) testTextIds v.texts

/-- The comment that is set and the one that is added. -/
def EditValues.comment1 (v : EditValues) : SFrame := .comment [0, 0] engLang emptyStr v.comment
@[inherit_doc EditValues.comment1]
def EditValues.comment2 (v : EditValues) : SFrame := .comment [0, 0] engLang v.short_desc v.comment

/-- The picture that is set and the one that is added. -/
def EditValues.cover1 (v : EditValues) : SFrame := .apic [0, 0] pngStr 3 emptyStr v.picture
@[inherit_doc EditValues.cover1]
def EditValues.cover2 (v : EditValues) : SFrame := .apic [0, 0] pngStr 3 v.description v.picture

/-- All the frames that the test stores. -/
def EditValues.frames (v : EditValues) : List SFrame := v.textFrames ++ [v.comment1, v.comment2, v.cover1, v.cover2]

/-- What the test does to the frames of a tag. -/
def EditValues.after (v : EditValues) (fs : List SFrame) : List SFrame :=
  let fs := (v.textFrames ++ [v.comment1]).foldl (fun fs f => put SFrame.id f.id f fs) fs
  put SFrame.id apicId v.cover1 (fs ++ [v.comment2]) ++ [v.cover2]

/-- The values in memory, each followed by anything. -/
def EditValues.input (v : EditValues) (rest : Nat → Bytes) : EditInput :=
  { artist := v.artist.inMemory (rest 0), album := v.album.inMemory (rest 1), title := v.title.inMemory (rest 2)
    track := v.track.inMemory (rest 3), album_artist := v.album_artist.inMemory (rest 4), genre := v.genre.inMemory (rest 5)
    year := v.year.inMemory (rest 6), disc_number := v.disc_number.inMemory (rest 7)
    composer := v.composer.inMemory (rest 8), comment := v.comment.inMemory (rest 9)
    short_desc := v.short_desc.inMemory (rest 10), description := v.description.inMemory (rest 11)
    picture_data := ofB v.picture ++ rest 12, cover_file_size := v.picture.length }

/-- The values that are written in the test, with the contents of the picture file: "Artist", "Album" and so on in UTF-16,
"00", "0000" and "00" in ISO-8859-1. -/
def EditValues.main (cover : List UInt8) : EditValues :=
  { artist := wide [0x41, 0x72, 0x74, 0x69, 0x73, 0x74]
    album := wide [0x41, 0x6C, 0x62, 0x75, 0x6D]
    title := wide [0x54, 0x69, 0x74, 0x6C, 0x65]
    track := .latin [0x30, 0x30]
    album_artist := wide [0x41, 0x6C, 0x62, 0x75, 0x6D, 0x20, 0x41, 0x72, 0x74, 0x69, 0x73, 0x74]
    genre := wide [0x47, 0x65, 0x6E, 0x72, 0x65]
    year := .latin [0x30, 0x30, 0x30, 0x30]
    disc_number := .latin [0x30, 0x30]
    composer := wide [0x57, 0x72, 0x69, 0x74, 0x74, 0x65, 0x72]
    comment := wide [0x43, 0x6F, 0x6D, 0x6D, 0x65, 0x6E, 0x74]
    short_desc := wide [0x53, 0x68, 0x6F, 0x72, 0x74, 0x20, 0x44, 0x65, 0x73, 0x63, 0x72, 0x69, 0x70, 0x74, 0x69, 0x6F, 0x6E]
    description := wide [0x44, 0x65, 0x73, 0x63, 0x72, 0x69, 0x70, 0x74, 0x69, 0x6F, 0x6E]
    picture := cover }
where
  /-- the characters in UTF-16 -/
  wide (chars : List UInt8) : Str := .utf16 true (chars.map (fun c => (c, 0)))

/-- Values for `get_test`. -/
structure GetValues where
  artist : Str
  album : Str
  title : Str
  track : Str
  album_artist : Str
  genre : Str
  year : Str
  disc_number : Str
  composer : Str
  comment : Str
  short_description : Str
  picture : List UInt8

/-- The texts, in the order of `testTextIds`. -/
def GetValues.texts (v : GetValues) : List Str :=
  [v.artist, v.album, v.title, v.track, v.album_artist, v.genre, v.year, v.disc_number, v.composer]

/-- The text frames that the test expects. -/
def GetValues.textFrames (v : GetValues) : List SFrame :=
  List.zipWith (fun id s => SFrame.text id [0, 0] s) testTextIds v.texts

/-- The comment that the test expects. -/
def GetValues.commentFrame (v : GetValues) : SFrame := .comment [0, 0] engLang v.short_description v.comment

/-- The picture that the test expects: the description is the empty ISO-8859-1 string, the type is not compared. -/
def GetValues.cover (v : GetValues) (type : UInt8) : SFrame := .apic [0, 0] pngStr type (.latin []) v.picture

/-- The values in memory, each followed by anything. -/
def GetValues.input (v : GetValues) (rest : Nat → Bytes) : GetInput :=
  { artist := v.artist.inMemory (rest 0), album := v.album.inMemory (rest 1), title := v.title.inMemory (rest 2)
    track := v.track.inMemory (rest 3), album_artist := v.album_artist.inMemory (rest 4), genre := v.genre.inMemory (rest 5)
    year := v.year.inMemory (rest 6), disc_number := v.disc_number.inMemory (rest 7)
    composer := v.composer.inMemory (rest 8), comment := v.comment.inMemory (rest 9)
    short_description := v.short_description.inMemory (rest 10)
    picture_data := ofB v.picture ++ rest 12, cover_file_size := v.picture.length }

/-- The number of the eleven ids that no frame has. -/
def missingIds (fs : List SFrame) : Nat := (testIds.filter (fun id => (first SFrame.id id fs).isNone)).length

/-- A file that starts with a tag the library can read, with these frames and `spare` bytes of the tag beyond them, and goes
on with `rest`. -/
def TaggedFile [Platform] (contents : List UInt8) (version : UInt8) (fs : List SFrame) (spare : Nat)
    (rest : List UInt8) : Prop :=
  ∃ minor flags ws padding, contents = wireTagBytes version minor flags ws padding ++ rest ∧
    (version = 3 ∨ version = 4) ∧ flags &&& 0x40 = 0 ∧ (∀ w ∈ ws, w.Readable version) ∧
    (ws.flatMap (Wire.bytes version)).length + padding < 2 ^ 28 ∧ lastSeen ws padding ∧ fs = ws.map Wire.kept ∧
    framesSize fs + spare = (ws.flatMap (Wire.bytes version)).length + padding

/-- Values for the test of the compatibility API: how the texts of the four entries are expected to begin, what they are
set to, and how many bytes of the year are then compared. -/
structure CompatValues where
  album : List UInt8
  artist : List UInt8
  title : List UInt8
  year : List UInt8
  newAlbum : Str
  newArtist : Str
  newTitle : Str
  newYear : Str
  yearBytes : Nat

/-- The fields with the beginnings that are expected. -/
def CompatValues.expected (v : CompatValues) : List (Field × List UInt8) :=
  [(.album, v.album), (.artist, v.artist), (.title, v.title), (.year, v.year)]

/-- The frames that are stored. -/
def CompatValues.frames (v : CompatValues) : List SFrame :=
  [.text Field.album.id [0, 0] v.newAlbum, .text Field.artist.id [0, 0] v.newArtist,
   .text Field.title.id [0, 0] v.newTitle, .text Field.year.id [0, 0] v.newYear]

/-- What the test does to the frames of a tag. -/
def CompatValues.after (v : CompatValues) (fs : List SFrame) : List SFrame :=
  v.frames.foldl (fun fs f => put SFrame.id f.id f fs) fs

/-- The calls of the test. -/
def CompatValues.ops (v : CompatValues) : List COp :=
  [.text .album v.newAlbum 0, .text .artist v.newArtist 0, .text .title v.newTitle 0, .text .year v.newYear 0]

/-- The values in memory, each followed by anything (the new ones by the same). -/
def CompatValues.input (v : CompatValues) (rest : Nat → Bytes) : CompatInput :=
  { album := ofB v.album ++ rest 0, album_n := v.album.length, artist := ofB v.artist ++ rest 1
    artist_n := v.artist.length, title := ofB v.title ++ rest 2, title_n := v.title.length
    year := ofB v.year ++ rest 3, year_n := v.year.length
    new_album := v.newAlbum.inMemory (rest 4), new_artist := v.newArtist.inMemory (rest 4)
    new_title := v.newTitle.inMemory (rest 4), new_year := v.newYear.inMemory (rest 4), new_year_n := v.yearBytes }

/-- The values that are written in the test. The strings "Smoke And Shadows", "Ethereal Darkness" and "Rivers" are compared
in UTF-16 over as many bytes as they have in ISO-8859-1 with the terminator, which are the byte order mark, the first half of
the characters, and for "Rivers" one byte of the next one. -/
def CompatValues.main : CompatValues :=
  { album := start [0x53, 0x6D, 0x6F, 0x6B, 0x65, 0x20, 0x41, 0x6E, 0x64, 0x20, 0x53, 0x68, 0x61, 0x64, 0x6F, 0x77, 0x73]
    artist := start [0x45, 0x74, 0x68, 0x65, 0x72, 0x65, 0x61, 0x6C, 0x20, 0x44, 0x61, 0x72, 0x6B, 0x6E, 0x65, 0x73, 0x73]
    title := start [0x52, 0x69, 0x76, 0x65, 0x72, 0x73]
    year := [0x32, 0x30, 0x31, 0x39]
    newAlbum := .latin [0x41, 0x6C, 0x62, 0x75, 0x6D]
    newArtist := .latin [0x41, 0x72, 0x74, 0x69, 0x73, 0x74]
    newTitle := .latin [0x54, 0x69, 0x74, 0x6C, 0x65]
    newYear := .latin [0x30, 0x30, 0x30, 0x30]
    yearBytes := 4 }
where
  /-- the part that is compared -/
  start (chars : List UInt8) : List UInt8 := (EditValues.main.wide chars).bytes.take (chars.length + 1)

/-- The first text of this id begins with these bytes. -/
def BeginsWith (fs : List SFrame) (id start : List UInt8) : Prop :=
  ∃ flags s, first SFrame.id id fs = some (.text id flags s) ∧ start <+: s.bytes

end Id3.Spec
