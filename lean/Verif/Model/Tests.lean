import Verif.Model.Compat

/-!
# Model of the project's own tests: test/*.c

The tests are programs on one file. The constants of `edit_test` are a parameter here, so that the test can be considered
for all values; `edit_test_main` is the program with the values that are written in it. What the tests print, and the calls
of `free` at their end, are left out.
-/

namespace Id3

/-- `assert` (assert.h): a false assertion ends the process, which the outcome `exit` stands for. -/
def c_assert (b : Bool) : Res Unit := if b then .ok () else .exit

/-- `memcmp(a, b, n) == 0` for two objects: all `n` bytes of both may be accessed. -/
def memcmpBufs (a b : Bytes) (n : Int) : Res Bool :=
  if n < 0 then .ub .negSize
  else if (a.length : Int) < n ∨ (b.length : Int) < n then .ub .oobRead
  else if none ∈ a.take n.toNat ∨ none ∈ b.take n.toNat then .ub .uninit
  else .ok (a.take n.toNat == b.take n.toNat)

/-- test/test_utils.c:18-22 `has_bom` for a pointer that is not NULL. -/
def has_bom [Platform] (s : Bytes) : Res Bool := do
  if ← memcmpEq s [0xFF, 0xFE] then return true
  memcmpEq s [0xFE, 0xFF]

/-- test/test_utils.c:155-169 `clone_file`: the contents of the destination. Reading from a file that cannot be opened
(line 162, `getc(NULL)`) is undefined. -/
def clone_file (src : File) : Res File :=
  match src with
  | none => .ub .nullDeref
  | some contents => .ok (some contents)

/-- test/assertion_utils.c:20-25 `assert_frame_header`. -/
def assert_frame_header (frame : Option Frame) (id : Bytes) (size : Int) (flags : Bytes) : Res Unit := do
  match frame with
  | none => .ub .nullDeref
  | some frame =>
    c_assert (← memcmpBufs frame.header.id id 4)
    c_assert (frame.header.size == size)
    c_assert (← memcmpBufs frame.header.flags flags 2)

/-- test/assertion_utils.c:27-48 `assert_text_frame`. -/
def assert_text_frame [Platform] (frame : Option Frame) (comparison : TextFrameInput) : Res Unit := do
  let encoding : UInt8 := if ← has_bom comparison.text then 1 else 0
  let str_termination_length : Int := if encoding = 0 then 1 else 2
  let text_size ← ck ((← ID3v2_strlen comparison.text) + str_termination_length)
  let frame_size ← ck (text_size + 1)
  assert_frame_header frame comparison.id frame_size comparison.flags
  match frame with
  | none => .ub .nullDeref
  | some frame =>
    match frame.data with
    | .text d =>
      c_assert (d.size == frame_size - 1)
      c_assert (d.encoding == encoding)
      c_assert (← memcmpBufs d.text comparison.text d.size)
    | _ => .ub .typeConfusion

/-- test/assertion_utils.c:50-88 `assert_comment_frame`. -/
def assert_comment_frame [Platform] (frame : Option Frame) (comparison : CommentFrameInput) : Res Unit := do
  let comment_encoding : UInt8 := if ← has_bom comparison.comment then 1 else 0
  let short_desc_str_termination_length : Int := if ← has_bom comparison.short_description then 2 else 1
  let str_termination_length : Int := if comment_encoding = 0 then 1 else 2
  let comment_size ← ck ((← ID3v2_strlen comparison.comment) + str_termination_length)
  let short_description_size ← ck ((← ID3v2_strlen comparison.short_description) + short_desc_str_termination_length)
  let frame_size ← ck (comment_size + short_description_size + 1 + 3)
  assert_frame_header frame COMMENT_ID frame_size comparison.flags
  match frame with
  | none => .ub .nullDeref
  | some frame =>
    match frame.data with
    | .comment d =>
      c_assert (d.size == comment_size)
      c_assert (d.encoding == comment_encoding)
      c_assert (← memcmpBufs d.language comparison.language 3)
      c_assert (← memcmpBufs d.short_description comparison.short_description short_description_size)
      c_assert (← memcmpBufs d.comment comparison.comment d.size)
    | _ => .ub .typeConfusion

/-- test/assertion_utils.c:90-121 `assert_apic_frame`. The strings of the comparison are not NULL (lines 95, 98). The type
of the picture is not compared. -/
def assert_apic_frame [Platform] (frame : Option Frame) (comparison : ApicFrameInput) : Res Unit := do
  let encoding : UInt8 := if ← has_bom comparison.description then 1 else 0
  let description_size ← ID3v2_strlent comparison.description
  let mime_type_size ← ID3v2_strlent comparison.mime_type
  let frame_size ← ck (1 + mime_type_size + 1 + description_size + comparison.picture_size)
  assert_frame_header frame ALBUM_COVER_ID frame_size comparison.flags
  match frame with
  | none => .ub .nullDeref
  | some frame =>
    match frame.data with
    | .apic d =>
      c_assert (d.encoding == encoding)
      c_assert (d.picture_size == comparison.picture_size)
      c_assert (← memcmpBufs d.data comparison.data comparison.picture_size)
      c_assert (← memcmpBufs d.mime_type comparison.mime_type mime_type_size)
      c_assert (← memcmpBufs d.description comparison.description description_size)
    | _ => .ub .typeConfusion

/-- include/modules/frames/apic_frame.h:16 `ID3v2_MIME_TYPE_PNG` "image/png" -/
def MIME_TYPE_PNG : Bytes := lit [0x69, 0x6D, 0x61, 0x67, 0x65, 0x2F, 0x70, 0x6E, 0x67]

/-- "eng" -/
def ENGLISH : Bytes := lit [0x65, 0x6E, 0x67]

/-- The values that `edit_test` stores (test/set_test.c:35-92), as C strings. -/
structure EditInput where
  artist : Bytes
  album : Bytes
  title : Bytes
  track : Bytes
  album_artist : Bytes
  genre : Bytes
  year : Bytes
  disc_number : Bytes
  composer : Bytes
  comment : Bytes
  short_desc : Bytes
  description : Bytes
  picture_data : Bytes
  cover_file_size : Int

/-- test/set_test.c:35-92: the calls that change the tag. -/
def edit_tag [Platform] (v : EditInput) (tag : Tag) : Res Tag := do
  let tag ← ID3v2_Tag_set_artist tag v.artist
  let tag ← ID3v2_Tag_set_album tag v.album
  let tag ← ID3v2_Tag_set_title tag v.title
  let tag ← ID3v2_Tag_set_track tag v.track
  let tag ← ID3v2_Tag_set_album_artist tag v.album_artist
  let tag ← ID3v2_Tag_set_genre tag v.genre
  let tag ← ID3v2_Tag_set_year tag v.year
  let tag ← ID3v2_Tag_set_disc_number tag v.disc_number
  let tag ← ID3v2_Tag_set_composer tag v.composer
  let tag ← ID3v2_Tag_set_comment tag ENGLISH v.comment
  let tag ← ID3v2_Tag_add_comment_frame tag
    { flags := NO_FLAGS, language := ENGLISH, short_description := v.short_desc, comment := v.comment }
  let tag ← ID3v2_Tag_set_album_cover tag MIME_TYPE_PNG v.cover_file_size v.picture_data
  ID3v2_Tag_add_apic_frame tag
    { flags := NO_FLAGS, mime_type := MIME_TYPE_PNG, description := v.description, picture_type := 3,
      data := v.picture_data, picture_size := v.cover_file_size }

/-- `list->next->frame` (test/set_test.c:200, 226): the frame of the second node. -/
def next_frame (list : FrameList) : Res (Option Frame) :=
  match list with
  | _ :: f :: _ => .ok f
  | _ => .ub .nullDeref

/-- test/set_test.c:101-236: the assertions on the tag that was read again. -/
def check_edited [Platform] (v : EditInput) (edited_tag : Tag) : Res Unit := do
  assert_text_frame (← ID3v2_Tag_get_artist_frame edited_tag) { id := ARTIST_ID, flags := NO_FLAGS, text := v.artist }
  assert_text_frame (← ID3v2_Tag_get_album_frame edited_tag) { id := ALBUM_ID, flags := NO_FLAGS, text := v.album }
  assert_text_frame (← ID3v2_Tag_get_title_frame edited_tag) { id := TITLE_ID, flags := NO_FLAGS, text := v.title }
  assert_text_frame (← ID3v2_Tag_get_track_frame edited_tag) { id := TRACK_ID, flags := NO_FLAGS, text := v.track }
  assert_text_frame (← ID3v2_Tag_get_album_artist_frame edited_tag)
    { id := ALBUM_ARTIST_ID, flags := NO_FLAGS, text := v.album_artist }
  assert_text_frame (← ID3v2_Tag_get_genre_frame edited_tag) { id := GENRE_ID, flags := NO_FLAGS, text := v.genre }
  assert_text_frame (← ID3v2_Tag_get_year_frame edited_tag) { id := YEAR_ID, flags := NO_FLAGS, text := v.year }
  assert_text_frame (← ID3v2_Tag_get_disc_number_frame edited_tag)
    { id := DISC_NUMBER_ID, flags := NO_FLAGS, text := v.disc_number }
  assert_text_frame (← ID3v2_Tag_get_composer_frame edited_tag) { id := COMPOSER_ID, flags := NO_FLAGS, text := v.composer }
  assert_comment_frame (← ID3v2_Tag_get_comment_frame edited_tag)
    { flags := NO_FLAGS, language := ENGLISH, short_description := EMPTY_UNICODE_STR, comment := v.comment }
  let comments ← ID3v2_Tag_get_comment_frames edited_tag
  assert_comment_frame (← next_frame comments)
    { flags := NO_FLAGS, language := ENGLISH, short_description := v.short_desc, comment := v.comment }
  assert_apic_frame (← ID3v2_Tag_get_album_cover_frame edited_tag)
    { flags := NO_FLAGS, mime_type := MIME_TYPE_PNG, description := EMPTY_UNICODE_STR, picture_type := 3,
      data := v.picture_data, picture_size := v.cover_file_size }
  let apics ← ID3v2_Tag_get_apic_frames edited_tag
  assert_apic_frame (← next_frame apics)
    { flags := NO_FLAGS, mime_type := MIME_TYPE_PNG, description := v.description, picture_type := 3,
      data := v.picture_data, picture_size := v.cover_file_size }

/-- test/set_test.c:23-247 `edit_test`, for any values: it returns if the test passes. -/
def edit_test [Platform] (v : EditInput) (original : File) : Res Unit := do
  let file ← clone_file original
  let tag ← ID3v2_read_tag file
  let tag := tag.getD ID3v2_Tag_new_empty
  let tag ← edit_tag v tag
  let (file, _) ← ID3v2_write_tag file tag
  match ← ID3v2_read_tag file with
  | none => .exit
  | some edited_tag => check_edited v edited_tag

/-- test/set_test.c:35-79: the program with its values. `cover` is the contents of extra/album_cover.png. -/
def edit_test_main [Platform] (cover : List UInt8) (original : File) : Res Unit := do
  let artist ← ID3v2_to_unicode (lit [0x41, 0x72, 0x74, 0x69, 0x73, 0x74])
  let album ← ID3v2_to_unicode (lit [0x41, 0x6C, 0x62, 0x75, 0x6D])
  let title ← ID3v2_to_unicode (lit [0x54, 0x69, 0x74, 0x6C, 0x65])
  let album_artist ← ID3v2_to_unicode (lit [0x41, 0x6C, 0x62, 0x75, 0x6D, 0x20, 0x41, 0x72, 0x74, 0x69, 0x73, 0x74])
  let genre ← ID3v2_to_unicode (lit [0x47, 0x65, 0x6E, 0x72, 0x65])
  let composer ← ID3v2_to_unicode (lit [0x57, 0x72, 0x69, 0x74, 0x74, 0x65, 0x72])
  let comment ← ID3v2_to_unicode (lit [0x43, 0x6F, 0x6D, 0x6D, 0x65, 0x6E, 0x74])
  let short_desc ← ID3v2_to_unicode
    (lit [0x53, 0x68, 0x6F, 0x72, 0x74, 0x20, 0x44, 0x65, 0x73, 0x63, 0x72, 0x69, 0x70, 0x74, 0x69, 0x6F, 0x6E])
  let description ← ID3v2_to_unicode (lit [0x44, 0x65, 0x73, 0x63, 0x72, 0x69, 0x70, 0x74, 0x69, 0x6F, 0x6E])
  edit_test { artist, album, title, album_artist, genre, composer, comment, short_desc, description
              track := lit [0x30, 0x30], year := lit [0x30, 0x30, 0x30, 0x30], disc_number := lit [0x30, 0x30]
              picture_data := ofB cover, cover_file_size := cover.length } original

/-- test/delete_test.c:33-46: the calls that delete. -/
def delete_frames (tag : Tag) : Res Tag := do
  let tag ← ID3v2_Tag_delete_frame tag ALBUM_ID
  let tag ← ID3v2_Tag_delete_artist tag
  let tag ← ID3v2_Tag_delete_album_artist tag
  let tag ← ID3v2_Tag_delete_comment_frame tag 0
  let tag ← ID3v2_Tag_delete_composer tag
  let tag ← ID3v2_Tag_delete_disc_number tag
  let tag ← ID3v2_Tag_delete_genre tag
  let tag ← ID3v2_Tag_delete_title tag
  let tag ← ID3v2_Tag_delete_track tag
  let tag ← ID3v2_Tag_delete_year tag
  ID3v2_Tag_delete_album_cover tag

/-- test/delete_test.c:53-65: the assertions. The sizes are compared as `unsigned int` (line 53). -/
def check_deleted (edited_tag : Tag) : Res Unit := do
  c_assert (edited_tag.header.tag_size == u32 edited_tag.padding_size)
  c_assert (← ID3v2_Tag_get_artist_frame edited_tag).isNone
  c_assert (← ID3v2_Tag_get_album_frame edited_tag).isNone
  c_assert (← ID3v2_Tag_get_title_frame edited_tag).isNone
  c_assert (← ID3v2_Tag_get_track_frame edited_tag).isNone
  c_assert (← ID3v2_Tag_get_album_artist_frame edited_tag).isNone
  c_assert (← ID3v2_Tag_get_genre_frame edited_tag).isNone
  c_assert (← ID3v2_Tag_get_year_frame edited_tag).isNone
  c_assert (← ID3v2_Tag_get_disc_number_frame edited_tag).isNone
  c_assert (← ID3v2_Tag_get_composer_frame edited_tag).isNone
  c_assert (← ID3v2_Tag_get_comment_frame edited_tag).isNone
  c_assert (← ID3v2_Tag_get_album_cover_frame edited_tag).isNone

/-- test/delete_test.c:21-78 `delete_test_main`: it returns if the test passes. -/
def delete_test_main [Platform] (original : File) : Res Unit := do
  let file ← clone_file original
  let tag ← ID3v2_read_tag file
  let tag := tag.getD ID3v2_Tag_new_empty
  let tag ← delete_frames tag
  let (file, _) ← ID3v2_write_tag file tag
  match ← ID3v2_read_tag file with
  | none => .exit
  | some edited_tag =>
    check_deleted edited_tag
    let file ← ID3v2_delete_tag file
    c_assert (← ID3v2_read_tag file).isNone

/-- The values that `get_test_existing` expects (test/get_test.c:22-150), as C strings. -/
structure GetInput where
  artist : Bytes
  album : Bytes
  title : Bytes
  track : Bytes
  album_artist : Bytes
  genre : Bytes
  year : Bytes
  disc_number : Bytes
  composer : Bytes
  comment : Bytes
  short_description : Bytes
  picture_data : Bytes
  cover_file_size : Int

/-- `list->frame` (test/get_test.c:130): the frame of the first node. -/
def head_frame (list : FrameList) : Res (Option Frame) :=
  match list with
  | f :: _ => .ok f
  | [] => .ub .nullDeref

/-- test/get_test.c:18-167 `get_test_existing`, for any values: it returns if the test passes. The getters accept NULL and
return NULL, which the first assertion dereferences. -/
def get_test_existing [Platform] (v : GetInput) (file : File) : Res Unit := do
  match ← ID3v2_read_tag file with
  | none => .ub .nullDeref
  | some tag =>
    assert_text_frame (← ID3v2_Tag_get_artist_frame tag) { id := ARTIST_ID, flags := NO_FLAGS, text := v.artist }
    assert_text_frame (← ID3v2_Tag_get_album_frame tag) { id := ALBUM_ID, flags := NO_FLAGS, text := v.album }
    assert_text_frame (← ID3v2_Tag_get_title_frame tag) { id := TITLE_ID, flags := NO_FLAGS, text := v.title }
    assert_text_frame (← ID3v2_Tag_get_track_frame tag) { id := TRACK_ID, flags := NO_FLAGS, text := v.track }
    assert_text_frame (← ID3v2_Tag_get_album_artist_frame tag)
      { id := ALBUM_ARTIST_ID, flags := NO_FLAGS, text := v.album_artist }
    assert_text_frame (← ID3v2_Tag_get_genre_frame tag) { id := GENRE_ID, flags := NO_FLAGS, text := v.genre }
    assert_text_frame (← ID3v2_Tag_get_year_frame tag) { id := YEAR_ID, flags := NO_FLAGS, text := v.year }
    assert_text_frame (← ID3v2_Tag_get_disc_number_frame tag)
      { id := DISC_NUMBER_ID, flags := NO_FLAGS, text := v.disc_number }
    assert_text_frame (← ID3v2_Tag_get_composer_frame tag) { id := COMPOSER_ID, flags := NO_FLAGS, text := v.composer }
    assert_comment_frame (← ID3v2_Tag_get_comment_frame tag)
      { flags := NO_FLAGS, language := ENGLISH, short_description := v.short_description, comment := v.comment }
    let comments ← ID3v2_Tag_get_comment_frames tag
    assert_comment_frame (← head_frame comments)
      { flags := NO_FLAGS, language := ENGLISH, short_description := v.short_description, comment := v.comment }
    assert_apic_frame (← ID3v2_Tag_get_album_cover_frame tag)
      { flags := NO_FLAGS, mime_type := MIME_TYPE_PNG, description := lit [], picture_type := 3,
        data := v.picture_data, picture_size := v.cover_file_size }

/-- test/get_test.c:22-150: the program with its values. `cover` is the contents of extra/album_cover.png. -/
def get_test_existing_main [Platform] (cover : List UInt8) (file : File) : Res Unit := do
  let artist ← ID3v2_to_unicode
    (lit [0x45, 0x74, 0x68, 0x65, 0x72, 0x65, 0x61, 0x6C, 0x20, 0x44, 0x61, 0x72, 0x6B, 0x6E, 0x65, 0x73, 0x73])
  let album ← ID3v2_to_unicode
    (lit [0x53, 0x6D, 0x6F, 0x6B, 0x65, 0x20, 0x41, 0x6E, 0x64, 0x20, 0x53, 0x68, 0x61, 0x64, 0x6F, 0x77, 0x73])
  let title ← ID3v2_to_unicode (lit [0x52, 0x69, 0x76, 0x65, 0x72, 0x73])
  let genre ← ID3v2_to_unicode
    (lit [0x4D, 0x65, 0x6C, 0x6F, 0x64, 0x69, 0x63, 0x20, 0x44, 0x65, 0x61, 0x74, 0x68, 0x20, 0x4D, 0x65, 0x74, 0x61, 0x6C])
  let composer ← ID3v2_to_unicode (lit [0x43, 0x6F, 0x6D, 0x70, 0x6F, 0x73, 0x65, 0x72])
  let comment ← ID3v2_to_unicode
    (lit [0x54, 0x68, 0x69, 0x73, 0x20, 0x69, 0x73, 0x20, 0x61, 0x20, 0x63, 0x6F, 0x6D, 0x6D, 0x65, 0x6E, 0x74])
  let short_description ← ID3v2_to_unicode (lit [])
  get_test_existing { artist, album, title, genre, composer, comment, short_description
                      album_artist := artist, track := lit [0x31], year := lit [0x32, 0x30, 0x31, 0x39]
                      disc_number := lit [0x31], picture_data := ofB cover, cover_file_size := cover.length } file

/-- test/get_test.c:169-178 `get_test_empty` on the two files it reads. -/
def get_test_empty [Platform] (no_tag empty : File) : Res Unit := do
  c_assert (← ID3v2_read_tag no_tag).isNone
  c_assert (← ID3v2_read_tag empty).isNone

/-- The values of `compat_test_main`: what the four entries are compared with and over how many bytes, what they are set
to, and over how many bytes the year is compared. -/
structure CompatInput where
  album : Bytes
  album_n : Int
  artist : Bytes
  artist_n : Int
  title : Bytes
  title_n : Int
  year : Bytes
  year_n : Int
  new_album : Bytes
  new_artist : Bytes
  new_title : Bytes
  new_year : Bytes
  new_year_n : Int

/-- test/compat_test.c:37-38 and so on: parse the text of an entry and compare its first `n` bytes. -/
def assert_content (frame : Option CFrame) (expected : Bytes) (n : Int) : Res Unit := do
  match frame with
  | none => .ub .nullDeref
  | some frame =>
    let content ← parse_text_frame_content frame
    c_assert (← memcmpBufs content.data expected n)

/-- test/compat_test.c:36-50: the assertions on the tag of the file. -/
def check_loaded (v : CompatInput) (tag : CTag) : Res Unit := do
  assert_content (← tag_get_album tag) v.album v.album_n
  assert_content (← tag_get_artist tag) v.artist v.artist_n
  assert_content (← tag_get_title tag) v.title v.title_n
  assert_content (← tag_get_year tag) v.year v.year_n

/-- test/compat_test.c:67-71: the setters. -/
def compat_set [Platform] (v : CompatInput) (tag : CTag) : Res CTag := do
  let tag ← tag_set_album v.new_album 0 tag
  let tag ← tag_set_artist v.new_artist 0 tag
  let tag ← tag_set_title v.new_title 0 tag
  tag_set_year v.new_year 0 tag

/-- test/compat_test.c:82-96: the assertions on the tag that was written. -/
def check_rewritten [Platform] (v : CompatInput) (tag : CTag) : Res Unit := do
  assert_content (← tag_get_album tag) v.new_album (← ID3v2_strlent v.new_album)
  assert_content (← tag_get_artist tag) v.new_artist (← ID3v2_strlent v.new_artist)
  assert_content (← tag_get_title tag) v.new_title (← ID3v2_strlent v.new_title)
  assert_content (← tag_get_year tag) v.new_year v.new_year_n

/-- test/compat_test.c:23-111 `compat_test_main`, for any values: it returns if the test passes. `load_tag` does not return
NULL (see `load_tag`), so lines 29 and 80 have no effect. -/
def compat_test [Platform] (v : CompatInput) (original : File) : Res Unit := do
  let file ← clone_file original
  let tag ← load_tag file
  check_loaded v tag
  let tag ← compat_set v tag
  let (file, tag) ← set_tag file tag
  free_tag tag
  let tag ← load_tag file
  check_rewritten v tag
  free_tag tag

/-- test/compat_test.c:31-50 and 67-96: the program with its values. -/
def compat_test_main [Platform] (original : File) : Res Unit := do
  let smoke := lit [0x53, 0x6D, 0x6F, 0x6B, 0x65, 0x20, 0x41, 0x6E, 0x64, 0x20, 0x53, 0x68, 0x61, 0x64, 0x6F, 0x77, 0x73]
  let ethereal := lit [0x45, 0x74, 0x68, 0x65, 0x72, 0x65, 0x61, 0x6C, 0x20, 0x44, 0x61, 0x72, 0x6B, 0x6E, 0x65, 0x73, 0x73]
  let rivers := lit [0x52, 0x69, 0x76, 0x65, 0x72, 0x73]
  let album ← ID3v2_to_unicode smoke
  let artist ← ID3v2_to_unicode ethereal
  let title ← ID3v2_to_unicode rivers
  let album_n ← ID3v2_strlent smoke
  let artist_n ← ID3v2_strlent ethereal
  let title_n ← ID3v2_strlent rivers
  compat_test { album, album_n, artist, artist_n, title, title_n, year := lit [0x32, 0x30, 0x31, 0x39], year_n := 4
                new_album := lit [0x41, 0x6C, 0x62, 0x75, 0x6D]
                new_artist := lit [0x41, 0x72, 0x74, 0x69, 0x73, 0x74]
                new_title := lit [0x54, 0x69, 0x74, 0x6C, 0x65]
                new_year := lit [0x30, 0x30, 0x30, 0x30], new_year_n := 4 } original

end Id3
