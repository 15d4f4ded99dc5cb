{"claims": [
{"property": "C01", "status": "proved", "theorems": ["Id3.Props.to_unicode_latin", "Id3.Props.to_unicode_wf", "Id3.Props.to_unicode_utf16", "Id3.Props.to_unicode_idempotent", "Id3.Props.to_unicode_too_long", "Id3.Props.null_string"], "note": "For strings whose UTF-16 form fits an int; to_unicode_too_long says what happens beyond."},
{"property": "C02", "status": "proved", "theorems": ["Id3.Props.strlen_exact", "Id3.Props.strlent_exact", "Id3.Props.strlent_sound", "Id3.Props.strlent_too_long", "Id3.Props.null_string"], "note": "For strings that fit an int; strlent_too_long says what happens beyond."},
{"property": "C03", "status": "proved", "theorems": ["Id3.Props.tag_size_digits", "Id3.Props.tag_size_roundtrip", "Id3.Props.tag_size_roundtrip_exact", "Id3.Props.tag_size_api", "Id3.Props.syncint_mask_overflows"], "note": ""},
{"property": "C04", "status": "proved", "theorems": ["Id3.Props.itob_btoi", "Id3.Props.btoi_itob", "Id3.Props.be_digits"], "note": ""},
{"property": "C05", "status": "proved", "theorems": ["Id3.Props.header_recognition", "Id3.Props.header_fields", "Id3.Props.header_size_synchsafe"], "note": ""},
{"property": "C06", "status": "partial", "theorems": ["Id3.Props.header_determined_partial", "Id3.Props.C06_false"], "note": "The full statement is false of the code (C06_false): extended_header_size is copied from uninitialised memory when the flag is set. Proved: exactly that field, exactly then."},
{"property": "C07", "status": "proved", "theorems": ["Id3.Props.read_header_missing", "Id3.Props.read_header_short", "Id3.Props.read_header_file"], "note": ""},
{"property": "C08", "status": "proved", "theorems": ["Id3.Props.text_frame_layout"], "note": ""},
{"property": "C09", "status": "proved", "theorems": ["Id3.Props.comment_frame_layout"], "note": ""},
{"property": "C10", "status": "proved", "theorems": ["Id3.Props.apic_frame_layout"], "note": ""},
{"property": "C11", "status": "partial", "theorems": ["Id3.Props.serialised_tag", "Id3.Props.read_tag_bytes_partial", "Id3.Props.read_serialised_partial", "Id3.Props.C11_false", "Id3.Props.picture_overflows_stack", "Id3.Props.empty_last_frame_lost", "Id3.Props.read_exact", "Id3.Props.read_all_iff", "Id3.Props.read_back_exact", "Id3.Props.read_back_iff", "Id3.Props.read_back_all", "Id3.Props.read_back_undefined"], "note": "The unrestricted statement is false of the code (C11_false). read_exact gives the outcome for every list of well-formed frames and padding (all frames, all but a last one without a body, or the undefined behaviour); read_all_iff is the exact condition under which everything is read."},
{"property": "C12", "status": "partial", "theorems": ["Id3.Props.v24_roundtrip_partial", "Id3.Props.v24_long_text_oob", "Id3.Props.C12_false", "Id3.Props.read_back_exact", "Id3.Props.read_back_iff", "Id3.Props.v24_roundtrip_iff", "Id3.Props.read_back_all", "Id3.Props.read_back_undefined", "Id3.Props.long_text_undefined", "Id3.Props.long_frame_truncated"], "note": "The full statement is false of the code (C12_false): sizes are written big-endian and read as synchsafe. v24_roundtrip_iff is the exact condition: every frame that is not a comment has less than 256 bytes. read_back_all and read_back_undefined give the exact outcome for every list of frames, large ones included (Spec/Misread: the first large frame is cut short and the parse goes on inside its body); long_text_undefined: a long text is always undefined behaviour; long_frame_truncated: a long frame is never read whole."},
{"property": "C13", "status": "proved", "theorems": ["Id3.Props.trailing_bytes_ignored", "Id3.Props.beyond_length_ignored", "Id3.Props.read_exact"], "note": "Versions 2.3 and 2.4."},
{"property": "C14", "status": "proved", "theorems": ["Id3.Props.unknown_frame_verbatim", "Id3.Props.read_exact"], "note": ""},
{"property": "C15", "status": "partial", "theorems": ["Id3.Props.read_write_bytes", "Id3.Props.read_write_identity_partial", "Id3.Props.C15_false", "Id3.Props.read_write_same_iff", "Id3.Props.read_write_identity_iff", "Id3.Props.read_write_identity_four_iff", "Id3.Props.resave_unchanged_iff"], "note": "The full statement is false of the code (C15_false). read_write_bytes says exactly what is written back. read_write_identity_iff is the exact condition for version 2.3: byte identity if and only if every frame is in the form the library writes; read_write_identity_four_iff the one for version 2.4 tags without comments (then also fewer than 128 bytes per frame); read_write_same_iff and resave_unchanged_iff cover both versions and comments, the latter for whole files."},
{"property": "C16", "status": "partial", "theorems": ["Id3.Props.extended_header_misread", "Id3.Props.C16_false", "Id3.Props.extended_header_first_frame", "Id3.Props.extended_header_hides_frame", "Id3.Props.extended_flag_loses_frames", "Id3.Props.C16_partial"], "note": "The statement is false of the code (C16_false). C16_partial: it holds for an empty extended header (four bytes, a size of zero). Missing: all other extended headers. extended_header_first_frame: with an extended header of any other size, in both versions, the first frame that is read begins inside the extended header; extended_header_hides_frame: so the first frame is not the one of the tag, unless the two begin with the same byte. extended_header_misread gives the outcome for the 6-byte header."},
{"property": "C17", "status": "proved", "theorems": ["Id3.Props.read_terminates", "Id3.Props.read_file_terminates", "Id3.Props.iterations_bounded", "Id3.Props.fuel_irrelevant", "Id3.Props.read_frames_bounded"], "note": "All buffers and lengths, all files. At most one iteration per six bytes."},
{"property": "C18", "status": "partial", "theorems": ["Id3.Props.read_safe_partial", "Id3.Props.read_file_safe_partial", "Id3.Props.C18_false", "Id3.Props.hostile_vla", "Id3.Props.hostile_oob", "Id3.Props.hostile_uninit", "Id3.Props.hostile_stack", "Id3.Props.hostile_overflow", "Id3.Props.C67_buffer_undefined", "Id3.Props.C67_file_undefined"], "note": "The claim as stated is false (C18_false; each of five kinds of undefined behaviour is reached by a hostile buffer). Proved for every buffer: nothing else can go wrong; in particular no out-of-bounds write, NULL dereference, negative memcpy size or type confusion while reading. C67_buffer_undefined and C67_file_undefined give the exact condition on the bytes under which the behaviour is undefined."},
{"property": "C19", "status": "proved", "theorems": ["Id3.Props.write_preserves_audio", "Id3.Props.write_succeeds", "Id3.Props.write_bytes", "Id3.Props.session_file"], "note": "For every file and every tag; `audio` is specified in Spec/File.lean."},
{"property": "C20", "status": "partial", "theorems": ["Id3.Props.write_then_read_partial", "Id3.Props.session_roundtrip_partial", "Id3.Props.C20_false", "Id3.Props.read_file_exact", "Id3.Props.write_read_exact", "Id3.Props.session_exact_partial", "Id3.Props.session_fails_exact", "Id3.Props.session_file", "Id3.Props.read_file_iff", "Id3.Props.session_iff", "Id3.Props.read_back_all", "Id3.Props.read_back_undefined", "Id3.Props.read_file_all", "Id3.Props.session_exact", "Id3.Props.C90_partial"], "note": "False as stated: a picture without data is written but reading it back is undefined behaviour (C20_false). session_iff is the exact condition under which the frames are read back, for every history and both versions. session_exact is the exact outcome of every session, in both versions, version 2.4 frames of 256 bytes or more included; nothing is left open."},
{"property": "C21", "status": "proved", "theorems": ["Id3.Props.delete_leaves_audio", "Id3.Props.delete_without_tag", "Id3.Props.delete_missing"], "note": "For every file."},
{"property": "C22", "status": "proved", "theorems": ["Id3.Props.last_write_wins", "Id3.Props.delete_undoes_write", "Id3.Props.write_twice", "Id3.Props.oversized_tag_forgotten", "Id3.Props.write_delete_exact", "Id3.Props.delete_undoes_write_iff", "Id3.Props.write_over_exact", "Id3.Props.oversized_write"], "note": "For every file and every sequence of writes that return. write_delete_exact, delete_undoes_write_iff and write_over_exact are for tags of every size: deleting undoes writing, and a second write replaces the first, exactly below 512 MiB; oversized_write and oversized_tag_forgotten show that larger tags can be written and what is left of them."},
{"property": "C23", "status": "partial", "theorems": ["Id3.Props.write_crash_partial", "Id3.Props.delete_crash_partial", "Id3.Props.write_empties_file", "Id3.Props.write_any_prefix", "Id3.Props.C23_false", "Id3.Props.full_disk_loses_audio", "Id3.Props.io_progress", "Id3.Props.io_not_stuck"], "note": "False as stated: every write and delete passes through a moment with an empty file. Proved: old contents before the truncation, a prefix of the new ones after it, the new ones at the end."},
{"property": "C24", "status": "partial", "theorems": ["Id3.Props.padding_in_file_partial", "Id3.Props.C24_false", "Id3.Props.session_file", "Id3.Props.session_padding"], "note": "False as stated: the padding is noted in the in-memory tag but not written. session_padding gives the padding of the written file after every history of calls; padding_in_file_partial the padding that is read back."},
{"property": "C25", "status": "partial", "theorems": ["Id3.Props.set_frame", "Id3.Props.set_text_frame_partial", "Id3.Props.named_text_setters_partial", "Id3.Props.set_comment_frame_partial", "Id3.Props.set_comment_partial", "Id3.Props.set_apic_frame_partial", "Id3.Props.set_album_cover_partial", "Id3.Props.set_get_exact", "Id3.Props.C25_false"], "note": "False as stated: a frame set after the last of several frames was deleted is not found (C25_false). set_get_exact says for every history of calls with any arguments when the getter returns the frame: exactly if it is not stored behind an empty node. The other theorems are for tags without such a node (every new or read tag and every safe history)."},
{"property": "C26", "status": "partial", "theorems": ["Id3.Props.put_effect", "Id3.Props.set_frame", "Id3.Props.set_text_frame_partial", "Id3.Props.named_text_setters_partial", "Id3.Props.set_comment_frame_partial", "Id3.Props.set_apic_frame_partial", "Id3.Props.set_get_exact", "Id3.Props.C26_false"], "note": "False as stated: a setter can make frames behind an empty node reappear (C26_false). SetEffect says where every other frame is after the call, for tags without such a node; set_get_exact covers every history."},
{"property": "C27", "status": "partial", "theorems": ["Id3.Props.append_holds", "Id3.Props.add_comment_appends_partial", "Id3.Props.add_apic_appends_partial", "Id3.Props.history_exact", "Id3.Props.C27_false"], "note": "False as stated after the last of several frames was deleted (C27_false). Proved for tags without an empty node; history_exact says what adding does for every history."},
{"property": "C28", "status": "proved", "theorems": ["Id3.Props.get_first", "Id3.Props.get_all", "Id3.Props.get_first_any", "Id3.Props.get_all_any", "Id3.Props.named_getters", "Id3.Props.named_list_getters", "Id3.Props.new_holds", "Id3.Props.read_holds"], "note": "For every tag that holds a list of frames (new tags, read tags and everything reached by C31). get_first and get_all are for four-byte ids without zero bytes, get_first_any and get_all_any for any C string; the named_ theorems are for the thirteen getters of the API. The functions return no tag, so the tag is unchanged."},
{"property": "C29", "status": "partial", "theorems": ["Id3.Props.delete_first_partial", "Id3.Props.named_deleters_partial", "Id3.Props.delete_tail_leaves_hole", "Id3.Props.delete_absent_crashes", "Id3.Props.C29_false", "Id3.Props.delete_exact"], "note": "False as stated: deleting an absent id dereferences NULL and deleting the last of several frames leaves a hole. Proved for all other deletions and for the eleven named deleters; delete_exact is the exact effect after every history."},
{"property": "C30", "status": "partial", "theorems": ["Id3.Props.delete_at_partial", "Id3.Props.delete_at_out_of_range", "Id3.Props.named_deleters_at_partial", "Id3.Props.delete_at_tail_leaves_hole", "Id3.Props.C30_false", "Id3.Props.delete_at_exact"], "note": "False as stated when the frame is the last of several. Proved for all other indices, including out of range and negative ones; delete_at_exact is the exact effect after every history."},
{"property": "C31", "status": "partial", "theorems": ["Id3.Props.history_refines_partial", "Id3.Props.C31_false", "Id3.Props.history_exact", "Id3.Props.exact_agrees"], "note": "False as stated for a plain list of frames (C31_false). history_exact: every history of calls with any valid arguments, from new and read tags, has exactly the effect of a specification with seen and hidden frames, which also says exactly when a call has undefined behaviour; exact_agrees: on safe histories that specification is the plain list of frames of history_refines_partial."},
{"property": "C32", "status": "partial", "theorems": ["Id3.Props.size_law_partial", "Id3.Props.size_exact_partial", "Id3.Props.C32_false", "Id3.Props.tag_size_exact", "Id3.Props.gain_exact", "Id3.Props.size_covers_iff"], "note": "False as stated: a created frame adds only its body, a deletion by index nothing. tag_size_exact gives the tag size after every history of valid calls that returns (also unsafe ones, with frames behind the empty node): the size of all frames plus the excess at the start, minus ten per created frame, plus the sizes of the frames deleted by index; size_covers_iff says exactly when the size covers the frames. size_law_partial gives it for safe histories; size_exact_partial the claim for histories that replace existing frames and delete by id."},
{"property": "C33", "status": "partial", "theorems": ["Id3.Props.written_iff_fits", "Id3.Props.written_exactly", "Id3.Props.serialise_after_history", "Id3.Props.write_safe_partial", "Id3.Props.built_tags_overflow", "Id3.Props.C33_false", "Id3.Props.set_delete_overflow", "Id3.Props.serialise_exact", "Id3.Props.session_fails_exact"], "note": "False as stated: every tag built from scratch overflows (built_tags_overflow, for all histories). written_iff_fits is the exact condition for every tag whatever was read and done; serialise_exact is the exact outcome (bytes, overflow or exit) after every history, also with deletions that leave an empty node."},
{"property": "C34", "status": "partial", "theorems": ["Id3.Props.usable_after_delete_partial", "Id3.Props.set_after_hole_invisible", "Id3.Props.delete_after_hole_crashes", "Id3.Props.write_after_hole_exits", "Id3.Props.C34_false", "Id3.Props.album_lost", "Id3.Props.set_get_exact", "Id3.Props.delete_exact", "Id3.Props.serialise_exact"], "note": "False as stated after deleting the last of several frames; proved for every other deletion. set_get_exact, delete_exact and serialise_exact say what happens after any deletion whatever."},
{"property": "C35", "status": "partial", "theorems": ["Id3.Props.declared_encoding_partial", "Id3.Props.set_comment_wrong_encoding", "Id3.Props.C35_false", "Id3.Props.comment_encoding_iff", "Id3.Props.set_comment_encoding_iff"], "note": "False as stated: ID3v2_Tag_set_comment always writes a UTF-16 description, whatever the encoding of the text. comment_encoding_iff: a comment is written in the encoding it announces if and only if its two strings have the same encoding; set_comment_encoding_iff: for ID3v2_Tag_set_comment this is when the text is UTF-16. Text and picture frames always announce the right one (declared_encoding_partial)."},
{"property": "C36", "status": "proved", "theorems": ["Id3.Props.C36", "Id3.Props.C36_contents"], "note": "For every program that uses the library (Spec/Session.lean), with sources anywhere in memory, also in the tag itself."},
{"property": "C37", "status": "proved", "theorems": ["Id3.Props.C37", "Id3.Props.C37_program", "Id3.Props.C37_refinement", "Id3.Props.C37_holds", "Id3.Props.memory_is_reused"], "note": "For every program whose calls use pointers that it may use, and every choice of the addresses that malloc returns, freed addresses included (memory_is_reused). Other undefined behaviour is the subject of other properties."},
{"property": "C38", "status": "partial", "theorems": ["Id3.Props.C38_false", "Id3.Props.C38_false_index", "Id3.Props.C38_partial", "Id3.Props.C38_free", "Id3.Props.C38_write", "Id3.Props.C38_index"], "note": "False as stated: frames of unknown kinds leak when the tag is freed and when it is written, and deletion by index leaks list nodes. Proved for programs with text, comment and picture frames only that delete by index 0 only; the exact leaks are proved too."},
{"property": "C39", "status": "proved", "theorems": ["Id3.Props.C39", "Id3.Props.C39_later"], "note": "The heap after get_frames and unlink is the heap before; unlinking later succeeds in every reachable state."},
{"property": "C40", "status": "partial", "theorems": ["Id3.Props.compat_loads_partial", "Id3.Props.compat_view", "Id3.Props.second_flag_indeterminate", "Id3.Props.C40_false", "Id3.Props.load_empty_crashes", "Id3.Props.load_back_exact", "Id3.Props.load_buffer_any", "Id3.Props.load_file_any", "Id3.Props.load_agrees", "Id3.Props.load_written_all"], "note": "False for the flags: only one of the two flag bytes is copied (compat.c:44), for every frame. A tag without frames crashes. Everything else is proved for all well-formed tags with at least one frame (compat_loads_partial), and for every buffer that load_tag_with_buffer accepts (compat_view)."},
{"property": "C41", "status": "partial", "theorems": ["Id3.Props.compat_set_get_partial", "Id3.Props.compat_history_partial", "Id3.Props.set_absent_crashes", "Id3.Props.set_new_tag_crashes", "Id3.Props.C41_false", "Id3.Props.compat_calls_exact"], "note": "Proved for all histories of setters for frames the loaded tag has. compat_calls_exact is exact: the setters return if the tag has all the frames; otherwise the first one for an absent frame dereferences NULL (compat.c:94), as does every setter on a tag from new_tag."},
{"property": "C42", "status": "partial", "theorems": ["Id3.Props.load_succeeds_partial", "Id3.Props.compat_safe_partial", "Id3.Props.load_without_tag_crashes", "Id3.Props.free_new_tag_uninit", "Id3.Props.cover_without_dot_crashes", "Id3.Props.set_new_tag_crashes", "Id3.Props.load_empty_crashes", "Id3.Props.C42_false", "Id3.Props.compat_calls_exact", "Id3.Props.new_compat_tag", "Id3.Props.load_buffer_any_undefined", "Id3.Props.load_file_any_undefined"], "note": "False: load_tag of a file without tag and of an empty tag dereferences NULL, free_tag(new_tag()) frees an uninitialised pointer. Safe for loaded tags with frames and setters for frames they have."},
{"property": "C43", "status": "partial", "theorems": ["Id3.Props.tag_new_partial", "Id3.Props.C43_false"], "note": "False as stated: the padding size is ignored and always 0; everything else holds."},
{"property": "C44", "status": "proved", "theorems": ["Id3.Props.truthful_sizes", "Id3.Props.truthful_or_negative"], "note": "truthful_sizes is the full claim: any calls with any arguments. truthful_or_negative drops well-formedness of what was read: the only exception is a frame with a negative size."},
{"property": "C45", "status": "proved", "theorems": ["Id3.Props.write_effect", "Id3.Props.negative_padding"], "note": "negative_padding shows that the condition on the padding size matters."},
{"property": "C46", "status": "partial", "theorems": ["Id3.Props.missing_file_partial", "Id3.Props.write_missing_file", "Id3.Props.C46_false"], "note": "False as stated: ID3v2_write_tag dereferences NULL for every tag. The other functions are fine."},
{"property": "C47", "status": "partial", "theorems": ["Id3.Props.read_then_write_iff", "Id3.Props.written_exactly", "Id3.Props.read_then_write_partial", "Id3.Props.C47_false", "Id3.Props.hostile_write_overflow", "Id3.Props.hostile_write_leaks_memory"], "note": "False for hostile files: a frame that lies about its size makes writing overflow a heap block, or store uninitialised memory in the file. read_then_write_iff is the exact condition for every file, written_exactly the file that results; read_then_write_partial shows that well-formed tags of both versions meet it."},
{"property": "C48", "status": "proved", "theorems": ["Id3.Props.obtainable_typed", "Id3.Props.get_text_typed", "Id3.Props.text_getters_typed", "Id3.Props.comment_getter_typed", "Id3.Props.cover_getter_typed", "Id3.Props.comment_frames_typed", "Id3.Props.apic_frames_typed", "Id3.Props.no_confusion", "Id3.Props.wrong_id_confuses"], "note": "For all inputs and histories. The hypothesis on ids given to set_text_frame is needed (wrong_id_confuses)."},
{"property": "C49", "status": "partial", "theorems": ["Id3.Props.compat_roundtrip_partial", "Id3.Props.C49_false", "Id3.Props.compat_session_exact_partial", "Id3.Props.load_back_exact", "Id3.Props.compat_session_exact", "Id3.Props.load_written_all"], "note": "False as stated: a cover replaced by one without data cannot be loaded again (C49_false). compat_session_exact is the exact outcome of every session with setters for frames the tag has, in both versions, version 2.4 frames of 256 bytes or more included; setters for other frames dereference NULL (compat_calls_exact of C41)."},
{"property": "C50", "status": "partial", "theorems": ["Id3.Props.null_tag_partial", "Id3.Props.null_tag_crashes", "Id3.Props.C50_false", "Id3.Props.pointer_same", "Id3.Props.null_string"], "note": "Getters, write and deletion by index are fine for every file without a tag. Setters, adders and deletion by id dereference NULL for every input (null_tag_crashes)."},
{"property": "C51", "status": "proved", "theorems": ["Id3.Props.file_is_buffer", "Id3.Props.file_is_buffer_untagged", "Id3.Props.read_tag_local"], "note": "For all contents; file_is_buffer also says that the two crash on the same contents."},
{"property": "C52", "status": "partial", "theorems": ["Id3.Props.unsync_partial", "Id3.Props.C52_false", "Id3.Props.unsync_utf16_misread", "Id3.Props.unsync_exact"], "note": "The library ignores the flag. unsync_exact: the frames are read right if and only if unsynchronisation did not change the tag or only appended a zero (a last frame that ends with 0xFF and zeros), for all lists of readable frames without 0xFF in the ten bytes of a frame header (missing: sizes and flags with that byte). unsync_partial: tags that it did not change, whatever follows. unsync_utf16_misread: every tag whose first affected place is a little-endian UTF-16 text is misread, and as what (C52_false)."},
{"property": "C53", "status": "partial", "theorems": ["Id3.Props.footer_read_partial", "Id3.Props.footer_left_behind", "Id3.Props.C53_false"], "note": "Frames are read right, but deleting leaves the footer in the file, for every tag with a footer."},
{"property": "C54", "status": "proved", "theorems": ["Id3.Props.C54", "Id3.Props.C54_program", "Id3.Props.C54_refinement", "Id3.Props.C54_holds"], "note": "For every program whose calls use pointers that it may use (Spec/CompatSession.lean). Other undefined behaviour (absent fields, new_tag, NULL) is the subject of C41 and C42."},
{"property": "C55", "status": "partial", "theorems": ["Id3.Props.C55_partial", "Id3.Props.C55_load", "Id3.Props.C55_write", "Id3.Props.C55_free", "Id3.Props.C55_false"], "note": "False as stated: frames of unknown kinds leak when a tag is loaded, written and freed. Proved for programs whose tags have text, comment and picture frames only; the exact leaks are proved for all tags."},
{"property": "C56", "status": "proved", "theorems": ["Id3.Props.C56_get", "Id3.Props.C56_entry", "Id3.Props.C56_text", "Id3.Props.C56_comment", "Id3.Props.C56_picture", "Id3.Props.C56_set_dangles", "Id3.Props.C56_free_dangles"], "note": "For every program, with any calls in between."},
{"property": "C57", "status": "proved", "theorems": ["Id3.Props.remove_tag_leaves_audio", "Id3.Props.remove_tag_missing", "Id3.Props.set_tag_effect", "Id3.Props.remove_undoes_set"], "note": "set_tag: whenever the call returns; that it returns for loaded tags is part of C42. Tags with a negative padding size are excluded from set_tag_effect only because of the padding it notes."},
{"property": "C58", "status": "partial", "theorems": ["Id3.Props.crash_then_read_partial", "Id3.Props.crash_in_tag", "Id3.Props.delete_crash_then_read", "Id3.Props.C58_false", "Id3.Props.reader_alone", "Id3.Props.reader_ends", "Id3.Props.crash_read_exact", "Id3.Props.read_cut_same_iff"], "note": "False for writes: every write passes through a moment at which only the header of the tag is on the disk, and then reading looks at uninitialised memory. crash_read_exact says what reading does after every crash, and read_cut_same_iff at which moments the claim holds. Proved for deletes at all moments."},
{"property": "C59", "status": "partial", "theorems": ["Id3.Props.reader_sees_splice", "Id3.Props.reader_before_partial", "Id3.Props.reader_after_partial", "Id3.Props.reader_crashes", "Id3.Props.C59_false"], "note": "False for every file with a tag (reader_crashes). Proved: what any reader sees under any schedule, and that readers that end before the truncation or begin after the new tag is on the disk get the right tag."},
{"property": "C60", "status": "partial", "theorems": ["Id3.Props.writers_in_turn_partial", "Id3.Props.turns", "Id3.Props.two_writers_lose_audio", "Id3.Props.C60_false", "Id3.Props.two_writers_bytes", "Id3.Props.two_writers_tags_mix", "Id3.Props.two_writers_header"], "note": "False for every file and any two tags (two_writers_lose_audio). Proved for processes that write one after the other; and for every schedule that each byte of the file is the one that one of the processes wrote at this position or a zero in a gap, that one of the two written parts has no gap, and that the file starts with a tag header."},
{"property": "C61", "status": "partial", "theorems": ["Id3.Props.last_set_wins", "Id3.Props.setters_commute", "Id3.Props.delete_forgets_set", "Id3.Props.same_effect", "Id3.Props.C61_false", "Id3.Props.setters_commute_iff", "Id3.Props.last_set_wins_iff", "Id3.Props.C61_partial"], "note": "For every history. False as stated after the last of several frames was deleted (C61_false). last_set_wins_iff: setting twice is setting once exactly if the getter finds the frame; setters_commute_iff: the order of two setters does not matter exactly if they do not make frames with one of the ids reappear from behind an empty node; delete_forgets_set holds without exception."},
{"property": "C62", "status": "partial", "theorems": ["Id3.Props.rewrites_stable", "Id3.Props.second_rewrite_crashes", "Id3.Props.C62_false", "Id3.Props.rewrites_stable_iff", "Id3.Props.C62_partial"], "note": "False for version 2.4 with a large frame (second_rewrite_crashes, C62_false). rewrites_stable_iff is the exact condition for all tags of well-formed frames that can be read, also with an empty frame at the very end: version 2.3, or no frame of 256 bytes or more except comments."},
{"property": "C63", "status": "proved", "theorems": ["Id3.Props.sessions_injective", "Id3.Props.out_inj"], "note": "For all sessions that end with a file (Full.serialise) and tags below the size limit of the format."},
{"property": "C64", "status": "partial", "theorems": ["Id3.Props.write_faults_exact", "Id3.Props.write_complete_iff", "Id3.Props.write_crash_unchanged", "Id3.Props.write_invents_nothing", "Id3.Props.write_no_faults", "Id3.Props.read_error_loses_audio", "Id3.Props.full_temp_loses_audio", "Id3.Props.header_error_stacks_tags", "Id3.Props.read_only_file_crashes", "Id3.Props.C64_false", "Id3.Props.write_faults_cover", "Id3.Props.C64_partial"], "note": "False as stated for every file and tag. write_faults_exact gives the outcome of every combination of faults, write_complete_iff the exact condition for success. A crash leaves the file as it was (write_crash_unchanged) and nothing is invented (write_invents_nothing)."},
{"property": "C65", "status": "partial", "theorems": ["Id3.Props.delete_faults_exact", "Id3.Props.delete_complete_iff", "Id3.Props.delete_invents_nothing", "Id3.Props.delete_no_faults", "Id3.Props.delete_read_error_loses_audio", "Id3.Props.delete_crash_empties", "Id3.Props.delete_header_error", "Id3.Props.C65_false", "Id3.Props.delete_faults_cover", "Id3.Props.C65_partial"], "note": "False as stated for every file with a tag. delete_faults_exact gives the outcome of every combination of faults, delete_complete_iff the exact condition for success."},
{"property": "C66", "status": "partial", "theorems": ["Id3.Props.read_faults_exact", "Id3.Props.read_error_is_truncation", "Id3.Props.read_no_faults", "Id3.Props.read_second_open_crashes", "Id3.Props.C66_false", "Id3.Props.read_faults_cover", "Id3.Props.C66_partial"], "note": "False as stated for every file with a tag. read_faults_exact gives the outcome of every combination of faults; a read error is the same as a truncated file (read_error_is_truncation)."},
{"property": "C67", "status": "proved", "theorems": ["Id3.Props.C67_buffer", "Id3.Props.C67_buffer_null", "Id3.Props.C67_buffer_undefined", "Id3.Props.C67_file", "Id3.Props.C67_file_null", "Id3.Props.C67_file_undefined", "Id3.Props.C67_unique"], "note": "For every byte sequence. The grammar is in Spec/Grammar.lean; it does not mention the parser. slack_holds and cut_holds are concrete buffers. (C67_buffer_null and C67_buffer_undefined are for buffers of at least ten bytes.)"},
{"property": "C68", "status": "proved", "theorems": ["Id3.Props.call_keeps_to_its_file", "Id3.Props.calls_keep_to_their_files"], "note": "About a model on the level of stdio (Model/World): many files, a table of streams, every operation may fail. The only hypothesis says that streams are numbered in order of opening. If the call does not return (null stream after a failed fopen or tmpfile), streams may stay open; that is the fault of C64 - C66."},
{"property": "C69", "status": "proved", "theorems": ["Id3.Props.files_independent", "Id3.Props.call_effect"], "note": "Operations do not fail here. The effect of a call on its file is that of Model/Lib and Model/Compat. The two files of a set_album_cover call are the picture and, later, the file of set_tag. An example with two files and four calls meets the hypotheses."},
{"property": "C70", "status": "proved", "theorems": ["Id3.Props.history_exact", "Id3.Props.exact_agrees", "Id3.Props.set_get_exact", "Id3.Props.delete_exact", "Id3.Props.delete_at_exact"], "note": "specification in Spec/Total.lean; Valid asks of arguments what the documentation does (terminated texts, ids of four bytes)"},
{"property": "C71", "status": "proved", "theorems": ["Id3.Props.written_iff_fits", "Id3.Props.written_exactly", "Id3.Props.read_then_write_iff", "Id3.Props.serialise_exact", "Id3.Props.session_fails_exact"], "note": "written_iff_fits: every tag that can be obtained; serialise_exact and session_fails_exact: how the others fail, for histories of valid calls and sizes within int"},
{"property": "C72", "status": "proved", "theorems": ["Id3.Props.session_iff", "Id3.Props.session_file", "Id3.Props.read_file_iff", "Id3.Props.read_back_iff", "Id3.Props.read_back_exact", "Id3.Props.read_exact", "Id3.Props.read_all_iff", "Id3.Props.v24_roundtrip_iff"], "note": "session_iff is the claim; the others are the same for tags as bytes"},
{"property": "C73", "status": "proved", "theorems": ["Id3.Props.write_faults_exact", "Id3.Props.write_complete_iff", "Id3.Props.write_faults_cover", "Id3.Props.delete_faults_exact", "Id3.Props.delete_complete_iff", "Id3.Props.delete_faults_cover", "Id3.Props.read_faults_exact", "Id3.Props.read_faults_cover"], "note": "the *_cover theorems connect the functions with faults to the programs over a file system and streams (Model/World)"},
{"property": "C74", "status": "proved", "theorems": ["Id3.Props.leak_exact", "Id3.Props.leak_lost", "Id3.Props.runs_reachable", "Id3.Props.reachable_runs", "Id3.Props.lose_three", "Id3.Props.cleak_exact", "Id3.Props.cleak_lost", "Id3.Props.cruns_reachable", "Id3.Props.creachable_runs"], "note": "Exact count of lost blocks for every program of the main API and of the compatibility API. The count itself (Call.leak, CCall.leak) is in Spec/Session.lean and Spec/CompatSession.lean."},
{"property": "C75", "status": "proved", "theorems": ["Id3.Props.write_crash_exact", "Id3.Props.write_crash_lossy_exact", "Id3.Props.delete_crash_exact"], "note": "steps are single bytes reaching the disk; writes to the temporary file succeed (their failures are in C73)"},
{"property": "C76", "status": "proved", "theorems": ["Id3.Props.two_writers_bytes", "Id3.Props.two_writers_tags_mix", "Id3.Props.two_writers_header"], "note": "the schedule is over single operations on the file (Model/Concurrent); the audio may be lost, see C60"},
{"property": "C77", "status": "proved", "theorems": ["Id3.Props.threads_safe", "Id3.Props.threads_no_race", "Id3.Props.threads_alone", "Id3.Props.threads_others", "Id3.Props.threads_call", "Id3.Props.threads_ccall", "Id3.Props.threads_values", "Id3.Props.threads_cvalues", "Id3.Props.threads_fail", "Id3.Props.threads_progress", "Id3.Props.threads_end", "Id3.Props.threads_possible"], "note": "Interleaving of single memory accesses of any number of threads on one heap; every function is a sequence of accesses that is proved to do what the heap model does. threads_possible and an example show that the hypotheses are met."},
{"property": "C78", "status": "proved", "theorems": ["Id3.Props.readers_safe", "Id3.Props.readers_no_race", "Id3.Props.readers_kept", "Id3.Props.readers_main", "Id3.Props.readers_cmain", "Id3.Props.readers_others", "Id3.Props.readers_read", "Id3.Props.readers_read_fail", "Id3.Props.readers_get", "Id3.Props.readers_list", "Id3.Props.readers_field", "Id3.Props.readers_text", "Id3.Props.readers_comment", "Id3.Props.readers_picture", "Id3.Props.readers_call", "Id3.Props.readers_values", "Id3.Props.readers_cvalues", "Id3.Props.readers_progress", "Id3.Props.readers_end", "Id3.Props.readers_finish", "Id3.Props.readers_possible", "Id3.Props.readers_get_possible"], "note": "Interleaving of single memory accesses of any number of threads on one heap. ID3v2_write_tag on a shared tag is not a read: it changes the padding size. readers_get_possible and an example (one thread reads a title while another one is in the middle of doing so) show that the hypotheses are met."},
{"property": "C79", "status": "proved", "theorems": ["Id3.Props.read_cut_exact", "Id3.Props.read_cut_written", "Id3.Props.read_cut_same_iff", "Id3.Props.crash_read_exact", "Id3.Props.cut_frame_ne", "Id3.Props.load_cut_exact", "Id3.Props.load_cut_written", "Id3.Props.load_cut_padded"], "note": "Tags without the flag of an extended header. Of files the library has written: version 2.3, or version 2.4 with frames whose size is coded in the same way in both versions."},
{"property": "C80", "status": "proved", "theorems": ["Id3.Props.locked_calls_serial", "Id3.Props.calls_in_order", "Id3.Props.next_call_ends", "Id3.Props.readers_need_no_lock", "Id3.Props.lock_needed", "Id3.Props.no_invented_bytes", "Id3.Props.writers_return", "Id3.Props.unlocked_bytes", "Id3.Props.unlocked_tags_mix", "Id3.Props.readers_as_safe_as_alone"], "note": "For every number of processes, sequences of calls and schedules. lock_needed: without the lock a reader can crash, for every file with a tag and every call that changes it. The tags that are written must be such that they can be written alone (writers_return)."},
{"property": "C81", "status": "proved", "theorems": ["Id3.Props.locked_safe", "Id3.Props.locked_no_race", "Id3.Props.locked_serial", "Id3.Props.locked_serial_alone", "Id3.Props.locked_reachable", "Id3.Props.locked_reachable_alone", "Id3.Props.locked_change", "Id3.Props.locked_change_fail", "Id3.Props.locked_values", "Id3.Props.locked_cvalues", "Id3.Props.locked_read", "Id3.Props.locked_read_fail", "Id3.Props.locked_get", "Id3.Props.locked_field", "Id3.Props.locked_call", "Id3.Props.locked_call_fail", "Id3.Props.locked_still", "Id3.Props.locked_goes_on", "Id3.Props.locked_change_possible", "Id3.Props.locked_read_possible", "Id3.Props.locked_values_possible", "Id3.Props.locked_get_possible", "Id3.Props.threads_lock_needed"], "note": "Interleaving of single memory accesses of any number of threads on one heap. The strings for calls with common tags are literals or in common memory. locked_*_possible and an example (a thread sets a title that another one then reads) show that the hypotheses are met; threads_lock_needed that the lock is needed."},
{"property": "C82", "status": "proved", "theorems": ["Id3.Props.load_buffer_any", "Id3.Props.load_buffer_any_undefined", "Id3.Props.load_file_any", "Id3.Props.load_file_any_undefined", "Id3.Props.load_agrees", "Id3.Props.native_reads_more"], "note": "Spec/Entry (compatTag, Showable) with the grammar of C67 (TagIn). native_reads_more: a frame of negative size is read by the native API, loading it is undefined."},
{"property": "C83", "status": "partial", "theorems": ["Id3.Props.C83_false", "Id3.Props.write_on", "Id3.Props.write_on_little", "Id3.Props.write_bytes_on", "Id3.Props.byte_order_iff", "Id3.Props.byte_order_matters", "Id3.Props.big_endian_length", "Id3.Props.big_endian_write_delete", "Id3.Props.big_endian_delete_empties", "Id3.Props.big_endian_read_undefined", "Id3.Props.C83_sign", "Id3.Props.C83_sign_setters", "Id3.Props.C83_sign_compat", "Id3.Props.big_endian_comments_first", "Id3.Props.big_endian_comments_kept", "Id3.Props.big_endian_undefined", "Id3.Props.tooLong_usual", "Id3.Props.big_endian_swallows", "Id3.Props.C83_partial"], "note": "False for the byte order (C83_claim, C83_false); write_on says for every file and tag what the other byte order changes (the bytes of the sizes, nothing else), byte_order_iff exactly when the bytes differ, big_endian_* what becomes of such a file. Reading it: big_endian_comments_first reduces it to the first frame that is no comment; big_endian_comments_kept (comments only), big_endian_undefined (a text or a picture first; tooLong_usual: nearly all of them), big_endian_swallows (another frame first). The sign of char makes no difference (C83_sign*). Not spelled out: texts and pictures whose size is small when read backwards too, and other frames whose size is then small or negative (there C67 says what is read)."},
{"property": "C84", "status": "proved", "theorems": ["Id3.Props.killed_calls_serial", "Id3.Props.killed_in_order", "Id3.Props.next_call_killed", "Id3.Props.next_call_after_kill", "Id3.Props.killed_readers_harmless", "Id3.Props.audio_survives", "Id3.Props.audio_after_killed_write", "Id3.Props.audio_after_killed_delete", "Id3.Props.killed_writer_crashes_reader", "Id3.Props.C84_false"], "note": "killed_calls_serial: every schedule and every kill under the lock is a sequence of calls one by one, killed calls leaving the old file or a beginning of the new one; next_call_killed: each such outcome can be reached; next_call_after_kill: and the next call then runs on that file. audio_survives, killed_readers_harmless: when kills do no harm; audio_after_killed_write/_delete: which audio is left otherwise. C84_false refutes that the lock alone protects the audio, killed_writer_crashes_reader that it protects readers."},
{"property": "C85", "status": "proved", "theorems": ["Id3.Props.out_of_memory_keeps_files", "Id3.Props.program_out_of_memory", "Id3.Props.enough_memory", "Id3.Props.out_of_memory_crashes"], "note": "Model/Memory: file system and heap together, every malloc may fail. The crash is what the code does; out_of_memory_crashes is a concrete run of ID3v2_write_tag."},
{"property": "C86", "status": "proved", "theorems": ["Id3.Props.call_on_heap", "Id3.Props.call_is_clean"], "note": "The calls on file system and heap are simulated by those of Model/World on values; the lost blocks are those of C38 and C55."},
{"property": "C87", "status": "proved", "theorems": ["Id3.Props.program_values", "Id3.Props.program_safe", "Id3.Props.program_leaks"], "note": "Invariant over all reachable states (goes_inv); each call by call_on_heap (C86), out_of_memory_keeps_files (C85) and the steps of C38. A concrete program with both kinds of failure: unlucky_goes."},
{"property": "C88", "status": "proved", "theorems": ["Id3.Props.both_values", "Id3.Props.both_safe", "Id3.Props.both_leaks"], "note": "Invariant over all reachable states (both_inv): one heap holds the blocks of both APIs apart from each other. Steps of the main API by C87, of the compatibility API by C86 and C54. A concrete program of both APIs with both kinds of failure: mixed_goes."},
{"property": "C89", "status": "partial", "theorems": ["Id3.Props.C89_buffer_partial", "Id3.Props.C89_file_partial", "Id3.Props.C89_bomb", "Id3.Props.C89_false"], "note": "The full claim (C89_claim) is false of the code: C89_bomb gives, for every n < 2^31, twenty bytes from which a tag of n bytes is read. Proved (Amount): one frame for ten bytes, all frames but the last within the bytes read, valued bytes within the bytes read, and the claim itself if the last frame is not cut off."},
{"property": "C90", "status": "partial", "theorems": ["Id3.Props.C90_partial", "Id3.Props.written_sframes", "Id3.Props.extended_flag_loses_frames", "Id3.Props.C90_false", "Id3.Props.slack_copied"], "note": "The full claim (C90_claim) is false of the code (C90_false). C90_partial: exactly when it holds, for every tag reachable from new tags and arbitrary bytes by any calls (Reached UsualStart), under side conditions that are stated in it: size below 2^28, no extended header flag (extended_flag_loses_frames covers that), no indeterminate bytes, and on platforms whose memcmp reads all bytes no empty ISO text. The audio and the bytes of the tag: written_sframes."},
{"property": "C91", "status": "proved", "theorems": ["Id3.Props.C91", "Id3.Props.C91_exact", "Id3.Props.C91_file", "Id3.Props.read_quadratic", "Id3.Props.linear_reading_false"], "note": "C91: a bound (Call.most) for every call in every reachable state. C91_exact, C91_file: the exact number for reading when a tag is returned, and a quadratic bound for every buffer and every outcome. read_quadratic: tags of any number of frames that take quadratic time; so reading is not linear (linear_reading_false). Counted are malloc, free, and reads and writes of objects on the heap, not the characters copied by memcpy or scanned by string functions."},
{"property": "C92", "status": "proved", "theorems": ["Id3.Props.get_test_iff", "Id3.Props.get_test_main_strict", "Id3.Props.get_test_empty_iff", "Id3.Props.edit_test_iff", "Id3.Props.edit_test_overflows", "Id3.Props.edit_test_untagged", "Id3.Props.edit_main_eq", "Id3.Props.edit_test_main_iff", "Id3.Props.delete_test_iff", "Id3.Props.delete_test_untagged", "Id3.Props.compat_test_iff", "Id3.Props.compat_main_eq", "Id3.Props.compat_test_main_iff", "Id3.Props.compat_test_untagged", "Id3.Props.get_test_untagged"], "note": "get_test_iff, edit_test_iff, delete_test_iff: exactly when the tests pass, with any values. edit_test_main_iff: with the values written in the test. get_test_main_strict: the getter test as written hands a one-byte string to ID3v2_to_unicode, which compares two bytes of it; that is undefined behaviour when memcmp may read all bytes it is given. edit_test_overflows, edit_test_untagged, delete_test_untagged: what happens otherwise."},
{"property": "C93", "status": "proved", "theorems": ["Id3.Props.readme_load_iff", "Id3.Props.readme_load_untagged", "Id3.Props.readme_read_new_iff", "Id3.Props.readme_read_new_untagged", "Id3.Props.readme_compat_iff", "Id3.Props.readme_compat_untagged", "Id3.Props.shown_latin", "Id3.Props.shown_unicode", "Id3.Props.readme_edit_exact", "Id3.Props.readme_edit_untagged", "Id3.Props.readme_delete_exact", "Id3.Props.readme_delete_untagged", "Id3.Props.readme_edit_new_works", "Id3.Props.readme_edit_new_untagged"], "note": "The programs are modelled as they must be written to be compiled (the README has frame->text for frame->data->text, ID3v2_Tag_new() for ID3v2_Tag_new_empty()). readme_edit_exact: sizes below 2^28, the largest a tag header can hold."},
{"property": "C94", "status": "proved", "theorems": ["Id3.Props.print_text_characters", "Id3.Props.print_comment_characters", "Id3.Props.print_right_iff", "Id3.Props.print_missing", "Id3.Props.print_comments_exact", "Id3.Props.to_unicode_same", "Id3.Props.save_apic_never", "Id3.Props.save_apic_overflows"], "note": "The conversion of a wide character by the locale (%lc) is left out; the text itself is on a little-endian machine."},
{"property": "C95", "status": "proved", "theorems": ["Id3.Props.C95", "Id3.Props.C95_get", "Id3.Props.load_quadratic"], "note": "C95: a bound (CCall.most) for every call of the compatibility API in every reachable state. C95_get: the exact number for a getter, whether the field is there or not. load_quadratic: tags of any number of frames that take quadratic time to load. Counted are malloc, free, and reads and writes of objects on the heap, not the characters copied by memcpy or scanned by string functions."},
{"property": "C96", "status": "partial", "theorems": ["Id3.Props.write_target", "Id3.Props.copy_keeps_audio", "Id3.Props.copy_replaces", "Id3.Props.copy_tag_only", "Id3.Props.copy_exact", "Id3.Props.C96_false", "Id3.Props.C96_partial", "Id3.Props.compat_copy"], "note": "The last sentence is false of the code: for a version 2.4 tag with a frame of 256 bytes or more that is not a comment the copy cannot be copied on (C96_false); copy_exact says exactly when it can. Everything else is proved for all files."},
{"property": "C97", "status": "proved", "theorems": ["Id3.Props.deletes_stack", "Id3.Props.read_stack", "Id3.Props.write_stack", "Id3.Props.delete_reveals", "Id3.Props.deletes_end", "Id3.Props.other_version", "Id3.Props.wire_complete", "Id3.Props.load_stack", "Id3.Props.set_stack", "Id3.Props.remove_stack"], "note": "wire_complete: every tag of well-formed frames is complete, so the hypotheses are met by files with any number of tags."},
{"property": "C98", "status": "proved", "theorems": ["Id3.Props.getters_local", "Id3.Props.getters_local_iff", "Id3.Props.order_irrelevant", "Id3.Props.entries_local"], "note": "For files whose frames are all read (the exact condition for this is C11)."},
{"property": "C99", "status": "proved", "theorems": ["Id3.Props.written_then_loaded", "Id3.Props.load_written_iff", "Id3.Props.set_then_read"], "note": "Calls of one API on a tag, then one read with the other; programs that copy with both APIs are C96. The tag is smaller than 256 MiB."},
{"property": "C100", "status": "proved", "theorems": ["Id3.Props.others_read_session", "Id3.Props.others_read_compat", "Id3.Props.rewritten_for_others", "Id3.Props.std_reads_iff", "Id3.Props.std_reads_others"], "note": "The reader is Spec/Standard, written after the documents. It does not know unsynchronisation, extended headers, footers and the encodings 2 and 3 of version 2.4, and gives up on them; unsynchronisation is C52, footers C53."},
{"property": "C101", "status": "partial", "theorems": ["Id3.Props.C101_partial", "Id3.Props.C101_false", "Id3.Props.standard_read", "Id3.Props.standard_rewrite", "Id3.Props.standard_load", "Id3.Props.stdTag_wire", "Id3.Props.closed_open", "Id3.Props.bare_text_undefined", "Id3.Props.bare_text_std", "Id3.Props.bare_comment_swallows", "Id3.Props.bareComment_read", "Id3.Props.bare_text_load", "Id3.Props.bare_comment_padded"], "note": "Proved for readers that insist on the terminator behind the last string of a frame. False for others, which is also proved: a text frame without a terminator (many programs write such frames) makes reading the file undefined behaviour, whatever precedes and follows it, because the parser looks for the terminator behind the end of the array that holds the text (C101_false, bare_text_undefined, bare_text_std); a comment without a terminator takes the id of the next frame for its end, and that frame is lost (bare_comment_swallows), unless padding follows (bare_comment_padded)."}
]}
