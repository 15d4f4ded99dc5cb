{"id": "C01", "title": "to_unicode is a faithful Latin-1 to UTF-16LE conversion", "statement": "For every NUL-terminated ISO string without BOM, ID3v2_to_unicode returns a string that starts with the bytes FF FE, whose UTF-16LE code units are exactly the bytes of the input in order (zero extended), and which ends with a two-byte terminator; a string that already carries a BOM is returned unchanged, so the conversion is idempotent.", "quantifier": "all strings of all lengths (and all bytes following them in memory)", "why_tests_cant": "unbounded set of strings; a sample of literals cannot cover every length and byte value", "anchors": ["src/modules/utils.c:ID3v2_to_unicode", "src/modules/utils.c:string_has_bom"]}
{"id": "C02", "title": "strlen/strlent measure every terminated string exactly and read nothing after the terminator", "statement": "For every terminated string (one-byte terminator without BOM, aligned two-byte terminator with BOM), ID3v2_strlen returns the number of bytes before the terminator, ID3v2_strlent that plus the terminator width, and the answer does not depend on anything stored after the terminator.", "quantifier": "all strings of both encodings, all memory contents after them", "why_tests_cant": "infinitely many lengths, including UTF-16 text with zero bytes inside code units", "anchors": ["src/modules/utils.c:ID3v2_strlen", "src/modules/utils.c:ID3v2_strlent"]}
{"id": "C03", "title": "The tag-size codec is a round trip for every size and writes synchsafe bytes", "statement": "For every tag size below 2^28 the four size bytes written into the tag header are all below 0x80, are the base-128 digits of the size most significant first, and are read back as that size; for arbitrary 32-bit sizes exactly the value modulo 2^29 is read back.", "quantifier": "all 2^32 sizes", "why_tests_cant": "the domain has 2^32 elements and the bit-twiddling loop has several boundary positions", "anchors": ["src/modules/utils.c:syncint_encode", "src/modules/utils.c:syncint_decode", "src/modules/utils.c:itob", "src/modules/utils.c:btoi"]}
{"id": "C04", "title": "Frame sizes are stored big-endian and read back exactly", "statement": "For every 32-bit integer, writing it as four big-endian bytes and reading it back yields the same integer, and reading any four bytes and writing the result yields the same four bytes.", "quantifier": "all 32-bit integers / all four-byte sequences", "why_tests_cant": "2^32 cases", "anchors": ["src/modules/utils.c:itob", "src/modules/utils.c:btoi"]}
{"id": "C05", "title": "Tag header recognition is exact", "statement": "ID3v2_read_tag_header_from_buffer returns a header exactly when the 10 bytes start with 'ID3' followed by major version 3 or 4; the returned major/minor version, flags and synchsafe-decoded size are those of the buffer. Every other buffer yields NULL.", "quantifier": "all 10-byte buffers (and anything after them)", "why_tests_cant": "256^10 inputs", "anchors": ["src/id3v2lib.c:ID3v2_read_tag_header_from_buffer", "src/modules/tag_header.c:TagHeader_parse"]}
{"id": "C06", "title": "A header read is fully determined by the bytes read", "statement": "Every field of the header returned by ID3v2_read_tag_header / ID3v2_read_tag_header_from_buffer, including extended_header_size, is a function of the file or buffer contents.", "quantifier": "all buffers and files", "why_tests_cant": "whether an uninitialised value is used cannot be seen from outputs on samples", "anchors": ["src/id3v2lib.c:ID3v2_read_tag_header", "src/modules/tag_header.c:TagHeader_parse"]}
{"id": "C07", "title": "File header reads agree with buffer reads and reject short or missing files", "statement": "ID3v2_read_tag_header(file) returns NULL for a missing file or one shorter than 10 bytes, and otherwise what ID3v2_read_tag_header_from_buffer returns for the first 10 bytes.", "quantifier": "all files", "why_tests_cant": "all file lengths and contents", "anchors": ["src/id3v2lib.c:ID3v2_read_tag_header"]}
{"id": "C08", "title": "Text frames are serialised in the ID3v2.3 layout", "statement": "A text frame set through the API is written as id, 4-byte big-endian size, 2 flag bytes, encoding byte (1 iff the text has a BOM, else 0) and the text with its terminator, and size equals the number of bytes that follow the flags.", "quantifier": "all text ids, flags and strings", "why_tests_cant": "unbounded text length", "anchors": ["src/modules/frames/text_frame.c:TextFrame_new", "src/modules/frames/text_frame.c:TextFrame_to_char_stream", "src/modules/frame_header.c:FrameHeader_to_char_stream"]}
{"id": "C09", "title": "Comment frames are serialised in the ID3v2.3 layout", "statement": "A comment frame is written as COMM, size, flags, encoding byte, 3-byte language, short description with terminator, comment with terminator, with a size field equal to the body length.", "quantifier": "all flags, languages, descriptions and comments in any mix of encodings", "why_tests_cant": "unbounded strings", "anchors": ["src/modules/frames/comment_frame.c:CommentFrame_new", "src/modules/frames/comment_frame.c:CommentFrame_to_char_stream"]}
{"id": "C10", "title": "Picture frames are serialised in the ID3v2.3 layout", "statement": "An APIC frame is written as APIC, size, flags, encoding byte, MIME type with terminator, picture type, description with terminator, and exactly picture_size bytes of picture data, with a size field equal to the body length.", "quantifier": "all pictures, MIME types, descriptions, types", "why_tests_cant": "unbounded picture data", "anchors": ["src/modules/frames/apic_frame.c:ApicFrame_new", "src/modules/frames/apic_frame.c:ApicFrame_to_char_stream"]}
{"id": "C11", "title": "Reading back a serialised tag yields the same frames in the same order", "statement": "For every tag holding any number of well-formed frames in any order with any amount of padding, ID3v2_read_tag_from_buffer applied to the bytes of the tag returns a tag with the same header fields, the same frames in the same order, and padding_size equal to the number of padding bytes (version 2.3).", "quantifier": "all lists of frames, all paddings", "why_tests_cant": "unbounded number and size of frames; cursor arithmetic and loop bounds", "anchors": ["src/modules/tag.c:Tag_parse", "src/modules/tag.c:Tag_to_char_stream", "src/modules/frame.c:Frame_parse"]}
{"id": "C12", "title": "Version 2.4 tags survive a read-write-read cycle", "statement": "A version 2.4 tag read by the library and written back is read again with the same frames (frame sizes are synchsafe in version 2.4).", "quantifier": "all 2.4 tags, all frame sizes", "why_tests_cant": "the failure depends on sizes around 2^8", "anchors": ["src/modules/frame_header.c:FrameHeader_parse", "src/modules/frame_header.c:FrameHeader_to_char_stream"]}
{"id": "C13", "title": "Bytes after the tag never influence the frames read", "statement": "Appending arbitrary bytes (audio) after a well-formed tag in the buffer changes neither the header nor the frames returned by ID3v2_read_tag_from_buffer.", "quantifier": "all tags, all trailing data", "why_tests_cant": "parser reads strings up to a terminator and could run past the tag", "anchors": ["src/modules/tag.c:Tag_parse", "src/id3v2lib.c:ID3v2_read_tag_from_buffer"]}
{"id": "C14", "title": "Frames of unknown type are preserved verbatim", "statement": "A frame whose id does not start with T, C or A is read with its raw body unchanged and written back byte for byte.", "quantifier": "all ids, flags and bodies", "why_tests_cant": "unbounded bodies", "anchors": ["src/modules/frame.c:Frame_parse", "src/modules/frame.c:Frame_to_char_stream"]}
{"id": "C15", "title": "Frames the caller does not touch survive a read-modify-write cycle", "statement": "Reading a tag and writing it back keeps every frame's id and content, including TXXX, multi-value text, COMR, AENC and text in encodings 2 and 3.", "quantifier": "all frames of all spec-conforming tags", "why_tests_cant": "depends on every frame id and encoding", "anchors": ["src/modules/frames/text_frame.c:TextFrame_parse", "src/modules/frames/comment_frame.c:CommentFrame_parse", "src/modules/frames/apic_frame.c:ApicFrame_parse", "src/modules/frames/text_frame.c:TextFrameData_new"]}
{"id": "C16", "title": "Extended headers are skipped", "statement": "For a tag with an extended header, ID3v2_read_tag returns the frames that follow it.", "quantifier": "all tags with an extended header of any size", "why_tests_cant": "offset arithmetic for every extended header size", "anchors": ["src/modules/tag.c:Tag_parse", "src/modules/tag_header.c:TagHeader_parse"]}
{"id": "C17", "title": "Reading terminates on every input", "statement": "ID3v2_read_tag_from_buffer terminates on every byte sequence and length, after at most one iteration per input byte.", "quantifier": "all buffers, well-formed or hostile", "why_tests_cant": "non-termination cannot be observed by running samples", "anchors": ["src/modules/tag.c:Tag_parse"]}
{"id": "C18", "title": "Reading is memory safe on every input", "statement": "ID3v2_read_tag_from_buffer never accesses memory out of bounds, reads uninitialised memory or performs another undefined operation, whatever the buffer contains.", "quantifier": "all buffers", "why_tests_cant": "hostile inputs are unbounded", "anchors": ["src/modules/frames/text_frame.c:TextFrame_parse", "src/modules/frames/comment_frame.c:CommentFrame_parse", "src/modules/frames/apic_frame.c:ApicFrame_parse", "src/modules/frame_header.c:FrameHeader_parse"]}
{"id": "C19", "title": "Writing a tag preserves the audio", "statement": "After ID3v2_write_tag(file, tag) the file is the serialised tag followed by exactly the bytes that followed the previous tag (the whole previous file if it had none).", "quantifier": "all files, all tags", "why_tests_cant": "all file contents and lengths", "anchors": ["src/id3v2lib.c:ID3v2_write_tag"]}
{"id": "C20", "title": "Write then read returns what was written", "statement": "After ID3v2_write_tag(file, tag), ID3v2_read_tag(file) returns a tag with the same frames and header fields.", "quantifier": "all files and all tags with well-formed frames", "why_tests_cant": "composition of serialiser, file copy and parser over unbounded data", "anchors": ["src/id3v2lib.c:ID3v2_write_tag", "src/id3v2lib.c:ID3v2_read_tag"]}
{"id": "C21", "title": "Deleting the tag removes exactly the tag", "statement": "ID3v2_delete_tag leaves exactly the bytes after the tag; on a file without a supported tag (or a missing file) it changes nothing.", "quantifier": "all files", "why_tests_cant": "all contents", "anchors": ["src/id3v2lib.c:ID3v2_delete_tag"]}
{"id": "C22", "title": "Delete undoes write, and repeated writes do not accumulate", "statement": "Deleting after writing leaves the same audio as deleting (or not) before; writing twice gives the same file as writing once; the last of several writes wins; and the file length is always 10 + tag size + audio length.", "quantifier": "all files, all sequences of writes of tags within the format's size limit (256 MiB); for larger tags, exactly when deleting undoes writing", "why_tests_cant": "histories of writes", "anchors": ["src/id3v2lib.c:ID3v2_write_tag", "src/id3v2lib.c:ID3v2_delete_tag"]}
{"id": "C23", "title": "A crash during write or delete never loses audio", "statement": "At every point during ID3v2_write_tag or ID3v2_delete_tag the file on disk holds either the complete old or the complete new contents.", "quantifier": "all crash points, all files", "why_tests_cant": "crash points are schedules, not inputs", "anchors": ["src/id3v2lib.c:ID3v2_write_tag", "src/id3v2lib.c:ID3v2_delete_tag"]}
{"id": "C24", "title": "Written tags carry default padding", "statement": "After ID3v2_write_tag the tag in the file has at least 2048 bytes of padding.", "quantifier": "all tags", "why_tests_cant": "all tag states", "anchors": ["src/id3v2lib.c:ID3v2_write_tag", "include/modules/tag.h:ID3v2_TAG_DEFAULT_PADDING_LENGTH"]}
{"id": "C25", "title": "A getter returns what the last setter stored", "statement": "After ID3v2_Tag_set_<x>(tag, text), ID3v2_Tag_get_<x>_frame(tag) returns a frame with that id, text, encoding and size, whatever the history of the tag.", "quantifier": "all tags reached by any history of API calls, all texts", "why_tests_cant": "unbounded histories", "anchors": ["src/modules/tag.c:ID3v2_Tag_set_text_frame", "src/modules/tag.c:ID3v2_Tag_get_frame"]}
{"id": "C26", "title": "Setting a frame leaves all other frames alone", "statement": "ID3v2_Tag_set_text_frame / set_comment_frame / set_apic_frame changes no frame with another id, no later frame with the same id, and not the order of frames; it never creates a second frame of the id.", "quantifier": "all tags and inputs", "why_tests_cant": "unbounded frame lists", "anchors": ["src/modules/tag.c:ID3v2_Tag_set_text_frame", "src/modules/tag.c:ID3v2_Tag_set_comment_frame", "src/modules/tag.c:ID3v2_Tag_set_apic_frame", "src/modules/frame_list.c:FrameList_replace_frame"]}
{"id": "C27", "title": "add_* appends", "statement": "ID3v2_Tag_add_comment_frame / add_apic_frame puts the new frame after all existing ones: get_frames returns the old matches followed by the new one.", "quantifier": "all tags and inputs", "why_tests_cant": "unbounded lists", "anchors": ["src/modules/tag.c:ID3v2_Tag_add_comment_frame", "src/modules/tag.c:ID3v2_Tag_add_apic_frame", "src/modules/frame_list.c:FrameList_add_frame"]}
{"id": "C28", "title": "Lookup returns the first match, get_frames all matches in order", "statement": "ID3v2_Tag_get_frame returns the first frame with the id or NULL; ID3v2_Tag_get_frames returns exactly the frames with the id, in tag order, and leaves the tag unchanged.", "quantifier": "all tags, all ids", "why_tests_cant": "unbounded lists", "anchors": ["src/modules/frame_list.c:FrameList_get_frame_by_id", "src/modules/frame_list.c:FrameList_get_frames_by_id"]}
{"id": "C29", "title": "Deleting by id removes the first matching frame only", "statement": "ID3v2_Tag_delete_frame(tag, id) removes the first frame with that id and nothing else, and is harmless when there is none.", "quantifier": "all tags, all ids", "why_tests_cant": "unbounded lists; the boundary cases are the last and the absent frame", "anchors": ["src/modules/tag.c:ID3v2_Tag_delete_frame", "src/modules/frame_list.c:FrameList_remove_frame_by_id"]}
{"id": "C30", "title": "Deleting by index removes that frame only", "statement": "ID3v2_Tag_delete_comment_frame / delete_apic_frame(tag, i) removes the i-th frame of that kind (0-based) and nothing else; an index out of range changes nothing.", "quantifier": "all tags, all int indices", "why_tests_cant": "unbounded lists", "anchors": ["src/modules/tag.c:ID3v2_Tag_delete_comment_frame", "src/modules/tag.c:ID3v2_Tag_delete_apic_frame", "src/modules/frame_list.c:FrameList_remove_frame"]}
{"id": "C31", "title": "The tag behaves like an ordered multimap under any sequence of operations", "statement": "Any sequence of set, add, delete and get calls gives the same observations as an ordinary list of frames with replace-first, append and erase-first.", "quantifier": "all sequences of API calls", "why_tests_cant": "unbounded histories", "anchors": ["src/modules/tag.c:*", "src/modules/frame_list.c:*"]}
{"id": "C32", "title": "The tag size always covers the frames", "statement": "After any sequence of API calls on a new or a read tag, the tag size in the header equals the total size of the frames (with their 10-byte headers) plus the padding.", "quantifier": "all histories", "why_tests_cant": "unbounded histories; each call type shifts the counter differently", "anchors": ["src/modules/tag.c:ID3v2_Tag_set_text_frame", "src/modules/tag.c:ID3v2_Tag_delete_frame"]}
{"id": "C33", "title": "Writing is memory safe for every tag built through the API", "statement": "ID3v2_write_tag never writes out of bounds or terminates the process for a tag built with ID3v2_Tag_new_empty or ID3v2_read_tag and the setters, adders and deleters.", "quantifier": "all histories", "why_tests_cant": "unbounded histories", "anchors": ["src/modules/tag.c:Tag_to_char_stream", "src/modules/char_stream.c:CharStream_write"]}
{"id": "C34", "title": "A tag remains usable after deleting frames", "statement": "After deleting a frame the tag can be queried, extended and written like any other tag; a frame added after a deletion is found by the getters.", "quantifier": "all histories with deletions", "why_tests_cant": "depends on which position was deleted", "anchors": ["src/modules/frame_list.c:FrameList_remove_frame_by_id", "src/modules/frame_list.c:FrameList_remove_frame", "src/modules/tag.c:Tag_to_char_stream"]}
{"id": "C35", "title": "Written frames declare the encoding of their strings", "statement": "In every frame written by the library, all encoded strings use the encoding announced by the encoding byte.", "quantifier": "all inputs of the setters", "why_tests_cant": "all mixes of encodings", "anchors": ["src/modules/tag.c:ID3v2_Tag_set_comment", "src/modules/frames/comment_frame.c:CommentFrameData_new"]}
{"id": "C36", "title": "Setters copy their inputs", "statement": "After a setter returns, changing or freeing the caller's buffers does not affect the tag, and tag memory is disjoint from caller memory.", "quantifier": "all heaps, all inputs, all later writes to caller memory", "why_tests_cant": "aliasing is a property of all later histories", "anchors": ["src/modules/frames/text_frame.c:TextFrameData_new", "src/modules/frames/comment_frame.c:CommentFrameData_new", "src/modules/frames/apic_frame.c:ApicFrameData_new"]}
{"id": "C37", "title": "No use-after-free or double free in any sequence of tag calls", "statement": "For every sequence of API calls followed by ID3v2_Tag_free, every block is freed at most once and no freed block is accessed.", "quantifier": "all histories", "why_tests_cant": "unbounded histories of allocations", "anchors": ["src/modules/tag.c:ID3v2_Tag_free", "src/modules/frame_list.c:ID3v2_FrameList_free", "src/modules/frame.c:ID3v2_Frame_free"]}
{"id": "C38", "title": "ID3v2_Tag_free releases everything the tag owns", "statement": "After ID3v2_Tag_free no block allocated for the tag remains allocated.", "quantifier": "all histories and frame kinds", "why_tests_cant": "leaks are invisible to output checks", "anchors": ["src/modules/tag.c:ID3v2_Tag_free", "src/modules/frame.c:ID3v2_Frame_free"]}
{"id": "C39", "title": "Unlinking a frame list does not affect the tag", "statement": "ID3v2_FrameList_unlink on the list returned by get_frames frees exactly the nodes of that list and leaves the tag and its frames intact.", "quantifier": "all tags and ids", "why_tests_cant": "aliasing between the two lists", "anchors": ["src/modules/frame_list.c:ID3v2_FrameList_unlink", "src/modules/frame_list.c:FrameList_get_frames_by_id"]}
{"id": "C40", "title": "The compatibility layer loads the same frames", "statement": "load_tag_with_buffer returns a compat tag whose frame list has, in order, one entry per frame of ID3v2_read_tag_from_buffer, with the same id, size and flags, and whose data are the frame's body bytes.", "quantifier": "all buffers holding well-formed tags", "why_tests_cant": "unbounded lists of frames", "anchors": ["src/id3v2lib.compat.c:load_tag_with_buffer", "src/id3v2lib.compat.c:frame_to_compat_frame", "src/id3v2lib.compat.c:add_to_list"]}
{"id": "C41", "title": "Compat setters followed by compat getters agree", "statement": "After tag_set_<x>(text, enc, tag), tag_get_<x>(tag) returns a frame whose parsed content is the text, for every tag made by load_tag or new_tag.", "quantifier": "all tags and texts", "why_tests_cant": "all histories", "anchors": ["src/id3v2lib.compat.c:tag_set_title", "src/id3v2lib.compat.c:add_uniq_to_list", "src/id3v2lib.compat.c:get_from_list"]}
{"id": "C42", "title": "new_tag/load_tag and free_tag are safe", "statement": "A tag obtained from new_tag or load_tag can be passed to the setters, getters and free_tag without undefined behaviour; load_tag returns NULL for a file without a tag.", "quantifier": "all files", "why_tests_cant": "all files and histories", "anchors": ["src/id3v2lib.compat.c:new_tag", "src/id3v2lib.compat.c:load_tag", "src/id3v2lib.compat.c:free_tag"]}
{"id": "C43", "title": "The padding argument of ID3v2_Tag_new is honoured", "statement": "ID3v2_Tag_new(header, padding_size) returns an empty tag with that header (or a fresh 2.3 header for NULL) and that padding size.", "quantifier": "all headers and paddings", "why_tests_cant": "all ints", "anchors": ["src/modules/tag.c:ID3v2_Tag_new"]}
{"id": "C44", "title": "Every frame in a reachable tag has a truthful size field", "statement": "In every tag reached by reading a well-formed tag and any history of API calls, each frame's header size equals the number of body bytes it serialises to.", "quantifier": "all histories", "why_tests_cant": "unbounded histories", "anchors": ["src/modules/frames/text_frame.c:TextFrame_new", "src/modules/frames/comment_frame.c:CommentFrame_new", "src/modules/frames/apic_frame.c:ApicFrame_new"]}
{"id": "C45", "title": "Write preserves version and flags and only changes padding_size of the in-memory tag", "statement": "ID3v2_write_tag stores the version, revision and flag bytes of the tag unchanged and changes nothing of the in-memory tag except padding_size, which becomes at least 2048 and never shrinks.", "quantifier": "all files, all tags within the format's size limit and with a padding size that is not negative", "why_tests_cant": "all states", "anchors": ["src/id3v2lib.c:ID3v2_write_tag", "src/modules/tag.c:Tag_to_char_stream"]}
{"id": "C46", "title": "File functions tolerate a file that cannot be opened", "statement": "ID3v2_read_tag, ID3v2_read_tag_header, ID3v2_write_tag and ID3v2_delete_tag called with the name of a file that does not exist (or cannot be opened) return without undefined behaviour, reading functions with NULL.", "quantifier": "all tags", "why_tests_cant": "whether a NULL FILE* is used depends on every path through the function and on the tag", "anchors": ["src/id3v2lib.c:ID3v2_write_tag", "src/id3v2lib.c:ID3v2_read_tag", "src/id3v2lib.c:ID3v2_delete_tag"]}
{"id": "C47", "title": "A tag that was read can be written back", "statement": "If ID3v2_read_tag returns a tag for a file, ID3v2_write_tag with that tag and the same file succeeds without undefined behaviour, and only writes bytes that came from the file or were set by the caller.", "quantifier": "all files, well-formed or hostile", "why_tests_cant": "Quantifies over every file contents, including ones whose frames lie about their size.", "anchors": ["src/id3v2lib.c: ID3v2_read_tag, ID3v2_write_tag", "src/modules/tag.c: Tag_to_char_stream", "src/modules/frame.c: Frame_parse, Frame_to_char_stream"]}
{"id": "C48", "title": "The typed getters return frames of their type", "statement": "For every tag obtained through the API, whatever the input was, a frame returned by a text getter is a text frame, one returned by a comment getter is a comment frame and one returned by a picture getter is a picture frame; the library itself never uses frame data as a struct of another type.", "quantifier": "all buffers and files, all histories of calls with any arguments (the id given to ID3v2_Tag_set_text_frame begins with T)", "why_tests_cant": "Quantifies over hostile inputs and unbounded histories; a wrong cast is silent.", "anchors": ["src/modules/tag.c: ID3v2_Tag_get_*_frame(s), setters", "src/modules/frame.c: Frame_parse, Frame_to_char_stream, ID3v2_Frame_free"]}
{"id": "C49", "title": "Compat round trip through a file", "statement": "Loading a tag with load_tag, replacing the contents of any of its frames with the compat setters, writing it with set_tag to any file and loading that file with load_tag gives entries that show exactly the frames after the replacements, in the same order.", "quantifier": "all well-formed tags, all sequences of setters for frames the tag has, all target files", "why_tests_cant": "unbounded histories and frame lists", "anchors": ["src/id3v2lib.compat.c:load_tag", "src/id3v2lib.compat.c:set_tag", "src/id3v2lib.compat.c:add_uniq_to_list"]}
{"id": "C50", "title": "The NULL returned for a file without a tag is a tolerated argument", "statement": "For every file without a supported tag ID3v2_read_tag returns NULL. Given this NULL, the getters return NULL, ID3v2_write_tag leaves the file unchanged, deletion by index does nothing, and the setters, adders and deletion by id return without crashing.", "quantifier": "all files without a tag, all ids, all inputs of the setters", "why_tests_cant": "all file contents and all inputs", "anchors": ["src/id3v2lib.c:ID3v2_read_tag", "src/id3v2lib.c:ID3v2_write_tag", "src/modules/tag.c:ID3v2_Tag_get_frame", "src/modules/tag.c:ID3v2_Tag_set_text_frame", "src/modules/tag.c:ID3v2_Tag_delete_frame"]}
{"id": "C51", "title": "Reading a file is reading its bytes", "statement": "If a file holds all the bytes its tag header announces, ID3v2_read_tag on the file behaves exactly like ID3v2_read_tag_from_buffer on the same bytes, and bytes after the tag have no influence. For a file without a tag both return NULL.", "quantifier": "all file contents, hostile or not", "why_tests_cant": "all file contents of any length", "anchors": ["src/id3v2lib.c:ID3v2_read_tag", "src/id3v2lib.c:ID3v2_read_tag_from_buffer"]}
{"id": "C52", "title": "Unsynchronised tags are read correctly", "statement": "Reading a version 2.3 tag to which unsynchronisation was applied (and announced in the header flags) gives the frames as they were before it was applied.", "quantifier": "all lists of frames", "why_tests_cant": "all frame contents, in particular all positions of 0xFF", "anchors": ["src/modules/tag_header.c:TagHeader_parse", "src/modules/tag.c:Tag_parse"]}
{"id": "C53", "title": "Footers of version 2.4 tags belong to the tag", "statement": "For a version 2.4 tag with a footer the frames are read correctly, and deleting the tag removes the footer too, leaving the audio.", "quantifier": "all tags with a footer, all audio", "why_tests_cant": "all tags and files", "anchors": ["src/id3v2lib.c:ID3v2_delete_tag", "src/id3v2lib.c:ID3v2_read_tag", "src/modules/tag_header.c:TagHeader_parse"]}
{"id": "C54", "title": "The compatibility API is memory safe", "statement": "A program that uses the compatibility API only with tags it holds, entries that are still alive and buffers of its own never makes the library read or write a freed block, free a block twice or free something that was not allocated; and every call does to the tags exactly what the value-level description of that call says.", "quantifier": "all programs (finite sequences of calls of the compatibility API, with any arguments), any number of tags, any file contents", "why_tests_cant": "all call sequences over any number of tags sharing one heap", "anchors": ["src/id3v2lib.compat.c:tag_set_title", "src/id3v2lib.compat.c:free_tag", "src/id3v2lib.compat.c:set_tag", "src/id3v2lib.compat.c:parse_comment_frame_content"]}
{"id": "C55", "title": "The compatibility API does not leak", "statement": "Once a program has freed all the tags it loaded with free_tag, and everything else that it received, no memory is allocated any more.", "quantifier": "all programs that use the compatibility API", "why_tests_cant": "all call sequences and all kinds of frames in the tags", "anchors": ["src/id3v2lib.compat.c:free_tag", "src/id3v2lib.compat.c:load_tag_with_buffer", "src/id3v2lib.compat.c:set_tag"]}
{"id": "C56", "title": "Lifetime of entries and parsed contents", "statement": "The entry that a getter of the compatibility API returns is the one the value-level getter describes, and stays valid and unchanged until that field of that tag is set or the tag is freed. The text that parse_text_frame_content returns is a copy that stays valid until the program frees it; the contents of comments and pictures point into the tag and are valid exactly as long as the entry. Setting the field or freeing the tag invalidates the entry.", "quantifier": "all programs, all tags, all fields, all calls between obtaining and using the pointer", "why_tests_cant": "all interleavings of calls on any number of tags", "anchors": ["src/id3v2lib.compat.c:tag_get_title", "src/id3v2lib.compat.c:parse_text_frame_content", "src/id3v2lib.compat.c:parse_comment_frame_content", "src/id3v2lib.compat.c:parse_apic_frame_content", "src/id3v2lib.compat.c:free_tag"]}
{"id": "C57", "title": "File functions of the compatibility API keep the audio", "statement": "remove_tag leaves exactly the audio of the file. set_tag replaces the tag of the file, keeps its audio, and changes neither the entries nor the header fields of the tag it writes. Removing a tag after setting it gives the same file as removing the old tag.", "quantifier": "all file contents, all tags with a supported version and a size below 256 MiB", "why_tests_cant": "all file contents and all tags", "anchors": ["src/id3v2lib.compat.c:remove_tag", "src/id3v2lib.compat.c:set_tag"]}
{"id": "C58", "title": "After a crash a file still reads as the old tag, the new tag or no tag", "statement": "If the process dies at any moment of ID3v2_write_tag or ID3v2_delete_tag, a later ID3v2_read_tag of the file returns what it returned before, or what it returns after a complete write, or NULL, and does not crash.", "quantifier": "all files, all tags, all moments of the write or delete, all ways in which buffered bytes reach the disk", "why_tests_cant": "all crash points and all partial flushes", "anchors": ["src/id3v2lib.c:ID3v2_write_tag", "src/id3v2lib.c:ID3v2_delete_tag", "src/id3v2lib.c:ID3v2_read_tag"]}
{"id": "C59", "title": "Reading a file that another process is writing", "statement": "A process that calls ID3v2_read_tag while another process runs ID3v2_write_tag on the same file gets the old tag, the new tag or NULL, and does not crash.", "quantifier": "all files, all tags, all interleavings of the steps of the two processes", "why_tests_cant": "all schedules of two processes", "anchors": ["src/id3v2lib.c:ID3v2_read_tag", "src/id3v2lib.c:ID3v2_read_tag_header", "src/id3v2lib.c:ID3v2_write_tag"]}
{"id": "C60", "title": "Two processes that write a tag to the same file", "statement": "If two processes run ID3v2_write_tag on the same file, then when both are finished the file has one of the two tags, followed by the audio.", "quantifier": "all files, all tags, all interleavings of the steps of the two processes", "why_tests_cant": "all schedules of two processes", "anchors": ["src/id3v2lib.c:ID3v2_write_tag"]}
{"id": "C61", "title": "Laws of the setters", "statement": "Setting a frame twice is the same as setting it to the second value; setters for different ids can be called in either order (the lookups and the tag size are the same; so is the order of the frames if the tag already had one of them); setting a frame that the tag has and deleting it is the same as deleting it.", "quantifier": "all histories of calls before, on new tags and tags that were read; all ids and values", "why_tests_cant": "the state before the calls is the result of an unbounded history", "anchors": ["src/modules/tag.c:ID3v2_Tag_set_text_frame", "src/modules/tag.c:ID3v2_Tag_set_comment_frame", "src/modules/tag.c:ID3v2_Tag_set_apic_frame", "src/modules/tag.c:ID3v2_Tag_delete_frame"]}
{"id": "C62", "title": "Reading and writing back is stable", "statement": "A program that reads the tag of a file and writes it back unchanged changes the file at most the first time; after any further repetition the file is the same, and the audio never changes.", "quantifier": "all files that begin with a well-formed tag, any number of repetitions", "why_tests_cant": "all files and any number of repetitions", "anchors": ["src/id3v2lib.c:ID3v2_read_tag", "src/id3v2lib.c:ID3v2_write_tag"]}
{"id": "C63", "title": "The file determines the frames", "statement": "If two programs leave the same bytes in a file, then their tags had the same version, flags, frames (in the same order) and size, whatever calls they made: no two different tags are written as the same bytes.", "quantifier": "all pairs of histories of calls, all previous contents of the files", "why_tests_cant": "a statement about all pairs of tags", "anchors": ["src/modules/tag.c:Tag_to_char_stream", "src/id3v2lib.c:ID3v2_write_tag"]}
{"id": "C64", "title": "Writing when I/O operations fail", "statement": "Whatever operation fails during ID3v2_write_tag (opening or reading the file, creating, writing or rewinding the temporary file, writing the file), the function returns and the file is either unchanged or has the new tag followed by the audio.", "quantifier": "all files, all tags, all combinations of failing operations", "why_tests_cant": "the operations can fail at any byte and in any combination", "anchors": ["src/id3v2lib.c:ID3v2_write_tag"]}
{"id": "C65", "title": "Deleting when I/O operations fail", "statement": "Whatever operation fails during ID3v2_delete_tag, the function returns and the file is either unchanged or has exactly the audio.", "quantifier": "all files, all combinations of failing operations", "why_tests_cant": "the operations can fail at any byte and in any combination", "anchors": ["src/id3v2lib.c:ID3v2_delete_tag"]}
{"id": "C66", "title": "Reading when I/O operations or malloc fail", "statement": "Whatever operation fails during ID3v2_read_tag, the function returns NULL or the tag of the file.", "quantifier": "all files, all combinations of failing operations", "why_tests_cant": "the operations can fail at any byte and in any combination", "anchors": ["src/id3v2lib.c:ID3v2_read_tag", "src/id3v2lib.c:ID3v2_read_tag_header"]}
{"id": "C67", "title": "What is read from arbitrary bytes", "statement": "For every buffer and every file, ID3v2_read_tag_from_buffer and ID3v2_read_tag return a tag exactly if the bytes hold one according to a grammar of frames (well-formed or not: wrong sizes, missing bytes, rests of text frames, extended headers), and it is that tag; they return NULL exactly if there is no tag header; in all other cases, and only then, the behaviour is undefined.", "quantifier": "all buffers of up to 2^31-1 bytes, all files, all tags", "why_tests_cant": "the bytes are arbitrary; the statement is an equivalence over all of them", "anchors": ["src/id3v2lib.c:ID3v2_read_tag_from_buffer", "src/id3v2lib.c:ID3v2_read_tag", "src/modules/tag.c:Tag_parse", "src/modules/frame.c:Frame_parse", "src/modules/frames/text_frame.c:TextFrame_parse", "src/modules/frames/comment_frame.c:CommentFrame_parse", "src/modules/frames/apic_frame.c:ApicFrame_parse"]}
{"id": "C68", "title": "Calls keep to their file and close what they open", "statement": "Whichever I/O operations fail, each of ID3v2_read_tag_header, ID3v2_read_tag, ID3v2_write_tag, ID3v2_delete_tag, load_tag, set_tag, remove_tag and tag_set_album_cover changes no file other than the one it is given, never uses a stream after closing it, and, if it returns, has closed every stream it opened and touched no stream of the program; so no sequence of calls uses up file handles or disturbs other files.", "quantifier": "all calls and sequences of calls, all file systems and open streams, all combinations of failing operations", "why_tests_cant": "a leak or a use of a closed stream may occur on an error path that only one combination of failures reaches; there are unboundedly many combinations and file systems", "anchors": ["src/id3v2lib.c:ID3v2_read_tag_header", "src/id3v2lib.c:ID3v2_read_tag", "src/id3v2lib.c:ID3v2_write_tag", "src/id3v2lib.c:ID3v2_delete_tag", "src/id3v2lib.compat.c:load_tag", "src/id3v2lib.compat.c:set_tag", "src/id3v2lib.compat.c:remove_tag", "src/id3v2lib.compat.c:tag_set_album_cover"]}
{"id": "C69", "title": "Calls on several files do not influence each other", "statement": "A sequence of calls on several files, interleaved in any way, acts on each file exactly as the calls with its name alone, one after the other, would: the sequence returns if and only if the calls of each file would, and then every file and every answer is the same.", "quantifier": "all finite sequences of calls, all file systems", "why_tests_cant": "there are unboundedly many interleavings of calls and file systems", "anchors": ["src/id3v2lib.c", "src/id3v2lib.compat.c:load_tag", "src/id3v2lib.compat.c:set_tag", "src/id3v2lib.compat.c:remove_tag"]}
{"id": "C70", "title": "The exact effect of every history of calls on a tag", "statement": "Start from a new tag or a tag read from a well-formed file and make any sequence of calls that set, add or delete text frames, comments and pictures, with valid ids and arguments. The sequence dereferences NULL exactly when it deletes by an id of which no frame can be seen. Otherwise the frames that can be seen, the frames hidden behind an empty node, the size of the tag and the answer of every lookup are exactly those of a small specification; in particular the lookup after a setter finds the frame unless frames are hidden and other frames can be seen, and on histories that never delete the last of several frames the specification is the plain list of frames a user has in mind.", "quantifier": "all finite histories of calls, including those that delete absent frames and the last of several frames; all valid ids and arguments; all lookups", "why_tests_cant": "histories are unboundedly many, and the misbehaviour depends on the position of a deletion in the history", "anchors": ["src/id3v2lib.c:ID3v2_Tag_set_text_frame", "src/id3v2lib.c:ID3v2_Tag_set_comment_frame", "src/id3v2lib.c:ID3v2_Tag_set_apic_frame", "src/id3v2lib.c:ID3v2_Tag_add_comment_frame", "src/id3v2lib.c:ID3v2_Tag_add_apic_frame", "src/id3v2lib.c:ID3v2_Tag_delete_frame", "src/id3v2lib.c:ID3v2_Tag_delete_frame_at", "src/id3v2lib.c:ID3v2_Tag_get_frame", "src/id3v2lib.c:ID3v2_Tag_get_frames"]}
{"id": "C71", "title": "Exactly which tags can be written, and as which bytes", "statement": "For every tag that was made or read from any bytes, after any calls with any arguments, and for every file: ID3v2_write_tag succeeds if and only if there is no empty node behind the first frame and the frames fit into the size of the tag (and the padding the tag remembers is not absurd). The file then is ten bytes of header (those of the ID3v2 document if the size fits its field), the frames in their order, zeros up to the size of the tag, and what followed the tag that was in the file. After a history of valid calls a tag that is not written overflows the buffer exactly if its frames do not fit, and ends the process exactly if it fits and has an empty node.", "quantifier": "all tags obtainable from any file or buffer by any calls with any arguments, all files", "why_tests_cant": "an equivalence over all tags and files; the failing ones are reached only through particular histories or hostile files", "anchors": ["src/id3v2lib.c:ID3v2_write_tag", "src/modules/tag.c:Tag_to_char_stream", "src/modules/frame.c:Frame_to_char_stream", "src/modules/header.c:TagHeader_to_char_stream"]}
{"id": "C72", "title": "Exactly which written tags are read back", "statement": "After any calls with valid arguments on a new tag or one read from a well-formed file, if the tag can be written and its size fits the header, the file holds exactly the tag and the audio it had, and ID3v2_read_tag finds in it exactly the frames that could be seen in the tag if and only if every frame fits the parser's fixed arrays, the last frame is not an empty frame at the very end of the tag, and, for version 2.4, every frame that is not a comment has less than 256 bytes.", "quantifier": "all files, all histories of valid calls, all tags of the versions 2.3 and 2.4 that can be written", "why_tests_cant": "an equivalence over all frames and sessions; each of the exceptions needs a particular size or position", "anchors": ["src/id3v2lib.c:ID3v2_write_tag", "src/id3v2lib.c:ID3v2_read_tag", "src/modules/tag.c:Tag_parse", "src/modules/frame.c:Frame_parse", "src/modules/frames/text_frame.c:TextFrame_parse", "src/modules/frames/comment_frame.c:CommentFrame_parse", "src/modules/frames/apic_frame.c:ApicFrame_parse"]}
{"id": "C73", "title": "The exact outcome under every combination of failing operations", "statement": "For every combination of operations that fail (opening, seeking, reading short, losing written bytes, creating the temporary file, allocating), ID3v2_write_tag, ID3v2_delete_tag and ID3v2_read_tag end in one determined way, with one determined file, and these are exactly: the composition of what the reads deliver and the writes keep, or a crash with the file as it was (or emptied, in one case of a deletion). A write or deletion with all files open and positioned is complete if and only if no byte is lost on any of the four ways.", "quantifier": "all files, all tags that can be written, all combinations of failing operations at all positions", "why_tests_cant": "the combinations of failing operations and their positions are unboundedly many", "anchors": ["src/id3v2lib.c:ID3v2_write_tag", "src/id3v2lib.c:ID3v2_delete_tag", "src/id3v2lib.c:ID3v2_read_tag", "src/id3v2lib.c:ID3v2_read_tag_header"]}
{"id": "C74", "title": "Memory is lost exactly where and as much as the count says", "statement": "When a program has freed every tag, list, header and buffer it holds, the number of blocks still allocated is exactly the sum of what its calls lost: a setter or deleter loses what is left of the frame it replaces or removes (nothing for ids beginning with T, C or A; otherwise the frame struct and the buffers of its data), deleting by index also loses the nodes of the intermediate list up to the index (all of them if the index is out of range), writing loses two blocks per frame of an unknown kind (none if the list starts with an empty node), freeing a tag loses what is left of its frames, in the compatibility API loading loses two blocks per frame of an unknown kind, and every other call loses nothing. A lost block stays allocated for ever.", "quantifier": "every program (history of API calls with allowed pointers), every input and file contents, both APIs", "why_tests_cant": "Leak checkers see single runs; that no call on any input loses a block more or less than the count needs an invariant over all histories.", "anchors": ["src/modules/tag.c: ID3v2_Tag_set_text_frame, ID3v2_Tag_delete_frame, ID3v2_Tag_delete_comment_frame, ID3v2_Tag_free", "src/modules/frame.c: ID3v2_Frame_free", "src/modules/frame_list.c: ID3v2_FrameList_free", "src/id3v2lib.c: ID3v2_write_tag", "src/id3v2lib.compat.c: load_tag, free_tag"]}
{"id": "C75", "title": "Exactly the files that a crash may leave", "statement": "If the process is stopped at any moment of ID3v2_write_tag or ID3v2_delete_tag and no write fails, the file is the old one or a prefix of the new one, and each of these can be left; if writes may fail, it is the old one or the new one with bytes missing anywhere, and each of these can be left, also by a call that returns.", "quantifier": "all files, all tags that can be written, all moments of the crash, all failing writes", "why_tests_cant": "crash points and failing writes are unboundedly many, and that each state can really be left is a statement about all of them", "anchors": ["src/id3v2lib.c:ID3v2_write_tag", "src/id3v2lib.c:ID3v2_delete_tag"]}
{"id": "C76", "title": "What two concurrent writers leave", "statement": "When two processes call ID3v2_write_tag on one file at the same time, then in every schedule, when both are finished, every byte of the file was written at its position by one of the two, or is a zero in a gap; as far as both tags reach, each byte is the byte of one of the two tags at this position; the file starts with a tag header; and there is no gap in the part that one of the two wrote.", "quantifier": "all schedules of the single operations of two writers, all files, all pairs of tags", "why_tests_cant": "schedules are unboundedly many and cannot be forced by a test", "anchors": ["src/id3v2lib.c:ID3v2_write_tag"]}
{"id": "C77", "title": "Threads that use their own tags do not disturb each other", "statement": "Any number of threads call the library at the same time, through id3v2lib.h or the compatibility API, each on its own tags, buffers and file. Under every schedule of their memory accesses: whatever a thread accesses is allocated and was allocated by the thread itself, so there is no use after free, no double free and no data race; every call changes the tags, buffers and file of its thread exactly as it does in a program without other threads; no thread ever waits for another one, and every call ends after finitely many accesses.", "quantifier": "all numbers of threads, all sequences of calls of each, all schedules of their memory accesses, all results of malloc", "why_tests_cant": "the schedules of memory accesses are unboundedly many and cannot be forced by a test", "anchors": ["src/id3v2lib.c", "src/id3v2lib.compat.c", "src/modules/frame_list.c", "src/modules/tag.c", "include/id3v2lib.h", "include/id3v2lib.compat.h"]}
{"id": "C78", "title": "Threads may read the same tags at the same time", "statement": "A program that has made any calls starts any number of threads. The threads read the tags of the program at the same time, with the getters of id3v2lib.h or of the compatibility API, with the functions that parse the contents of an entry, or by following the pointers that these returned; and each thread makes any calls with its own tags, buffers and file. Under every schedule of their memory accesses: whatever a thread accesses is allocated; whatever it changes or frees it allocated itself, so that there is no data race; all tags of the program stay as they are, and pointers into them stay valid; every getter returns the pointer that the program itself would get, and behind it is the frame or content that the tag has; calls with a thread's own things do what they do without other threads; no thread waits for another one, and every call ends.", "quantifier": "all histories of the program, all numbers of threads, all sequences of calls of each, all schedules of their memory accesses, all results of malloc", "why_tests_cant": "the schedules of memory accesses are unboundedly many and cannot be forced by a test", "anchors": ["src/id3v2lib.c", "src/id3v2lib.compat.c", "src/modules/frame_list.c", "src/modules/tag.c", "include/id3v2lib.h", "include/id3v2lib.compat.h"]}
{"id": "C79", "title": "What is read from a file that was cut off", "statement": "Keep only the first n bytes of a file that begins with a tag. For every n, ID3v2_read_tag does exactly this: with fewer than ten bytes it returns NULL; if the frames and (with more than ten bytes of padding) four bytes of padding are there, it returns what it returns for the complete file; otherwise its behaviour is undefined, also for the frames that are complete, except that with at most ten bytes of padding a file that ends inside the last frame may be read with indeterminate bytes in that frame. A file that the library has written is read as the complete file exactly if that many bytes are there; this also settles what a later read does after a crash during ID3v2_write_tag. load_tag makes its entries from what ID3v2_read_tag finds in the part of the file; a file with frames and more than ten bytes of padding is loaded exactly if four bytes of the padding are there, otherwise load_tag is undefined, with fewer than ten bytes too.", "quantifier": "all lists of well-formed frames, all paddings, all files behind the tag, all lengths n, versions 2.3 and 2.4", "why_tests_cant": "a file can end at any byte of any frame of any tag", "anchors": ["src/id3v2lib.c:ID3v2_read_tag", "src/id3v2lib.c:ID3v2_read_tag_from_buffer", "src/modules/tag.c:Tag_parse", "src/modules/frame.c:Frame_parse", "src/modules/char_stream.c:CharStream_read", "src/id3v2lib.compat.c:load_tag"]}
{"id": "C80", "title": "Any number of processes that use one file", "statement": "If the processes put a readers-writer lock around their calls of ID3v2_read_tag, ID3v2_write_tag and ID3v2_delete_tag, then every call has the effect and the result that it has when the calls are made one after the other, in the order in which they end; processes that only read need no lock. Without a lock, in every schedule: each byte of the file comes from the file as it was or from one of the tags, or is a zero; writers and deleters return and leave the caller's tag as always; when nobody is in a call, each byte is at the position at which one of the calls wrote it, and there are no gaps as far as one of the calls wrote; and readers run at most into what a hostile file can do to them.", "quantifier": "any number of processes, any sequences of calls, all schedules of their single operations, all files, all tags", "why_tests_cant": "schedules and numbers of processes are unbounded and a test cannot force them", "anchors": ["src/id3v2lib.c:ID3v2_read_tag", "src/id3v2lib.c:ID3v2_write_tag", "src/id3v2lib.c:ID3v2_delete_tag", "src/id3v2lib.c:ID3v2_read_tag_header"]}
{"id": "C81", "title": "Threads that change the same tags behind a lock", "statement": "A program makes tags and starts threads that use these tags together, with either API: they read, change, write, free and make tags. If they put one readers-writer lock around that (alone for every call but the getters and the functions that parse an entry, shared for those), then in every schedule of their memory accesses no thread accesses freed memory and there is no data race. When no thread holds the lock alone, the common tags, buffers and the file of the program are what the same calls leave, made one after the other in the order of the lock by a program without threads; each call has the effect and failures it has there. A getter returns what the value of the tag says, and its pointer can be followed while the lock is shared. Calls with a thread's own tags need no lock, also while others hold it. Without the lock, for every tag that can be freed, there is a schedule in which a getter of another thread is about to read the freed tag.", "quantifier": "all programs, any number of threads, all sequences of calls of both APIs on common and own tags, all schedules of memory accesses, all results of malloc", "why_tests_cant": "the schedules are unbounded and a race shows only in some of them", "anchors": ["include/id3v2lib.h", "src/modules/tag.c:ID3v2_Tag_get_frame", "src/modules/tag.c:ID3v2_Tag_free", "src/modules/tag.c:ID3v2_Tag_set_text_frame", "src/id3v2lib.c:ID3v2_write_tag", "src/id3v2lib.compat.c"]}
{"id": "C82", "title": "What the compatibility API loads from arbitrary bytes", "statement": "For every buffer and every file, whatever bytes are in it, load_tag_with_buffer and load_tag return exactly if the native API reads a tag from it that has at least one frame and whose frames the library could all write; the result then has the bytes it was loaded from, the six fields of the header, and one entry per frame, in order, with the id, the size, the first flag byte and the body of the frame. In all other cases (no tag header, no frame, an unreadable tag, a frame of negative size) the behaviour is undefined; NULL is never returned.", "quantifier": "all buffers with all lengths, all files, cut-off ones included", "why_tests_cant": "unbounded arbitrary bytes; the boundary between loading and undefined behaviour depends on all of them", "anchors": ["src/id3v2lib.compat.c:load_tag", "src/id3v2lib.compat.c:load_tag_with_buffer", "src/id3v2lib.compat.c:frame_to_compat_frame"]}
{"id": "C83", "title": "Files can be carried from one machine to another", "statement": "What a call reads from a file, writes to it and does to a tag depends neither on the byte order of the machine nor on whether char is a signed type there. (False for the byte order: on a big-endian machine the tag size and all frame sizes are written backwards, so that the file differs from the one written elsewhere, unless all these numbers read the same backwards; deleting the tag, on any machine, then removes as many bytes as the size says backwards, usually all of the audio; reading it gives the comments at its front, and then, at the first other frame, is undefined if that is a text or a picture whose size read backwards does not fit the stack, or takes all the rest of the tag for that frame if it is of another kind and its size read backwards is large enough.)", "quantifier": "all files, buffers, tags, inputs, and targets of either byte order and either sign of char", "why_tests_cant": "tests run on one machine, with the sizes of a few files; whether another target gives the same bytes is a question about all tags and about a machine the tests never see", "anchors": ["src/modules/utils.c: itob, btoi", "src/modules/char_stream.c: CharStream_getc", "src/modules/frame_header.c: FrameHeader_to_char_stream", "src/modules/tag.c: Tag_to_char_stream", "src/modules/tag_header.c: TagHeader_parse", "src/id3v2lib.c: ID3v2_write_tag, ID3v2_read_tag, ID3v2_delete_tag"]}
{"id": "C84", "title": "Processes that are killed while they use one file", "statement": "Any number of processes put a readers-writer lock around their calls of ID3v2_read_tag, ID3v2_write_tag and ID3v2_delete_tag for one file, and any of them may be killed at any moment (the operating system then releases its lock). The calls that return have the effect and result that they have when all calls are made one after the other, where a killed call leaves the file as it was or leaves the beginning of what it would have written, and every such outcome is possible. Killing a process that reads changes nothing for the others, and the audio survives as long as nobody is killed while writing or deleting. After a killed write the audio is what had been written of it, except that less than a complete header is taken for audio; a reader that comes next may crash.", "quantifier": "any number of processes, any sequences of calls, all schedules, all moments at which processes are killed, all files, all tags", "why_tests_cant": "schedules and crash points multiply: a kill matters only at moments that a test cannot hit on purpose, and each outcome meets every possible continuation", "anchors": ["src/id3v2lib.c:ID3v2_read_tag", "src/id3v2lib.c:ID3v2_write_tag", "src/id3v2lib.c:ID3v2_delete_tag"]}
{"id": "C85", "title": "Running out of memory", "statement": "A call that cannot get the memory that it asks for changes no file, whichever of its requests it is and whatever I/O operations fail besides, and it does not go on without the memory. It ends there, because the code follows the NULL pointer; only ID3v2_read_tag can return, and then it returns NULL, has freed everything that it had allocated, and has closed its streams. The functions without a file name also end there. A call that gets its memory does what it does when memory is never short.", "quantifier": "all calls of both APIs with a file name, all functions on tags in memory, all files, all tags, every set of requests for memory that fail and every set of I/O operations that fail", "why_tests_cant": "each allocation of each call can fail, in every combination with I/O errors, and which allocations there are depends on the input", "anchors": ["src/id3v2lib.c:ID3v2_read_tag", "src/id3v2lib.c:ID3v2_write_tag", "src/id3v2lib.c:ID3v2_delete_tag", "src/id3v2lib.compat.c:load_tag", "src/id3v2lib.compat.c:tag_set_album_cover", "src/modules/char_stream.c:CharStream_new"]}
{"id": "C86", "title": "I/O errors and memory", "statement": "Whichever I/O operations fail in a call with a file name, the call neither leaks memory nor uses or frees memory twice: if it returns, the heap holds its result, what it was given, and what has nothing to do with it, exactly as on a machine without failures, and all its streams are closed. The only blocks that are lost are those of unknown frames when a tag is written or loaded, two for each (none is lost when the list of a tag that is written begins with an empty node). The result and the effect on the files are those of the call with its arguments as values.", "quantifier": "all calls of both APIs with a file name, all file systems, all contents of the heap, all tags, every set of I/O operations and requests for memory that fail", "why_tests_cant": "leaks and double frees on error paths show only if the right operation fails on the right input; the paths multiply", "anchors": ["src/id3v2lib.c:ID3v2_read_tag_header", "src/id3v2lib.c:ID3v2_read_tag", "src/id3v2lib.c:ID3v2_write_tag", "src/id3v2lib.c:ID3v2_delete_tag", "src/id3v2lib.compat.c:load_tag", "src/id3v2lib.compat.c:set_tag", "src/id3v2lib.compat.c:remove_tag", "src/id3v2lib.compat.c:tag_set_album_cover"]}
{"id": "C87", "title": "Whole programs on a machine where anything may fail", "statement": "A program makes any sequence of calls of the main API, on any files and on the tags it holds, while other programs change files between its calls, and any I/O operation and any request for memory may fail. Then each call does to the files, and to every tag the program holds, what it does with the tags as plain values under the same I/O failures; if memory runs out in a call, no file is changed, and either the process dies at the NULL pointer or ID3v2_read_tag returns NULL and all tags are as before. No call uses memory after it was freed or frees it twice. Between calls no stream is open. Once the program has freed what it holds, exactly the blocks of the counted unknown frames and replaced data are left; no failure adds to them.", "quantifier": "all programs (sequences of calls of any length), all initial file systems, all changes of files by others between calls, all sets of I/O operations and memory requests that fail in each call", "why_tests_cant": "the state after a failure is the start of the next call; the number of histories of failures grows without bound with the length of the program", "anchors": ["src/id3v2lib.c:ID3v2_read_tag_header", "src/id3v2lib.c:ID3v2_read_tag", "src/id3v2lib.c:ID3v2_write_tag", "src/id3v2lib.c:ID3v2_delete_tag", "src/modules/tag.c:ID3v2_Tag_free", "src/modules/char_stream.c:CharStream_free"]}
{"id": "C88", "title": "Programs that use both APIs on a machine where anything may fail", "statement": "A program makes any sequence of calls of the main API and of the compatibility API, mixed in any order, on any files and on the tags, entries and buffers it holds, while other programs change files between its calls, and any I/O operation and any request for memory may fail. Then each call does to the files, and to every tag of either API, what it does with the tags as plain values under the same I/O failures; a call of one API changes no tag of the other. If memory runs out in a call, no file is changed, and either the process dies at the NULL pointer or ID3v2_read_tag returns NULL and everything is as before. No call uses memory after it was freed or frees it twice. Between calls no stream is open, and once the program has freed what it holds, exactly the blocks that the calls lost by the count of the specification are left.", "quantifier": "all programs over both APIs (sequences of calls of any length), all initial file systems, all changes of files by others between calls, all sets of I/O operations and memory requests that fail in each call", "why_tests_cant": "both APIs share one heap, the compatibility calls are built on the main ones and shallowly copy what those return; interleavings of two APIs with failures at any point cannot be enumerated", "anchors": ["src/id3v2lib.compat.c:load_tag", "src/id3v2lib.compat.c:set_tag", "src/id3v2lib.compat.c:remove_tag", "src/id3v2lib.compat.c:tag_set_album_cover", "src/id3v2lib.compat.c:free_tag", "src/id3v2lib.c:ID3v2_read_tag", "src/id3v2lib.c:ID3v2_write_tag"]}
{"id": "C89", "title": "Memory of a tag that was read", "statement": "The strings and data of the frames of a tag that was read take together no more memory than there were bytes to read, and there is at most one frame for ten bytes. (False as stated: an unknown frame gets a block of the size that its header announces, so twenty bytes make the library allocate up to 2^31 - 1 bytes. Only the last frame can be like that: all others lie within the bytes, the bytes that have a value are never more than those that were read, and if the last frame was not cut off, the claim holds.)", "quantifier": "all buffers of any bytes and all files of any contents from which a tag is read", "why_tests_cant": "a bound for every hostile input; size fields take 2^32 values and the end of the buffer can fall anywhere in a frame", "anchors": ["src/id3v2lib.c:ID3v2_read_tag", "src/id3v2lib.c:ID3v2_read_tag_from_buffer", "src/modules/frame.c:Frame_parse", "src/modules/frames/text_frame.c:TextFrame_parse", "src/modules/frames/apic_frame.c:ApicFrame_parse"]}
{"id": "C90", "title": "What any program writes is read again", "statement": "A tag is made or read from any bytes whatsoever, changed by any calls with any arguments, and written to any file (the same or another one). Then the frames that were written are read from that file, in their order. (False as stated. Exactly, for a tag without the flag of an extended header, of less than 2^28 bytes, and without indeterminate bytes: it holds if and only if all strings fit the arrays of the parser, no picture is empty, the last frame is not an empty one at the very end, and in version 2.4 every frame that is not a comment has less than 256 bytes. With the flag of an extended header, all frames are lost for every later reader.)", "quantifier": "all buffers and files that are read, all sequences of calls with all arguments, all files that are written to", "why_tests_cant": "the tag can come from any bytes and have any history; the exact boundary between tags that survive and tags that do not is a statement about all of them", "anchors": ["src/id3v2lib.c:ID3v2_read_tag", "src/id3v2lib.c:ID3v2_write_tag", "src/modules/tag.c:Tag_parse", "src/modules/tag.c:Tag_to_char_stream", "src/modules/tag_header.c:TagHeader_parse"]}
{"id": "C91", "title": "Every call ends after a bounded number of memory accesses", "statement": "At any time in any program, every call makes at most so many memory accesses (malloc, free, reading or writing an object): linear in the number of frames of the tag for setting, adding, deleting and finding a frame, for writing and for freeing; quadratic for finding all frames and for deleting by index; quadratic in the number of bytes for reading. The sizes of the frames, the file and everything else that is allocated do not matter. For reading, the number is exactly known from the frames of the tag that is returned, and the bound is met: it is not linear, since every frame is appended by a walk over the whole list.", "quantifier": "all buffers, lengths and files; all states of the heap; all programs and all calls at any point of them", "why_tests_cant": "a bound for all sizes cannot be measured on samples, and a crafted file can be as slow as the bound allows", "anchors": ["src/modules/frame_list.c:FrameList_add_frame", "src/modules/tag.c:Tag_parse", "src/id3v2lib.c:ID3v2_read_tag_from_buffer", "src/id3v2lib.c:ID3v2_read_tag", "src/modules/frame_list.c:FrameList_get_frames_by_id"]}
{"id": "C92", "title": "The project's own tests pass exactly on files of the right shape", "statement": "The file starts with a tag of version 2.3, or of version 2.4 with frames of less than 256 bytes, that the library can read. The test of the getters passes with any expected values if and only if the first frame of each kind is the expected one (the type of the picture is not compared). The test of the setters passes with any values if and only if the tag has at least 20 bytes and another 10 bytes for each id it lacks beyond its frames, and a second comment or picture that it already has is the one that the test adds; with less room it overflows the heap, as it does for every file without a tag. The test of the deleters passes if and only if the tag has exactly one frame of each kind, the comment may be missing, and the rest of the file does not start with a tag; without a tag it follows NULL. On files without a tag the getter test for them passes, and only on those. The test of the compatibility API passes with any values if and only if the texts of album, artist, title and year begin with the expected bytes (of the strings it expects it compares about half), whatever it sets; without a tag it follows NULL.", "quantifier": "all files, all values that the tests set or expect, whatever follows them in memory", "why_tests_cant": "it is a statement about what the tests themselves can detect, for all files and values, not only for the file and values of the project", "anchors": ["test/set_test.c:edit_test", "test/delete_test.c:delete_test_main", "test/get_test.c:get_test_main", "test/assertion_utils.c:assert_text_frame", "test/assertion_utils.c:assert_comment_frame", "test/assertion_utils.c:assert_apic_frame", "test/test_utils.c:clone_file", "test/compat_test.c:compat_test_main"]}
{"id": "C93", "title": "The programs of the README do what they show exactly on files of the right shape", "statement": "The file starts with a tag of version 2.3, or of version 2.4 with small frames, that the library can read. Load Tags prints the first artist and the first album, Read New Frames the first copyright message and the program for the compatibility layer the first album, each up to its first zero byte, if and only if these frames are there; otherwise NULL is followed. So a text in ISO-8859-1 is printed in full, and of a text in UTF-16 with characters below 256 only the byte order mark and the first one. Edit Tags, with any title and artist in ISO-8859-1, leaves a file that is the tag with exactly these two frames changed or added, and the audio, if the tag has ten bytes to spare for each of the two that is missing; otherwise it overflows the heap. Delete Tags leaves exactly the audio, unless the title or the artist is missing (NULL is followed), or one of them is the last frame and others remain (the process ends). Edit New Frames works for every file and message: the getters then find the message, and everything else as before. On files without a tag, for which the programs make a new one, all the others follow NULL, or overflow the heap (Edit Tags).", "quantifier": "all files with a tag the library can read and all files without a tag, all titles, artists and messages, whatever follows them in memory", "why_tests_cant": "the programs are what users copy; that they fail on whole classes of files, for example all files without a tag, is a statement about all files", "anchors": ["README.md:Load Tags", "README.md:Edit Tags", "README.md:Delete Tags", "README.md:Read New Frames", "README.md:Edit New Frames", "README.md:Compatibility Layer", "src/id3v2lib.c:ID3v2_write_tag", "src/modules/utils.c:ID3v2_to_unicode"]}
{"id": "C94", "title": "The helpers of the tests print every text that is not big-endian as it is, and save no picture", "statement": "For every text frame and comment that the library gives, the printing helpers print its characters, in order, and a line break; those of a big-endian text are printed with their two bytes exchanged, so the output is right exactly if the text is not big-endian or the two bytes of each character are the same. A list of comments is printed one by one, in order; a missing frame is printed as None. The helper that converts a string to UTF-16 is the function of the library, for every string. The helper that saves a picture writes one byte beyond the end of the file name it builds, for every picture and every directory, and so never saves one.", "quantifier": "all usable text frames and comments, all lists of comments, all strings in memory, all pictures and directories", "why_tests_cant": "nothing checks what is printed, a byte beyond a heap block usually goes unnoticed, and the texts of the tests are in one byte order", "anchors": ["test/test_utils.c:print_text_frame", "test/test_utils.c:print_comment_frame", "test/test_utils.c:print_comment_frames", "test/test_utils.c:println_utf16", "test/test_utils.c:to_unicode", "test/test_utils.c:save_apic_frame"]}
{"id": "C95", "title": "Every call of the compatibility API ends after a bounded number of memory accesses", "statement": "At any time in any program, every call of the compatibility API makes at most so many memory accesses (malloc, free, reading or writing an object): linear in the number of entries of the tag's list for the setters, the getters, set_tag and free_tag; constant for new_tag, the parse functions and remove_tag; quadratic in the number of bytes for load_tag and load_tag_with_buffer. The sizes of the entries and everything else that is allocated do not matter. A getter takes exactly one access for the tag and two for each entry up to the first one with its id, or for all of them if there is none; and loading is not linear.", "quantifier": "all buffers, lengths and files; all programs and all calls at any point of them", "why_tests_cant": "a bound for all sizes cannot be measured on samples, and a crafted file can be as slow as the bound allows", "anchors": ["src/id3v2lib.compat.c:load_tag_with_buffer", "src/id3v2lib.compat.c:load_tag", "src/id3v2lib.compat.c:set_tag", "src/id3v2lib.compat.c:get_from_list", "src/id3v2lib.compat.c:free_tag"]}
{"id": "C96", "title": "Copying the tag of one file to another", "statement": "Read the tag of one file and write it to another. Whatever the two files contain, the audio of the target is kept byte for byte, and what is put before it depends on the source only: neither on the tag the target had, nor on the audio of either. If the source has no tag the target is not touched. The target then has the source's frames in their order, as the library writes them, in a tag of the same size. Copying the copy on to a third file gives the same as copying the source to it. With the compatibility API the result is the same if the tag of the source is one that it can show.", "quantifier": "all contents of the source and the target; for the last two sentences all versions 2.3 and 2.4, all lists of well-formed frames, all paddings", "why_tests_cant": "the target's old tag, its audio and the source's frames vary independently; sizes decide whether the copy can be copied again", "anchors": ["src/id3v2lib.c:ID3v2_read_tag", "src/id3v2lib.c:ID3v2_write_tag", "src/id3v2lib.compat.c:load_tag", "src/id3v2lib.compat.c:set_tag"]}
{"id": "C97", "title": "Files with several tags, and with tags of other versions", "statement": "If a file has several complete tags one behind the other, only the first is read, writing replaces only the first and keeps what is behind it byte for byte, and each deletion removes exactly the first, so that after n deletions the file starts with the next tag. For every file whatever, at most one deletion for every ten bytes leads to a file without a tag, which is an end of the original file and which further deletions leave alone; before that every deletion leaves a file with a tag. A tag of any other version is no tag: reading gives NULL, deleting leaves it alone, and writing puts the new tag before it. The same holds of load_tag, set_tag and remove_tag of the compatibility API.", "quantifier": "all files; all numbers and contents of tags; all tags that are written; all version bytes", "why_tests_cant": "the number, sizes and contents of the tags are unbounded, and the bytes behind a tag may look like anything", "anchors": ["src/id3v2lib.c:ID3v2_read_tag", "src/id3v2lib.c:ID3v2_write_tag", "src/id3v2lib.c:ID3v2_delete_tag", "src/modules/tag_header.c:TagHeader_parse", "src/id3v2lib.compat.c:load_tag", "src/id3v2lib.compat.c:set_tag", "src/id3v2lib.compat.c:remove_tag"]}
{"id": "C98", "title": "A getter depends on nothing but the frames of its id", "statement": "Take two files with tags of well-formed frames, whatever their versions, flags, paddings, other frames and audio. If they have the same frames of an id, in the same order, then ID3v2_Tag_get_frame, ID3v2_Tag_get_frames, the named getters and the compatibility API's lookup of this id give the same for both; and ID3v2_Tag_get_frames gives the same only then. In particular the order of frames with different ids in the file does not matter to any getter.", "quantifier": "all pairs of files with well-formed tags of version 2.3 or 2.4, all ids, all permutations of the frames", "why_tests_cant": "two unbounded files are compared, and the number of orders of the frames is factorial", "anchors": ["src/modules/tag.c:ID3v2_Tag_get_frame", "src/modules/tag.c:ID3v2_Tag_get_frames", "src/id3v2lib.compat.c:get_from_list", "src/id3v2lib.c:ID3v2_read_tag"]}
{"id": "C99", "title": "What one API writes, the other reads", "statement": "After any calls of the current API on a new tag or one that was read, and ID3v2_write_tag to any file, load_tag of the file shows exactly the frames of the tag, and the lookups of the compatibility API find the first of each id, if and only if the tag has a frame and ID3v2_read_tag of the file gives these frames. The other way round, after any setters of the compatibility API for frames a loaded tag has, and set_tag to any file, ID3v2_read_tag gives exactly these frames and ID3v2_Tag_get_frame the first of each id, if and only if every frame fits the arrays of the parser, the last frame is not an empty one at the very end of the tag, and in version 2.4 every frame that is not a comment has less than 256 bytes.", "quantifier": "all starting tags, all sequences of calls, all contents of the file that is written to, all ids", "why_tests_cant": "sequences of calls, frames and files are unbounded, and the conditions are exact", "anchors": ["src/id3v2lib.c:ID3v2_read_tag", "src/id3v2lib.c:ID3v2_write_tag", "src/id3v2lib.compat.c:load_tag", "src/id3v2lib.compat.c:set_tag", "src/id3v2lib.compat.c:get_from_list", "src/modules/tag.c:ID3v2_Tag_get_frame"]}
{"id": "C100", "title": "Other programs read what the library writes", "statement": "Take a reader that follows the ID3v2.3 and 2.4 documents. After any calls of the current API on a new tag or one that was read and ID3v2_write_tag to any file, and after any setters of the compatibility API for frames of a loaded tag and set_tag, this reader finds exactly the frames of the tag, with their strings and encodings, and the old audio behind them, if and only if the tag has no header flags and a valid revision, and every frame has an id of capital letters and digits (not TXXX), a body, one encoding for both strings of a comment, an ISO-8859-1 MIME type and, in version 2.4, less than 128 bytes. In particular, if such a reader understands a file, then after reading and writing it back with the library it finds the same if and only if the version is 2.3 or no frame has 128 bytes or more.", "quantifier": "all starting tags, all sequences of calls, all frames, all contents of the file that is written to", "why_tests_cant": "sequences of calls, frames and files are unbounded; the condition is exact", "anchors": ["src/id3v2lib.c:ID3v2_write_tag", "src/modules/frame_header.c:FrameHeader_to_char_stream", "src/modules/tag.c:Tag_to_char_stream", "src/id3v2lib.compat.c:set_tag"]}
{"id": "C101", "title": "The library reads what other programs write", "statement": "Whatever the bytes of a file, if a reader that follows the ID3v2.3 and 2.4 documents finds frames in it (version 2.3 or 2.4, no header flags, ISO-8859-1 or UTF-16), and the strings are ones the library can handle, no picture is empty and the tag fits the stack, then ID3v2_read_tag gives exactly these frames, load_tag shows them, and after writing the tag back such a reader finds the same frames and the same audio, in version 2.4 if and only if all of them have less than 128 bytes.", "quantifier": "all contents of the file, all platforms", "why_tests_cant": "the files are arbitrary lists of bytes; only the independent reader says which ones are tags", "anchors": ["src/id3v2lib.c:ID3v2_read_tag", "src/id3v2lib.c:ID3v2_write_tag", "src/id3v2lib.compat.c:load_tag", "src/modules/frame.c:Frame_parse", "src/modules/frames/text_frame.c:TextFrame_parse"]}
