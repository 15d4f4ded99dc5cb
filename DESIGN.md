# Formal model of larsbs/id3v2lib in Lean 4

## 1. Approach

The C code is transliterated, function by function, into total Lean functions (`lean/Verif/Model`, `lean/Verif/Heap`).
Every definition cites the file and lines it models and says what it simplifies. What a user expects is written down
separately, without reference to the model (`lean/Verif/Spec`). The property theorems (`lean/Verif/Props`) relate the two;
everything else (`lean/Verif/Proof`, most of `lean/Verif/Heap`) is helper lemmas.

* **Outcomes.** A function returns `Res α = ok a | ub kind | exit | diverge`. Undefined behaviour is an outcome of its
  own with a kind (`oobRead`, `oobWrite`, `uninit`, `nullDeref`, `vlaSize`, `stackOverflow`, `negSize`, `intOverflow`,
  `typeConfusion`, `useAfterFree`, `badFree`); it is never assumed away. `exit` is the `exit(1)` in `tag.c:97`.
* **Value model** (`Model/`). A memory object is a list of bytes, each a value or indeterminate; a `char *` is the list
  of bytes from the pointer to the end of its object. `int` is `Int` with an overflow check at every operation, `unsigned
  int` is `Nat` modulo 2^32, the bit-twiddling code uses `BitVec 32`. Structs are Lean structures, a frame list is the
  list of the `frame` fields of its nodes, including nodes without a frame.
* **Heap model** (`Heap/`). The same functions over an explicit heap: which blocks are allocated and freed, which
  pointers are stored and followed. `malloc` returns any address at which nothing is allocated, also one that was
  freed (`Heap.picks`, over which all theorems quantify). With choices that never return to an address every access
  through a dangling pointer is visible; `memory_is_reused` shows that the others are among those covered.
  Each heap function is proved to do what the value function does (`Refines`, `StepOk`), with the exact list of blocks
  before and after. Programs are sequences of arbitrary calls on any number of tags, lists, headers and buffers
  (`Spec/Session.lean`).
* **Thread model** (`Thread/`, `Spec/Threads.lean`). The heap functions once more as sequences of memory accesses (`Prog`),
  each proved to do what the heap function does (`Same`). Any number of threads share the memory; between any two accesses
  of one thread the others may make any number of accesses. In `Spec/Readers.lean` the threads also read the tags that the
  program had when it started them: with the getters of both APIs, the functions that parse an entry, and directly
  (`REvent.look`). The strings that a call with a thread's own tags gets are literals or in blocks of that thread. In
  `Spec/Locked.lean` the threads use the tags of the program together, and change them under a lock. The strings that a call
  with common tags gets are literals or in common blocks.
* **File model** (`Model/Lib.lean`): a file is an optional byte list. `Model/Crash.lean` has the same two functions as
  small-step machines whose states are the crash points; the stdio buffer may be flushed in pieces of any size.
* **Platform parameters** (`Platform`): whether `memcmp` stops at the first difference, the largest variable length
  array that fits the stack, and whether `char` is signed. All theorems hold for all platforms unless they name one.
* **False properties.** Where the code does not have the property, the negation of the full statement is proved
  (`Cnn_false`), general theorems describe what the code does instead, and a theorem with the suffix `_partial` covers
  the inputs for which the property holds. The statement in `properties.jsonl` stays the full one.

## 2. File map (`lean/Verif`)

| directory | contents |
|---|---|
| `Model/Core` | outcomes, bytes, `memcpy`, `memcmp`, VLAs, integer conversions |
| `Model/Utils`, `CharStream`, `TagHeader`, `FrameHeader`, `Frames`, `FrameList`, `Tag`, `Lib`, `Compat` | one file per C module (`Frames`: `frame.c` and `frames/*.c`; `Lib`: `id3v2lib.c`) |
| `Model/Endian` | the functions that write, for both byte orders |
| `Model/Crash` | write and delete as transition systems |
| `Model/Fault` | reading, writing and deleting when I/O operations fail |
| `Model/World` | the functions with a file name, line by line on the level of stdio: many files, open streams, every operation may fail |
| `Model/Memory` | the same functions on file system and heap together; every request for memory may fail |
| `Model/Concurrent` | reading as a transition system; a reader and a writer, and two writers, on one file |
| `Model/Processes` | any number of processes that read, write and delete on one file |
| `Model/Kill` | the same, with processes that are killed at any moment |
| `Spec/Layout` | ID3v2 strings, frames, tags as bytes (`Str`, `SFrame`, `Wire`, `tagBytes`), big-endian and synchsafe numbers |
| `Spec/Repr` | which struct represents which frame of the specification; conditions for readability |
| `Spec/File` | what the audio of a file is |
| `Spec/Multimap` | a list of frames with replace-first, append, erase-first, erase-nth |
| `Spec/History` | operations and histories on a tag |
| `Spec/Total` | histories with all deletions: seen and hidden frames, outcome of every call |
| `Spec/Read` | the exact outcome of reading any well-formed frames: what is read, lost or undefined |
| `Spec/Processes` | what calls of several processes should do: one by one, the readers-writer lock |
| `Spec/Kill` | calls one by one, some of them killed |
| `Spec/Session` | programs that use the library, with heap and file |
| `Spec/Kind` | kinds of frames |
| `Spec/Body` | the bytes of a frame of any kind, and when they can be written |
| `Spec/Start` | where histories start, the tags that can be reached by calls of the API |
| `Spec/Endian` | bytes of a tag on a target of either byte order, targets that differ in the sign of `char` |
| `Spec/EndianRead` | comments, sizes as they are read backwards, texts and pictures that then do not fit the stack |
| `Spec/Api` | the named getters, setters and deleters with their frame ids; the size field of the tag header |
| `Spec/Copy` | read the tag of one file, write it to another; read a tag and write it back, any number of times |
| `Spec/Stack` | complete tags, deleting several times |
| `Spec/Standard` | a reader of tags after the ID3v2.3 and 2.4 documents, and the frames it understands |
| `Spec/Effects` | the observable effects of setters and deletions, the bytes written, the answers of getters |
| `Spec/Format` | the ID3v2 standard, independent of the library |
| `Spec/Amount` | how many bytes of contents a tag holds |
| `Spec/Again` | when a tag that was written is read again |
| `Spec/Time` | the number of memory accesses of a call |
| `Proof/Time`, `Proof/TimeRead`, `Proof/TimeOps`, `Proof/TimeCompat` | counting them |
| `Model/Tests` | the project's own tests, `test/*.c` |
| `Spec/Tests` | what they store, delete and compare with, in terms of frames |
| `Proof/Tests` | what their assertions check |
| `Model/Readme` | the programs in README.md; the helpers of `test/test_utils.c` that print, convert and save |
| `Spec/Readme` | what they change, delete and print |
| `Spec/Grammar` | which tags the reader makes of arbitrary bytes |
| `Spec/Misread`, `Spec/Cut` | what is read from version 2.4 tags with large frames, and from files that end early |
| `Spec/Files` | what calls with file names should do |
| `Spec/Memory` | calls with file names whose arguments and results are on the heap |
| `Spec/Programs` | programs of the main API on a machine where any I/O operation and any request for memory may fail |
| `Spec/Both` | programs of both APIs on such a machine |
| `Spec/Observe` | what a reader beside a writer can observe |
| `Spec/Threads`, `Spec/Readers`, `Spec/Locked` | threads with things of their own, with tags that they read together, with tags that they change together |
| `Spec/Entry` | the compatibility tag for any tag that was read |
| `Spec/Compat` | entries of the compatibility API, operations on them |
| `Spec/CompatSession` | programs that use the compatibility API, with heap and file |
| `Heap/Core`, `Heap/Program`, `Heap/CompatProgram` | heap, and the functions of the library on the heap |
| `Heap/Logic`, `Rep`, `Ops`, `Lists`, `DeleteAt`, `Tags`, `Io`, `Write`, `Session`, `Holds`, `Compat*` | refinement proofs |
| `Proof/*` | helper lemmas about the value model |
| `Props/*` | the properties, with examples that meet their hypotheses |

## 3. Properties

The theorems of each property are named in `MANIFEST.json`. *F* marks properties whose full statement is false of the
code; the negation is a theorem.

| id | model | how it is proved |
|----|-------|------------------|
| C01 | `ID3v2_to_unicode` | induction over the string; idempotence from the BOM case; beyond `INT_MAX` the call is undefined |
| C02 | `ID3v2_strlen`, `strlent` | induction; the scan stops at the terminator, so what follows is irrelevant |
| C03 | `syncint_encode/decode`, `itob`, `btoi` | bit equalities on `BitVec 32`, then digits base 128 of naturals |
| C04 | `itob`, `btoi` | bit equalities, digits base 256 |
| C05 | `ID3v2_read_tag_header_from_buffer` | case analysis, both directions |
| C06 *F* | same, extended header size | exactly one field depends on uninitialised memory, exactly if a flag is set |
| C07 | `ID3v2_read_tag_header` | reduction to C05 |
| C08 - C10 | `*Frame_to_char_stream`, setters | the serialiser run symbolically against `SFrame.bytes` |
| C11 *F* | `ID3v2_read_tag_from_buffer` | induction over the frames: the parser loop inverts the layout; each excluded case is shown to fail; the exact outcome for all frames by `Spec/Read` |
| C12 *F* | same, version 2.4 | sizes written big-endian, read synchsafe; equality of the two below 128 per digit, witness from 256 on; `v24_roundtrip_iff` and `read_back_iff` say exactly which tags come back; `read_back_all` (Spec/Misread) what is read when they do not: the first frame of 256 bytes or more is cut to its misread size, and the parse goes on inside its body |
| C13 | same | the result depends on the first 10 + tag size bytes only |
| C14 | same, frames of unknown kinds | as C11 |
| C15 *F* | same, then serialiser | exact bytes written back for every readable file; identity exactly for library-written frames (`read_write_identity_iff`, `resave_unchanged_iff`) |
| C16 *F* | same, extended header | every tag with a 6-byte extended header is misread; what is true of this and the other false claims is in `Props/Parts` |
| C17 | parser loop | progress measure; fuel is irrelevant; bound on the number of frames |
| C18 *F* | parser on arbitrary bytes | a Hoare-style predicate `Sat` over all outcomes; witnesses for five kinds of UB |
| C19 - C22 *F* (C20) | `ID3v2_write_tag`, `ID3v2_delete_tag` | list algebra on files on top of C08 - C11; a picture without data is not read back; `session_exact`: the exact outcome of every session, both versions; C22 for tags of every size: `write_delete_exact`, `delete_undoes_write_iff` (exactly below 512 MiB) |
| C23 *F* | transition systems | invariants over all interleavings of flushes; progress; negation |
| C24 *F* | `ID3v2_write_tag` | exact padding in the file, after every history |
| C25 - C30 *F* (all but C28) | setters, getters, deleters | refinement of the node list to a list of frames; exact effect after every history by C31 |
| C31 *F* | histories | induction over the history, simulation by `Spec/Multimap`; without restrictions by `Spec/Total`, with the outcome of every call |
| C32 *F* | histories | exact law for the tag size after every history of valid calls, by induction; exactly when it covers the frames |
| C33 *F* | histories, then serialiser | exact condition for success, for any tag whatever was read and done (`Fits`); all tags built from scratch overflow; exact outcome after every history |
| C34 *F* | tags with holes | general theorems on what fails after a hole; `Spec/Total` describes all tags with holes |
| C35 *F* | setters | encoding byte against the encodings of all the strings; exactly when a comment is right (`comment_encoding_iff`) |
| C36 | heap, programs | separation: frames of a tag own their blocks; the caller's blocks are disjoint |
| C37 | heap, programs | invariant `Inv` (the heap consists of exactly the blocks owned) by induction over programs |
| C38 *F* | heap, programs | exact leaks of every function; programs without leaks |
| C39 | heap, `get_frames`, `unlink` | heap afterwards equals heap before |
| C40 - C42, C49 *F* | `id3v2lib.compat.c` | reduction to the value model, history induction; `compat_calls_exact`, `compat_session_exact` name the outcome of every session |
| C43 *F* | `ID3v2_Tag_new` | direct |
| C44 | all calls with all arguments, from new tags and well-formed files; also from any bytes | invariant of frames that the constructors and the parser make (`Proof/Made.lean`) |
| C45 | `ID3v2_write_tag` | direct, from the serialiser |
| C46 *F* | file functions | direct |
| C47 *F* | read, then write | exact condition for every file (`Fits`); C15 for well-formed tags; witnesses for heap overflow and memory disclosure |
| C48 | all inputs and histories | invariant on frame kinds through the parser and all operations |
| C50 *F* | functions of the API on a NULL tag | direct; reading a file without a tag gives NULL |
| C51 | `ID3v2_read_tag` | equality of two programs on arbitrary contents |
| C52 *F* | parser, unsynchronisation | tags that unsynchronisation leaves alone; all tags with an affected UTF-16 text are misread; exactly which are read right (grammar of C67: a frame is only found where all its bytes are) |
| C53 *F* | parser, `ID3v2_delete_tag`, footers | the footer is left behind for every tag with one |
| C54 | heap, compat programs | invariant `CInv` (the heap consists of the blocks of the tags and of the contents, and of lost blocks) by induction over programs; simulation by the value model |
| C55 *F* | heap, compat programs | exact leaks of loading, writing and freeing; programs without leaks |
| C56 | heap, compat programs | the blocks of an entry stay in the invariant until its field is set or its tag is freed |
| C57 | `remove_tag`, `set_tag` | from C19 - C22 and C45 |
| C58 *F* | transition systems of C23, then read | the file is a prefix of the new one; reading depends on the first 10 + tag size bytes |
| C59 *F* | reader and writer interleaved | invariant: what was read is a splice of the old and the new file; schedules that crash |
| C60 *F* | two writers interleaved | invariant for one writer at a time; a schedule that loses the audio, for all files and tags; for every schedule an invariant about each byte of the file: written at its position by one of the two, or a zero in a gap |
| C61 *F* | histories of C31 | equality of the effects of two histories in `Spec/Total`, which determine the tags; exact conditions (`last_set_wins_iff`, `setters_commute_iff`) |
| C62 *F* | read, then write, n times | the first repetition gives a file written by the library, which is a fixed point exactly if no size is misread (`rewrites_stable_iff`); induction on n |
| C63 | `Tag_to_char_stream`, histories | the layout of `Spec/Layout` is uniquely decodable; induction over the frames |
| C64 *F* | `Model/Fault`: write with failing operations | the failing operations are an input; outcome for each combination; sublists for what is lost |
| C65 *F* | `Model/Fault`: delete with failing operations | the same |
| C66 *F* | `Model/Fault`: read with failing operations | the same; a read error is a truncation |
| C67 | the whole reader on arbitrary bytes | specification as a grammar (`Spec/Grammar`, inductive); both directions by inversion of the parsers and induction over the loop |
| C68 | `Model/World`: programs over a file system and a table of streams | each program is executed symbolically; its result on its file is one of `Model/Fault`, so C64 - C66 hold for it; induction over the sequence of calls |
| C69 | the same, without failing operations | induction over the sequence of calls, with the file system as an invariant |
| C70 | the specification `Spec/Total` of a tag with an empty node | simulation for every operation, induction over the history |
| C71 | `Tag_to_char_stream`, `ID3v2_write_tag` on every obtainable tag | invariant of all obtainable tags (`Reached`); the size of the output decides |
| C72 | the writer and the reader | C70 and C71 give the file; the exact reader of written frames gives the equivalence |
| C73 | `Model/Fault`, `Model/World` | symbolic execution for every combination of faults |
| C74 | `Heap/*`: the programs of C36-C38 and of C54-C56, each step counted (`Call.leak`, `CCall.leak` in Spec) | the refinement of every call also says how long the list of lost blocks becomes (`StepOk`, `Loses`); induction over the history (`leak_exact`, `cleak_exact`) |
| C75 | `Model/Crash`: the copy loops as a transition system | invariants for one direction, runs constructed by induction for the other |
| C76 | `Model/Concurrent`: two writers as a transition system | invariant of all schedules (`Props/Writers`) |
| C77 | `Thread/Program`: all heap functions as sequences of accesses; `Spec/Threads`: any number of threads of both APIs on one memory | invariant of all schedules: what remains of a call, on the blocks of the thread, is what remains of a call without other threads, for some results of `malloc` (`Together`); then C37 and C54 |
| C78 | `Spec/Readers`: a program with any history starts threads that read its tags, and have things of their own | the blocks of the program never change; a call of a thread is a run on its own blocks that only looks at the others (`Runs`, by recursion over the accesses); then the specifications of the getters (C37, C54) on the two memories together |
| C79 | the buffer of `ID3v2_read_tag` with indeterminate bytes where the file has ended; `Spec/Cut` says what is made of the rest | induction over the frames that are complete; the frame in which the file ends through the grammar of C67 (`Proof/Cut`); `load_tag` through C82 |
| C80 | `Model/Processes`: any number of processes with any sequences of calls on one file, one byte read per step, writes in pieces of any size | invariants over all schedules: under a readers-writer lock every call in progress began with the file that the finished calls leave (`LockInv`); without a lock every position holds a byte of an output (`Patched`), all bytes have an origin (`bytes_run`), results of calls (`WillReturn`, `ReaderSafe`); `lock_needed` constructs the bad schedule |
| C81 | `Spec/Locked`: threads that use the tags of the program together; a readers-writer lock as a rule that an execution follows or not | invariant of all schedules that follow the rule: the common blocks belong to the thread that holds the lock alone, what remains of a call is a run on the blocks of their owner (`Runs`), and the log of calls made under the lock, made in turn, gives the common blocks (`LTogether`); `threads_lock_needed` constructs a bad schedule from a good one of a single thread |
| C82 | `load_tag_with_buffer`, `load_tag` on any bytes (Spec/Entry) | the grammar of C67 says which tag is read; every frame of a read tag is `Made`, so `Frame_to_char_stream` gives its bytes or is undefined; induction over the entries |
| C83 | byte order as a parameter of the functions that write (`Model/Endian`), sign of `char` as a platform parameter | every stream written is the little-endian one with the bytes of the sizes turned round, by induction over the frames; the grammar of C67 then says how it is read (`Props/EndianRead`: comments are read right by induction, the first other frame by inversion of the grammar) |
| C84 | `Model/Kill`: the processes of C80, each of which may be killed at any step | the invariant of C80 with a history in which killed calls appear (`KillInv`); every step but the kill is that of C80; runs to every outcome are constructed |
| C85 | `Model/Memory`: the functions with a file name on file system and heap together, every request for memory may fail | the calls up to the last request change no file (`Early`), by composition of their parts; `ID3v2_read_tag` line by line |
| C86 | the same functions, with enough memory | simulation (`Sim`): the calls of `Model/World` on one side, the heap with the blocks of tags on the other; with C68 and C85 for any failures |
| C87 | sequences of calls of the main API, failures in each, changes of files by others | induction over reachable states (`Goes`) with the heap invariant of C38; steps by C85 and C86 |
| C88 | sequences of calls of both APIs on one heap, failures in each, changes of files by others | induction over reachable states (`BothGoes`): the blocks of one API are the frame (`K`) of the heap invariant of the other; steps of C87, and C86 with the steps of C54 |
| C89 | memory for the contents of a tag read from arbitrary bytes | induction over the frames found by the grammar of C67: a frame that is followed by another lies within the determinate bytes; false for the last one (`C89_bomb`) |
| C90 | tags reached by any calls from new tags or arbitrary bytes, written to any file and read again | every frame the library makes, and can write, is a frame of the specification (`made_sframe`); then the exact results on written frames (C12, C20); the grammar of C67 for the flag of an extended header |
| C91 | the number of accesses of the programs of Thread/Program (the same ones as in the thread model, `Same` to the heap model), in every heap | rules for each access; induction over the loop of the parser with the frames found (grammar of C67); induction over the lists for the other calls; that reading is not linear is shown by `read_quadratic` |
| C92 | the tests in `test/`, with their values as arguments; an assertion that fails is the outcome `exit` | the exact histories (C31), the exact files (C19, C20), the exact reader (C67); assertions are shown to compare the whole frame but for the type of a picture |
| C93 | `Model/Readme`: the programs of README.md as functions of the file | the exact histories (C31) and files (C19, C20); lookups in the frames that were read; where the list of frames ends decides whether deleting leaves an empty node |
| C94 | `Model/Readme`: the printing helpers as functions to what is printed | induction over the units of the string; the buffer of the file name is one byte short in every case |
| C95 | the number of accesses of the compatibility API's programs of Thread/Program, in every heap | the rules and bounds of C91; induction over the linked list of entries; the invariant of C54 links every reachable tag to its list |
| C96 | `ID3v2_read_tag` of one file, `ID3v2_write_tag` to another, over all pairs of contents | what is written before the audio does not depend on the target, for every tag; with C62 this gives exactly when a copy of a copy is a copy |
| C97 | `ID3v2_read_tag`, `ID3v2_write_tag`, `ID3v2_delete_tag` on files with any number of tags one behind the other, and with tags of other versions | C67 and C21 say when there is a tag and what deleting leaves; induction over the tags, and over the length of the file for the number of deletions |
| C98 | the getters of both APIs on what is read from two files | the exact reading of C11 and the getters as a filter (C28); frames with the same representation are the same (C63) |
| C99 | sessions of one API, then a read with the other | the file of a session (C72, C82), what `load_tag` makes of what `ID3v2_read_tag` reads (C82), and the exact condition for reading back a tag that was written (C20) |
| C100 | an independent reader after the documents, on the files that sessions leave | the file of a session (C72, C82, C96) is a list of bytes; induction on the frames; a size that is decoded wrongly is at least 128 too small, more than the terminators a reader may supply |
| C101 | the same reader on arbitrary bytes | what it understands is shown to be in the grammar of C11 (by induction along the reader), so that the reading theorems apply; false for strings without a terminator: a text frame without one is undefined behaviour whatever precedes and follows it (the parser loop up to that frame, then the scan for the terminator) |

No property was found that cannot be expressed in the model. Two restrictions of the model matter for reading the results:
the behaviour of a program after undefined behaviour is not described, and memory accesses are sequentially consistent (which
is no restriction for programs without data races; those of C77, C78 and C81 are proved to have none). Threads with their own
tags are modelled (C77), threads that read the same tags (C78) and threads that change the same tags behind a lock (C81; the
library has no locks and documents none). `ID3v2_write_tag` does not count as reading, because it stores the new padding size
in the tag. Several processes on one file are modelled (C59, C60, C80, C84).

## 4. Trusted base

1. **Lean's kernel** (4.33.0). No `sorry`, no `native_decide`, no `bv_decide`, no axioms of our own, no Mathlib tactics.
2. **Axioms**: at most Lean's three standard ones (`propext`, `Quot.sound`, `Classical.choice`); per theorem in section 6.
3. **The transliteration** of the C code into `Model/` and `Heap/Core`, `Heap/Program`, which was made by reading.
4. **The specification** in `Spec/` and the theorem statements in `Props/`.

### Modelled

All functions of `src/modules/*.c`, `src/modules/frames/*.c`, `src/id3v2lib.c` and `src/id3v2lib.compat.c`, with
these exceptions and simplifications:

* `malloc` always succeeds (the code checks it only in `ID3v2_read_tag`, see C66), except in `Model/Memory` (C85-C88), where
  any request may fail. There a block that could not be had is stored to at once, through NULL, even if its length is zero. I/O operations succeed except in
  `Model/Fault` (C64 - C66), where any of them may fail; it is shown to agree with `Model/Lib` when nothing fails.
  `Model/World` has the same functions as programs that call `fopen`, `getc`, `putc`, … on a file system. There a stream has
  one position, what `putc` writes reaches the file at once or never, `fclose` always closes, and two names are two files (no
  links). It is shown that every outcome is one of `Model/Fault`, and that of `Model/Lib` when nothing fails.
* Objects are at most `INT_MAX` bytes where the code stores a length in an `int`; the theorems have such hypotheses.
* Little-endian target with 32-bit `int`, 8-bit `char`, two's complement conversions. The signed shifts in
  `syncint_encode` are taken to wrap around. `Model/Endian` has the functions that write, for both byte orders (C83; the heap,
  crash and file system models are for little-endian targets only). Whether `char` is signed is a platform parameter.
* `fread` that reaches the end of the file or an error leaves the rest of the buffer indeterminate, and stores what it has
  read. (`id3v2lib.c:63` asks for one element of the whole length, of which the C standard then promises nothing; the model
  follows the implementations.) In the crash model
  writes may fail, too. A write that fails loses its bytes, and later writes to the same file may succeed.
* A file name denotes one file; no other process changes it, except in C59, C60, C80 and C84.
* Passing NULL or a dangling pointer as the tag, the list or a string is outside the model, except where the library
  itself passes NULL (missing files, absent tags, `new_tag`).
* Heap model: a struct is allocated with its final contents in one step when the code fills all of it directly after
  `malloc`; the contents of `CharStream` buffers are tracked by the value model only, the blocks by the heap model. The
  loop counters of the deleters by index do not overflow.
* Heap model: covers the main API and the compatibility API. `malloc` returns any address at which nothing is
  allocated, freed ones included; an access through a dangling pointer is undefined unless something was allocated at the
  address since, and the theorems cover the choices of addresses for which that never happens. The program frees what the `parse` functions return by calling `free` on the blocks allocated for it (the
  library has no function for that); `free_frame` on an entry of a tag is not among the calls of a program.
* Thread model: memory accesses happen one after the other, an access reads or writes a whole struct or string, and every
  thread has its own file (C69: calls keep to their file). The fuel of the loops is the thread's own.
* Compatibility API: `main`-style helpers for printing do not exist; all the exported functions are covered.
* Tests: `set_test.c`, `delete_test.c`, `get_test.c`, `compat_test.c` and `assertion_utils.c`, and `test_utils.c`. What is printed is a
  list of bytes and wide characters; the conversion of wide characters by the locale is left out.
* The programs of README.md, as they must be written to be compiled (`frame->data->text`, `ID3v2_Tag_new_empty()`).

### Not modelled

The build system, time other than the number of memory accesses (C91, C95), the C library itself (its functions are given by their
specification in `Model/Core.lean`, `Model/FrameList.lean` and `Model/Lib.lean`), threads that change a tag that others use without any lock (C81 shows that the lock is needed, with a
schedule that leads to undefined behaviour; it does not describe all of them), `errno`.

## 5. Faults of the code that the proofs exposed

| fault | theorem |
|---|---|
| extended header size copied from uninitialised memory | `C06_false` |
| seek past an extended header is absolute and too short | `extended_header_misread`, `extended_header_hides_frame` |
| frames of size ≤ 1, oversized or lying frames: VLA of size ≤ 0, stack overflow, out-of-bounds read, uninitialised read, signed overflow | `hostile_*`, `C18_false` |
| version 2.4 frames of 256 bytes or more are written with a size that is read differently | `v24_long_text_oob`, `second_rewrite_crashes` |
| `TXXX`, `COMR`, `AENC`, encodings 2 and 3, multi-value text are damaged by reading and writing | `C15_false`, `read_write_bytes` |
| the file is truncated before the new contents are written; write errors are ignored | `write_empties_file`, `full_disk_loses_audio` |
| default padding is only noted in memory, not written | `C24_false` |
| deleting an absent id, or after a hole, dereferences NULL | `delete_absent_crashes`, `delete_after_hole_crashes` |
| deleting the last of several frames leaves a hole; later frames are invisible, writing exits | `delete_tail_leaves_hole`, `set_after_hole_invisible`, `write_after_hole_exits` |
| a created frame adds its body but not its header to the tag size; every tag built from scratch overflows the heap when written | `built_tags_overflow`, `C32_false` |
| deletion by index does not change the tag size and leaks a node | `C32_false`, `C38_false_index` |
| `ID3v2_Tag_set_comment` declares the wrong encoding for the description | `set_comment_wrong_encoding` |
| text frames without a terminator, which the documents allow, are read beyond the end of the array that holds the text | `C101_false`, `bare_text_undefined`, `bare_text_std` |
| a comment without a terminator takes the id of the next frame for the end of the comment, and that frame is lost (in front of padding it is read right) | `bare_comment_swallows`, `bareComment_read`, `bare_comment_padded` |
| version 2.4 frames of 128 bytes or more are not read by programs that keep to the document, after this library has written them | `rewritten_for_others`, `std_reads_iff` |
| unknown frames leak on free and write | `C38_false` |
| padding argument of `ID3v2_Tag_new` ignored | `C43_false` |
| writing to a missing file dereferences NULL | `write_missing_file` |
| setters, adders and deletion by id dereference a NULL tag | `null_tag_crashes` |
| the unsynchronisation flag is ignored | `C52_false`, `unsync_utf16_misread` |
| deleting a tag leaves its footer in the file | `footer_left_behind` |
| reading then writing a hostile file overflows the heap or discloses memory | `hostile_write_overflow`, `hostile_write_leaks_memory` |
| a tag with an extended header keeps the flag when it is written, without the extended header: no frame is found any more | `extended_flag_loses_frames`, `C90_false` |
| appending walks over the whole list (frame_list.c:33-55): reading takes time quadratic in the number of frames | `read_quadratic`, `linear_reading_false` |
| the project's own tests: with too little padding, or without a tag, the test of the setters overflows the heap; the test of the getters passes a one-byte string where two bytes are compared; the type of a picture is not compared; the test of the compatibility API compares half of the strings | `edit_test_overflows`, `edit_test_untagged`, `get_test_main_strict`, `get_test_iff`, `compat_test_main_iff` |
| an unknown frame is given as much memory as it claims, up to 2 GB for a file of 20 bytes | `C89_bomb` |
| `set_text_frame` with an id of another kind confuses types | `wrong_id_confuses` |
| compat: second flag byte uninitialised; setters for absent frames, `load_tag` without tag or frames, `free_tag(new_tag())`, cover file names without a dot crash | `second_flag_indeterminate`, `set_absent_crashes`, `load_without_tag_crashes`, `load_empty_crashes`, `free_new_tag_uninit`, `cover_without_dot_crashes` |
| compat: frames of unknown kinds leak when loaded, written and freed | `C55_false`, `C55_load`, `C55_write`, `C55_free` |
| compat: setting a field, or freeing the tag, invalidates the entry and the contents parsed from it, which are not copies | `C56_set_dangles`, `C56_free_dangles` |
| I/O errors are ignored: audio is lost after a read error or when the disk of the temporary file is full, a header that cannot be read makes the old tag part of the audio, files that may not be written crash the program | `read_error_loses_audio`, `full_temp_loses_audio`, `header_error_stacks_tags`, `read_only_file_crashes`, `delete_read_error_loses_audio`, `read_second_open_crashes` |
| on a big-endian target all sizes are written backwards: such a file crashes its readers, and deleting the tag or writing another one deletes the audio | `C83_false`, `big_endian_read_undefined`, `big_endian_delete_empties` |
| a process that is killed while it writes takes the audio with it even though every call holds the lock, and the next reader crashes | `C84_false`, `killed_writer_crashes_reader` |
| allocation failures are not checked but in one place: NULL is followed | `out_of_memory_crashes`, `program_out_of_memory` |
| a crash while the tag is being written leaves a file that crashes readers | `crash_in_tag` |
| a reader crashes if the file is rewritten between its two reads; two writers can lose the audio | `reader_crashes`, `two_writers_lose_audio` |
| the program "Edit Tags" of the README overflows the heap on every file without a tag, and on every tag that has no room for the frames it adds | `readme_edit_untagged`, `readme_edit_exact` |
| the programs of the README follow NULL if a frame is missing; "Delete Tags" ends the process if the title or artist is the last of several frames | `readme_load_iff`, `readme_delete_exact` |
| tests: `save_apic_frame` always writes one byte beyond its buffer; big-endian texts are printed with their bytes exchanged | `save_apic_overflows`, `print_right_iff` |

## 6. Axioms of each theorem

Generated by `tools/gen_axioms.py` from `#print axioms` on every theorem of `MANIFEST.json` (names without the prefix
`Id3.Props.`).

<!-- axioms:begin -->
* **none**: `C43_false`
* **propext**: `null_string`, `write_empties_file`, `write_any_prefix`, `C23_false`, `full_disk_loses_audio`, `C25_false`, `C26_false`, `C31_false`, `C32_false`, `set_delete_overflow`, `album_lost`, `free_new_tag_uninit`, `C50_false`, `program_out_of_memory`, `shown_latin`, `shown_unicode`
* **propext, Quot.sound**: `to_unicode_wf`, `strlent_sound`, `syncint_mask_overflows`, `read_header_missing`, `read_header_short`, `read_header_file`, `C11_false`, `picture_overflows_stack`, `empty_last_frame_lost`, `C18_false`, `hostile_vla`, `hostile_oob`, `hostile_uninit`, `hostile_stack`, `hostile_overflow`, `delete_without_tag`, `delete_missing`, `delete_crash_partial`, `io_progress`, `io_not_stuck`, `C27_false`, `get_first_any`, `get_all_any`, `new_holds`, `gain_exact`, `C36_contents`, `memory_is_reused`, `compat_view`, `second_flag_indeterminate`, `cover_without_dot_crashes`, `C42_false`, `tag_new_partial`, `negative_padding`, `missing_file_partial`, `C47_false`, `hostile_write_overflow`, `hostile_write_leaks_memory`, `wrong_id_confuses`, `pointer_same`, `C52_false`, `remove_tag_missing`, `reader_alone`, `reader_ends`, `reader_before_partial`, `turns`, `two_writers_bytes`, `two_writers_tags_mix`, `two_writers_header`, `out_inj`, `write_crash_unchanged`, `write_no_faults`, `delete_no_faults`, `read_no_faults`, `read_faults_cover`, `runs_reachable`, `cruns_reachable`, `delete_crash_exact`, `cut_frame_ne`, `next_call_ends`, `no_invented_bytes`, `unlocked_bytes`, `unlocked_tags_mix`, `write_on`, `write_on_little`, `byte_order_iff`, `byte_order_matters`, `C83_sign_setters`, `tooLong_usual`, `next_call_killed`, `next_call_after_kill`, `print_missing`, `to_unicode_same`, `save_apic_never`, `save_apic_overflows`, `std_reads_others`, `C101_false`, `stdTag_wire`, `closed_open`, `bareComment_read`
* **propext, Classical.choice, Quot.sound**: `to_unicode_latin`, `to_unicode_utf16`, `to_unicode_idempotent`, `to_unicode_too_long`, `strlen_exact`, `strlent_exact`, `strlent_too_long`, `tag_size_digits`, `tag_size_roundtrip`, `tag_size_roundtrip_exact`, `tag_size_api`, `itob_btoi`, `btoi_itob`, `be_digits`, `header_recognition`, `header_fields`, `header_size_synchsafe`, `header_determined_partial`, `C06_false`, `text_frame_layout`, `comment_frame_layout`, `apic_frame_layout`, `serialised_tag`, `read_tag_bytes_partial`, `read_serialised_partial`, `read_exact`, `read_all_iff`, `read_back_exact`, `read_back_iff`, `read_back_all`, `read_back_undefined`, `v24_roundtrip_partial`, `v24_long_text_oob`, `C12_false`, `v24_roundtrip_iff`, `long_text_undefined`, `long_frame_truncated`, `trailing_bytes_ignored`, `beyond_length_ignored`, `unknown_frame_verbatim`, `read_write_bytes`, `read_write_identity_partial`, `C15_false`, `read_write_same_iff`, `read_write_identity_iff`, `read_write_identity_four_iff`, `resave_unchanged_iff`, `extended_header_misread`, `C16_false`, `extended_header_first_frame`, `extended_header_hides_frame`, `extended_flag_loses_frames`, `C16_partial`, `read_terminates`, `read_file_terminates`, `iterations_bounded`, `fuel_irrelevant`, `read_frames_bounded`, `read_safe_partial`, `read_file_safe_partial`, `C67_buffer_undefined`, `C67_file_undefined`, `write_preserves_audio`, `write_succeeds`, `write_bytes`, `session_file`, `write_then_read_partial`, `session_roundtrip_partial`, `C20_false`, `read_file_exact`, `write_read_exact`, `session_exact_partial`, `session_fails_exact`, `read_file_iff`, `session_iff`, `read_file_all`, `session_exact`, `C90_partial`, `delete_leaves_audio`, `last_write_wins`, `delete_undoes_write`, `write_twice`, `oversized_tag_forgotten`, `write_delete_exact`, `delete_undoes_write_iff`, `write_over_exact`, `oversized_write`, `write_crash_partial`, `padding_in_file_partial`, `C24_false`, `session_padding`, `set_frame`, `set_text_frame_partial`, `named_text_setters_partial`, `set_comment_frame_partial`, `set_comment_partial`, `set_apic_frame_partial`, `set_album_cover_partial`, `set_get_exact`, `put_effect`, `append_holds`, `add_comment_appends_partial`, `add_apic_appends_partial`, `history_exact`, `get_first`, `get_all`, `named_getters`, `named_list_getters`, `read_holds`, `delete_first_partial`, `named_deleters_partial`, `delete_tail_leaves_hole`, `delete_absent_crashes`, `C29_false`, `delete_exact`, `delete_at_partial`, `delete_at_out_of_range`, `named_deleters_at_partial`, `delete_at_tail_leaves_hole`, `C30_false`, `delete_at_exact`, `history_refines_partial`, `exact_agrees`, `size_law_partial`, `size_exact_partial`, `tag_size_exact`, `size_covers_iff`, `written_iff_fits`, `written_exactly`, `serialise_after_history`, `write_safe_partial`, `built_tags_overflow`, `C33_false`, `serialise_exact`, `usable_after_delete_partial`, `set_after_hole_invisible`, `delete_after_hole_crashes`, `write_after_hole_exits`, `C34_false`, `declared_encoding_partial`, `set_comment_wrong_encoding`, `C35_false`, `comment_encoding_iff`, `set_comment_encoding_iff`, `C36`, `C37`, `C37_program`, `C37_refinement`, `C37_holds`, `C38_false`, `C38_false_index`, `C38_partial`, `C38_free`, `C38_write`, `C38_index`, `C39`, `C39_later`, `compat_loads_partial`, `C40_false`, `load_empty_crashes`, `load_back_exact`, `load_buffer_any`, `load_file_any`, `load_agrees`, `load_written_all`, `compat_set_get_partial`, `compat_history_partial`, `set_absent_crashes`, `set_new_tag_crashes`, `C41_false`, `compat_calls_exact`, `load_succeeds_partial`, `compat_safe_partial`, `load_without_tag_crashes`, `new_compat_tag`, `load_buffer_any_undefined`, `load_file_any_undefined`, `truthful_sizes`, `truthful_or_negative`, `write_effect`, `write_missing_file`, `C46_false`, `read_then_write_iff`, `read_then_write_partial`, `obtainable_typed`, `get_text_typed`, `text_getters_typed`, `comment_getter_typed`, `cover_getter_typed`, `comment_frames_typed`, `apic_frames_typed`, `no_confusion`, `compat_roundtrip_partial`, `C49_false`, `compat_session_exact_partial`, `compat_session_exact`, `null_tag_partial`, `null_tag_crashes`, `file_is_buffer`, `file_is_buffer_untagged`, `read_tag_local`, `unsync_partial`, `unsync_utf16_misread`, `unsync_exact`, `footer_read_partial`, `footer_left_behind`, `C53_false`, `C54`, `C54_program`, `C54_refinement`, `C54_holds`, `C55_partial`, `C55_load`, `C55_write`, `C55_free`, `C55_false`, `C56_get`, `C56_entry`, `C56_text`, `C56_comment`, `C56_picture`, `C56_set_dangles`, `C56_free_dangles`, `remove_tag_leaves_audio`, `set_tag_effect`, `remove_undoes_set`, `crash_then_read_partial`, `crash_in_tag`, `delete_crash_then_read`, `C58_false`, `crash_read_exact`, `read_cut_same_iff`, `reader_sees_splice`, `reader_after_partial`, `reader_crashes`, `C59_false`, `writers_in_turn_partial`, `two_writers_lose_audio`, `C60_false`, `last_set_wins`, `setters_commute`, `delete_forgets_set`, `same_effect`, `C61_false`, `setters_commute_iff`, `last_set_wins_iff`, `C61_partial`, `rewrites_stable`, `second_rewrite_crashes`, `C62_false`, `rewrites_stable_iff`, `C62_partial`, `sessions_injective`, `write_faults_exact`, `write_complete_iff`, `write_invents_nothing`, `read_error_loses_audio`, `full_temp_loses_audio`, `header_error_stacks_tags`, `read_only_file_crashes`, `C64_false`, `write_faults_cover`, `C64_partial`, `delete_faults_exact`, `delete_complete_iff`, `delete_invents_nothing`, `delete_read_error_loses_audio`, `delete_crash_empties`, `delete_header_error`, `C65_false`, `delete_faults_cover`, `C65_partial`, `read_faults_exact`, `read_error_is_truncation`, `read_second_open_crashes`, `C66_false`, `C66_partial`, `C67_buffer`, `C67_buffer_null`, `C67_file`, `C67_file_null`, `C67_unique`, `call_keeps_to_its_file`, `calls_keep_to_their_files`, `files_independent`, `call_effect`, `leak_exact`, `leak_lost`, `reachable_runs`, `lose_three`, `cleak_exact`, `cleak_lost`, `creachable_runs`, `write_crash_exact`, `write_crash_lossy_exact`, `threads_safe`, `threads_no_race`, `threads_alone`, `threads_others`, `threads_call`, `threads_ccall`, `threads_values`, `threads_cvalues`, `threads_fail`, `threads_progress`, `threads_end`, `threads_possible`, `readers_safe`, `readers_no_race`, `readers_kept`, `readers_main`, `readers_cmain`, `readers_others`, `readers_read`, `readers_read_fail`, `readers_get`, `readers_list`, `readers_field`, `readers_text`, `readers_comment`, `readers_picture`, `readers_call`, `readers_values`, `readers_cvalues`, `readers_progress`, `readers_end`, `readers_finish`, `readers_possible`, `readers_get_possible`, `read_cut_exact`, `read_cut_written`, `load_cut_exact`, `load_cut_written`, `load_cut_padded`, `locked_calls_serial`, `calls_in_order`, `readers_need_no_lock`, `lock_needed`, `writers_return`, `readers_as_safe_as_alone`, `locked_safe`, `locked_no_race`, `locked_serial`, `locked_serial_alone`, `locked_reachable`, `locked_reachable_alone`, `locked_change`, `locked_change_fail`, `locked_values`, `locked_cvalues`, `locked_read`, `locked_read_fail`, `locked_get`, `locked_field`, `locked_call`, `locked_call_fail`, `locked_still`, `locked_goes_on`, `locked_change_possible`, `locked_read_possible`, `locked_values_possible`, `locked_get_possible`, `threads_lock_needed`, `native_reads_more`, `C83_false`, `write_bytes_on`, `big_endian_length`, `big_endian_write_delete`, `big_endian_delete_empties`, `big_endian_read_undefined`, `C83_sign`, `C83_sign_compat`, `big_endian_comments_first`, `big_endian_comments_kept`, `big_endian_undefined`, `big_endian_swallows`, `C83_partial`, `killed_calls_serial`, `killed_in_order`, `killed_readers_harmless`, `audio_survives`, `audio_after_killed_write`, `audio_after_killed_delete`, `killed_writer_crashes_reader`, `C84_false`, `out_of_memory_keeps_files`, `enough_memory`, `out_of_memory_crashes`, `call_on_heap`, `call_is_clean`, `program_values`, `program_safe`, `program_leaks`, `both_values`, `both_safe`, `both_leaks`, `C89_buffer_partial`, `C89_file_partial`, `C89_bomb`, `C89_false`, `written_sframes`, `C90_false`, `slack_copied`, `C91`, `C91_exact`, `C91_file`, `read_quadratic`, `linear_reading_false`, `get_test_iff`, `get_test_main_strict`, `get_test_empty_iff`, `edit_test_iff`, `edit_test_overflows`, `edit_test_untagged`, `edit_main_eq`, `edit_test_main_iff`, `delete_test_iff`, `delete_test_untagged`, `compat_test_iff`, `compat_main_eq`, `compat_test_main_iff`, `compat_test_untagged`, `get_test_untagged`, `readme_load_iff`, `readme_load_untagged`, `readme_read_new_iff`, `readme_read_new_untagged`, `readme_compat_iff`, `readme_compat_untagged`, `readme_edit_exact`, `readme_edit_untagged`, `readme_delete_exact`, `readme_delete_untagged`, `readme_edit_new_works`, `readme_edit_new_untagged`, `print_text_characters`, `print_comment_characters`, `print_right_iff`, `print_comments_exact`, `C95`, `C95_get`, `load_quadratic`, `write_target`, `copy_keeps_audio`, `copy_replaces`, `copy_tag_only`, `copy_exact`, `C96_false`, `C96_partial`, `compat_copy`, `deletes_stack`, `read_stack`, `write_stack`, `delete_reveals`, `deletes_end`, `other_version`, `wire_complete`, `load_stack`, `set_stack`, `remove_stack`, `getters_local`, `getters_local_iff`, `order_irrelevant`, `entries_local`, `written_then_loaded`, `load_written_iff`, `set_then_read`, `others_read_session`, `others_read_compat`, `rewritten_for_others`, `std_reads_iff`, `C101_partial`, `standard_read`, `standard_rewrite`, `standard_load`, `bare_text_undefined`, `bare_text_std`, `bare_comment_swallows`, `bare_text_load`, `bare_comment_padded`
<!-- axioms:end -->
