import Verif.Model.Compat

/-!
# A heap of allocated blocks

The value-level model (Verif/Model) says what the library computes. The model in this directory adds the blocks: which
`malloc` and `free` calls are made, which pointers are stored where, and which pointers are followed.

A block holds one C object: a struct, or a buffer of characters. `malloc` succeeds and may return any address at which
nothing is allocated, also one that was freed before: the heap has a list of the addresses to choose. The theorems hold for
all such lists. Some lists never choose an address twice, so an access through a dangling pointer, or a second `free`, is
visible as `UB.useAfterFree` or `UB.badFree`; others choose freed addresses at once, so nothing in the proofs relies on the
addresses being new.
-/

namespace Id3

/-- A pointer: NULL or the address of a block. -/
abbrev Ptr := Option Nat

/-- What a block holds. Fields that are pointers in the C struct are pointers here. -/
inductive Cell where
  /-- a buffer of characters -/
  | bytes (b : Bytes)
  /-- include/modules/frame_list.h:15-20 `ID3v2_FrameList` -/
  | node (frame next start : Ptr)
  /-- include/modules/frame.h:20-24 `ID3v2_Frame` -/
  | frame (header data : Ptr)
  /-- include/modules/frame_header.h:18-23 `ID3v2_FrameHeader` -/
  | frameHeader (h : FrameHeader)
  /-- include/modules/frames/text_frame.h:15-20 `ID3v2_TextFrameData` -/
  | textData (size : Int) (encoding : UInt8) (text : Ptr)
  /-- include/modules/frames/comment_frame.h:17-24 `ID3v2_CommentFrameData` -/
  | commentData (size : Int) (encoding : UInt8) (language : Bytes) (short_description comment : Ptr)
  /-- include/modules/frames/apic_frame.h:20-28 `ID3v2_ApicFrameData` -/
  | apicData (encoding : UInt8) (mime_type : Ptr) (picture_type : UInt8) (description data : Ptr) (picture_size : Int)
  /-- include/modules/tag_header.h:21-29 `ID3v2_TagHeader` -/
  | tagHeader (h : TagHeader)
  /-- include/modules/tag.h:21-26 `ID3v2_Tag` -/
  | tag (header frames : Ptr) (padding_size : Int)
  /-- src/modules/char_stream.private.h:13-18 `CharStream`; cursor and size are tracked by the value-level model -/
  | charStream (stream : Ptr)
  /-- include/id3v2lib.compat.h:21-29 `ID3v2_header` -/
  | cheader (h : CHeader)
  /-- include/id3v2lib.compat.h:31-36 `ID3v2_frame_text_content` -/
  | textContent (size : Int) (encoding : UInt8) (data : Ptr)
  /-- include/id3v2lib.compat.h:38-43 `ID3v2_frame_comment_content`; `language` points to the array `language` in a
  `commentData`, and is the address of that block -/
  | commentContent (language short_description text : Ptr)
  /-- include/id3v2lib.compat.h:45-53 `ID3v2_frame_apic_content` -/
  | apicContent (encoding : UInt8) (mime_type : Ptr) (picture_type : UInt8) (description : Ptr) (picture_size : Int)
      (data : Ptr)
  /-- include/id3v2lib.compat.h:55-62 `ID3v2_frame` -/
  | cframe (frame_id : Bytes) (size : Int) (flags : Bytes) (data frame : Ptr)
  /-- include/id3v2lib.compat.h:64-70 `ID3v2_frame_list`; `last` is `none` while it is indeterminate -/
  | cnode (frame next start : Ptr) (last : Option Ptr)
  /-- include/id3v2lib.compat.h:72-78 `ID3v2_tag`; `raw` is `none` while it is indeterminate -/
  | ctag (raw : Option Ptr) (tag_header frames tag : Ptr)
deriving DecidableEq, Repr

/-- The heap: the allocated blocks, an address behind all of them, and the picks that `malloc` will leave before the blocks
that it allocates next. -/
structure Heap where
  cells : Nat → Option Cell
  next : Nat
  picks : Nat → Nat

/-- Computations on the heap. -/
def HeapM (α : Type) := Heap → Res (α × Heap)

namespace HeapM

def bind {α β : Type} (x : HeapM α) (f : α → HeapM β) : HeapM β := fun h =>
  match x h with
  | .ok (a, h') => f a h'
  | .ub k => .ub k
  | .exit => .exit
  | .diverge => .diverge

instance : Monad HeapM where
  pure a := fun h => .ok (a, h)
  bind := HeapM.bind

theorem bind_apply {α β : Type} (x : HeapM α) (f : α → HeapM β) (h : Heap) :
    (x >>= f) h = (x h >>= fun p => f p.1 p.2) := by
  show HeapM.bind x f h = _
  unfold HeapM.bind
  cases x h <;> rfl

theorem pure_apply {α : Type} (a : α) (h : Heap) : (pure a : HeapM α) h = .ok (a, h) := rfl

end HeapM

/-- A computation that does not touch the heap. -/
def lift {α : Type} (x : Res α) : HeapM α := fun h => x >>= fun a => .ok (a, h)

/-- An upper bound for the number of blocks, used as fuel for the loops over linked lists. -/
def heapFuel : HeapM Nat := fun h => .ok (h.next + 1, h)

/-- A loop that does not end. -/
def hang {α : Type} : HeapM α := fun _ => .diverge

/-- The heap with a cell changed. -/
def Heap.set (h : Heap) (a : Nat) (c : Option Cell) : Heap :=
  { h with cells := fun x => if x = a then c else h.cells x }

/-- The address that `malloc` returns: the chosen one, if nothing is allocated there. -/
def Heap.place (h : Heap) : Nat :=
  match h.cells (h.picks 0) with
  | none => h.picks 0
  | some _ => h.next

theorem place_eq {h : Heap} (hc : h.cells (h.picks 0) = none) : h.place = h.picks 0 := by
  unfold Heap.place
  rw [hc]

/-- The results of `malloc`: first this one. -/
def picksCons (n : Nat) (g : Nat → Nat) : Nat → Nat
  | 0 => n
  | i + 1 => g i

/-- `malloc`, with the contents that are stored in the block at once. -/
def malloc (c : Cell) : HeapM Nat := fun h =>
  .ok (h.place, { cells := fun x => if x = h.place then some c else h.cells x,
                  next := max h.next (h.place + 1), picks := fun i => h.picks (i + 1) })

/-- `free`: of NULL it does nothing. -/
def free (p : Ptr) : HeapM Unit := fun h =>
  match p with
  | none => .ok ((), h)
  | some a =>
    match h.cells a with
    | none => .ub .badFree
    | some _ => .ok ((), h.set a none)

/-- Follow a pointer. -/
def loadCell (p : Ptr) : HeapM Cell := fun h =>
  match p with
  | none => .ub .nullDeref
  | some a =>
    match h.cells a with
    | none => .ub .useAfterFree
    | some c => .ok (c, h)

/-- Assign to an object through a pointer. -/
def storeCell (p : Ptr) (c : Cell) : HeapM Unit := fun h =>
  match p with
  | none => .ub .nullDeref
  | some a =>
    match h.cells a with
    | none => .ub .useAfterFree
    | some _ => .ok ((), h.set a (some c))

/-! Typed access: through a pointer to another kind of object it is type confusion. -/

structure Node where
  frame : Ptr
  next : Ptr
  start : Ptr

def loadNode (p : Ptr) : HeapM Node := do
  match ← loadCell p with
  | .node f n s => return ⟨f, n, s⟩
  | _ => lift (.ub .typeConfusion)

structure FrameStruct where
  header : Ptr
  data : Ptr

def loadFrame (p : Ptr) : HeapM FrameStruct := do
  match ← loadCell p with
  | .frame h d => return ⟨h, d⟩
  | _ => lift (.ub .typeConfusion)

def loadFrameHeader (p : Ptr) : HeapM FrameHeader := do
  match ← loadCell p with
  | .frameHeader h => return h
  | _ => lift (.ub .typeConfusion)

structure TagStruct where
  header : Ptr
  frames : Ptr
  padding_size : Int

def loadTag (p : Ptr) : HeapM TagStruct := do
  match ← loadCell p with
  | .tag h f s => return ⟨h, f, s⟩
  | _ => lift (.ub .typeConfusion)

def loadTagHeader (p : Ptr) : HeapM TagHeader := do
  match ← loadCell p with
  | .tagHeader h => return h
  | _ => lift (.ub .typeConfusion)

def loadBytes (p : Ptr) : HeapM Bytes := do
  match ← loadCell p with
  | .bytes b => return b
  | _ => lift (.ub .typeConfusion)

structure CFrameStruct where
  frame_id : Bytes
  size : Int
  flags : Bytes
  data : Ptr
  frame : Ptr

def loadCFrame (p : Ptr) : HeapM CFrameStruct := do
  match ← loadCell p with
  | .cframe i s f d x => return ⟨i, s, f, d, x⟩
  | _ => lift (.ub .typeConfusion)

structure CNode where
  frame : Ptr
  next : Ptr
  start : Ptr
  last : Option Ptr

def loadCNode (p : Ptr) : HeapM CNode := do
  match ← loadCell p with
  | .cnode f n s l => return ⟨f, n, s, l⟩
  | _ => lift (.ub .typeConfusion)

structure CTagStruct where
  raw : Option Ptr
  tag_header : Ptr
  frames : Ptr
  tag : Ptr

def loadCTag (p : Ptr) : HeapM CTagStruct := do
  match ← loadCell p with
  | .ctag r h f t => return ⟨r, h, f, t⟩
  | _ => lift (.ub .typeConfusion)

/-- Where a `const char*` argument of the API points: to a string literal, to a block of characters (of the caller, or
a string of a tag), or to the `id` in a frame header. -/
inductive Src where
  | literal (b : Bytes)
  | block (a : Nat)
  | frameId (a : Nat)

/-- The memory that a `const char*` argument gives access to. -/
def Src.read : Src → HeapM Bytes
  | .literal b => pure b
  | .block a => loadBytes (some a)
  | .frameId a => do
    let h ← loadFrameHeader (some a)
    return h.id

end Id3
