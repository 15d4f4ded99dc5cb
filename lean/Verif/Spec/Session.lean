import Verif.Heap.Rep
import Verif.Spec.Kind

/-!
# Programs that use the library

A program that calls the library holds pointers to tags, to lists returned by `ID3v2_Tag_get_frames`, to tag headers and
to buffers of its own. `World` is the state of such a program, `Call` what it can do next, `Call.run` what happens on the
heap, and `Call.Allowed` says that the program only uses pointers that it may use. `Call.abs` says what the same call does
to the tags seen as values.
-/

namespace Id3.Spec

open Id3

/-- The state of a program: the heap, a file on disk, and the pointers that the program holds. -/
structure World where
  heap : Heap
  disk : File
  tags : List Nat
  lists : List Nat
  headers : List Nat
  buffers : List Nat

/-- At the start nothing is allocated. -/
def World.start (disk : File) (picks : Nat → Nat := id) : World :=
  { heap := { cells := fun _ => none, next := 0, picks := picks }, disk := disk, tags := [], lists := [], headers := [], buffers := [] }

/-- What the program can do next. -/
inductive Call where
  /-- `ID3v2_Tag_new_empty` -/
  | newTag
  | readTagFromBuffer (buffer : Src) (length : Int)
  | readTag
  | setTextFrame (tag : Nat) (input : H.TextFrameInput)
  | setCommentFrame (tag : Nat) (input : H.CommentFrameInput)
  | addCommentFrame (tag : Nat) (input : H.CommentFrameInput)
  | setApicFrame (tag : Nat) (input : H.ApicFrameInput)
  | addApicFrame (tag : Nat) (input : H.ApicFrameInput)
  | deleteFrame (tag : Nat) (id : Src)
  /-- `ID3v2_Tag_delete_comment_frame` and `ID3v2_Tag_delete_apic_frame` -/
  | deleteFrameAt (tag : Nat) (id : Bytes) (index : Int)
  | getFrame (tag : Nat) (id : Src)
  | getFrames (tag : Nat) (id : Src)
  | writeTag (tag : Nat)
  | freeTag (tag : Nat)
  | unlinkList (list : Nat)
  | readHeaderFromBuffer (buffer : Src)
  | readHeader
  | freeHeader (header : Nat)
  | deleteTag
  /-- the program allocates a buffer of its own -/
  | alloc (contents : Bytes)
  /-- the program overwrites one of its buffers -/
  | overwrite (buffer : Nat) (contents : Bytes)
  /-- the program frees one of its buffers -/
  | dispose (buffer : Nat)
  /-- somebody replaces the file -/
  | changeDisk (disk : File)

/-- A `const char*` that points to something allocated. -/
def Src.Live (h : Heap) : Src → Prop
  | .literal _ => True
  | .block a => ∃ b, h.cells a = some (.bytes b)
  | .frameId a => ∃ x, h.cells a = some (.frameHeader x)

/-- The pointers that a call gets are the right ones: a tag that was not freed, and so on. Strings may be anywhere, also in
the tag that is changed. -/
def Call.Allowed (w : World) : Call → Prop
  | .newTag | .readTag | .readHeader | .deleteTag | .alloc _ | .changeDisk _ => True
  | .readTagFromBuffer s _ | .readHeaderFromBuffer s => Src.Live w.heap s
  | .setTextFrame t i => t ∈ w.tags ∧ Src.Live w.heap i.id ∧ Src.Live w.heap i.flags ∧ Src.Live w.heap i.text
  | .setCommentFrame t i | .addCommentFrame t i => t ∈ w.tags ∧ Src.Live w.heap i.flags ∧ Src.Live w.heap i.language ∧
      Src.Live w.heap i.short_description ∧ Src.Live w.heap i.comment
  | .setApicFrame t i | .addApicFrame t i => t ∈ w.tags ∧ Src.Live w.heap i.flags ∧ Src.Live w.heap i.mime_type ∧
      Src.Live w.heap i.description ∧ Src.Live w.heap i.data
  | .deleteFrame t s | .getFrame t s | .getFrames t s => t ∈ w.tags ∧ Src.Live w.heap s
  | .deleteFrameAt t _ _ | .writeTag t | .freeTag t => t ∈ w.tags
  | .unlinkList l => l ∈ w.lists
  | .freeHeader p => p ∈ w.headers
  | .overwrite p _ | .dispose p => p ∈ w.buffers

/-- Run a heap program in a world. -/
def World.exec {α : Type} (w : World) (x : HeapM α) (k : α → Heap → World) : Res World := do
  let (a, h) ← x w.heap
  return k a h

/-- The pointer, unless it is NULL. -/
def hold (p : Ptr) (l : List Nat) : List Nat :=
  match p with
  | none => l
  | some a => a :: l

/-- What happens. -/
def Call.run [Platform] (w : World) : Call → Res World
  | .newTag => w.exec (H.ID3v2_Tag_new none) fun a h => { w with heap := h, tags := a :: w.tags }
  | .readTagFromBuffer s n => w.exec (H.ID3v2_read_tag_from_buffer s n) fun p h =>
      { w with heap := h, tags := hold p w.tags }
  | .readTag => w.exec (H.ID3v2_read_tag w.disk) fun p h => { w with heap := h, tags := hold p w.tags }
  | .setTextFrame t i => w.exec (H.ID3v2_Tag_set_text_frame t i) fun _ h => { w with heap := h }
  | .setCommentFrame t i => w.exec (H.ID3v2_Tag_set_comment_frame t i) fun _ h => { w with heap := h }
  | .addCommentFrame t i => w.exec (H.ID3v2_Tag_add_comment_frame t i) fun _ h => { w with heap := h }
  | .setApicFrame t i => w.exec (H.ID3v2_Tag_set_apic_frame t i) fun _ h => { w with heap := h }
  | .addApicFrame t i => w.exec (H.ID3v2_Tag_add_apic_frame t i) fun _ h => { w with heap := h }
  | .deleteFrame t s => w.exec (H.ID3v2_Tag_delete_frame t s) fun _ h => { w with heap := h }
  | .deleteFrameAt t id i => w.exec (H.ID3v2_Tag_delete_frame_at t id i) fun _ h => { w with heap := h }
  | .getFrame t s => w.exec (H.ID3v2_Tag_get_frame t s) fun _ h => { w with heap := h }
  | .getFrames t s => w.exec (H.ID3v2_Tag_get_frames t s) fun a h => { w with heap := h, lists := a :: w.lists }
  | .writeTag t => w.exec (H.ID3v2_write_tag w.disk t) fun f h => { w with heap := h, disk := f }
  | .freeTag t => w.exec (H.ID3v2_Tag_free t) fun _ h => { w with heap := h, tags := w.tags.erase t }
  | .unlinkList l => w.exec (do H.ID3v2_FrameList_unlink (← heapFuel) (some l)) fun _ h =>
      { w with heap := h, lists := w.lists.erase l }
  | .readHeaderFromBuffer s => w.exec (H.ID3v2_read_tag_header_from_buffer s) fun p h =>
      { w with heap := h, headers := hold p w.headers }
  | .readHeader => w.exec (H.ID3v2_read_tag_header w.disk) fun p h =>
      { w with heap := h, headers := hold p w.headers }
  | .freeHeader p => w.exec (free (some p)) fun _ h => { w with heap := h, headers := w.headers.erase p }
  | .deleteTag => w.exec (H.ID3v2_delete_tag w.disk) fun f h => { w with heap := h, disk := f }
  | .alloc b => w.exec (malloc (.bytes b)) fun a h => { w with heap := h, buffers := a :: w.buffers }
  | .overwrite p b => w.exec (storeCell (some p) (.bytes b)) fun _ h => { w with heap := h }
  | .dispose p => w.exec (free (some p)) fun _ h => { w with heap := h, buffers := w.buffers.erase p }
  | .changeDisk f => .ok { w with disk := f }

/-- The states that a program can reach. -/
inductive Reachable [Platform] : World → Prop where
  | start (disk : File) (picks : Nat → Nat := id) : Reachable (World.start disk picks)
  | step {w w' : World} {c : Call} : Reachable w → c.Allowed w → c.run w = .ok w' → Reachable w'

/-! ## The tags as values -/

/-- The tags and the buffers of the program by their pointers, and the file. -/
structure Abs where
  tags : List (Nat × Tag)
  buffers : List (Nat × Bytes)
  disk : File

/-- The characters that a `const char*` points to. -/
def srcValue (h : Heap) : Src → Bytes
  | .literal b => b
  | .block a => match h.cells a with
    | some (.bytes b) => b
    | _ => []
  | .frameId a => match h.cells a with
    | some (.frameHeader x) => x.id
    | _ => []

def textValue (h : Heap) (i : H.TextFrameInput) : TextFrameInput :=
  { id := srcValue h i.id, flags := srcValue h i.flags, text := srcValue h i.text }

def commentValue (h : Heap) (i : H.CommentFrameInput) : CommentFrameInput :=
  { flags := srcValue h i.flags, language := srcValue h i.language,
    short_description := srcValue h i.short_description, comment := srcValue h i.comment }

def apicValue (h : Heap) (i : H.ApicFrameInput) : ApicFrameInput :=
  { flags := srcValue h i.flags, mime_type := srcValue h i.mime_type, description := srcValue h i.description,
    picture_type := i.picture_type, picture_size := i.picture_size, data := srcValue h i.data }

/-- The value at a pointer replaced. -/
def setAt {α : Type} (a : Nat) (x : α) (l : List (Nat × α)) : List (Nat × α) :=
  l.map fun p => if p.1 = a then (a, x) else p

/-- A value-level function on the tag with the given pointer. -/
def Abs.update (s : Abs) (a : Nat) (f : Tag → Res Tag) : Res (Nat → Abs) :=
  match s.tags.lookup a with
  | none => .ub .badFree
  | some t => do
    let t' ← f t
    return fun _ => { s with tags := setAt a t' s.tags }

/-- A value-level getter on the tag with the given pointer. -/
def Abs.query {α : Type} (s : Abs) (a : Nat) (f : Tag → Res α) : Res (Nat → Abs) :=
  match s.tags.lookup a with
  | none => .ub .badFree
  | some t => do
    let _ ← f t
    return fun _ => s

/-- A new tag, unless it is NULL. -/
def Abs.add (s : Abs) (t : Option Tag) (a : Nat) : Abs :=
  match t with
  | none => s
  | some t => { s with tags := (a, t) :: s.tags }

/-- `ID3v2_Frame_free` on every frame of a list, as values. -/
def freeFrames : FrameList → Res Unit
  | [] => .ok ()
  | none :: l => freeFrames l
  | some f :: l => do
    ID3v2_Frame_free f
    freeFrames l

/-- What a call does to the tags, according to the value-level model. The result depends on the pointer to the new tag, if
there is one. The heap is used only to look up the strings that the arguments point to. -/
def Call.abs [Platform] (h : Heap) (s : Abs) : Call → Res (Nat → Abs)
  | .newTag => .ok (s.add (some ID3v2_Tag_new_empty))
  | .readTagFromBuffer b n => do return s.add (← ID3v2_read_tag_from_buffer (srcValue h b) n)
  | .readTag => do return s.add (← ID3v2_read_tag s.disk)
  | .setTextFrame t i => s.update t (ID3v2_Tag_set_text_frame · (textValue h i))
  | .setCommentFrame t i => s.update t (ID3v2_Tag_set_comment_frame · (commentValue h i))
  | .addCommentFrame t i => s.update t (ID3v2_Tag_add_comment_frame · (commentValue h i))
  | .setApicFrame t i => s.update t (ID3v2_Tag_set_apic_frame · (apicValue h i))
  | .addApicFrame t i => s.update t (ID3v2_Tag_add_apic_frame · (apicValue h i))
  | .deleteFrame t b => s.update t (ID3v2_Tag_delete_frame · (srcValue h b))
  | .deleteFrameAt t id i => s.update t (ID3v2_Tag_delete_frame_at · id i)
  | .getFrame t b => s.query t (ID3v2_Tag_get_frame · (srcValue h b))
  | .getFrames t b => s.query t (ID3v2_Tag_get_frames · (srcValue h b))
  | .writeTag t => match s.tags.lookup t with
    | none => .ub .badFree
    | some v => do
      let (f, v') ← ID3v2_write_tag s.disk v
      return fun _ => { s with tags := setAt t v' s.tags, disk := f }
  | .freeTag t => match s.tags.lookup t with
    | none => .ub .badFree
    | some v => do
      freeFrames v.frames
      return fun _ => { s with tags := s.tags.filter fun p => p.1 ≠ t }
  | .readHeaderFromBuffer b => do
    let _ ← ID3v2_read_tag_header_from_buffer (srcValue h b)
    return fun _ => s
  | .readHeader => do
    let _ ← ID3v2_read_tag_header s.disk
    return fun _ => s
  | .deleteTag => do
    let f ← ID3v2_delete_tag s.disk
    return fun _ => { s with disk := f }
  | .unlinkList _ | .freeHeader _ => .ok fun _ => s
  | .alloc b => .ok fun a => { s with buffers := (a, b) :: s.buffers }
  | .overwrite a b => .ok fun _ => { s with buffers := setAt a b s.buffers }
  | .dispose a => .ok fun _ => { s with buffers := s.buffers.filter fun p => p.1 ≠ a }
  | .changeDisk f => .ok fun _ => { s with disk := f }

/-- The pointers of the program point to tags and buffers with the given values, each in memory of its own: no block
belongs to two of them. The file is the given one. -/
def World.Holds (w : World) (s : Abs) : Prop :=
  ∃ Ts : List HTag, Ts.map (fun T => (T.addr, T.value)) = s.tags ∧ w.tags = Ts.map (·.addr) ∧
    w.buffers = s.buffers.map (·.1) ∧ w.disk = s.disk ∧
    ((Ts.flatMap HTag.blocks ++ s.buffers.map fun p => (p.1, Cell.bytes p.2)).map (·.1)).Nodup ∧
    ∀ b ∈ Ts.flatMap HTag.blocks ++ s.buffers.map (fun p => (p.1, Cell.bytes p.2)), w.heap.cells b.1 = some b.2

/-! ## Programs without leaks -/

/-- A text, comment or picture frame, with an id that says so. -/
def Known (f : Frame) : Prop :=
  match f.data with
  | .text _ => f.header.id.head? = some (some 0x54)
  | .comment _ => f.header.id.head? = some (some 0x43)
  | .apic _ => f.header.id.head? = some (some 0x41)
  | .raw _ => False

/-- All tags that the program holds have known frames only. -/
def World.AllKnown (w : World) : Prop :=
  ∀ s, w.Holds s → ∀ p ∈ s.tags, ∀ f, some f ∈ p.2.frames → Known f

/-- The states that a program can reach whose tags have known frames only, and that deletes a comment or a picture by
index only with the index 0. -/
inductive ReachableTidy [Platform] : World → Prop where
  | start (disk : File) (picks : Nat → Nat := id) : ReachableTidy (World.start disk picks)
  | step {w w' : World} {c : Call} : ReachableTidy w → w.AllKnown → (∀ t id i, c = .deleteFrameAt t id i → i = 0) →
      c.Allowed w → c.run w = .ok w' → ReachableTidy w'

/-! ## Leaks -/

/-- The states that a program can reach from a state. -/
inductive Steps [Platform] (w : World) : World → Prop where
  | refl : Steps w w
  | step {w' w'' : World} {c : Call} : Steps w w' → c.Allowed w' → c.run w' = .ok w'' → Steps w w''

/-- The blocks stay allocated, whatever the program does. -/
def Lost [Platform] (w : World) (K : List Block) : Prop :=
  (K.map (·.1)).Nodup ∧ ∀ w', Steps w w' → ∀ b ∈ K, w'.heap.cells b.1 = some b.2

/-- The data are those of a frame of an unknown kind. -/
def isRaw (f : Option Frame) : Bool :=
  match f with
  | none => false
  | some f => match f.data with
    | .raw _ => true
    | _ => false

/-- The id is that of a frame of an unknown kind. -/
def UnknownId (id : Bytes) : Prop :=
  id.head? ≠ some (some 0x54) ∧ id.head? ≠ some (some 0x43) ∧ id.head? ≠ some (some 0x41)

/-! ## How much leaks, exactly -/

/-- The number of blocks that stay allocated when a frame is freed: none if its id begins with `T`, `C` or `A`; otherwise
the frame itself and the buffers of its data. -/
def frameLeft (f : Frame) : Nat :=
  if f.header.id.head? = some (some 0x54) ∨ f.header.id.head? = some (some 0x43) ∨ f.header.id.head? = some (some 0x41)
  then 0
  else match f.data with
    | .text _ => 2
    | .comment _ => 3
    | .apic _ => 4
    | .raw _ => 1

/-- The same for the frame that `ID3v2_Tag_get_frame` finds, if it finds one. -/
def foundLeft (t : Tag) (id : Bytes) : Nat :=
  match ID3v2_Tag_get_frame t id with
  | .ok (some f) => frameLeft f
  | _ => 0

/-- The same for the place in a list with the given index, if it holds a frame. -/
def atLeft (l : FrameList) (i : Nat) : Nat :=
  match l[i]? with
  | some (some f) => frameLeft f
  | _ => 0

/-- The number of blocks that deleting by index leaves allocated. The nodes of the list that `ID3v2_Tag_get_frames` would
return are lost up to the place with the index, or all of them if there is no such place. -/
def indexLeft (t : Tag) (id : Bytes) (index : Int) : Nat :=
  match ID3v2_Tag_get_frames t id with
  | .ok l => if 0 ≤ index ∧ index < l.length then index.toNat + atLeft l index.toNat else l.length
  | _ => 0

/-- The number of blocks that a call on the tag loses. -/
def tagLeft (s : Abs) (t : Nat) (f : Tag → Nat) : Nat :=
  match s.tags.lookup t with
  | none => 0
  | some v => f v

/-- The number of blocks that a call loses: a setter and a deleter lose what is left of the frame that they free, deleting
by index loses nodes in addition, writing loses two blocks for every frame of an unknown kind (unless the list begins with
an empty node), freeing a tag loses what is left of its frames. All other calls lose nothing. -/
def Call.leak (h : Heap) (s : Abs) : Call → Nat
  | .setTextFrame t i => tagLeft s t fun v => foundLeft v (srcValue h i.id)
  | .setCommentFrame t _ => tagLeft s t fun v => foundLeft v COMMENT_ID
  | .setApicFrame t _ => tagLeft s t fun v => foundLeft v ALBUM_COVER_ID
  | .deleteFrame t b => tagLeft s t fun v => foundLeft v (srcValue h b)
  | .deleteFrameAt t id i => tagLeft s t fun v => indexLeft v id i
  | .writeTag t => tagLeft s t fun v => if v.frames.head? = some none then 0 else 2 * (v.frames.filter isRaw).length
  | .freeTag t => tagLeft s t fun v => ((v.frames.filterMap id).map frameLeft).sum
  | _ => 0

/-- The program can reach the state, and loses `n` blocks on the way. -/
inductive RunsTo [Platform] : World → Nat → Prop where
  | start (disk : File) (picks : Nat → Nat := id) : RunsTo (World.start disk picks) 0
  | step {w w' : World} {c : Call} {s : Abs} {n : Nat} : RunsTo w n → c.Allowed w → w.Holds s → c.run w = .ok w' →
      RunsTo w' (n + c.leak w.heap s)

/-- Run a program. -/
def World.runAll [Platform] (w : World) : List Call → Res World
  | [] => .ok w
  | c :: cs => do (← c.run w).runAll cs

/-- Every call of the program is allowed. -/
def World.AllowedAll [Platform] (w : World) : List Call → Prop
  | [] => True
  | c :: cs => c.Allowed w ∧ ∀ w', c.run w = .ok w' → w'.AllowedAll cs

/-- The program only works on its own buffers: it allocates, overwrites and frees them. -/
inductive CallerOnly [Platform] : World → World → Prop where
  | refl (w : World) : CallerOnly w w
  | alloc {w w' w'' : World} {b : Bytes} : CallerOnly w w' → (Call.alloc b).run w' = .ok w'' → CallerOnly w w''
  | overwrite {w w' w'' : World} {a : Nat} {b : Bytes} : CallerOnly w w' → a ∈ w'.buffers →
      (Call.overwrite a b).run w' = .ok w'' → CallerOnly w w''
  | dispose {w w' w'' : World} {a : Nat} : CallerOnly w w' → a ∈ w'.buffers →
      (Call.dispose a).run w' = .ok w'' → CallerOnly w w''

/-- The calls that put strings into a tag. -/
def IsSetter : Call → Prop
  | .setTextFrame _ _ | .setCommentFrame _ _ | .addCommentFrame _ _ | .setApicFrame _ _ | .addApicFrame _ _ => True
  | _ => False

end Id3.Spec
