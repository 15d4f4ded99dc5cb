import Verif.Heap.CompatRep
import Verif.Spec.Session
import Verif.Spec.Compat

/-!
# Programs that use the compatibility API

A program that calls the compatibility API holds pointers to compat tags, to the contents that the `parse` functions
returned, and to buffers of its own. `CWorld` is the state of such a program, `CCall` what it can do next, `CCall.run` what
happens on the heap, `CCall.Allowed` says that the program only uses pointers that it may use, and `CCall.abs` says what
the same call does to the tags seen as values.

The library has no function that frees what a `parse` function returned. The program has to call `free` on the blocks
that were allocated for it: `release`.
-/

namespace Id3.Spec

open Id3

/-! ## What a program reads through its pointers -/

/-- A frame, with everything it points to. -/
def fetchFrame (p : Ptr) : HeapM Frame := do
  let f ← loadFrame p
  let header ← loadFrameHeader f.header
  match ← loadCell f.data with
  | .textData size encoding text =>
    let text ← loadBytes text
    return { header := header, data := .text ⟨size, encoding, text⟩ }
  | .commentData size encoding language short_description comment =>
    let short_description ← loadBytes short_description
    let comment ← loadBytes comment
    return { header := header, data := .comment ⟨size, encoding, language, short_description, comment⟩ }
  | .apicData encoding mime_type picture_type description data picture_size =>
    let mime_type ← loadBytes mime_type
    let description ← loadBytes description
    let data ← loadBytes data
    return { header := header, data := .apic ⟨encoding, mime_type, picture_type, description, data, picture_size⟩ }
  | .bytes b => return { header := header, data := .raw b }
  | _ => lift (.ub .typeConfusion)

/-- An entry (`ID3v2_frame`), with everything it points to. -/
def fetchEntry (p : Nat) : HeapM CFrame := do
  let c ← loadCFrame (some p)
  let data ← loadBytes c.data
  let frame ← fetchFrame c.frame
  return { frame_id := c.frame_id, size := c.size, flags := c.flags, data := data, frame := frame }

/-- The contents of a text frame (`ID3v2_frame_text_content`). -/
def fetchText (p : Ptr) : HeapM TextContent := do
  match ← loadCell p with
  | .textContent size encoding data =>
    let data ← loadBytes data
    return { size := size, encoding := encoding, data := data }
  | _ => lift (.ub .typeConfusion)

/-- The contents of a comment (`ID3v2_frame_comment_content`). -/
def fetchComment (p : Nat) : HeapM CommentContent := do
  match ← loadCell (some p) with
  | .commentContent language short_description text =>
    match ← loadCell language with
    | .commentData _ _ language _ _ =>
      let short_description ← loadBytes short_description
      let text ← fetchText text
      return { language := language, short_description := short_description, text := text }
    | _ => lift (.ub .typeConfusion)
  | _ => lift (.ub .typeConfusion)

/-- The contents of a picture (`ID3v2_frame_apic_content`). -/
def fetchPicture (p : Nat) : HeapM ApicContent := do
  match ← loadCell (some p) with
  | .apicContent encoding mime_type picture_type description picture_size data =>
    let mime_type ← loadBytes mime_type
    let description ← loadBytes description
    let data ← loadBytes data
    return { encoding := encoding, mime_type := mime_type, picture_type := picture_type, description := description,
             picture_size := picture_size, data := data }
  | _ => lift (.ub .typeConfusion)

/-! ## Programs -/

/-- What a pointer that the program has to free itself points to. -/
inductive Kind where
  /-- from `parse_text_frame_content` -/
  | text
  /-- from `parse_comment_frame_content` -/
  | comment
  /-- from `parse_apic_frame_content` -/
  | picture
  /-- a buffer of the program -/
  | buffer
deriving DecidableEq, Repr

/-- The state of a program: the heap, a file on disk, and the pointers that the program holds. -/
structure CWorld where
  heap : Heap
  disk : File
  tags : List Nat
  things : List (Nat × Kind)

/-- At the start nothing is allocated. -/
def CWorld.start (disk : File) (picks : Nat → Nat := id) : CWorld :=
  { heap := { cells := fun _ => none, next := 0, picks := picks }, disk := disk, tags := [], things := [] }

/-- What the program can do next. -/
inductive CCall where
  | newTag
  | loadTag
  | loadTagWithBuffer (buffer : Src) (length : Int)
  /-- the setters of the nine text fields -/
  | setText (field : Field) (text : Src) (encoding : UInt8) (tag : Nat)
  | setComment (comment : Src) (encoding : UInt8) (tag : Nat)
  | setCoverFromBytes (bytes mimetype : Src) (size : Int) (tag : Nat)
  /-- `tag_set_album_cover`: the name of the image file, and its contents -/
  | setCover (name : List UInt8) (image : File) (tag : Nat)
  /-- the getters of the nine text fields -/
  | getText (field : Field) (tag : Nat)
  | getComment (tag : Nat)
  | getCover (tag : Nat)
  | parseText (entry : Nat)
  | parseComment (entry : Nat)
  | parsePicture (entry : Nat)
  | setTag (tag : Nat)
  | removeTag
  | freeTag (tag : Nat)
  /-- the program frees something that it holds -/
  | release (kind : Kind) (a : Nat)
  /-- the program allocates a buffer of its own -/
  | alloc (contents : Bytes)
  /-- the program overwrites one of its buffers -/
  | overwrite (buffer : Nat) (contents : Bytes)
  /-- something else changes the file -/
  | changeDisk (disk : File)

/-- The pointer is that of an entry that was not freed. -/
def EntryLive (h : Heap) (p : Nat) : Prop := ∃ i n f d g, h.cells p = some (.cframe i n f d g)

/-- The pointers that a call gets are the right ones. -/
def CCall.Allowed (w : CWorld) : CCall → Prop
  | .newTag | .loadTag | .removeTag | .alloc _ | .changeDisk _ => True
  | .loadTagWithBuffer s _ => Src.Live w.heap s
  | .setText _ s _ t | .setComment s _ t => t ∈ w.tags ∧ Src.Live w.heap s
  | .setCoverFromBytes s m _ t => t ∈ w.tags ∧ Src.Live w.heap s ∧ Src.Live w.heap m
  | .setCover _ _ t | .getText _ t | .getComment t | .getCover t | .setTag t | .freeTag t => t ∈ w.tags
  | .parseText p | .parseComment p | .parsePicture p => EntryLive w.heap p
  | .release k a => (a, k) ∈ w.things
  | .overwrite a _ => (a, .buffer) ∈ w.things

/-- Run a heap program in a world. -/
def CWorld.exec {α : Type} (w : CWorld) (x : HeapM α) (k : α → Heap → CWorld) : Res CWorld := do
  let (a, h) ← x w.heap
  return k a h

/-- The setter of a field. -/
def Field.hset [Platform] : Field → Src → UInt8 → Nat → HeapM Unit
  | .title => H.tag_set_title
  | .artist => H.tag_set_artist
  | .album => H.tag_set_album
  | .albumArtist => H.tag_set_album_artist
  | .genre => H.tag_set_genre
  | .track => H.tag_set_track
  | .year => H.tag_set_year
  | .discNumber => H.tag_set_disc_number
  | .composer => H.tag_set_composer

/-- The getter of a field. -/
def Field.hget : Field → Nat → HeapM Ptr
  | .title => H.tag_get_title
  | .artist => H.tag_get_artist
  | .album => H.tag_get_album
  | .albumArtist => H.tag_get_album_artist
  | .genre => H.tag_get_genre
  | .track => H.tag_get_track
  | .year => H.tag_get_year
  | .discNumber => H.tag_get_disc_number
  | .composer => H.tag_get_composer

/-- The program frees something: the blocks that were allocated for it, not those it points into. -/
def releaseThing (kind : Kind) (a : Nat) : HeapM Unit := do
  match kind with
  | .text =>
    match ← loadCell (some a) with
    | .textContent _ _ data =>
      free data
      free (some a)
    | _ => lift (.ub .typeConfusion)
  | .comment =>
    match ← loadCell (some a) with
    | .commentContent _ _ text =>
      free text
      free (some a)
    | _ => lift (.ub .typeConfusion)
  | .picture => free (some a)
  | .buffer => free (some a)

/-- What happens. -/
def CCall.run [Platform] (w : CWorld) : CCall → Res CWorld
  | .newTag => w.exec H.new_tag fun a h => { w with heap := h, tags := a :: w.tags }
  | .loadTag => w.exec (H.load_tag w.disk) fun a h => { w with heap := h, tags := a :: w.tags }
  | .loadTagWithBuffer s n => w.exec (H.load_tag_with_buffer s n) fun a h => { w with heap := h, tags := a :: w.tags }
  | .setText f s e t => w.exec (f.hset s e t) fun _ h => { w with heap := h }
  | .setComment s e t => w.exec (H.tag_set_comment s e t) fun _ h => { w with heap := h }
  | .setCoverFromBytes s m n t => w.exec (H.tag_set_album_cover_from_bytes s m n t) fun _ h => { w with heap := h }
  | .setCover name image t => w.exec (H.tag_set_album_cover name image t) fun _ h => { w with heap := h }
  | .getText f t => w.exec (f.hget t) fun _ h => { w with heap := h }
  | .getComment t => w.exec (H.tag_get_comment t) fun _ h => { w with heap := h }
  | .getCover t => w.exec (H.tag_get_album_cover t) fun _ h => { w with heap := h }
  | .parseText p => w.exec (H.parse_text_frame_content p) fun a h => { w with heap := h, things := (a, .text) :: w.things }
  | .parseComment p => w.exec (H.parse_comment_frame_content p) fun a h =>
      { w with heap := h, things := (a, .comment) :: w.things }
  | .parsePicture p => w.exec (H.parse_apic_frame_content p) fun a h =>
      { w with heap := h, things := (a, .picture) :: w.things }
  | .setTag t => w.exec (H.set_tag w.disk t) fun f h => { w with heap := h, disk := f }
  | .removeTag => w.exec (H.remove_tag w.disk) fun f h => { w with heap := h, disk := f }
  | .freeTag t => w.exec (H.free_tag t) fun _ h => { w with heap := h, tags := w.tags.erase t }
  | .release k a => w.exec (releaseThing k a) fun _ h => { w with heap := h, things := w.things.erase (a, k) }
  | .alloc b => w.exec (malloc (.bytes b)) fun a h => { w with heap := h, things := (a, .buffer) :: w.things }
  | .overwrite a b => w.exec (storeCell (some a) (.bytes b)) fun _ h => { w with heap := h }
  | .changeDisk f => .ok { w with disk := f }

/-- The states that a program can reach. -/
inductive CReachable [Platform] : CWorld → Prop where
  | start (disk : File) (picks : Nat → Nat := id) : CReachable (CWorld.start disk picks)
  | step {w w' : CWorld} {c : CCall} : CReachable w → c.Allowed w → c.run w = .ok w' → CReachable w'

/-! ## The tags as values -/

/-- Something that the program has to free itself, as a value. The contents of a comment or a picture have no value of
their own: they point into a tag. -/
inductive Thing where
  | text (c : TextContent)
  | comment
  | picture
  | buffer (b : Bytes)
deriving DecidableEq, Repr

def Thing.kind : Thing → Kind
  | .text _ => .text
  | .comment => .comment
  | .picture => .picture
  | .buffer _ => .buffer

/-- The compat tags, and the other things that the program holds, by their pointers, and the file. -/
structure CAbs where
  tags : List (Nat × CTag)
  things : List (Nat × Thing)
  disk : File

/-- A value-level function on the tag with the given pointer. -/
def CAbs.update (s : CAbs) (a : Nat) (f : CTag → Res CTag) : Res (Nat → CAbs) :=
  match s.tags.lookup a with
  | none => .ub .badFree
  | some t => do
    let t' ← f t
    return fun _ => { s with tags := setAt a t' s.tags }

/-- A value-level getter on the tag with the given pointer. -/
def CAbs.query {α : Type} (s : CAbs) (a : Nat) (f : CTag → Res α) : Res (Nat → CAbs) :=
  match s.tags.lookup a with
  | none => .ub .badFree
  | some t => do
    let _ ← f t
    return fun _ => s

/-- What a call does to the tags, according to the value-level model. The result depends on the new pointer, if there is
one. The heap is used only to look up the strings that the arguments point to, and the entry that is parsed. -/
def CCall.abs [Platform] (h : Heap) (s : CAbs) : CCall → Res (Nat → CAbs)
  | .newTag => .ok fun a => { s with tags := (a, new_tag) :: s.tags }
  | .loadTag => do
    let t ← load_tag s.disk
    return fun a => { s with tags := (a, t) :: s.tags }
  | .loadTagWithBuffer b n => do
    let t ← load_tag_with_buffer (srcValue h b) n
    return fun a => { s with tags := (a, t) :: s.tags }
  | .setText f b e t => s.update t (f.set (srcValue h b) e)
  | .setComment b e t => s.update t (tag_set_comment (srcValue h b) e)
  | .setCoverFromBytes b m n t => s.update t (tag_set_album_cover_from_bytes (srcValue h b) (srcValue h m) n)
  | .setCover name image t => s.update t (tag_set_album_cover name image)
  | .getText f t => s.query t f.get
  | .getComment t => s.query t tag_get_comment
  | .getCover t => s.query t tag_get_album_cover
  | .parseText p => do
    let (c, _) ← fetchEntry p h
    let v ← parse_text_frame_content c
    return fun a => { s with things := (a, .text v) :: s.things }
  | .parseComment p => do
    let (c, _) ← fetchEntry p h
    let _ ← parse_comment_frame_content c
    return fun a => { s with things := (a, .comment) :: s.things }
  | .parsePicture p => do
    let (c, _) ← fetchEntry p h
    let _ ← parse_apic_frame_content c
    return fun a => { s with things := (a, .picture) :: s.things }
  | .setTag t => match s.tags.lookup t with
    | none => .ub .badFree
    | some v => do
      let (f, v') ← set_tag s.disk v
      return fun _ => { s with tags := setAt t v' s.tags, disk := f }
  | .removeTag => do
    let f ← remove_tag s.disk
    return fun _ => { s with disk := f }
  | .freeTag t => match s.tags.lookup t with
    | none => .ub .badFree
    | some v => do
      free_tag v
      return fun _ => { s with tags := s.tags.filter fun p => p.1 ≠ t }
  | .release _ a => .ok fun _ => { s with things := s.things.filter fun p => p.1 ≠ a }
  | .alloc b => .ok fun a => { s with things := (a, .buffer b) :: s.things }
  | .overwrite a b => .ok fun _ => { s with things := setAt a (.buffer b) s.things }
  | .changeDisk f => .ok fun _ => { s with disk := f }

/-- Something that the program has to free itself, with the addresses of its blocks. -/
inductive HThing where
  | text (addr data : Nat) (c : TextContent)
  /-- `language`, `short_description` and `comment` point into a frame -/
  | comment (addr text : Nat) (language short_description : Ptr) (size : Int) (encoding : UInt8) (comment : Ptr)
  /-- `mime_type`, `description` and `data` point into a frame -/
  | picture (addr : Nat) (encoding : UInt8) (mime_type : Ptr) (picture_type : UInt8) (description : Ptr)
      (picture_size : Int) (data : Ptr)
  | buffer (addr : Nat) (b : Bytes)

def HThing.addr : HThing → Nat
  | .text a _ _ => a
  | .comment a _ _ _ _ _ _ => a
  | .picture a _ _ _ _ _ _ => a
  | .buffer a _ => a

def HThing.blocks : HThing → List Block
  | .text a d c => [(a, .textContent c.size c.encoding (some d)), (d, .bytes c.data)]
  | .comment a t l s n e c => [(a, .commentContent l s (some t)), (t, .textContent n e c)]
  | .picture a e m t d n p => [(a, .apicContent e m t d n p)]
  | .buffer a b => [(a, .bytes b)]

def HThing.value : HThing → Thing
  | .text _ _ c => .text c
  | .comment _ _ _ _ _ _ _ => .comment
  | .picture _ _ _ _ _ _ _ => .picture
  | .buffer _ b => .buffer b

/-- The pointers of the program point to compat tags and to other things with the given values, each in memory of its own:
no block belongs to two of them. The file is the given one. -/
def CWorld.Holds (w : CWorld) (s : CAbs) : Prop :=
  ∃ (Cs : List HCTag) (Os : List HThing), Cs.map (fun C => (C.addr, C.value)) = s.tags ∧ w.tags = Cs.map (·.addr) ∧
    (∀ C ∈ Cs, C.Linked) ∧ Os.map (fun O => (O.addr, O.value)) = s.things ∧
    w.things = Os.map (fun O => (O.addr, O.value.kind)) ∧ w.disk = s.disk ∧
    ((Cs.flatMap HCTag.blocks ++ Os.flatMap HThing.blocks).map (·.1)).Nodup ∧
    ∀ b ∈ Cs.flatMap HCTag.blocks ++ Os.flatMap HThing.blocks, w.heap.cells b.1 = some b.2

/-! ## What invalidates a pointer -/

/-- The tag and the frame id of a setter. -/
def CCall.sets : CCall → Option (Nat × List UInt8)
  | .setText f _ _ t => some (t, f.id)
  | .setComment _ _ t => some (t, [0x43, 0x4F, 0x4D, 0x4D])
  | .setCoverFromBytes _ _ _ t => some (t, [0x41, 0x50, 0x49, 0x43])
  | .setCover _ _ t => some (t, [0x41, 0x50, 0x49, 0x43])
  | _ => none

/-- The call frees neither the tag, nor does it set the field with the id in that tag. -/
def CCall.Spares (c : CCall) (t : Nat) (id : List UInt8) : Prop := c ≠ .freeTag t ∧ c.sets ≠ some (t, id)

/-- The call does not free the thing, and does not overwrite it. -/
def CCall.Leaves (c : CCall) (a : Nat) : Prop := (∀ k, c ≠ .release k a) ∧ ∀ b, c ≠ .overwrite a b

/-- The states that a program can reach from a state with calls that all have a property. -/
inductive CSteps [Platform] (ok : CCall → Prop) (w : CWorld) : CWorld → Prop where
  | refl : CSteps ok w w
  | step {w' w'' : CWorld} {c : CCall} : CSteps ok w w' → ok c → c.Allowed w' → c.run w' = .ok w'' → CSteps ok w w''

/-- What the getters of the compatibility API ask for. -/
inductive Slot where
  | text (field : Field)
  | comment
  | cover
deriving DecidableEq, Repr

/-- The frame id. -/
def Slot.id : Slot → List UInt8
  | .text f => f.id
  | .comment => [0x43, 0x4F, 0x4D, 0x4D]
  | .cover => [0x41, 0x50, 0x49, 0x43]

/-- The getter: a pointer to an entry. -/
def Slot.hget : Slot → Nat → HeapM Ptr
  | .text f => f.hget
  | .comment => H.tag_get_comment
  | .cover => H.tag_get_album_cover

/-- The getter, on values. -/
def Slot.get : Slot → CTag → Res (Option CFrame)
  | .text f => f.get
  | .comment => tag_get_comment
  | .cover => tag_get_album_cover

/-! ## Leaks -/

/-- The blocks stay allocated, whatever the program does. -/
def CLost [Platform] (w : CWorld) (K : List Block) : Prop :=
  (K.map (·.1)).Nodup ∧ ∀ w', CSteps (fun _ => True) w w' → ∀ b ∈ K, w'.heap.cells b.1 = some b.2

/-- All tags that the program holds have known frames only. -/
def CWorld.AllKnown (w : CWorld) : Prop :=
  ∀ s, w.Holds s → ∀ p ∈ s.tags, ∀ f, some f ∈ p.2.tag.frames → Known f

/-- The states that a program can reach whose tags have known frames only, at any time. -/
inductive CReachableTidy [Platform] : CWorld → Prop where
  | start (disk : File) (picks : Nat → Nat := id) : CReachableTidy (CWorld.start disk picks)
  | step {w w' : CWorld} {c : CCall} : CReachableTidy w → c.Allowed w → c.run w = .ok w' → w'.AllKnown →
      CReachableTidy w'

/-! ## How much leaks, exactly -/

/-- Two blocks for every frame of an unknown kind. -/
def rawLeft (t : CTag) : Nat := 2 * (t.tag.frames.filter isRaw).length

/-- The number of blocks that a call on the tag loses. -/
def ctagLeft (s : CAbs) (t : Nat) (f : CTag → Nat) : Nat :=
  match s.tags.lookup t with
  | none => 0
  | some v => f v

/-- The number of blocks that a call of the compatibility API loses: loading a tag and writing one lose two blocks for
every frame of an unknown kind (unless, when writing, the list of frames begins with an empty node), freeing a tag loses
what is left of its frames. All other calls lose nothing. -/
def CCall.leak [Platform] (h : Heap) (s : CAbs) : CCall → Nat
  | .loadTag => match load_tag s.disk with
    | .ok t => rawLeft t
    | _ => 0
  | .loadTagWithBuffer b n => match load_tag_with_buffer (srcValue h b) n with
    | .ok t => rawLeft t
    | _ => 0
  | .setTag t => ctagLeft s t fun v => if v.tag.frames.head? = some none then 0 else rawLeft v
  | .freeTag t => ctagLeft s t fun v => ((v.tag.frames.filterMap id).map frameLeft).sum
  | _ => 0

/-- The program can reach the state, and loses `n` blocks on the way. -/
inductive CRunsTo [Platform] : CWorld → Nat → Prop where
  | start (disk : File) (picks : Nat → Nat := id) : CRunsTo (CWorld.start disk picks) 0
  | step {w w' : CWorld} {c : CCall} {s : CAbs} {n : Nat} : CRunsTo w n → c.Allowed w → w.Holds s → c.run w = .ok w' →
      CRunsTo w' (n + c.leak w.heap s)

/-- Run a program. -/
def crunCalls [Platform] (w : CWorld) : List CCall → Res CWorld
  | [] => .ok w
  | c :: cs => do crunCalls (← c.run w) cs

/-- Every call of the program is allowed. -/
def CAllowedCalls [Platform] (w : CWorld) : List CCall → Prop
  | [] => True
  | c :: cs => c.Allowed w ∧ ∀ w', c.run w = .ok w' → CAllowedCalls w' cs

end Id3.Spec
