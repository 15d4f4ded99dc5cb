import Verif.Heap.Rep
import Verif.Heap.CompatProgram

/-!
# The blocks of a compat tag

The separate specification of the heap properties of the compatibility API: which blocks represent an entry or a compat
tag, and how the entries are linked to the frames of the tag.
-/

namespace Id3

/-- An entry (`ID3v2_frame`) with the addresses of its blocks, and the frame it points to. -/
structure HCFrame where
  addr : Nat
  data : Nat
  frame_id : Bytes
  size : Int
  flags : Bytes
  /-- what `data` points to -/
  bytes : Bytes
  /-- the frame that `frame` points to -/
  frame : HFrame

def HCFrame.value (c : HCFrame) : CFrame :=
  { frame_id := c.frame_id, size := c.size, flags := c.flags, data := c.bytes, frame := c.frame.value }

/-- The blocks of an entry: the struct and the data. The frame belongs to the tag. -/
def HCFrame.blocks (c : HCFrame) : List Block :=
  [(c.addr, .cframe c.frame_id c.size c.flags (some c.data) (some c.frame.addr)), (c.data, .bytes c.bytes)]

/-- The nodes of a compat list; `last` is that of the first node, the other nodes have none. -/
def cnodes (head : Nat) (last : Option Ptr) : List (Nat × Ptr) → List Block
  | [] => []
  | (a, f) :: rest => (a, .cnode f (rest.head?.map (·.1)) (f.map fun _ => head) last) :: cnodes head none rest

/-- The nodes with pointers to the entries. -/
def cspine (l : List (Nat × Option HCFrame)) : List (Nat × Ptr) := l.map fun n => (n.1, n.2.map (·.addr))

/-- The blocks of the entries of a list. -/
def centries (l : List (Nat × Option HCFrame)) : List Block :=
  l.flatMap fun n => match n.2 with
    | none => []
    | some c => c.blocks

/-- The entries of a list, as values. -/
def cvals (l : List (Nat × Option HCFrame)) : CList := l.map fun n => n.2.map HCFrame.value

/-- A compat tag (`ID3v2_tag`) with the addresses of its blocks. -/
structure HCTag where
  addr : Nat
  hdr : Nat
  /-- the copy of the tag; `none` when the pointer is indeterminate -/
  raw : Option (Nat × Bytes)
  header : CHeader
  /-- the first list node -/
  head : Nat
  last : Option Ptr
  /-- the entry of the first list node -/
  entry : Option HCFrame
  /-- the other nodes -/
  rest : List (Nat × Option HCFrame)
  tag : HTag

/-- All list nodes. -/
def HCTag.list (c : HCTag) : List (Nat × Option HCFrame) := (c.head, c.entry) :: c.rest

/-- The compat tag as a value. -/
def HCTag.value (c : HCTag) : CTag :=
  { raw := c.raw.map (·.2), tag_header := c.header, frames := cvals c.list, tag := c.tag.value }

/-- The block of the copy of the tag. -/
def HCTag.rawBlock (c : HCTag) : List Block :=
  match c.raw with
  | none => []
  | some (a, b) => [(a, .bytes b)]

/-- The blocks of a compat tag, with those of the tag it wraps. -/
def HCTag.blocks (c : HCTag) : List Block :=
  (c.addr, .ctag (c.raw.map fun p => some p.1) (some c.hdr) (some c.head) (some c.tag.addr)) ::
    (c.hdr, .cheader c.header) :: (c.rawBlock ++
      (cnodes c.head c.last (cspine c.list) ++ (centries c.list ++ c.tag.blocks)))

/-- The entries are those of the frames of the tag: the i-th entry points to the i-th frame, and has its id. -/
structure HCTag.Linked (c : HCTag) : Prop where
  frames : c.list.map (fun n => n.2.map (·.frame)) = c.tag.list.map (·.2)
  ids : ∀ n e, (n, some e) ∈ c.list → memcpySrc e.frame.header.id 4 = .ok e.frame_id

end Id3
