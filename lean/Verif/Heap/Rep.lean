import Verif.Heap.Program

/-!
# The blocks of a tag

The separate specification of the heap properties: which blocks represent a frame or a tag, and what it means that a
heap holds exactly some blocks.
-/

namespace Id3

/-- A block: its address and what it holds. -/
abbrev Block := Nat × Cell

/-- The heap holds exactly the blocks of the list, all different. -/
structure Rep (h : Heap) (L : List Block) : Prop where
  cells : ∀ a c, h.cells a = some c ↔ (a, c) ∈ L
  nodup : (L.map (·.1)).Nodup
  bound : ∀ b ∈ L, b.1 < h.next

/-- The blocks of the `data` of a frame: the struct and the buffers it points to. -/
inductive HPayload where
  | text (d : TextFrameData) (text : Nat)
  | comment (d : CommentFrameData) (short_description comment : Nat)
  | apic (d : ApicFrameData) (mime_type description data : Nat)
  | raw (b : Bytes)

def HPayload.value : HPayload → Payload
  | .text d _ => .text d
  | .comment d _ _ => .comment d
  | .apic d _ _ _ => .apic d
  | .raw b => .raw b

/-- The struct (or, for an unknown frame, the buffer). -/
def HPayload.cell : HPayload → Cell
  | .text d t => .textData d.size d.encoding (some t)
  | .comment d s c => .commentData d.size d.encoding d.language (some s) (some c)
  | .apic d m de p => .apicData d.encoding (some m) d.picture_type (some de) (some p) d.picture_size
  | .raw b => .bytes b

/-- The buffers that the struct points to. -/
def HPayload.buffers : HPayload → List Block
  | .text d t => [(t, .bytes d.text)]
  | .comment d s c => [(s, .bytes d.short_description), (c, .bytes d.comment)]
  | .apic d m de p => [(m, .bytes d.mime_type), (de, .bytes d.description), (p, .bytes d.data)]
  | .raw _ => []

/-- A frame with the addresses of its blocks. -/
structure HFrame where
  addr : Nat
  hdr : Nat
  data : Nat
  header : FrameHeader
  payload : HPayload

def HFrame.value (f : HFrame) : Frame := { header := f.header, data := f.payload.value }

/-- The blocks of a frame. -/
def HFrame.blocks (f : HFrame) : List Block :=
  (f.addr, .frame (some f.hdr) (some f.data)) :: (f.hdr, .frameHeader f.header) ::
    (f.data, f.payload.cell) :: f.payload.buffers

/-- What is left of a frame after `ID3v2_Frame_free`: nothing, unless the id is that of an unknown frame. -/
def HFrame.leak (f : HFrame) : List Block :=
  if f.header.id.head? = some (some 0x54) ∨ f.header.id.head? = some (some 0x43) ∨
    f.header.id.head? = some (some 0x41) then []
  else (f.addr, .frame (some f.hdr) (some f.data)) :: f.payload.buffers

/-- The list nodes with the given addresses and frame pointers, as linked by `next`; `start` is NULL in a node without a
frame, and otherwise points to the first node. -/
def listNodes (head : Nat) : List (Nat × Ptr) → List Block
  | [] => []
  | (a, f) :: rest => (a, .node f (rest.head?.map (·.1)) (f.map fun _ => head)) :: listNodes head rest

/-- The address of the first node. -/
def first (sp : List (Nat × Ptr)) : Ptr := sp.head?.map (·.1)

/-- A tag with the addresses of its blocks: the tag, its header, and the list nodes with their frames. -/
structure HTag where
  addr : Nat
  hdr : Nat
  header : TagHeader
  padding_size : Int
  /-- the first list node -/
  head : Nat
  /-- the frame of the first list node -/
  frame : Option HFrame
  /-- the other nodes -/
  rest : List (Nat × Option HFrame)

/-- All list nodes. -/
def HTag.list (t : HTag) : List (Nat × Option HFrame) := (t.head, t.frame) :: t.rest

/-- The nodes with pointers to the frames. -/
def spine (l : List (Nat × Option HFrame)) : List (Nat × Ptr) := l.map fun n => (n.1, n.2.map (·.addr))

/-- The blocks of the frames of a list. -/
def frameBlocks (l : List (Nat × Option HFrame)) : List Block :=
  l.flatMap fun n => match n.2 with
    | none => []
    | some f => f.blocks

/-- The frames of a list, as values. -/
def vals (l : List (Nat × Option HFrame)) : FrameList := l.map fun n => n.2.map HFrame.value

/-- The tag as a value. -/
def HTag.value (t : HTag) : Tag :=
  { header := t.header, frames := vals t.list, padding_size := t.padding_size }

/-- The blocks of a tag. -/
def HTag.blocks (t : HTag) : List Block :=
  (t.addr, .tag (some t.hdr) (some t.head) t.padding_size) :: (t.hdr, .tagHeader t.header) ::
    (listNodes t.head (spine t.list) ++ frameBlocks t.list)

/-- A `const char*` argument gives access to the given characters, in a heap with the given blocks. -/
def Src.At (L : List Block) : Src → Bytes → Prop
  | .literal b', b => b' = b
  | .block a, b => (a, .bytes b) ∈ L
  | .frameId a, b => ∃ x, (a, .frameHeader x) ∈ L ∧ x.id = b

end Id3
