import Verif.Spec.Threads

/-!
# Time: how many memory accesses a call makes
-/

namespace Id3.Prog

/-- The number of accesses (`malloc`, `free`, reading or assigning to a block) that the program makes when no other one runs,
up to its end, also if that is undefined behaviour. Computations without an access are not counted. -/
def accesses {α : Type} : Prog α → Heap → Nat
  | ret _, _ => 0
  | ub _, _ => 0
  | exit, _ => 0
  | hang, _ => 0
  | malloc c k, h => 1 + match Id3.malloc c h with
    | .ok (a, h') => (k a).accesses h'
    | _ => 0
  | free a k, h => 1 + match Id3.free (some a) h with
    | .ok (_, h') => k.accesses h'
    | _ => 0
  | load a k, h => 1 + match loadCell (some a) h with
    | .ok (c, h') => (k c).accesses h'
    | _ => 0
  | store a c k, h => 1 + match storeCell (some a) c h with
    | .ok (_, h') => k.accesses h'
    | _ => 0
  | fuel k, h => (k (h.next + 1)).accesses h

end Id3.Prog

namespace Id3.Spec

open Id3

/-- Accesses to make a frame while it is read: its blocks, and copies of its header. -/
def parseAccesses (f : Frame) : Nat :=
  match f.data with
  | .text _ => 10
  | .comment _ => 11
  | .apic _ => 12
  | .raw _ => 4

/-- Accesses to append a frame to a list with so many frames: all of them are looked at. -/
def appendAccesses : Nat → Nat
  | 0 => 2
  | n + 1 => n + 6

/-- Accesses to read frames, one after the other, if there are `n` already. -/
def framesAccesses : Nat → List Frame → Nat
  | _, [] => 0
  | n, f :: fs => parseAccesses f + appendAccesses n + framesAccesses (n + 1) fs

/-- Accesses that are enough to read a buffer of `n` bytes, in which there can be `n / 6` frames. -/
def readMost (n : Int) : Nat := n.toNat / 6 * (n.toNat / 6 + 33) / 2 + 12

/-- Accesses that are enough to read a file: its header says how many bytes are read. -/
def fileMost [Platform] (file : File) : Nat :=
  match ID3v2_read_tag_header file with
  | .ok (some x) => readMost (toInt32 (u32 (x.tag_size + 10))) + 12
  | _ => 8

/-- The number of nodes of the list of a tag: its frames, and one more for a tag without frames. -/
def nodesOf (s : Abs) (t : Nat) : Nat :=
  match s.tags.lookup t with
  | some v => v.frames.length
  | none => 0

/-- Accesses that are enough for a call, in a program with the tags `s` and so many allocated blocks. -/
def Call.most [Platform] (s : Abs) (blocks : Nat) : Call → Nat
  | .newTag => 4
  | .readTagFromBuffer _ n => readMost n + 1
  | .readTag => fileMost s.disk
  | .setTextFrame t _ => 4 * nodesOf s t + 28
  | .setCommentFrame t _ => 4 * nodesOf s t + 30
  | .addCommentFrame t _ => nodesOf s t + 22
  | .setApicFrame t _ => 4 * nodesOf s t + 31
  | .addApicFrame t _ => nodesOf s t + 23
  | .deleteFrame t _ => 3 * nodesOf s t + 21
  | .deleteFrameAt t _ _ => nodesOf s t * (nodesOf s t + 12) + 17
  | .getFrame t _ => 3 * nodesOf s t + 2
  | .getFrames t _ => nodesOf s t * (nodesOf s t + 9) + 3
  | .writeTag t => 21 * nodesOf s t + 23
  | .freeTag t => 13 * nodesOf s t + 3
  | .unlinkList _ => 2 * blocks
  | .readHeaderFromBuffer _ => 8
  | .readHeader => 8
  | .freeHeader _ => 1
  | .deleteTag => 10
  | .alloc _ => 1
  | .overwrite _ _ => 1
  | .dispose _ => 1
  | .changeDisk _ => 0

/-- The number of entries of a compat tag, and one for a tag without entries. -/
def entriesOf (s : CAbs) (t : Nat) : Nat :=
  match s.tags.lookup t with
  | some v => v.frames.length
  | none => 0

/-- Accesses that are enough to load a buffer of `n` bytes with the compatibility API: those to read it, and those to make an
entry for each frame. -/
def loadMost (n : Int) : Nat := readMost n + 34 * (n.toNat / 6) + 12

/-- Accesses that are enough to load a file with the compatibility API. -/
def loadFileMost [Platform] (file : File) : Nat :=
  match ID3v2_read_tag_header file with
  | .ok (some x) => loadMost (toInt32 (u32 (x.tag_size + 10))) + 12
  | _ => 8

/-- Accesses that are enough for a call of the compatibility API, in a program with the tags `s`. -/
def CCall.most [Platform] (s : CAbs) : CCall → Nat
  | .newTag => 8
  | .loadTag => loadFileMost s.disk
  | .loadTagWithBuffer _ n => loadMost n
  | .setText _ _ _ t => 10 * entriesOf s t + 64
  | .setComment _ _ t => 10 * entriesOf s t + 66
  | .setCoverFromBytes _ _ _ t => 10 * entriesOf s t + 67
  | .setCover _ _ t => 10 * entriesOf s t + 69
  | .getText _ t => 2 * entriesOf s t + 1
  | .getComment t => 2 * entriesOf s t + 1
  | .getCover t => 2 * entriesOf s t + 1
  | .parseText _ => 7
  | .parseComment _ => 6
  | .parsePicture _ => 5
  | .setTag t => 21 * entriesOf s t + 24
  | .removeTag => 10
  | .freeTag t => 19 * entriesOf s t + 9
  | .release _ _ => 3
  | .alloc _ => 1
  | .overwrite _ _ => 1
  | .changeDisk _ => 0

/-- Reading takes at most `c` accesses for each byte. -/
def LinearReading [Platform] (c : Nat) : Prop :=
  ∀ (h : Heap) (X : List Block), Rep h X → ∀ b : List UInt8, b.length ≤ 2147483647 →
    (T.ID3v2_read_tag_from_buffer (.literal (ofB b)) b.length).accesses h ≤ c * (b.length + 1)

end Id3.Spec
