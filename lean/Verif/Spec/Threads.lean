import Verif.Thread.Program
import Verif.Spec.CompatSession

/-!
# Programs with several threads

Any number of threads use the library at the same time, some of them the API of id3v2lib.h and some of them the
compatibility API. They share the memory. A call is not one step: between any two memory accesses of one thread the other
threads can make any number of accesses. Every thread uses only what it got itself: its own tags, its own buffers and its
own file.
-/

namespace Id3.Spec

open Id3

/-! ## Threads -/

/-- What a thread that uses id3v2lib.h knows: its file, and the pointers that it holds. -/
structure Local where
  disk : File
  tags : List Nat
  lists : List Nat
  headers : List Nat
  buffers : List Nat

/-- The state of a program with that thread only. -/
def Local.world (l : Local) (h : Heap) : World :=
  { heap := h, disk := l.disk, tags := l.tags, lists := l.lists, headers := l.headers, buffers := l.buffers }

/-- What a thread that uses the compatibility API knows. -/
structure CLocal where
  disk : File
  tags : List Nat
  things : List (Nat × Kind)

/-- The state of a program with that thread only. -/
def CLocal.world (l : CLocal) (h : Heap) : CWorld :=
  { heap := h, disk := l.disk, tags := l.tags, things := l.things }

/-- What a thread knows. -/
inductive Client where
  | current (l : Local)
  | compat (l : CLocal)

/-- A call of a thread. -/
inductive AnyCall where
  | current (c : Call)
  | compat (c : CCall)

/-- The call, as a sequence of accesses; the result is what the thread knows afterwards. -/
def Call.prog [Platform] (l : Local) : Call → Prog Local
  | .newTag => do return { l with tags := (← T.ID3v2_Tag_new none) :: l.tags }
  | .readTagFromBuffer s n => do return { l with tags := hold (← T.ID3v2_read_tag_from_buffer s n) l.tags }
  | .readTag => do return { l with tags := hold (← T.ID3v2_read_tag l.disk) l.tags }
  | .setTextFrame t i => do T.ID3v2_Tag_set_text_frame t i; return l
  | .setCommentFrame t i => do T.ID3v2_Tag_set_comment_frame t i; return l
  | .addCommentFrame t i => do T.ID3v2_Tag_add_comment_frame t i; return l
  | .setApicFrame t i => do T.ID3v2_Tag_set_apic_frame t i; return l
  | .addApicFrame t i => do T.ID3v2_Tag_add_apic_frame t i; return l
  | .deleteFrame t s => do T.ID3v2_Tag_delete_frame t s; return l
  | .deleteFrameAt t id i => do T.ID3v2_Tag_delete_frame_at t id i; return l
  | .getFrame t s => do let _ ← T.ID3v2_Tag_get_frame t s; return l
  | .getFrames t s => do return { l with lists := (← T.ID3v2_Tag_get_frames t s) :: l.lists }
  | .writeTag t => do return { l with disk := ← T.ID3v2_write_tag l.disk t }
  | .freeTag t => do T.ID3v2_Tag_free t; return { l with tags := l.tags.erase t }
  | .unlinkList p => do T.ID3v2_FrameList_unlink (← T.heapFuel) (some p); return { l with lists := l.lists.erase p }
  | .readHeaderFromBuffer s => do return { l with headers := hold (← T.ID3v2_read_tag_header_from_buffer s) l.headers }
  | .readHeader => do return { l with headers := hold (← T.ID3v2_read_tag_header l.disk) l.headers }
  | .freeHeader p => do T.free (some p); return { l with headers := l.headers.erase p }
  | .deleteTag => do return { l with disk := ← T.ID3v2_delete_tag l.disk }
  | .alloc b => do return { l with buffers := (← T.malloc (.bytes b)) :: l.buffers }
  | .overwrite p b => do T.storeCell (some p) (.bytes b); return l
  | .dispose p => do T.free (some p); return { l with buffers := l.buffers.erase p }
  | .changeDisk f => return { l with disk := f }

/-- The setter of a field. -/
def Field.pset [Platform] : Field → Src → UInt8 → Nat → Prog Unit
  | .title => T.tag_set_title
  | .artist => T.tag_set_artist
  | .album => T.tag_set_album
  | .albumArtist => T.tag_set_album_artist
  | .genre => T.tag_set_genre
  | .track => T.tag_set_track
  | .year => T.tag_set_year
  | .discNumber => T.tag_set_disc_number
  | .composer => T.tag_set_composer

/-- The getter of a field. -/
def Field.pget : Field → Nat → Prog Ptr
  | .title => T.tag_get_title
  | .artist => T.tag_get_artist
  | .album => T.tag_get_album
  | .albumArtist => T.tag_get_album_artist
  | .genre => T.tag_get_genre
  | .track => T.tag_get_track
  | .year => T.tag_get_year
  | .discNumber => T.tag_get_disc_number
  | .composer => T.tag_get_composer

/-- The thread frees something: the blocks that were allocated for it, not those it points into. -/
def releaseProg (kind : Kind) (a : Nat) : Prog Unit := do
  match kind with
  | .text =>
    match ← T.loadCell (some a) with
    | .textContent _ _ data =>
      T.free data
      T.free (some a)
    | _ => T.lift (.ub .typeConfusion)
  | .comment =>
    match ← T.loadCell (some a) with
    | .commentContent _ _ text =>
      T.free text
      T.free (some a)
    | _ => T.lift (.ub .typeConfusion)
  | .picture => T.free (some a)
  | .buffer => T.free (some a)

/-- The call, as a sequence of accesses; the result is what the thread knows afterwards. -/
def CCall.prog [Platform] (l : CLocal) : CCall → Prog CLocal
  | .newTag => do return { l with tags := (← T.new_tag) :: l.tags }
  | .loadTag => do return { l with tags := (← T.load_tag l.disk) :: l.tags }
  | .loadTagWithBuffer s n => do return { l with tags := (← T.load_tag_with_buffer s n) :: l.tags }
  | .setText f s e t => do f.pset s e t; return l
  | .setComment s e t => do T.tag_set_comment s e t; return l
  | .setCoverFromBytes s m n t => do T.tag_set_album_cover_from_bytes s m n t; return l
  | .setCover name image t => do T.tag_set_album_cover name image t; return l
  | .getText f t => do let _ ← f.pget t; return l
  | .getComment t => do let _ ← T.tag_get_comment t; return l
  | .getCover t => do let _ ← T.tag_get_album_cover t; return l
  | .parseText p => do return { l with things := (← T.parse_text_frame_content p, .text) :: l.things }
  | .parseComment p => do return { l with things := (← T.parse_comment_frame_content p, .comment) :: l.things }
  | .parsePicture p => do return { l with things := (← T.parse_apic_frame_content p, .picture) :: l.things }
  | .setTag t => do return { l with disk := ← T.set_tag l.disk t }
  | .removeTag => do return { l with disk := ← T.remove_tag l.disk }
  | .freeTag t => do T.free_tag t; return { l with tags := l.tags.erase t }
  | .release k a => do releaseProg k a; return { l with things := l.things.erase (a, k) }
  | .alloc b => do return { l with things := (← T.malloc (.bytes b), .buffer) :: l.things }
  | .overwrite a b => do T.storeCell (some a) (.bytes b); return l
  | .changeDisk f => return { l with disk := f }

/-- A thread: what it still has to do, and a number above all addresses that it got from `malloc`. A thread between two
calls has nothing to do, and `prog` is `ret l`. -/
structure Thread where
  prog : Prog Client
  bound : Nat

/-- The threads and their memory. Nothing is allocated from `next` on. For every block it is recorded which thread
allocated it; what the threads do does not depend on that. -/
structure Shared where
  cells : Nat → Option Cell
  next : Nat
  owner : Nat → Nat
  threads : Nat → Thread

/-- The part of the memory that the thread allocated. The number `bound` limits the loops over lists, and `picks` are the
next results of `malloc`; no theorem depends on them. -/
def Shared.heap (s : Shared) (i : Nat) (picks : Nat → Nat := fun _ => 0) : Heap :=
  { cells := fun a => if s.owner a = i then s.cells a else none, next := (s.threads i).bound, picks := picks }

/-- The pointers that a call gets are the right ones, and the thread got them itself. -/
def AnyCall.Allowed (h : Heap) : Client → AnyCall → Prop
  | .current l, .current c => c.Allowed (l.world h)
  | .compat l, .compat c => c.Allowed (l.world h)
  | _, _ => False

/-- What a thread does if it makes a call. -/
def AnyCall.prog [Platform] : Client → AnyCall → Prog Client
  | .current l, .current c => do return .current (← c.prog l)
  | .compat l, .compat c => do return .compat (← c.prog l)
  | l, _ => .ret l

/-- The thread goes on. -/
def Shared.go (s : Shared) (i : Nat) (p : Prog Client) : Shared :=
  { s with threads := fun j => if j = i then { s.threads i with prog := p } else s.threads j }

/-- The contents of a block changed. -/
def Shared.set (s : Shared) (a : Nat) (c : Option Cell) : Shared :=
  { s with cells := fun x => if x = a then c else s.cells x }

/-- What a thread does in a step: it begins a call, or it makes the next access of its call. -/
inductive Event where
  | begin (c : AnyCall)
  | access

/-- A step of a thread. A step is possible on every block that is allocated, also on those of other threads. -/
inductive Step [Platform] (i : Nat) : Shared → Event → Shared → Prop where
  | begin {s : Shared} {l : Client} {c : AnyCall} : (s.threads i).prog = .ret l → c.Allowed (s.heap i) l →
      Step i s (.begin c) (s.go i (c.prog l))
  /-- `malloc` returns any address that is not allocated, also that of a block that any thread has freed -/
  | malloc {s : Shared} {c : Cell} {k : Nat → Prog Client} (a : Nat) : (s.threads i).prog = .malloc c k →
      s.cells a = none → Step i s .access
        { cells := fun x => if x = a then some c else s.cells x
          next := max s.next (a + 1)
          owner := fun x => if x = a then i else s.owner x
          threads := fun j => if j = i then ⟨k a, max (s.threads i).bound (a + 1)⟩ else s.threads j }
  | free {s : Shared} {a : Nat} {c : Cell} {k : Prog Client} : (s.threads i).prog = .free a k → s.cells a = some c →
      Step i s .access ((s.set a none).go i k)
  | load {s : Shared} {a : Nat} {c : Cell} {k : Cell → Prog Client} : (s.threads i).prog = .load a k →
      s.cells a = some c → Step i s .access (s.go i (k c))
  | store {s : Shared} {a : Nat} {c c' : Cell} {k : Prog Client} : (s.threads i).prog = .store a c' k →
      s.cells a = some c → Step i s .access ((s.set a (some c')).go i k)
  | fuel {s : Shared} {k : Nat → Prog Client} : (s.threads i).prog = .fuel k →
      Step i s .access (s.go i (k ((s.threads i).bound + 1)))

/-- Some steps of some threads: who does what. -/
inductive Exec [Platform] (s : Shared) : List (Nat × Event) → Shared → Prop where
  | refl : Exec s [] s
  | step {s' s'' : Shared} {es : List (Nat × Event)} {i : Nat} {e : Event} : Exec s es s' → Step i s' e s'' →
      Exec s (es ++ [(i, e)]) s''

/-- What a thread knows at the start: it has a file, and no pointers. -/
def Client.Fresh : Client → Prop
  | .current l => l.tags = [] ∧ l.lists = [] ∧ l.headers = [] ∧ l.buffers = []
  | .compat l => l.tags = [] ∧ l.things = []

/-- The threads at the start. -/
def Shared.start (clients : Nat → Client) : Shared :=
  { cells := fun _ => none, next := 0, owner := fun _ => 0, threads := fun i => ⟨.ret (clients i), 0⟩ }

/-- The states that the threads can reach, under every schedule. -/
def Shared.Reachable [Platform] (s : Shared) : Prop :=
  ∃ clients es, (∀ i, (clients i).Fresh) ∧ Exec (Shared.start clients) es s

/-- The thread is between two calls. -/
def Shared.Idle (s : Shared) (i : Nat) (l : Client) : Prop := (s.threads i).prog = .ret l

/-- The block that the next access of a thread is about, if it is an access to a block. -/
def Shared.target (s : Shared) (i : Nat) : Option Nat :=
  match (s.threads i).prog with
  | .free a _ => some a
  | .load a _ => some a
  | .store a _ _ => some a
  | _ => none

/-- What one thread does. -/
def eventsOf (i : Nat) (es : List (Nat × Event)) : List Event := (es.filter (·.1 = i)).map (·.2)

/-- A thread makes a call, from its first step to its last one; the others do anything in the meantime. -/
def Shared.Calls [Platform] (s : Shared) (i : Nat) (c : AnyCall) (s' : Shared) : Prop :=
  ∃ es n, Exec s es s' ∧ eventsOf i es = .begin c :: List.replicate n .access ∧ ∃ l, s'.Idle i l

end Id3.Spec
