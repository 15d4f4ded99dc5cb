import Verif.Thread.Core
import Verif.Heap.CompatProgram

/-!
# The library as sequences of memory accesses

The functions of Verif/Heap/Program.lean and Verif/Heap/CompatProgram.lean, as programs that make one access after the
other. After each definition the instance of `Same` proves that the program does what the function of the same name does.
-/

namespace Id3.T

open Id3

/-- Typed access: through a pointer to another kind of object it is type confusion. -/
def loadNode (p : Ptr) : Prog Node := do
  match ← loadCell p with
  | .node f n s => return ⟨f, n, s⟩
  | _ => lift (.ub .typeConfusion)

instance (p : Ptr) : Same (loadNode p) (Id3.loadNode p) := ⟨by
  unfold loadNode Id3.loadNode
  same⟩

/-- Typed access: through a pointer to another kind of object it is type confusion. -/
def loadFrame (p : Ptr) : Prog FrameStruct := do
  match ← loadCell p with
  | .frame h d => return ⟨h, d⟩
  | _ => lift (.ub .typeConfusion)

instance (p : Ptr) : Same (loadFrame p) (Id3.loadFrame p) := ⟨by
  unfold loadFrame Id3.loadFrame
  same⟩

/-- Typed access: through a pointer to another kind of object it is type confusion. -/
def loadFrameHeader (p : Ptr) : Prog FrameHeader := do
  match ← loadCell p with
  | .frameHeader h => return h
  | _ => lift (.ub .typeConfusion)

instance (p : Ptr) : Same (loadFrameHeader p) (Id3.loadFrameHeader p) := ⟨by
  unfold loadFrameHeader Id3.loadFrameHeader
  same⟩

/-- Typed access: through a pointer to another kind of object it is type confusion. -/
def loadTag (p : Ptr) : Prog TagStruct := do
  match ← loadCell p with
  | .tag h f s => return ⟨h, f, s⟩
  | _ => lift (.ub .typeConfusion)

instance (p : Ptr) : Same (loadTag p) (Id3.loadTag p) := ⟨by
  unfold loadTag Id3.loadTag
  same⟩

/-- Typed access: through a pointer to another kind of object it is type confusion. -/
def loadTagHeader (p : Ptr) : Prog TagHeader := do
  match ← loadCell p with
  | .tagHeader h => return h
  | _ => lift (.ub .typeConfusion)

instance (p : Ptr) : Same (loadTagHeader p) (Id3.loadTagHeader p) := ⟨by
  unfold loadTagHeader Id3.loadTagHeader
  same⟩

/-- Typed access: through a pointer to another kind of object it is type confusion. -/
def loadBytes (p : Ptr) : Prog Bytes := do
  match ← loadCell p with
  | .bytes b => return b
  | _ => lift (.ub .typeConfusion)

instance (p : Ptr) : Same (loadBytes p) (Id3.loadBytes p) := ⟨by
  unfold loadBytes Id3.loadBytes
  same⟩

/-- Typed access: through a pointer to another kind of object it is type confusion. -/
def loadCFrame (p : Ptr) : Prog CFrameStruct := do
  match ← loadCell p with
  | .cframe i s f d x => return ⟨i, s, f, d, x⟩
  | _ => lift (.ub .typeConfusion)

instance (p : Ptr) : Same (loadCFrame p) (Id3.loadCFrame p) := ⟨by
  unfold loadCFrame Id3.loadCFrame
  same⟩

/-- Typed access: through a pointer to another kind of object it is type confusion. -/
def loadCNode (p : Ptr) : Prog CNode := do
  match ← loadCell p with
  | .cnode f n s l => return ⟨f, n, s, l⟩
  | _ => lift (.ub .typeConfusion)

instance (p : Ptr) : Same (loadCNode p) (Id3.loadCNode p) := ⟨by
  unfold loadCNode Id3.loadCNode
  same⟩

/-- Typed access: through a pointer to another kind of object it is type confusion. -/
def loadCTag (p : Ptr) : Prog CTagStruct := do
  match ← loadCell p with
  | .ctag r h f t => return ⟨r, h, f, t⟩
  | _ => lift (.ub .typeConfusion)

instance (p : Ptr) : Same (loadCTag p) (Id3.loadCTag p) := ⟨by
  unfold loadCTag Id3.loadCTag
  same⟩

/-- The memory that a `const char*` argument gives access to. -/
def readSrc : Src → Prog Bytes
  | .literal b => pure b
  | .block a => loadBytes (some a)
  | .frameId a => do
    let h ← loadFrameHeader (some a)
    return h.id

instance (s : Src) : Same (readSrc s) s.read := ⟨by
  unfold readSrc Src.read
  same⟩

/-! ## src/modules/frame_list.c -/

/-- src/modules/frame_list.c:19-31 `FrameList_new`. -/

def FrameList_new : Prog Nat := malloc (.node none none none)

instance : Same (FrameList_new) (H.FrameList_new) := ⟨by
  unfold FrameList_new H.FrameList_new
  same⟩

/-- src/modules/frame_list.c:47-51: the last node of a list. -/

def lastNode : Nat → Nat → Prog Nat
  | 0, _ => hang
  | k + 1, a => do
    let n ← loadNode (some a)
    match n.next with
    | none => return a
    | some b => lastNode k b

instance  (x0 : Nat) (x1 : Nat) : Same (lastNode x0 x1) (H.lastNode x0 x1) := ⟨by
  induction x0 generalizing x1 with
  | zero =>
    unfold lastNode H.lastNode
    same
  | succ k ih =>
    unfold lastNode H.lastNode
    same_rec ih⟩

/-- src/modules/frame_list.c:33-55 `FrameList_add_frame`. -/

def FrameList_add_frame (list : Nat) (frame : Ptr) : Prog Unit := do
  let n ← loadNode (some list)
  match n.start with
  | none => storeCell (some list) (.node frame n.next (some list))
  | some start =>
    let current ← FrameList_new
    storeCell (some current) (.node frame none (some start))
    let last ← lastNode (← heapFuel) list
    let n ← loadNode (some last)
    storeCell (some last) (.node n.frame (some current) n.start)

instance (list : Nat) (frame : Ptr) : Same (FrameList_add_frame list frame) (H.FrameList_add_frame list frame) := ⟨by
  unfold FrameList_add_frame H.FrameList_add_frame
  same⟩

/-- `strncmp(list->frame->header->id, frame_id, 4) == 0` (frame_list.c:64, 84, 122). -/

def idMatches (frame : Ptr) (frame_id : Bytes) : Prog Bool := do
  let f ← loadFrame frame
  let h ← loadFrameHeader f.header
  lift (strncmpEq 4 h.id frame_id)

instance (frame : Ptr) (frame_id : Bytes) : Same (idMatches frame frame_id) (H.idMatches frame frame_id) := ⟨by
  unfold idMatches H.idMatches
  same⟩

/-- src/modules/frame_list.c:60-73 `FrameList_get_frame_by_id`. -/

def FrameList_get_frame_by_id : Nat → Ptr → Bytes → Prog Ptr
  | 0, _, _ => hang
  | _ + 1, none, _ => return none
  | k + 1, some list, frame_id => do
    let n ← loadNode (some list)
    match n.frame with
    | none => return none
    | some f =>
      if ← idMatches (some f) frame_id then return some f
      FrameList_get_frame_by_id k n.next frame_id

instance  (x0 : Nat) (x1 : Ptr) (x2 : Bytes) : Same (FrameList_get_frame_by_id x0 x1 x2) (H.FrameList_get_frame_by_id x0 x1 x2) := ⟨by
  induction x0 generalizing x1 x2 with
  | zero =>
    unfold FrameList_get_frame_by_id H.FrameList_get_frame_by_id
    same
  | succ k ih =>
    unfold FrameList_get_frame_by_id H.FrameList_get_frame_by_id
    same_rec ih⟩

/-- src/modules/frame_list.c:82-90, the loop of `FrameList_get_frames_by_id`. -/

def collect : Nat → Ptr → Bytes → Nat → Prog Unit
  | 0, _, _, _ => hang
  | _ + 1, none, _, _ => return ()
  | k + 1, some list, frame_id, sublist => do
    let n ← loadNode (some list)
    match n.frame with
    | none => return ()
    | some f =>
      if ← idMatches (some f) frame_id then
        FrameList_add_frame sublist (some f)
        collect k n.next frame_id sublist
      else collect k n.next frame_id sublist

instance  (x0 : Nat) (x1 : Ptr) (x2 : Bytes) (x3 : Nat) : Same (collect x0 x1 x2 x3) (H.collect x0 x1 x2 x3) := ⟨by
  induction x0 generalizing x1 x2 x3 with
  | zero =>
    unfold collect H.collect
    same
  | succ k ih =>
    unfold collect H.collect
    same_rec ih⟩

/-- src/modules/frame_list.c:78-93 `FrameList_get_frames_by_id`. -/

def FrameList_get_frames_by_id (list : Ptr) (frame_id : Bytes) : Prog Nat := do
  let sublist ← FrameList_new
  collect (← heapFuel) list frame_id sublist
  return sublist

instance (list : Ptr) (frame_id : Bytes) : Same (FrameList_get_frames_by_id list frame_id) (H.FrameList_get_frames_by_id list frame_id) := ⟨by
  unfold FrameList_get_frames_by_id H.FrameList_get_frames_by_id
  same⟩

/-! ## Freeing frames -/

/-- src/modules/frames/text_frame.c:68-74 `TextFrame_free`. -/

def TextFrame_free (frame : Nat) : Prog Unit := do
  let f ← loadFrame (some frame)
  free f.header
  match ← loadCell f.data with
  | .textData _ _ text =>
    free text
    free f.data
    free (some frame)
  | _ => lift (.ub .typeConfusion)

instance (frame : Nat) : Same (TextFrame_free frame) (H.TextFrame_free frame) := ⟨by
  unfold TextFrame_free H.TextFrame_free
  same⟩

/-- src/modules/frames/comment_frame.c:90-97 `CommentFrame_free`. -/

def CommentFrame_free (frame : Nat) : Prog Unit := do
  let f ← loadFrame (some frame)
  free f.header
  match ← loadCell f.data with
  | .commentData _ _ _ short_description comment =>
    free comment
    free short_description
    free f.data
    free (some frame)
  | _ => lift (.ub .typeConfusion)

instance (frame : Nat) : Same (CommentFrame_free frame) (H.CommentFrame_free frame) := ⟨by
  unfold CommentFrame_free H.CommentFrame_free
  same⟩

/-- src/modules/frames/apic_frame.c:97-105 `ApicFrame_free`. -/

def ApicFrame_free (frame : Nat) : Prog Unit := do
  let f ← loadFrame (some frame)
  free f.header
  match ← loadCell f.data with
  | .apicData _ mime_type _ description data _ =>
    free data
    free description
    free mime_type
    free f.data
    free (some frame)
  | _ => lift (.ub .typeConfusion)

instance (frame : Nat) : Same (ApicFrame_free frame) (H.ApicFrame_free frame) := ⟨by
  unfold ApicFrame_free H.ApicFrame_free
  same⟩

/-- src/modules/frame.c:86-108 `ID3v2_Frame_free`. An unknown frame itself is not freed, only its header and data. -/

def ID3v2_Frame_free (frame : Ptr) : Prog Unit :=
  match frame with
  | none => return ()
  | some a => do
    let f ← loadFrame (some a)
    let h ← loadFrameHeader f.header
    if ← lift (FrameHeader_isTextFrame h) then TextFrame_free a
    else if ← lift (FrameHeader_isCommentFrame h) then CommentFrame_free a
    else if ← lift (FrameHeader_isApicFrame h) then ApicFrame_free a
    else
      free f.header
      free f.data

instance (frame : Ptr) : Same (ID3v2_Frame_free frame) (H.ID3v2_Frame_free frame) := ⟨by
  unfold ID3v2_Frame_free H.ID3v2_Frame_free
  same⟩

/-! ## src/modules/frame_list.c, freeing and changing lists -/

/-- src/modules/frame_list.c:95-104 `ID3v2_FrameList_free`. -/

def ID3v2_FrameList_free : Nat → Ptr → Prog Unit
  | 0, _ => hang
  | _ + 1, none => return ()
  | k + 1, some list => do
    let n ← loadNode (some list)
    ID3v2_Frame_free n.frame
    let n ← loadNode (some list)
    free (some list)
    ID3v2_FrameList_free k n.next

instance  (x0 : Nat) (x1 : Ptr) : Same (ID3v2_FrameList_free x0 x1) (H.ID3v2_FrameList_free x0 x1) := ⟨by
  induction x0 generalizing x1 with
  | zero =>
    unfold ID3v2_FrameList_free H.ID3v2_FrameList_free
    same
  | succ k ih =>
    unfold ID3v2_FrameList_free H.ID3v2_FrameList_free
    same_rec ih⟩

/-- src/modules/frame_list.c:106-114 `ID3v2_FrameList_unlink`. -/

def ID3v2_FrameList_unlink : Nat → Ptr → Prog Unit
  | 0, _ => hang
  | _ + 1, none => return ()
  | k + 1, some list => do
    let n ← loadNode (some list)
    free (some list)
    ID3v2_FrameList_unlink k n.next

instance  (x0 : Nat) (x1 : Ptr) : Same (ID3v2_FrameList_unlink x0 x1) (H.ID3v2_FrameList_unlink x0 x1) := ⟨by
  induction x0 generalizing x1 with
  | zero =>
    unfold ID3v2_FrameList_unlink H.ID3v2_FrameList_unlink
    same
  | succ k ih =>
    unfold ID3v2_FrameList_unlink H.ID3v2_FrameList_unlink
    same_rec ih⟩

/-- src/modules/frame_list.c:125-127 and 145-147: the node is overwritten with the next one, or with a new one, which is
then freed. -/

def unlinkNode (list : Nat) (next : Ptr) : Prog Unit := do
  let new_head_old_ptr ← match next with
    | some b => pure b
    | none => FrameList_new
  let n ← loadNode (some new_head_old_ptr)
  storeCell (some list) (.node n.frame n.next n.start)
  free (some new_head_old_ptr)

instance (list : Nat) (next : Ptr) : Same (unlinkNode list next) (H.unlinkNode list next) := ⟨by
  unfold unlinkNode H.unlinkNode
  same⟩

/-- src/modules/frame_list.c:116-135 `FrameList_remove_frame_by_id`. -/

def FrameList_remove_frame_by_id : Nat → Ptr → Bytes → Prog Ptr
  | 0, _, _ => hang
  | _ + 1, none, _ => return none
  | k + 1, some list, frame_id => do
    let n ← loadNode (some list)
    if ← idMatches n.frame frame_id then
      unlinkNode list n.next
      return n.frame
    FrameList_remove_frame_by_id k n.next frame_id

instance  (x0 : Nat) (x1 : Ptr) (x2 : Bytes) : Same (FrameList_remove_frame_by_id x0 x1 x2) (H.FrameList_remove_frame_by_id x0 x1 x2) := ⟨by
  induction x0 generalizing x1 x2 with
  | zero =>
    unfold FrameList_remove_frame_by_id H.FrameList_remove_frame_by_id
    same
  | succ k ih =>
    unfold FrameList_remove_frame_by_id H.FrameList_remove_frame_by_id
    same_rec ih⟩

/-- src/modules/frame_list.c:137-155 `FrameList_remove_frame`. -/

def FrameList_remove_frame : Nat → Ptr → Ptr → Prog Ptr
  | 0, _, _ => hang
  | _ + 1, none, _ => return none
  | k + 1, some list, to_remove => do
    let n ← loadNode (some list)
    if n.frame = to_remove then
      unlinkNode list n.next
      return to_remove
    FrameList_remove_frame k n.next to_remove

instance  (x0 : Nat) (x1 : Ptr) (x2 : Ptr) : Same (FrameList_remove_frame x0 x1 x2) (H.FrameList_remove_frame x0 x1 x2) := ⟨by
  induction x0 generalizing x1 x2 with
  | zero =>
    unfold FrameList_remove_frame H.FrameList_remove_frame
    same
  | succ k ih =>
    unfold FrameList_remove_frame H.FrameList_remove_frame
    same_rec ih⟩

/-- src/modules/frame_list.c:161-175 `FrameList_replace_frame`. -/

def FrameList_replace_frame : Nat → Ptr → Ptr → Ptr → Prog Unit
  | 0, _, _, _ => hang
  | _ + 1, none, _, _ => return ()
  | k + 1, some list, old_frame, new_frame => do
    let n ← loadNode (some list)
    if n.frame = old_frame then storeCell (some list) (.node new_frame n.next n.start)
    else FrameList_replace_frame k n.next old_frame new_frame

instance  (x0 : Nat) (x1 : Ptr) (x2 : Ptr) (x3 : Ptr) : Same (FrameList_replace_frame x0 x1 x2 x3) (H.FrameList_replace_frame x0 x1 x2 x3) := ⟨by
  induction x0 generalizing x1 x2 x3 with
  | zero =>
    unfold FrameList_replace_frame H.FrameList_replace_frame
    same
  | succ k ih =>
    unfold FrameList_replace_frame H.FrameList_replace_frame
    same_rec ih⟩

/-! ## Making frames -/

/-- src/modules/frame_header.c:20-29 `FrameHeader_new`. -/

def FrameHeader_new (id flags : Bytes) (size : Int) : Prog Nat := do
  let h ← lift (Id3.FrameHeader_new id flags size)
  malloc (.frameHeader h)

instance (id flags : Bytes) (size : Int) : Same (FrameHeader_new id flags size) (H.FrameHeader_new id flags size) := ⟨by
  unfold FrameHeader_new H.FrameHeader_new
  same⟩

/-- src/modules/frames/text_frame.c:21-31 `TextFrame_new` and 76-90 `TextFrameData_new`. -/

def TextFrame_new [Platform] (id flags text : Bytes) : Prog Nat := do
  let frame ← malloc (.frame none none)
  let d ← lift (TextFrameData_new text)
  let data ← malloc (.textData 0 0 none)
  let t ← malloc (.bytes d.text)
  storeCell (some data) (.textData d.size d.encoding (some t))
  let frame_size ← lift (ck (1 + d.size))
  let header ← FrameHeader_new id flags frame_size
  storeCell (some frame) (.frame (some header) (some data))
  return frame

instance [Platform] (id flags text : Bytes) : Same (TextFrame_new id flags text) (H.TextFrame_new id flags text) := ⟨by
  unfold TextFrame_new H.TextFrame_new
  same⟩

/-- src/modules/frames/comment_frame.c:22-40 `CommentFrame_new` and 99-124 `CommentFrameData_new`. -/

def CommentFrame_new [Platform] (flags lang short_desc comment : Bytes) : Prog Nat := do
  let frame ← malloc (.frame none none)
  let d ← lift (CommentFrameData_new lang short_desc comment)
  let data ← malloc (.commentData 0 0 [] none none)
  let c ← malloc (.bytes d.comment)
  let s ← malloc (.bytes d.short_description)
  storeCell (some data) (.commentData d.size d.encoding d.language (some s) (some c))
  let short_desc_size ← lift (ID3v2_strlent short_desc)
  let frame_size ← lift (ck (d.size + short_desc_size + 1 + 3))
  let header ← FrameHeader_new (ofB [0x43, 0x4F, 0x4D, 0x4D]) flags frame_size
  storeCell (some frame) (.frame (some header) (some data))
  return frame

instance [Platform] (flags lang short_desc comment : Bytes) : Same (CommentFrame_new flags lang short_desc comment) (H.CommentFrame_new flags lang short_desc comment) := ⟨by
  unfold CommentFrame_new H.CommentFrame_new
  same⟩

/-- src/modules/frames/apic_frame.c:23-45 `ApicFrame_new` and 107-136 `ApicFrameData_new`. -/

def ApicFrame_new [Platform] (flags description : Bytes) (picture_type : UInt8) (mime_type : Bytes)
    (picture_size : Int) (pic : Bytes) : Prog Nat := do
  let frame ← malloc (.frame none none)
  let d ← lift (ApicFrameData_new description picture_type mime_type picture_size pic)
  let data ← malloc (.apicData 0 none 0 none none 0)
  let de ← malloc (.bytes d.description)
  let m ← malloc (.bytes d.mime_type)
  let p ← malloc (.bytes d.data)
  storeCell (some data) (.apicData d.encoding (some m) d.picture_type (some de) (some p) d.picture_size)
  let description_size ← lift (ID3v2_strlent description)
  let mime_type_size ← lift (ID3v2_strlent mime_type)
  let frame_size ← lift (ck (1 + mime_type_size + 1 + description_size + d.picture_size))
  let header ← FrameHeader_new (ofB [0x41, 0x50, 0x49, 0x43]) flags frame_size
  storeCell (some frame) (.frame (some header) (some data))
  return frame

instance [Platform] (flags description : Bytes) (picture_type : UInt8) (mime_type : Bytes)
    (picture_size : Int) (pic : Bytes) : Same (ApicFrame_new flags description picture_type mime_type picture_size pic) (H.ApicFrame_new flags description picture_type mime_type picture_size pic) := ⟨by
  unfold ApicFrame_new H.ApicFrame_new
  same⟩

/-- The blocks of a frame made by one of the three functions above, from its value: used for frames that come from a
parser, whose contents the value-level model gives (text_frame.c:44, comment_frame.c:60, apic_frame.c:68-69). -/

def allocFrame (f : Frame) : Prog Nat :=
  match f.data with
  | .text d => do
    let frame ← malloc (.frame none none)
    let data ← malloc (.textData 0 0 none)
    let t ← malloc (.bytes d.text)
    storeCell (some data) (.textData d.size d.encoding (some t))
    let header ← malloc (.frameHeader f.header)
    storeCell (some frame) (.frame (some header) (some data))
    return frame
  | .comment d => do
    let frame ← malloc (.frame none none)
    let data ← malloc (.commentData 0 0 [] none none)
    let c ← malloc (.bytes d.comment)
    let s ← malloc (.bytes d.short_description)
    storeCell (some data) (.commentData d.size d.encoding d.language (some s) (some c))
    let header ← malloc (.frameHeader f.header)
    storeCell (some frame) (.frame (some header) (some data))
    return frame
  | .apic d => do
    let frame ← malloc (.frame none none)
    let data ← malloc (.apicData 0 none 0 none none 0)
    let de ← malloc (.bytes d.description)
    let m ← malloc (.bytes d.mime_type)
    let p ← malloc (.bytes d.data)
    storeCell (some data) (.apicData d.encoding (some m) d.picture_type (some de) (some p) d.picture_size)
    let header ← malloc (.frameHeader f.header)
    storeCell (some frame) (.frame (some header) (some data))
    return frame
  | .raw d => do
    let header ← malloc (.frameHeader f.header)
    let frame ← malloc (.frame (some header) none)
    let data ← malloc (.bytes d)
    storeCell (some frame) (.frame (some header) (some data))
    return frame

instance (f : Frame) : Same (allocFrame f) (H.allocFrame f) := ⟨by
  unfold allocFrame H.allocFrame
  same⟩

/-- src/modules/frame.c:24-57 `Frame_parse`: for known frames the header is allocated (frame_header.c:57), freed
(frame.c:34, 40, 46), allocated again by the parser of the frame and freed at its end (text_frame.c:45,
comment_frame.c:61, apic_frame.c:71). Without a header nothing is allocated. -/

def Frame_parse [Platform] (cs : CharStream) (version : UInt8) : Prog (Option Nat × CharStream) := do
  let (f, cs') ← lift (Id3.Frame_parse cs version)
  match f with
  | none => return (none, cs')
  | some f =>
    match f.data with
    | .raw _ => return (some (← allocFrame f), cs')
    | _ =>
      let header ← malloc (.frameHeader f.header)
      free (some header)
      let header ← malloc (.frameHeader f.header)
      let frame ← allocFrame f
      free (some header)
      return (some frame, cs')

instance [Platform] (cs : CharStream) (version : UInt8) : Same (Frame_parse cs version) (H.Frame_parse cs version) := ⟨by
  unfold Frame_parse H.Frame_parse
  same⟩

/-! ## src/modules/tag.c -/

/-- src/modules/tag.c:29-37 `ID3v2_Tag_new`; the argument is NULL or a header, which the tag then owns. -/

def ID3v2_Tag_new (header : Ptr) : Prog Nat := do
  let tag ← malloc (.tag none none 0)
  let header ← match header with
    | some a => pure a
    | none => malloc (.tagHeader TagHeader_new_empty)
  let frames ← FrameList_new
  storeCell (some tag) (.tag (some header) (some frames) 0)
  return tag

instance (header : Ptr) : Same (ID3v2_Tag_new header) (H.ID3v2_Tag_new header) := ⟨by
  unfold ID3v2_Tag_new H.ID3v2_Tag_new
  same⟩

/-- src/modules/tag.c:58-63, the loop of `Tag_parse`. -/

def Tag_parse_loop [Platform] : Nat → CharStream → Nat → UInt8 → Nat → Prog CharStream
  | 0, _, _, _, _ => hang
  | fuel + 1, cs, tag_size, major_version, frames =>
    if u32 cs.cursor < tag_size then do
      let (f, cs) ← Frame_parse cs major_version
      match f with
      | none => return cs
      | some f =>
        FrameList_add_frame frames (some f)
        Tag_parse_loop fuel cs tag_size major_version frames
    else return cs

instance [Platform] (x0 : Nat) (x1 : CharStream) (x2 : Nat) (x3 : UInt8) (x4 : Nat) : Same (Tag_parse_loop x0 x1 x2 x3 x4) (H.Tag_parse_loop x0 x1 x2 x3 x4) := ⟨by
  induction x0 generalizing x1 x2 x3 x4 with
  | zero =>
    unfold Tag_parse_loop H.Tag_parse_loop
    same
  | succ k ih =>
    unfold Tag_parse_loop H.Tag_parse_loop
    same_rec ih⟩

/-- src/modules/tag.c:44-68 `Tag_parse`. -/

def Tag_parse [Platform] (tag_cs : CharStream) : Prog Ptr := do
  let (header, cs) ← lift (TagHeader_parse tag_cs)
  match header with
  | none => return none
  | some header =>
    let hp ← malloc (.tagHeader header)
    let tag ← ID3v2_Tag_new (some hp)
    let cs ← lift (match header.extended_header_size with
      | none => .ub .uninit
      | some ext => if ext > 0 then CharStream_seek cs (toInt32 ext) .set else .ok cs)
    let t ← loadTag (some tag)
    match t.frames with
    | none => lift (.ub .nullDeref)
    | some frames =>
      let cs ← Tag_parse_loop (cs.stream.length + 1) cs header.tag_size header.major_version frames
      let padding ← lift (ck (cs.size - cs.cursor))
      storeCell (some tag) (.tag t.header t.frames padding)
      return some tag

instance [Platform] (tag_cs : CharStream) : Same (Tag_parse tag_cs) (H.Tag_parse tag_cs) := ⟨by
  unfold Tag_parse H.Tag_parse
  same⟩

/-- src/modules/tag.c:111-115 `ID3v2_Tag_get_frame` (the tag is not NULL). -/

def ID3v2_Tag_get_frame (tag : Nat) (frame_id : Src) : Prog Ptr := do
  let id ← readSrc frame_id
  let t ← loadTag (some tag)
  FrameList_get_frame_by_id (← heapFuel) t.frames id

instance (tag : Nat) (frame_id : Src) : Same (ID3v2_Tag_get_frame tag frame_id) (H.ID3v2_Tag_get_frame tag frame_id) := ⟨by
  unfold ID3v2_Tag_get_frame H.ID3v2_Tag_get_frame
  same⟩

/-- src/modules/tag.c:117-121 `ID3v2_Tag_get_frames` (the tag is not NULL). -/

def ID3v2_Tag_get_frames (tag : Nat) (frame_id : Src) : Prog Nat := do
  let id ← readSrc frame_id
  let t ← loadTag (some tag)
  FrameList_get_frames_by_id t.frames id

instance (tag : Nat) (frame_id : Src) : Same (ID3v2_Tag_get_frames tag frame_id) (H.ID3v2_Tag_get_frames tag frame_id) := ⟨by
  unfold ID3v2_Tag_get_frames H.ID3v2_Tag_get_frames
  same⟩

/-- `tag->header->tag_size = n` -/

def setTagSize (header : Ptr) (n : Nat) : Prog Unit := do
  let h ← loadTagHeader header
  storeCell header (.tagHeader { h with tag_size := n })

instance (header : Ptr) (n : Nat) : Same (setTagSize header n) (H.setTagSize header n) := ⟨by
  unfold setTagSize H.setTagSize
  same⟩

/-- `FrameList_add_frame(...); tag->header->tag_size += new_frame->header->size` (tag.c:209-210, 343-344, 362-363,
396-397, 421-422). -/

def Tag_append (tag : Nat) (new_frame : Nat) : Prog Unit := do
  let t ← loadTag (some tag)
  match t.frames with
  | none => lift (.ub .nullDeref)
  | some frames =>
    FrameList_add_frame frames (some new_frame)
    let f ← loadFrame (some new_frame)
    let fh ← loadFrameHeader f.header
    let h ← loadTagHeader t.header
    setTagSize t.header (u32 (h.tag_size + fh.size))

instance (tag : Nat) (new_frame : Nat) : Same (Tag_append tag new_frame) (H.Tag_append tag new_frame) := ⟨by
  unfold Tag_append H.Tag_append
  same⟩

/-- The common part of the three setters (tag.c:204-221, 339-355, 392-408). -/

def Tag_set_frame (tag : Nat) (frame_id : Bytes) (new_frame : Nat) : Prog Unit := do
  let t ← loadTag (some tag)
  match ← FrameList_get_frame_by_id (← heapFuel) t.frames frame_id with
  | none => Tag_append tag new_frame
  | some existing_frame =>
    FrameList_replace_frame (← heapFuel) t.frames (some existing_frame) (some new_frame)
    let f ← loadFrame (some new_frame)
    let fh ← loadFrameHeader f.header
    let e ← loadFrame (some existing_frame)
    let eh ← loadFrameHeader e.header
    let diff ← lift (ck (fh.size - eh.size))
    let h ← loadTagHeader t.header
    setTagSize t.header (u32 (h.tag_size + diff))
    ID3v2_Frame_free (some existing_frame)

instance (tag : Nat) (frame_id : Bytes) (new_frame : Nat) : Same (Tag_set_frame tag frame_id new_frame) (H.Tag_set_frame tag frame_id new_frame) := ⟨by
  unfold Tag_set_frame H.Tag_set_frame
  same⟩

/-- src/modules/tag.c:201-222 `ID3v2_Tag_set_text_frame`. -/

def ID3v2_Tag_set_text_frame [Platform] (tag : Nat) (input : H.TextFrameInput) : Prog Unit := do
  let id ← readSrc input.id
  let flags ← readSrc input.flags
  let text ← readSrc input.text
  let new_frame ← TextFrame_new id flags text
  Tag_set_frame tag id new_frame

instance [Platform] (tag : Nat) (input : H.TextFrameInput) : Same (ID3v2_Tag_set_text_frame tag input) (H.ID3v2_Tag_set_text_frame tag input) := ⟨by
  unfold ID3v2_Tag_set_text_frame H.ID3v2_Tag_set_text_frame
  same⟩

/-- src/modules/tag.c:335-356 `ID3v2_Tag_set_comment_frame`. -/

def ID3v2_Tag_set_comment_frame [Platform] (tag : Nat) (input : H.CommentFrameInput) : Prog Unit := do
  let flags ← readSrc input.flags
  let language ← readSrc input.language
  let short_description ← readSrc input.short_description
  let comment ← readSrc input.comment
  let new_frame ← CommentFrame_new flags language short_description comment
  Tag_set_frame tag COMMENT_ID new_frame

instance [Platform] (tag : Nat) (input : H.CommentFrameInput) : Same (ID3v2_Tag_set_comment_frame tag input) (H.ID3v2_Tag_set_comment_frame tag input) := ⟨by
  unfold ID3v2_Tag_set_comment_frame H.ID3v2_Tag_set_comment_frame
  same⟩

/-- src/modules/tag.c:358-364 `ID3v2_Tag_add_comment_frame`. -/

def ID3v2_Tag_add_comment_frame [Platform] (tag : Nat) (input : H.CommentFrameInput) : Prog Unit := do
  let flags ← readSrc input.flags
  let language ← readSrc input.language
  let short_description ← readSrc input.short_description
  let comment ← readSrc input.comment
  let new_frame ← CommentFrame_new flags language short_description comment
  Tag_append tag new_frame

instance [Platform] (tag : Nat) (input : H.CommentFrameInput) : Same (ID3v2_Tag_add_comment_frame tag input) (H.ID3v2_Tag_add_comment_frame tag input) := ⟨by
  unfold ID3v2_Tag_add_comment_frame H.ID3v2_Tag_add_comment_frame
  same⟩

/-- src/modules/tag.c:384-391, 413-420 -/

def ApicFrame_of_input [Platform] (input : H.ApicFrameInput) : Prog Nat := do
  let flags ← readSrc input.flags
  let mime_type ← readSrc input.mime_type
  let description ← readSrc input.description
  let data ← readSrc input.data
  ApicFrame_new flags description input.picture_type mime_type input.picture_size data

instance [Platform] (input : H.ApicFrameInput) : Same (ApicFrame_of_input input) (H.ApicFrame_of_input input) := ⟨by
  unfold ApicFrame_of_input H.ApicFrame_of_input
  same⟩

/-- src/modules/tag.c:382-409 `ID3v2_Tag_set_apic_frame`. -/

def ID3v2_Tag_set_apic_frame [Platform] (tag : Nat) (input : H.ApicFrameInput) : Prog Unit := do
  let new_frame ← ApicFrame_of_input input
  Tag_set_frame tag ALBUM_COVER_ID new_frame

instance [Platform] (tag : Nat) (input : H.ApicFrameInput) : Same (ID3v2_Tag_set_apic_frame tag input) (H.ID3v2_Tag_set_apic_frame tag input) := ⟨by
  unfold ID3v2_Tag_set_apic_frame H.ID3v2_Tag_set_apic_frame
  same⟩

/-- src/modules/tag.c:411-423 `ID3v2_Tag_add_apic_frame`. -/

def ID3v2_Tag_add_apic_frame [Platform] (tag : Nat) (input : H.ApicFrameInput) : Prog Unit := do
  let new_frame ← ApicFrame_of_input input
  Tag_append tag new_frame

instance [Platform] (tag : Nat) (input : H.ApicFrameInput) : Same (ID3v2_Tag_add_apic_frame tag input) (H.ID3v2_Tag_add_apic_frame tag input) := ⟨by
  unfold ID3v2_Tag_add_apic_frame H.ID3v2_Tag_add_apic_frame
  same⟩

/-- src/modules/tag.c:455-462 `ID3v2_Tag_delete_frame`. -/

def ID3v2_Tag_delete_frame (tag : Nat) (frame_id : Src) : Prog Unit := do
  let id ← readSrc frame_id
  let t ← loadTag (some tag)
  let deleted ← FrameList_remove_frame_by_id (← heapFuel) t.frames id
  let f ← loadFrame deleted
  let fh ← loadFrameHeader f.header
  let n ← lift (ck (fh.size + 10))
  let h ← loadTagHeader t.header
  setTagSize t.header (u32 (h.tag_size - n))
  ID3v2_Frame_free deleted

instance (tag : Nat) (frame_id : Src) : Same (ID3v2_Tag_delete_frame tag frame_id) (H.ID3v2_Tag_delete_frame tag frame_id) := ⟨by
  unfold ID3v2_Tag_delete_frame H.ID3v2_Tag_delete_frame
  same⟩

/-- src/modules/tag.c:514-527 and 542-555, the loop over the list of matches: the remaining list when it ends. -/

def delete_loop (tagFrames : Ptr) (index : Int) : Nat → Int → Ptr → Prog Ptr
  | 0, _, _ => hang
  | _ + 1, _, none => return none
  | k + 1, i, some head => do
    let n ← loadNode (some head)
    if i = index then
      let _ ← FrameList_remove_frame (← heapFuel) tagFrames n.frame
      ID3v2_Frame_free n.frame
      return some head
    else delete_loop tagFrames index k (i + 1) n.next

instance (tagFrames : Ptr) (index : Int) (x0 : Nat) (x1 : Int) (x2 : Ptr) : Same (delete_loop tagFrames index x0 x1 x2) (H.delete_loop tagFrames index x0 x1 x2) := ⟨by
  induction x0 generalizing x1 x2 with
  | zero =>
    unfold delete_loop H.delete_loop
    same
  | succ k ih =>
    unfold delete_loop H.delete_loop
    same_rec ih⟩

/-- src/modules/tag.c:509-530 `ID3v2_Tag_delete_comment_frame` and 537-558 `ID3v2_Tag_delete_apic_frame`. Only what is
left of the list of matches is unlinked (lines 529, 557). -/

def ID3v2_Tag_delete_frame_at (tag : Nat) (frame_id : Bytes) (index : Int) : Prog Unit := do
  let t ← loadTag (some tag)
  let head ← FrameList_get_frames_by_id t.frames frame_id
  let rest ← delete_loop t.frames index (← heapFuel) 0 (some head)
  ID3v2_FrameList_unlink (← heapFuel) rest

instance (tag : Nat) (frame_id : Bytes) (index : Int) : Same (ID3v2_Tag_delete_frame_at tag frame_id index) (H.ID3v2_Tag_delete_frame_at tag frame_id index) := ⟨by
  unfold ID3v2_Tag_delete_frame_at H.ID3v2_Tag_delete_frame_at
  same⟩

/-- src/modules/tag.c:448-453 `ID3v2_Tag_free`. -/

def ID3v2_Tag_free (tag : Nat) : Prog Unit := do
  let t ← loadTag (some tag)
  free t.header
  ID3v2_FrameList_free (← heapFuel) t.frames
  free (some tag)

instance (tag : Nat) : Same (ID3v2_Tag_free tag) (H.ID3v2_Tag_free tag) := ⟨by
  unfold ID3v2_Tag_free H.ID3v2_Tag_free
  same⟩

/-! ## Streams, files -/

/-- src/modules/char_stream.c:18-25 `CharStream_new` and 27-35 `CharStream_from_buffer`: the two blocks. The characters,
the cursor and the size of a stream are those of the value-level model, and are not repeated in the block. -/

def CharStream_new : Prog Nat := do
  let cs ← malloc (.charStream none)
  let stream ← malloc (.bytes [])
  storeCell (some cs) (.charStream (some stream))
  return cs

instance : Same (CharStream_new) (H.CharStream_new) := ⟨by
  unfold CharStream_new H.CharStream_new
  same⟩

/-- src/modules/char_stream.c:87-91 `CharStream_free`. -/

def CharStream_free (cs : Nat) : Prog Unit := do
  match ← loadCell (some cs) with
  | .charStream stream =>
    free stream
    free (some cs)
  | _ => lift (.ub .typeConfusion)

instance (cs : Nat) : Same (CharStream_free cs) (H.CharStream_free cs) := ⟨by
  unfold CharStream_free H.CharStream_free
  same⟩

/-- src/modules/utils.c:95-109 `itob` and the `free` of its result (frame_header.c:65-67, tag.c:80-82). -/

def itobBlock : Prog Unit := do
  let size_bytes ← malloc (.bytes [])
  free (some size_bytes)

instance : Same (itobBlock) (H.itobBlock) := ⟨by
  unfold itobBlock H.itobBlock
  same⟩

/-- src/id3v2lib.c:74-80 `ID3v2_read_tag_from_buffer`. -/

def ID3v2_read_tag_from_buffer [Platform] (tag_buffer : Src) (buffer_length : Int) : Prog Ptr := do
  let b ← readSrc tag_buffer
  let cs ← lift (CharStream_from_buffer b buffer_length)
  let tag_cs ← CharStream_new
  let tag ← Tag_parse cs
  CharStream_free tag_cs
  return tag

instance [Platform] (tag_buffer : Src) (buffer_length : Int) : Same (ID3v2_read_tag_from_buffer tag_buffer buffer_length) (H.ID3v2_read_tag_from_buffer tag_buffer buffer_length) := ⟨by
  unfold ID3v2_read_tag_from_buffer H.ID3v2_read_tag_from_buffer
  same⟩

/-- src/id3v2lib.c:37-43 `ID3v2_read_tag_header_from_buffer`. -/

def ID3v2_read_tag_header_from_buffer [Platform] (buffer : Src) : Prog Ptr := do
  let b ← readSrc buffer
  let v ← lift (CharStream_from_buffer b 10)
  let cs ← CharStream_new
  let (header, _) ← lift (TagHeader_parse v)
  let hp ← match header with
    | none => pure none
    | some h => some <$> malloc (.tagHeader h)
  CharStream_free cs
  return hp

instance [Platform] (buffer : Src) : Same (ID3v2_read_tag_header_from_buffer buffer) (H.ID3v2_read_tag_header_from_buffer buffer) := ⟨by
  unfold ID3v2_read_tag_header_from_buffer H.ID3v2_read_tag_header_from_buffer
  same⟩

/-- src/id3v2lib.c:22-35 `ID3v2_read_tag_header`; the buffer is on the stack. -/

def ID3v2_read_tag_header [Platform] (file : File) : Prog Ptr :=
  match file with
  | none => return none
  | some contents =>
    let tag_header_buffer := contents.take 10
    if tag_header_buffer.length < 10 then return none
    else ID3v2_read_tag_header_from_buffer (.literal tag_header_buffer)

instance [Platform] (file : File) : Same (ID3v2_read_tag_header file) (H.ID3v2_read_tag_header file) := ⟨by
  unfold ID3v2_read_tag_header H.ID3v2_read_tag_header
  same⟩

/-- src/id3v2lib.c:45-72 `ID3v2_read_tag`. -/

def ID3v2_read_tag [Platform] (file : File) : Prog Ptr := do
  match ← ID3v2_read_tag_header file with
  | none => return none
  | some tag_header =>
    match file with
    | none => return none
    | some contents =>
      let h ← loadTagHeader (some tag_header)
      let buffer_length := toInt32 (u32 (h.tag_size + 10))
      let tag_buffer ← malloc (.bytes (intoArray buffer_length (contents.take buffer_length.toNat)))
      let tag ← ID3v2_read_tag_from_buffer (.block tag_buffer) buffer_length
      free (some tag_buffer)
      free (some tag_header)
      return tag

instance [Platform] (file : File) : Same (ID3v2_read_tag file) (H.ID3v2_read_tag file) := ⟨by
  unfold ID3v2_read_tag H.ID3v2_read_tag
  same⟩

/-- Everything a frame pointer gives access to. -/

def fetchFrame (frame : Ptr) : Prog Frame := do
  let f ← loadFrame frame
  let h ← loadFrameHeader f.header
  match ← loadCell f.data with
  | .textData size encoding text =>
    let text ← loadBytes text
    return { header := h, data := .text { size, encoding, text } }
  | .commentData size encoding language short_description comment =>
    let short_description ← loadBytes short_description
    let comment ← loadBytes comment
    return { header := h, data := .comment { size, encoding, language, short_description, comment } }
  | .apicData encoding mime_type picture_type description data picture_size =>
    let mime_type ← loadBytes mime_type
    let description ← loadBytes description
    let data ← loadBytes data
    return { header := h, data := .apic { encoding, mime_type, picture_type, description, data, picture_size } }
  | .bytes b => return { header := h, data := .raw b }
  | _ => lift (.ub .typeConfusion)

instance (frame : Ptr) : Same (fetchFrame frame) (H.fetchFrame frame) := ⟨by
  unfold fetchFrame H.fetchFrame
  same⟩

/-- src/modules/frame.c:59-84 `Frame_to_char_stream` for a frame that is not NULL. For a known frame the stream of the
header is freed (text_frame.c:59, comment_frame.c:75, apic_frame.c:85), for an unknown one it is not (frame.c:79-82). -/

def Frame_to_char_stream [Platform] (frame : Nat) : Prog (Nat × CharStream) := do
  let f ← fetchFrame (some frame)
  let cs ← lift (Id3.Frame_to_char_stream f)
  match f.data with
  | .raw _ =>
    let frame_cs ← CharStream_new
    let _header_cs ← CharStream_new
    itobBlock
    return (frame_cs, cs)
  | _ =>
    let header_cs ← CharStream_new
    itobBlock
    let frame_cs ← CharStream_new
    CharStream_free header_cs
    return (frame_cs, cs)

instance [Platform] (frame : Nat) : Same (Frame_to_char_stream frame) (H.Frame_to_char_stream frame) := ⟨by
  unfold Frame_to_char_stream H.Frame_to_char_stream
  same⟩

/-- src/modules/tag.c:93-103, the loop of `Tag_to_char_stream`. -/

def Tag_write_frames [Platform] : Nat → CharStream → Ptr → Prog CharStream
  | 0, _, _ => hang
  | _ + 1, cs, none => return cs
  | k + 1, cs, some list => do
    let n ← loadNode (some list)
    match n.frame with
    | none => lift .exit
    | some f =>
      let (p, frame_cs) ← Frame_to_char_stream f
      let cs ← lift (CharStream_write cs frame_cs.stream frame_cs.size)
      CharStream_free p
      Tag_write_frames k cs n.next

instance [Platform] (x0 : Nat) (x1 : CharStream) (x2 : Ptr) : Same (Tag_write_frames x0 x1 x2) (H.Tag_write_frames x0 x1 x2) := ⟨by
  induction x0 generalizing x1 x2 with
  | zero =>
    unfold Tag_write_frames H.Tag_write_frames
    same
  | succ k ih =>
    unfold Tag_write_frames H.Tag_write_frames
    same_rec ih⟩

/-- src/modules/tag.c:70-106 `Tag_to_char_stream`. -/

def Tag_to_char_stream [Platform] (tag : Nat) : Prog (Nat × CharStream) := do
  let t ← loadTag (some tag)
  let h ← loadTagHeader t.header
  let tag_cs ← CharStream_new
  let cs := Id3.CharStream_new (toInt32 (u32 (h.tag_size + 10)))
  let cs ← lift (CharStream_write cs h.identifier 3)
  let cs ← lift (CharStream_write cs [some h.major_version] 1)
  let cs ← lift (CharStream_write cs [some h.minor_version] 1)
  let cs ← lift (CharStream_write cs [some h.flags] 1)
  let size_bytes ← lift (syncint_encode (BitVec.ofNat 32 h.tag_size))
  itobBlock
  let cs ← lift (CharStream_write cs (ofB (itob size_bytes)) 4)
  let n ← loadNode t.frames
  match n.frame with
  | none => return (tag_cs, cs)
  | some _ =>
    let cs ← Tag_write_frames (← heapFuel) cs t.frames
    return (tag_cs, cs)

instance [Platform] (tag : Nat) : Same (Tag_to_char_stream tag) (H.Tag_to_char_stream tag) := ⟨by
  unfold Tag_to_char_stream H.Tag_to_char_stream
  same⟩

/-- src/id3v2lib.c:86-89: the size of the tag in the file; its header is freed. -/

def existingTagSize [Platform] (file : File) : Prog Int := do
  match ← ID3v2_read_tag_header file with
  | none => return 0
  | some p =>
    let h ← loadTagHeader (some p)
    free (some p)
    return toInt32 (u32 (h.tag_size + 10))

instance [Platform] (file : File) : Same (existingTagSize file) (H.existingTagSize file) := ⟨by
  unfold existingTagSize H.existingTagSize
  same⟩

/-- src/id3v2lib.c:82-131 `ID3v2_write_tag`: the new contents of the file. -/

def ID3v2_write_tag [Platform] (file : File) (tag : Nat) : Prog File := do
  let original_size ← existingTagSize file
  let t ← loadTag (some tag)
  let d ← lift (ck (2048 - t.padding_size))
  let p ← lift (ck (t.padding_size + clamp_int d 0 2048))
  storeCell (some tag) (.tag t.header t.frames p)
  let (tag_cs, cs) ← Tag_to_char_stream tag
  let temp ← lift (memcpySrc cs.stream cs.size)
  match file with
  | none => lift (.ub .nullDeref)
  | some contents =>
    CharStream_free tag_cs
    return some (temp ++ contents.drop original_size.toNat)

instance [Platform] (file : File) (tag : Nat) : Same (ID3v2_write_tag file tag) (H.ID3v2_write_tag file tag) := ⟨by
  unfold ID3v2_write_tag H.ID3v2_write_tag
  same⟩

/-- src/id3v2lib.c:133-165 `ID3v2_delete_tag`: the new contents of the file. -/

def ID3v2_delete_tag [Platform] (file : File) : Prog File := do
  match ← ID3v2_read_tag_header file with
  | none => return file
  | some p =>
    match file with
    | none => lift (.ub .nullDeref)
    | some contents =>
      let h ← loadTagHeader (some p)
      free (some p)
      return some (contents.drop (u32 (h.tag_size + 10)))

instance [Platform] (file : File) : Same (ID3v2_delete_tag file) (H.ID3v2_delete_tag file) := ⟨by
  unfold ID3v2_delete_tag H.ID3v2_delete_tag
  same⟩

/-- src/id3v2lib.compat.c:23-35 `new_frame_list`; `last` is not initialised. -/

def new_frame_list : Prog Nat := malloc (.cnode none none none none)

instance : Same (new_frame_list) (H.new_frame_list) := ⟨by
  unfold new_frame_list H.new_frame_list
  same⟩

/-- src/id3v2lib.compat.c:37-56 `frame_to_compat_frame`. -/

def frame_to_compat_frame [Platform] (frame : Ptr) : Prog Nat := do
  let compat_frame ← malloc (.cframe [] 0 [] none none)
  match frame with
  | none => lift (.ub .nullDeref)
  | some a =>
    let f ← loadFrame (some a)
    let h ← loadFrameHeader f.header
    let frame_id ← lift (memcpySrc h.id 4)
    let fl ← lift (memcpySrc h.flags 1)
    let (frame_cs, cs) ← Frame_to_char_stream a
    let cs ← lift (CharStream_seek cs 10 .set)
    let (d, _) ← lift (CharStream_read cs h.size)
    let data ← malloc (.bytes (intoArray h.size d))
    storeCell (some compat_frame) (.cframe frame_id h.size (intoArray 2 fl) (some data) (some a))
    CharStream_free frame_cs
    return compat_frame

instance [Platform] (frame : Ptr) : Same (frame_to_compat_frame frame) (H.frame_to_compat_frame frame) := ⟨by
  unfold frame_to_compat_frame H.frame_to_compat_frame
  same⟩

/-- src/id3v2lib.compat.c:58-77 `add_to_list`. The field `last` is that of the head node; the other nodes never get
one. -/

def add_to_list (main frame : Nat) : Prog Unit := do
  let m ← loadCNode (some main)
  match m.start with
  | none => storeCell (some main) (.cnode (some frame) m.next (some main) (some (some main)))
  | some start =>
    let current ← new_frame_list
    storeCell (some current) (.cnode (some frame) none (some start) none)
    match m.last with
    | none => lift (.ub .uninit)
    | some last =>
      let l ← loadCNode last
      storeCell last (.cnode l.frame (some current) l.start l.last)
      let m ← loadCNode (some main)
      storeCell (some main) (.cnode m.frame m.next m.start (some (some current)))

instance (main frame : Nat) : Same (add_to_list main frame) (H.add_to_list main frame) := ⟨by
  unfold add_to_list H.add_to_list
  same⟩

/-- src/id3v2lib.compat.c:191-195 `free_frame`. -/

def free_frame (frame : Ptr) : Prog Unit := do
  let f ← loadCFrame frame
  free f.data
  free frame

instance (frame : Ptr) : Same (free_frame frame) (H.free_frame frame) := ⟨by
  unfold free_frame H.free_frame
  same⟩

/-- src/id3v2lib.compat.c:79-95 `add_uniq_to_list`. When the id is not found `head` is NULL on line 94. -/

def add_uniq_to_list : Nat → Ptr → Nat → Prog Unit
  | 0, _, _ => hang
  | _ + 1, none, _ => lift (.ub .nullDeref)
  | k + 1, some head, frame => do
    let n ← loadCNode (some head)
    let f ← loadCFrame n.frame
    let g ← loadCFrame (some frame)
    if ← lift (idEq f.frame_id g.frame_id) then
      free_frame n.frame
      storeCell (some head) (.cnode (some frame) n.next n.start n.last)
    else add_uniq_to_list k n.next frame

instance  (x0 : Nat) (x1 : Ptr) (x2 : Nat) : Same (add_uniq_to_list x0 x1 x2) (H.add_uniq_to_list x0 x1 x2) := ⟨by
  induction x0 generalizing x1 x2 with
  | zero =>
    unfold add_uniq_to_list H.add_uniq_to_list
    same
  | succ k ih =>
    unfold add_uniq_to_list H.add_uniq_to_list
    same_rec ih⟩

/-- src/id3v2lib.compat.c:97-110 `get_from_list`. -/

def get_from_list : Nat → Ptr → Bytes → Prog Ptr
  | 0, _, _ => hang
  | _ + 1, none, _ => return none
  | k + 1, some list, frame_id => do
    let n ← loadCNode (some list)
    match n.frame with
    | none => return none
    | some f =>
      let c ← loadCFrame (some f)
      if ← lift (strncmpEq 4 c.frame_id frame_id) then return some f
      else get_from_list k n.next frame_id

instance  (x0 : Nat) (x1 : Ptr) (x2 : Bytes) : Same (get_from_list x0 x1 x2) (H.get_from_list x0 x1 x2) := ⟨by
  induction x0 generalizing x1 x2 with
  | zero =>
    unfold get_from_list H.get_from_list
    same
  | succ k ih =>
    unfold get_from_list H.get_from_list
    same_rec ih⟩

/-- src/id3v2lib.compat.c:112-124 `new_tag`: `raw` and all header fields but `tag` are not initialised. -/

def new_tag : Prog Nat := do
  let tag ← malloc (.ctag none none none none)
  let header ← malloc (.cheader Id3.new_tag.tag_header)
  let frames ← new_frame_list
  let t ← ID3v2_Tag_new none
  storeCell (some tag) (.ctag none (some header) (some frames) (some t))
  return tag

instance : Same (new_tag) (H.new_tag) := ⟨by
  unfold new_tag H.new_tag
  same⟩

/-- src/id3v2lib.compat.c:169-174, the loop of `load_tag_with_buffer`. -/

def load_frames [Platform] : Nat → Ptr → Nat → Prog Unit
  | 0, _, _ => hang
  | _ + 1, none, _ => return ()
  | k + 1, some head, compat_frames => do
    let n ← loadNode (some head)
    let compat_frame ← frame_to_compat_frame n.frame
    add_to_list compat_frames compat_frame
    let n ← loadNode (some head)
    load_frames k n.next compat_frames

instance [Platform] (x0 : Nat) (x1 : Ptr) (x2 : Nat) : Same (load_frames x0 x1 x2) (H.load_frames x0 x1 x2) := ⟨by
  induction x0 generalizing x1 x2 with
  | zero =>
    unfold load_frames H.load_frames
    same
  | succ k ih =>
    unfold load_frames H.load_frames
    same_rec ih⟩

/-- src/id3v2lib.compat.c:143-179 `load_tag_with_buffer`. -/

def load_tag_with_buffer [Platform] (buffer : Src) (length : Int) : Prog Nat := do
  let tag ← ID3v2_read_tag_from_buffer buffer length
  let compat_tag ← malloc (.ctag none none none none)
  let tag_header ← malloc (.cheader Id3.new_tag.tag_header)
  let b ← readSrc buffer
  let r ← lift (memcpySrc b length)
  let raw ← malloc (.bytes r)
  match tag with
  | none => lift (.ub .nullDeref)
  | some t =>
    let s ← loadTag (some t)
    let x ← loadTagHeader s.header
    storeCell (some tag_header) (.cheader
      { tag := x.identifier, major_version := some x.major_version, minor_version := some x.minor_version,
        flags := some x.flags, tag_size := some (toInt32 x.tag_size),
        extended_header_size := x.extended_header_size.map toInt32 })
    let compat_frames ← new_frame_list
    load_frames (← heapFuel) s.frames compat_frames
    storeCell (some compat_tag) (.ctag (some (some raw)) (some tag_header) (some compat_frames) (some t))
    return compat_tag

instance [Platform] (buffer : Src) (length : Int) : Same (load_tag_with_buffer buffer length) (H.load_tag_with_buffer buffer length) := ⟨by
  unfold load_tag_with_buffer H.load_tag_with_buffer
  same⟩

/-- src/id3v2lib.compat.c:126-141 `load_tag`. -/

def load_tag [Platform] (file : File) : Prog Nat := do
  match ← ID3v2_read_tag_header file with
  | none => lift (.ub .nullDeref)
  | some p =>
    match file with
    | none => lift (.ub .nullDeref)
    | some contents =>
      let header ← loadTagHeader (some p)
      let buffer_size := toInt32 (u32 (header.tag_size + 10))
      let buffer ← malloc (.bytes (intoArray buffer_size (contents.take buffer_size.toNat)))
      let tag ← load_tag_with_buffer (.block buffer) buffer_size
      free (some buffer)
      free (some p)
      return tag

instance [Platform] (file : File) : Same (load_tag file) (H.load_tag file) := ⟨by
  unfold load_tag H.load_tag
  same⟩

/-- `tag->tag`, which the functions of the new API dereference. -/

def tagOf (tag : Nat) : Prog Nat := do
  let t ← loadCTag (some tag)
  match t.tag with
  | none => lift (.ub .nullDeref)
  | some a => return a

instance (tag : Nat) : Same (tagOf tag) (H.tagOf tag) := ⟨by
  unfold tagOf H.tagOf
  same⟩

/-- src/id3v2lib.compat.c:181-184 `remove_tag`. -/

def remove_tag [Platform] (file : File) : Prog File := ID3v2_delete_tag file

instance [Platform] (file : File) : Same (remove_tag file) (H.remove_tag file) := ⟨by
  unfold remove_tag H.remove_tag
  same⟩

/-- src/id3v2lib.compat.c:186-189 `set_tag`: the new contents of the file. -/

def set_tag [Platform] (file : File) (tag : Nat) : Prog File := do
  ID3v2_write_tag file (← tagOf tag)

instance [Platform] (file : File) (tag : Nat) : Same (set_tag file tag) (H.set_tag file tag) := ⟨by
  unfold set_tag H.set_tag
  same⟩

/-- src/id3v2lib.compat.c:203-211, the loop of `free_tag`. -/

def free_list : Nat → Ptr → Prog Unit
  | 0, _ => hang
  | _ + 1, none => return ()
  | k + 1, some list => do
    let n ← loadCNode (some list)
    free_frame n.frame
    let n ← loadCNode (some list)
    free (some list)
    free_list k n.next

instance  (x0 : Nat) (x1 : Ptr) : Same (free_list x0 x1) (H.free_list x0 x1) := ⟨by
  induction x0 generalizing x1 with
  | zero =>
    unfold free_list H.free_list
    same
  | succ k ih =>
    unfold free_list H.free_list
    same_rec ih⟩

/-- src/id3v2lib.compat.c:197-214 `free_tag`. -/

def free_tag (tag : Nat) : Prog Unit := do
  let t ← loadCTag (some tag)
  match t.raw with
  | none => lift (.ub .uninit)
  | some raw =>
    free raw
    free t.tag_header
    ID3v2_Tag_free (← tagOf tag)
    let t ← loadCTag (some tag)
    free_list (← heapFuel) t.frames
    free (some tag)

instance (tag : Nat) : Same (free_tag tag) (H.free_tag tag) := ⟨by
  unfold free_tag H.free_tag
  same⟩

/-- `get_from_list(tag->frames, frame_id)`, the body of every getter. -/

def tag_get (frame_id : Bytes) (tag : Nat) : Prog Ptr := do
  let t ← loadCTag (some tag)
  get_from_list (← heapFuel) t.frames frame_id

instance (frame_id : Bytes) (tag : Nat) : Same (tag_get frame_id tag) (H.tag_get frame_id tag) := ⟨by
  unfold tag_get H.tag_get
  same⟩

/-- src/id3v2lib.compat.c:216-219 -/

def tag_get_title := tag_get TITLE_ID

instance (tag : Nat) : Same (tag_get_title tag) (H.tag_get_title tag) := ⟨by
  unfold tag_get_title H.tag_get_title
  same⟩

/-- src/id3v2lib.compat.c:221-224 -/

def tag_get_artist := tag_get ARTIST_ID

instance (tag : Nat) : Same (tag_get_artist tag) (H.tag_get_artist tag) := ⟨by
  unfold tag_get_artist H.tag_get_artist
  same⟩

/-- src/id3v2lib.compat.c:226-229 -/

def tag_get_album := tag_get ALBUM_ID

instance (tag : Nat) : Same (tag_get_album tag) (H.tag_get_album tag) := ⟨by
  unfold tag_get_album H.tag_get_album
  same⟩

/-- src/id3v2lib.compat.c:231-234 -/

def tag_get_album_artist := tag_get ALBUM_ARTIST_ID

instance (tag : Nat) : Same (tag_get_album_artist tag) (H.tag_get_album_artist tag) := ⟨by
  unfold tag_get_album_artist H.tag_get_album_artist
  same⟩

/-- src/id3v2lib.compat.c:236-239 -/

def tag_get_genre := tag_get GENRE_ID

instance (tag : Nat) : Same (tag_get_genre tag) (H.tag_get_genre tag) := ⟨by
  unfold tag_get_genre H.tag_get_genre
  same⟩

/-- src/id3v2lib.compat.c:241-244 -/

def tag_get_track := tag_get TRACK_ID

instance (tag : Nat) : Same (tag_get_track tag) (H.tag_get_track tag) := ⟨by
  unfold tag_get_track H.tag_get_track
  same⟩

/-- src/id3v2lib.compat.c:246-249 -/

def tag_get_year := tag_get YEAR_ID

instance (tag : Nat) : Same (tag_get_year tag) (H.tag_get_year tag) := ⟨by
  unfold tag_get_year H.tag_get_year
  same⟩

/-- src/id3v2lib.compat.c:251-254 -/

def tag_get_comment := tag_get COMMENT_ID

instance (tag : Nat) : Same (tag_get_comment tag) (H.tag_get_comment tag) := ⟨by
  unfold tag_get_comment H.tag_get_comment
  same⟩

/-- src/id3v2lib.compat.c:256-259 -/

def tag_get_disc_number := tag_get DISC_NUMBER_ID

instance (tag : Nat) : Same (tag_get_disc_number tag) (H.tag_get_disc_number tag) := ⟨by
  unfold tag_get_disc_number H.tag_get_disc_number
  same⟩

/-- src/id3v2lib.compat.c:261-264 -/

def tag_get_composer := tag_get COMPOSER_ID

instance (tag : Nat) : Same (tag_get_composer tag) (H.tag_get_composer tag) := ⟨by
  unfold tag_get_composer H.tag_get_composer
  same⟩

/-- src/id3v2lib.compat.c:266-269 -/

def tag_get_album_cover := tag_get ALBUM_COVER_ID

instance (tag : Nat) : Same (tag_get_album_cover tag) (H.tag_get_album_cover tag) := ⟨by
  unfold tag_get_album_cover H.tag_get_album_cover
  same⟩

/-- src/id3v2lib.compat.c:271-283 `parse_text_frame_content`: a copy of the text. -/

def parse_text_frame_content (frame : Nat) : Prog Nat := do
  let content ← malloc (.textContent 0 0 none)
  let f ← loadCFrame (some frame)
  let text_frame ← loadFrame f.frame
  match ← loadCell text_frame.data with
  | .textData size encoding text =>
    let t ← loadBytes text
    let b ← lift (memcpySrc t size)
    let data ← malloc (.bytes b)
    storeCell (some content) (.textContent size encoding (some data))
    return content
  | _ => lift (.ub .typeConfusion)

instance (frame : Nat) : Same (parse_text_frame_content frame) (H.parse_text_frame_content frame) := ⟨by
  unfold parse_text_frame_content H.parse_text_frame_content
  same⟩

/-- src/id3v2lib.compat.c:285-299 `parse_comment_frame_content`: pointers into the frame. -/

def parse_comment_frame_content (frame : Nat) : Prog Nat := do
  let content ← malloc (.commentContent none none none)
  let f ← loadCFrame (some frame)
  let comment_frame ← loadFrame f.frame
  match ← loadCell comment_frame.data with
  | .commentData size encoding _ short_description comment =>
    let text ← malloc (.textContent size encoding comment)
    storeCell (some content) (.commentContent comment_frame.data short_description (some text))
    return content
  | _ => lift (.ub .typeConfusion)

instance (frame : Nat) : Same (parse_comment_frame_content frame) (H.parse_comment_frame_content frame) := ⟨by
  unfold parse_comment_frame_content H.parse_comment_frame_content
  same⟩

/-- src/id3v2lib.compat.c:301-315 `parse_apic_frame_content`: pointers into the frame. -/

def parse_apic_frame_content (frame : Nat) : Prog Nat := do
  let content ← malloc (.apicContent 0 none 0 none 0 none)
  let f ← loadCFrame (some frame)
  let apic_frame ← loadFrame f.frame
  match ← loadCell apic_frame.data with
  | .apicData encoding mime_type picture_type description data picture_size =>
    storeCell (some content) (.apicContent encoding mime_type picture_type description picture_size data)
    return content
  | _ => lift (.ub .typeConfusion)

instance (frame : Nat) : Same (parse_apic_frame_content frame) (H.parse_apic_frame_content frame) := ⟨by
  unfold parse_apic_frame_content H.parse_apic_frame_content
  same⟩

/-- src/id3v2lib.compat.c:321-324 and the same lines of the other setters: the compat copy of the frame that was just
set goes into the compat list. -/

def compat_update [Platform] (tag : Nat) (frame : Ptr) : Prog Unit := do
  let compat_frame ← frame_to_compat_frame frame
  let t ← loadCTag (some tag)
  add_uniq_to_list (← heapFuel) t.frames compat_frame

instance [Platform] (tag : Nat) (frame : Ptr) : Same (compat_update tag frame) (H.compat_update tag frame) := ⟨by
  unfold compat_update H.compat_update
  same⟩

/-- The body of the setters of text fields, which differ only in the id. -/

def tag_set_text [Platform] (id : Bytes) (text : Src) (tag : Nat) : Prog Unit := do
  let t ← tagOf tag
  ID3v2_Tag_set_text_frame t { id := .literal id, flags := .literal NO_FLAGS, text := text }
  let frame ← ID3v2_Tag_get_frame t (.literal id)
  compat_update tag frame

instance [Platform] (id : Bytes) (text : Src) (tag : Nat) : Same (tag_set_text id text tag) (H.tag_set_text id text tag) := ⟨by
  unfold tag_set_text H.tag_set_text
  same⟩

/-- src/id3v2lib.compat.c:317-325 `tag_set_title` (the argument `encoding` is ignored by all setters). -/

def tag_set_title [Platform] (title : Src) (_encoding : UInt8) (tag : Nat) := tag_set_text TITLE_ID title tag

instance [Platform] (title : Src) (_encoding : UInt8) (tag : Nat) : Same (tag_set_title title _encoding tag) (H.tag_set_title title _encoding tag) := ⟨by
  unfold tag_set_title H.tag_set_title
  same⟩

/-- src/id3v2lib.compat.c:327-335 -/

def tag_set_artist [Platform] (artist : Src) (_encoding : UInt8) (tag : Nat) := tag_set_text ARTIST_ID artist tag

instance [Platform] (artist : Src) (_encoding : UInt8) (tag : Nat) : Same (tag_set_artist artist _encoding tag) (H.tag_set_artist artist _encoding tag) := ⟨by
  unfold tag_set_artist H.tag_set_artist
  same⟩

/-- src/id3v2lib.compat.c:337-345 -/

def tag_set_album [Platform] (album : Src) (_encoding : UInt8) (tag : Nat) := tag_set_text ALBUM_ID album tag

instance [Platform] (album : Src) (_encoding : UInt8) (tag : Nat) : Same (tag_set_album album _encoding tag) (H.tag_set_album album _encoding tag) := ⟨by
  unfold tag_set_album H.tag_set_album
  same⟩

/-- src/id3v2lib.compat.c:347-355 -/

def tag_set_album_artist [Platform] (album_artist : Src) (_encoding : UInt8) (tag : Nat) :=
  tag_set_text ALBUM_ARTIST_ID album_artist tag

instance [Platform] (album_artist : Src) (_encoding : UInt8) (tag : Nat) : Same (tag_set_album_artist album_artist _encoding tag) (H.tag_set_album_artist album_artist _encoding tag) := ⟨by
  unfold tag_set_album_artist H.tag_set_album_artist
  same⟩

/-- src/id3v2lib.compat.c:357-365 -/

def tag_set_genre [Platform] (genre : Src) (_encoding : UInt8) (tag : Nat) := tag_set_text GENRE_ID genre tag

instance [Platform] (genre : Src) (_encoding : UInt8) (tag : Nat) : Same (tag_set_genre genre _encoding tag) (H.tag_set_genre genre _encoding tag) := ⟨by
  unfold tag_set_genre H.tag_set_genre
  same⟩

/-- src/id3v2lib.compat.c:367-375 -/

def tag_set_track [Platform] (track : Src) (_encoding : UInt8) (tag : Nat) := tag_set_text TRACK_ID track tag

instance [Platform] (track : Src) (_encoding : UInt8) (tag : Nat) : Same (tag_set_track track _encoding tag) (H.tag_set_track track _encoding tag) := ⟨by
  unfold tag_set_track H.tag_set_track
  same⟩

/-- src/id3v2lib.compat.c:377-385 -/

def tag_set_year [Platform] (year : Src) (_encoding : UInt8) (tag : Nat) := tag_set_text YEAR_ID year tag

instance [Platform] (year : Src) (_encoding : UInt8) (tag : Nat) : Same (tag_set_year year _encoding tag) (H.tag_set_year year _encoding tag) := ⟨by
  unfold tag_set_year H.tag_set_year
  same⟩

/-- src/id3v2lib.compat.c:397-405 -/

def tag_set_disc_number [Platform] (disc_number : Src) (_encoding : UInt8) (tag : Nat) :=
  tag_set_text DISC_NUMBER_ID disc_number tag

instance [Platform] (disc_number : Src) (_encoding : UInt8) (tag : Nat) : Same (tag_set_disc_number disc_number _encoding tag) (H.tag_set_disc_number disc_number _encoding tag) := ⟨by
  unfold tag_set_disc_number H.tag_set_disc_number
  same⟩

/-- src/id3v2lib.compat.c:407-415 -/

def tag_set_composer [Platform] (composer : Src) (_encoding : UInt8) (tag : Nat) :=
  tag_set_text COMPOSER_ID composer tag

instance [Platform] (composer : Src) (_encoding : UInt8) (tag : Nat) : Same (tag_set_composer composer _encoding tag) (H.tag_set_composer composer _encoding tag) := ⟨by
  unfold tag_set_composer H.tag_set_composer
  same⟩

/-- src/id3v2lib.compat.c:387-395 `tag_set_comment`. -/

def tag_set_comment [Platform] (comment : Src) (_encoding : UInt8) (tag : Nat) : Prog Unit := do
  let t ← tagOf tag
  ID3v2_Tag_set_comment_frame t
    { flags := .literal NO_FLAGS, language := .literal (lit [0x65, 0x6E, 0x67]),
      short_description := .literal EMPTY_UNICODE_STR, comment := comment }
  let frame ← ID3v2_Tag_get_frame t (.literal COMMENT_ID)
  compat_update tag frame

instance [Platform] (comment : Src) (_encoding : UInt8) (tag : Nat) : Same (tag_set_comment comment _encoding tag) (H.tag_set_comment comment _encoding tag) := ⟨by
  unfold tag_set_comment H.tag_set_comment
  same⟩

/-- src/id3v2lib.compat.c:440-453 `tag_set_album_cover_from_bytes`. -/

def tag_set_album_cover_from_bytes [Platform] (album_cover_bytes mimetype : Src) (picture_size : Int) (tag : Nat) :
    Prog Unit := do
  let t ← tagOf tag
  ID3v2_Tag_set_apic_frame t
    { flags := .literal NO_FLAGS, mime_type := mimetype, description := .literal EMPTY_UNICODE_STR,
      picture_size := picture_size, picture_type := 3, data := album_cover_bytes }
  let frame ← ID3v2_Tag_get_frame t (.literal ALBUM_COVER_ID)
  compat_update tag frame

instance [Platform] (album_cover_bytes mimetype : Src) (picture_size : Int) (tag : Nat) : Same (tag_set_album_cover_from_bytes album_cover_bytes mimetype picture_size tag) (H.tag_set_album_cover_from_bytes album_cover_bytes mimetype picture_size tag) := ⟨by
  unfold tag_set_album_cover_from_bytes H.tag_set_album_cover_from_bytes
  same⟩

/-- src/id3v2lib.compat.c:417-438 `tag_set_album_cover`: `image` is the contents of the file called `filename`. -/

def tag_set_album_cover [Platform] (filename : List UInt8) (image : File) (tag : Nat) : Prog Unit :=
  match image with
  | none => lift (.ub .nullDeref)
  | some bytes => do
    let image_size ← lift (ck bytes.length)
    let album_cover_bytes ← malloc (.bytes bytes)
    match afterLastDot filename with
    | none => lift (.ub .nullDeref)
    | some ext =>
      let mimetype :=
        if ext = [0x70, 0x6E, 0x67] then lit [0x69, 0x6D, 0x61, 0x67, 0x65, 0x2F, 0x70, 0x6E, 0x67]
        else lit [0x69, 0x6D, 0x61, 0x67, 0x65, 0x2F, 0x6A, 0x70, 0x65, 0x67]
      tag_set_album_cover_from_bytes (.block album_cover_bytes) (.literal mimetype) image_size tag
      free (some album_cover_bytes)

instance [Platform] (filename : List UInt8) (image : File) (tag : Nat) : Same (tag_set_album_cover filename image tag) (H.tag_set_album_cover filename image tag) := ⟨by
  unfold tag_set_album_cover H.tag_set_album_cover
  same⟩

end Id3.T
