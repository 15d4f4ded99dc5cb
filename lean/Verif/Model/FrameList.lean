import Verif.Model.Frames

/-!
# Model of src/modules/frame_list.c (value level)

A frame list is the sequence of its nodes, each with the frame it points to or NULL. The first node is the list head,
which always exists; an empty list is one node without a frame. The `start` field of a node is NULL exactly when its
frame is NULL, and otherwise points to the head node; the heap model (Verif/Heap) keeps the pointers and shows this.
A pointer to a frame of the list is represented by the index of the node.
-/

namespace Id3

/-- include/modules/frame_list.h:15-20 `ID3v2_FrameList`, as the list of the `frame` fields of its nodes. -/
abbrev FrameList := List (Option Frame)

/-- src/modules/frame_list.c:19-31 `FrameList_new`. -/
def FrameList_new : FrameList := [none]

/-- src/modules/frame_list.c:33-55 `FrameList_add_frame`: a head with `start == NULL` takes the frame itself (and keeps
its `next`), otherwise a node is linked after the last one. -/
def FrameList_add_frame (list : FrameList) (frame : Frame) : FrameList :=
  match list with
  | [] => []  -- the head node always exists
  | none :: rest => some frame :: rest
  | some f :: rest => some f :: rest ++ [some frame]

/-- libc `strncmp(a, b, n) == 0`: compares bytes up to a difference or a common terminator. -/
def strncmpEq : Nat → Bytes → Bytes → Res Bool
  | 0, _, _ => .ok true
  | n + 1, a :: as, b :: bs => do
    let va ← load a
    let vb ← load b
    if va ≠ vb then return false
    else if va = 0 then return true
    else strncmpEq n as bs
  | _ + 1, _, _ => .ub .oobRead

/-- `strncmp(list->frame->header->id, frame_id, 4) == 0` (frame_list.c:64, 84, 122). -/
def idMatches (f : Frame) (frame_id : Bytes) : Res Bool := strncmpEq 4 f.header.id frame_id

/-- src/modules/frame_list.c:60-73 `FrameList_get_frame_by_id`: stops at the first node without a frame. Returns the
index of the node and the frame. -/
def FrameList_get_frame_by_id (list : FrameList) (frame_id : Bytes) : Res (Option (Nat × Frame)) :=
  match list with
  | [] => .ok none
  | none :: _ => .ok none
  | some f :: rest => do
    if ← idMatches f frame_id then return some (0, f)
    match ← FrameList_get_frame_by_id rest frame_id with
    | none => return none
    | some (i, g) => return some (i + 1, g)

/-- src/modules/frame_list.c:82-90, the loop of `FrameList_get_frames_by_id`: the matching frames before the first node
without a frame, with the index of their nodes in the original list. -/
def FrameList_matching (list : FrameList) (frame_id : Bytes) : Res (List (Nat × Frame)) :=
  match list with
  | [] => .ok []
  | none :: _ => .ok []
  | some f :: rest => do
    let m ← idMatches f frame_id
    let r ← FrameList_matching rest frame_id
    let r := r.map (fun (p : Nat × Frame) => (p.1 + 1, p.2))
    return if m then (0, f) :: r else r

/-- src/modules/frame_list.c:78-93 `FrameList_get_frames_by_id`: the matches, added one by one to a new list. -/
def FrameList_get_frames_by_id (list : FrameList) (frame_id : Bytes) : Res FrameList := do
  let m ← FrameList_matching list frame_id
  return m.foldl (fun l p => FrameList_add_frame l p.2) FrameList_new

/-- src/modules/frame_list.c:125-127 and 145-147: `*list = *next` if there is a next node (which is then freed),
otherwise the node becomes an empty one. `rest` are the nodes after the removed one. -/
def unlinkNode (rest : FrameList) : FrameList :=
  match rest with
  | [] => [none]
  | _ => rest

/-- src/modules/frame_list.c:116-135 `FrameList_remove_frame_by_id`: the removed frame (or NULL) and the list. Unlike
the getters the loop dereferences the frame of every node (line 122). -/
def FrameList_remove_frame_by_id (list : FrameList) (frame_id : Bytes) : Res (Option Frame × FrameList) :=
  match list with
  | [] => .ok (none, [])
  | none :: _ => .ub .nullDeref
  | some f :: rest => do
    if ← idMatches f frame_id then return (some f, unlinkNode rest)
    let (r, rest') ← FrameList_remove_frame_by_id rest frame_id
    return (r, some f :: rest')

/-- src/modules/frame_list.c:137-155 `FrameList_remove_frame` for a pointer to the frame of node `i`. -/
def FrameList_remove_frame (list : FrameList) (i : Nat) : FrameList :=
  match list, i with
  | [], _ => []
  | _ :: rest, 0 => unlinkNode rest
  | x :: rest, i + 1 => x :: FrameList_remove_frame rest i

/-- src/modules/frame_list.c:137-155 `FrameList_remove_frame` for the pointer NULL: removes the first node without a
frame, if there is one. -/
def FrameList_remove_null (list : FrameList) : FrameList :=
  match list with
  | [] => []
  | none :: rest => unlinkNode rest
  | some f :: rest => some f :: FrameList_remove_null rest

/-- src/modules/frame_list.c:161-175 `FrameList_replace_frame` for a pointer to the frame of node `i`. -/
def FrameList_replace_frame (list : FrameList) (i : Nat) (new_frame : Frame) : FrameList :=
  match list, i with
  | [], _ => []
  | _ :: rest, 0 => some new_frame :: rest
  | x :: rest, i + 1 => x :: FrameList_replace_frame rest i new_frame

end Id3
