import Verif.Spec.Threads

/-! Calls as sequences of accesses do what the calls of a program without threads do. -/

namespace Id3.Spec

open Id3

variable [Platform]

def World.loc (w : World) : Local := ⟨w.disk, w.tags, w.lists, w.headers, w.buffers⟩

def CWorld.loc (w : CWorld) : CLocal := ⟨w.disk, w.tags, w.things⟩

omit [Platform] in
theorem exec_same {α : Type} {p : Prog α} {x : HeapM α} (hs : p.interp = x) (l : Local) (h : Heap) (g : α → Local) :
    (p >>= fun a => pure (g a)).interp h =
      ((l.world h).exec x fun a h => (g a).world h) >>= fun w => .ok (w.loc, w.heap) := by
  rw [Prog.interp_bind, hs]
  show HeapM.bind x _ h = ((x h >>= fun r => pure ((g r.1).world r.2)) >>= fun w => _)
  unfold HeapM.bind
  cases x h <;> rfl

omit [Platform] in
theorem cexec_same {α : Type} {p : Prog α} {x : HeapM α} (hs : p.interp = x) (l : CLocal) (h : Heap) (g : α → CLocal) :
    (p >>= fun a => pure (g a)).interp h =
      ((l.world h).exec x fun a h => (g a).world h) >>= fun w => .ok (w.loc, w.heap) := by
  rw [Prog.interp_bind, hs]
  show HeapM.bind x _ h = ((x h >>= fun r => pure ((g r.1).world r.2)) >>= fun w => _)
  unfold HeapM.bind
  cases x h <;> rfl

theorem call_same (l : Local) (c : Call) (h : Heap) :
    (c.prog l).interp h = c.run (l.world h) >>= fun w => .ok (w.loc, w.heap) := by
  cases c with
  | unlinkList p =>
    have e : (T.heapFuel >>= fun n => T.ID3v2_FrameList_unlink n (some p)).interp =
        heapFuel >>= fun n => H.ID3v2_FrameList_unlink n (some p) := same_bind Same.eq fun _ => Same.eq
    refine Eq.trans ?_ (exec_same e l h fun _ => { l with lists := l.lists.erase p })
    show (T.heapFuel >>= fun n => T.ID3v2_FrameList_unlink n (some p) >>= fun _ => _).interp h = _
    rw [Prog.interp_bind, Prog.interp_bind, Prog.interp_bind, HeapM.bind_assoc]
    refine congrFun (congrArg (T.heapFuel.interp >>= ·) (funext fun n => ?_)) h
    rw [Prog.interp_bind]
  | changeDisk f => rfl
  | _ => exact exec_same Same.eq l h _

instance (f : Field) (s : Src) (e : UInt8) (t : Nat) : Same (f.pset s e t) (f.hset s e t) := ⟨by
  cases f <;> unfold Field.pset Field.hset <;> exact Same.eq⟩

omit [Platform] in
instance (f : Field) (t : Nat) : Same (f.pget t) (f.hget t) := ⟨by
  cases f <;> unfold Field.pget Field.hget <;> exact Same.eq⟩

omit [Platform] in
instance (k : Kind) (a : Nat) : Same (releaseProg k a) (releaseThing k a) := ⟨by
  unfold releaseProg releaseThing
  same⟩

theorem ccall_same (l : CLocal) (c : CCall) (h : Heap) :
    (c.prog l).interp h = c.run (l.world h) >>= fun w => .ok (w.loc, w.heap) := by
  cases c with
  | changeDisk f => rfl
  | _ => exact cexec_same Same.eq l h _

/-- The thread is in a state that a program without other threads can reach. -/
def Good : Client → Heap → Prop
  | .current l, h => Reachable (l.world h)
  | .compat l, h => CReachable (l.world h)

theorem current_same (l : Local) (c : Call) (h : Heap) :
    (AnyCall.prog (.current l) (.current c)).interp h = c.run (l.world h) >>= fun w => .ok (.current w.loc, w.heap) := by
  show ((c.prog l >>= fun l => pure (Client.current l)).interp h : Res _) = _
  rw [Prog.interp_bind]
  show HeapM.bind (c.prog l).interp _ h = _
  unfold HeapM.bind
  rw [call_same]
  cases c.run (l.world h) <;> rfl

theorem compat_same (l : CLocal) (c : CCall) (h : Heap) :
    (AnyCall.prog (.compat l) (.compat c)).interp h = c.run (l.world h) >>= fun w => .ok (.compat w.loc, w.heap) := by
  show ((c.prog l >>= fun l => pure (Client.compat l)).interp h : Res _) = _
  rw [Prog.interp_bind]
  show HeapM.bind (c.prog l).interp _ h = _
  unfold HeapM.bind
  rw [ccall_same]
  cases c.run (l.world h) <;> rfl

theorem good_done {l0 l : Client} {c : AnyCall} {h0 h : Heap} (g : Good l0 h0) (ha : c.Allowed h0 l0)
    (e : (c.prog l0).interp h0 = .ok (l, h)) : Good l h := by
  cases l0 with
  | current l0 =>
    cases c with
    | current c =>
      rw [current_same] at e
      obtain ⟨w, e1, e2⟩ := Res.bind_eq_ok.mp e
      cases e2
      exact .step g ha e1
    | compat c => exact ha.elim
  | compat l0 =>
    cases c with
    | current c => exact ha.elim
    | compat c =>
      rw [compat_same] at e
      obtain ⟨w, e1, e2⟩ := Res.bind_eq_ok.mp e
      cases e2
      exact .step g ha e1

omit [Platform] in
theorem good_start {l : Client} (hl : l.Fresh) (g : Nat → Nat) [Platform] : Good l ⟨fun _ => none, 0, g⟩ := by
  cases l with
  | current l =>
    obtain ⟨d, t, ls, hs, bs⟩ := l
    obtain ⟨rfl, rfl, rfl, rfl⟩ := hl
    exact .start d g
  | compat l =>
    obtain ⟨d, t, ts⟩ := l
    obtain ⟨rfl, rfl⟩ := hl
    exact .start d g

/-- The rest of the call, on the part of the memory that the thread allocated, is the rest of a call that a program without
other threads makes. -/
def Solo (p : Prog Client) (h : Heap) : Prop :=
  (∃ l, p = .ret l ∧ Good l h) ∨
    ∃ l0 c h0, Good l0 h0 ∧ c.Allowed h0 l0 ∧ (AnyCall.prog l0 c).interp h0 = p.interp h

theorem Solo.good {l : Client} {h : Heap} (s : Solo (.ret l) h) : Good l h := by
  obtain ⟨l', e, g⟩ | ⟨l0, c, h0, g, ha, e⟩ := s
  · cases e
    exact g
  · exact good_done g ha e

end Id3.Spec
