import Verif.Thread.Runs
import Verif.Thread.Solo
import Verif.Spec.Readers
import Verif.Heap.Holds
import Verif.Heap.CompatHolds

/-! Calls of a thread next to others: with its own things, and reading tags that do not change. -/

namespace Id3.H

open Id3 Id3.Spec

/-! ## Heaps -/

theorem Rep.same {h h' : Heap} {L : List Block} (r : Rep h L) (e : ∀ a, h'.cells a = h.cells a) (hn : h.next ≤ h'.next) :
    Rep h' L := ⟨fun a c => by rw [e]; exact r.cells a c, r.nodup, fun b hb => Nat.lt_of_lt_of_le (r.bound b hb) hn⟩

theorem Rep.with {h : Heap} {L : List Block} (r : Rep h L) (g : Nat → Nat) : Rep (h.with g) L :=
  Rep.same r (fun _ => rfl) (Nat.le_refl _)

theorem Rep.with' {h : Heap} {L : List Block} {g : Nat → Nat} (r : Rep (h.with g) L) : Rep h L :=
  Rep.same r (fun _ => rfl) (Nat.le_refl _)

/-- The blocks that a thread sees. -/
theorem rep_view {m h : Heap} {M L : List Block} (rm : Rep m M) (r : Rep h L) (d : Apart m.cells h) (hn : m.next ≤ h.next)
    (g : Nat → Nat) : Rep (h.view m.cells g) (M ++ L) := by
  refine ⟨fun a c => ?_, ?_, ?_⟩
  · show (h.cells a).or (m.cells a) = some c ↔ _
    rw [List.mem_append, ← rm.cells, ← r.cells]
    cases ha : h.cells a with
    | none => simp
    | some x => rw [d.2 a x ha]; simp
  · rw [List.map_append, List.nodup_append]
    refine ⟨rm.nodup, r.nodup, ?_⟩
    rintro a ha b hb rfl
    obtain ⟨x, hx, e1⟩ := List.mem_map.mp ha
    obtain ⟨y, hy, e2⟩ := List.mem_map.mp hb
    have h1 := (rm.cells x.1 x.2).mpr hx
    have h2 := d.2 _ _ ((r.cells y.1 y.2).mpr hy)
    rw [e2, ← e1, h1] at h2
    cases h2
  · intro b hb
    rcases List.mem_append.mp hb with hb | hb
    · exact Nat.lt_of_lt_of_le (rm.bound b hb) hn
    · exact r.bound b hb

/-- The blocks that a thread sees, without those of the program. -/
theorem rep_split {m h : Heap} {M L : List Block} {g : Nat → Nat} (rm : Rep m M) (d : Apart m.cells h)
    (r : Rep (h.view m.cells g) (M ++ L)) : Rep h L := by
  have hno := r.nodup
  rw [List.map_append, List.nodup_append] at hno
  refine ⟨fun a c => ?_, hno.2.1, fun b hb => r.bound b (List.mem_append_right _ hb)⟩
  have h1 := r.cells a c
  have h2 : (h.view m.cells g).cells a = (h.cells a).or (m.cells a) := rfl
  rw [h2, List.mem_append, ← rm.cells] at h1
  cases ha : h.cells a with
  | none =>
    rw [ha] at h1
    refine ⟨fun e => (nomatch e), fun hm => ?_⟩
    have h3 : m.cells a = some c := by simpa using h1.mpr (.inr hm)
    exact (hno.2.2 a (List.mem_map.mpr ⟨_, (rm.cells _ _).mp h3, rfl⟩) a (List.mem_map.mpr ⟨_, hm, rfl⟩) rfl).elim
  | some x =>
    rw [ha, d.2 a x ha] at h1
    simpa using h1

theorem view_cells {m h : Heap} (d : Apart m.cells h) {g : Nat → Nat} {a : Nat} {c : Cell} (hc : m.cells a = some c) :
    (h.view m.cells g).cells a = some c := by
  show (h.cells a).or (m.cells a) = _
  cases ha : h.cells a with
  | none => exact hc
  | some x => rw [d.2 a x ha] at hc; cases hc

/-! ## Programs that do not change the heap -/

/-- The program only looks. -/
def Silent {α : Type} : Prog α → Prop
  | .malloc _ _ => False
  | .free _ _ => False
  | .load _ k => ∀ c, Silent (k c)
  | .store _ _ _ => False
  | .fuel k => ∀ n, Silent (k n)
  | _ => True

theorem Silent.bind {α β : Type} {p : Prog α} {f : α → Prog β} (h : Silent p) (g : ∀ a, Silent (f a)) : Silent (p >>= f) := by
  show Silent (p.bind f)
  induction p with
  | ret a => exact g a
  | load a k ih => exact fun c => ih c (h c)
  | fuel k ih => exact fun n => ih n (h n)
  | malloc c k ih => exact h.elim
  | free a k ih => exact h.elim
  | store a c k ih => exact h.elim
  | _ => trivial

theorem Silent.new {α : Type} {p : Prog α} (h : Silent p) (A : List Nat) : OnlyNew A p := by
  induction p with
  | load a k ih => exact fun c => ih c (h c)
  | fuel k ih => exact fun n => ih n (h n)
  | malloc c k ih => exact h.elim
  | free a k ih => exact h.elim
  | store a c k ih => exact h.elim
  | _ => trivial

theorem Silent.before {α β : Type} {p : Prog α} {f : α → Prog β} {A : List Nat} (h : Silent p) (g : ∀ a, OnlyNew A (f a)) :
    OnlyNew A (p >>= f) := by
  show OnlyNew A (p.bind f)
  induction p with
  | ret a => exact g a
  | load a k ih => exact fun c => ih c (h c)
  | fuel k ih => exact fun n => ih n (h n)
  | malloc c k ih => exact h.elim
  | free a k ih => exact h.elim
  | store a c k ih => exact h.elim
  | _ => trivial

theorem runs_silent {α : Type} {S : Nat → Option Cell} {Q : Res α → Heap → Prop} {p : Prog α} {h : Heap} (r : Runs S Q p h)
    (s : Silent p) : Runs S (fun x h' => h' = h ∧ Q x h') p h := by
  induction p with
  | load a k ih => obtain ⟨c, hc, r⟩ := r; exact ⟨c, hc, ih c r (s c)⟩
  | fuel k ih => exact ih _ r (s _)
  | malloc c k ih => exact s.elim
  | free a k ih => exact s.elim
  | store a c k ih => exact s.elim
  | ret a => exact ⟨rfl, r⟩
  | ub k => exact ⟨rfl, r⟩
  | exit => exact ⟨rfl, r⟩
  | hang => exact ⟨rfl, r⟩

theorem silent_pure {α : Type} (a : α) : Silent (pure a : Prog α) := trivial

theorem silent_lift {α : Type} (r : Res α) : Silent (T.lift r) := by cases r <;> trivial

theorem silent_load (p : Ptr) : Silent (T.loadCell p) := by
  cases p with
  | none => trivial
  | some a => exact fun c => trivial

theorem silent_fuel : Silent T.heapFuel := fun _ => trivial

/-- Goes through a program that only looks. -/
macro "silent" : tactic => `(tactic| repeat' first
  | exact silent_pure _
  | exact silent_lift _
  | exact silent_load _
  | exact silent_fuel
  | assumption
  | exact trivial
  | refine Silent.bind ?_ (fun _ => ?_)
  | split)

theorem silent_node (p : Ptr) : Silent (T.loadNode p) := by unfold T.loadNode; silent
theorem silent_frame (p : Ptr) : Silent (T.loadFrame p) := by unfold T.loadFrame; silent
theorem silent_frameHeader (p : Ptr) : Silent (T.loadFrameHeader p) := by unfold T.loadFrameHeader; silent
theorem silent_tag (p : Ptr) : Silent (T.loadTag p) := by unfold T.loadTag; silent
theorem silent_bytes (p : Ptr) : Silent (T.loadBytes p) := by unfold T.loadBytes; silent
theorem silent_ctag (p : Ptr) : Silent (T.loadCTag p) := by unfold T.loadCTag; silent
theorem silent_cnode (p : Ptr) : Silent (T.loadCNode p) := by unfold T.loadCNode; silent
theorem silent_cframe (p : Ptr) : Silent (T.loadCFrame p) := by unfold T.loadCFrame; silent

theorem silent_src (s : Src) : Silent (T.readSrc s) := by
  cases s with
  | literal b => trivial
  | block a => exact silent_bytes _
  | frameId a => exact (silent_frameHeader _).bind fun _ => trivial

theorem silent_matches (f : Ptr) (id : Bytes) : Silent (T.idMatches f id) :=
  (silent_frame _).bind fun _ => (silent_frameHeader _).bind fun _ => silent_lift _

theorem silent_get_frame : ∀ (k : Nat) (l : Ptr) (id : Bytes), Silent (T.FrameList_get_frame_by_id k l id)
  | 0, _, _ => trivial
  | _ + 1, none, _ => trivial
  | k + 1, some a, id => by
    unfold T.FrameList_get_frame_by_id
    refine (silent_node _).bind fun n => ?_
    split
    · trivial
    · refine (silent_matches _ _).bind fun b => ?_
      have := silent_get_frame k n.next id
      split
      · trivial
      · exact this

theorem silent_tag_get (t : Nat) (s : Src) : Silent (T.ID3v2_Tag_get_frame t s) :=
  (silent_src s).bind fun _ => (silent_tag _).bind fun _ => silent_fuel.bind fun _ => silent_get_frame _ _ _

theorem silent_get_entry : ∀ (k : Nat) (l : Ptr) (id : Bytes), Silent (T.get_from_list k l id)
  | 0, _, _ => trivial
  | _ + 1, none, _ => trivial
  | k + 1, some a, id => by
    unfold T.get_from_list
    refine (silent_cnode _).bind fun n => ?_
    split
    · trivial
    · refine (silent_cframe _).bind fun c => (silent_lift _).bind fun b => ?_
      have := silent_get_entry k n.next id
      split
      · trivial
      · exact this

theorem silent_ctag_get (id : Bytes) (t : Nat) : Silent (T.tag_get id t) :=
  (silent_ctag _).bind fun _ => silent_fuel.bind fun _ => silent_get_entry _ _ _

theorem new_parse_text (e : Nat) : OnlyNew [] (T.parse_text_frame_content e) := by
  intro a
  refine (silent_cframe _).before fun f => (silent_frame _).before fun t => (silent_load _).before fun c => ?_
  split
  · refine (silent_bytes _).before fun t => (silent_lift _).before fun b => ?_
    exact fun d => ⟨by simp, trivial⟩
  · trivial

theorem new_parse_comment (e : Nat) : OnlyNew [] (T.parse_comment_frame_content e) := by
  intro a
  refine (silent_cframe _).before fun f => (silent_frame _).before fun t => (silent_load _).before fun c => ?_
  split
  · exact fun d => ⟨by simp, trivial⟩
  · trivial

theorem new_parse_picture (e : Nat) : OnlyNew [] (T.parse_apic_frame_content e) := by
  intro a
  refine (silent_cframe _).before fun f => (silent_frame _).before fun t => (silent_load _).before fun c => ?_
  split
  · exact ⟨by simp, trivial⟩
  · trivial

/-! ## What a thread has -/

/-- The invariant of a thread. -/
def Own : Client → Heap → Prop
  | .current l, h => ∃ Ts Ls Hs Us K, Inv (l.world h) Ts Ls Hs Us K
  | .compat l, h => ∃ Cs Os K, CInv (l.world h) Cs Os K

theorem Own.with {l : Client} {h : Heap} (o : Own l h) (g : Nat → Nat) : Own l (h.with g) := by
  cases l with
  | current l =>
    obtain ⟨Ts, Ls, Hs, Us, K, i⟩ := o
    exact ⟨Ts, Ls, Hs, Us, K, Rep.with i.rep g, i.tags, i.lists, i.headers, i.buffers⟩
  | compat l =>
    obtain ⟨Cs, Os, K, i⟩ := o
    exact ⟨Cs, Os, K, Rep.with i.rep g, i.linked, i.tags, i.things, i.quiet⟩

theorem Own.with' {l : Client} {h : Heap} {g : Nat → Nat} (o : Own l (h.with g)) : Own l h := by
  cases l with
  | current l =>
    obtain ⟨Ts, Ls, Hs, Us, K, i⟩ := o
    exact ⟨Ts, Ls, Hs, Us, K, Rep.with' i.rep, i.tags, i.lists, i.headers, i.buffers⟩
  | compat l =>
    obtain ⟨Cs, Os, K, i⟩ := o
    exact ⟨Cs, Os, K, Rep.with' i.rep, i.linked, i.tags, i.things, i.quiet⟩

theorem own_fresh {l : Client} (hl : l.Fresh) (h : Heap) (hh : ∀ a, h.cells a = none) : Own l h := by
  cases l with
  | current l =>
    obtain ⟨d, t, ls, hs, bs⟩ := l
    obtain ⟨rfl, rfl, rfl, rfl⟩ := hl
    exact ⟨[], [], [], [], [], ⟨fun a c => by simp [Local.world, hh, rest], by simp [rest], by simp [rest]⟩, rfl, rfl, rfl, rfl⟩
  | compat l =>
    obtain ⟨d, t, ts⟩ := l
    obtain ⟨rfl, rfl⟩ := hl
    exact ⟨[], [], [], ⟨fun a c => by simp [CLocal.world, hh], by simp, by simp⟩, by simp, rfl, rfl, by
      intro b hb; cases hb⟩

section

variable [Platform]

theorem inv_safe {w : World} {Ts : List HTag} {Ls : List HList} {Hs : List (Nat × TagHeader)} {Us : List (Nat × Bytes)}
    {K : List Block} (i : Inv w Ts Ls Hs Us K) {c : Call} (ha : c.Allowed w) : NoMem (c.run w) ∧
      ∀ w', c.run w = .ok w' → ∃ Ts Ls Hs Us K, Inv w' Ts Ls Hs Us K := by
  have hn := nomem_abs i.holds ha
  have st := step_ok i c ha
  unfold StepOk at st
  split at st
  next f he =>
    obtain ⟨w', Ts', Ls', Hs', Us', N, p, e, i', _⟩ := st
    rw [e]
    refine ⟨nomem_ok _, fun w'' e => ?_⟩
    cases e
    exact ⟨_, _, _, _, _, i'⟩
  next k he =>
    rw [st]
    rw [he] at hn
    exact ⟨⟨fun e => hn.1 (by cases e; rfl), fun e => hn.2 (by cases e; rfl)⟩, fun _ e => (nomatch e)⟩
  next => rw [st]; exact ⟨⟨fun e => (nomatch e), fun e => (nomatch e)⟩, fun _ e => (nomatch e)⟩
  next => rw [st]; exact ⟨⟨fun e => (nomatch e), fun e => (nomatch e)⟩, fun _ e => (nomatch e)⟩

theorem cinv_safe {w : CWorld} {Cs : List HCTag} {Os : List HThing} {K : List Block} (i : CInv w Cs Os K) {c : CCall}
    (ha : c.Allowed w) : NoMem (c.run w) ∧ ∀ w', c.run w = .ok w' → ∃ Cs Os K, CInv w' Cs Os K := by
  have hn := nomem_cabs i ha
  have st := cstep_ok i c ha
  unfold CStepOk at st
  split at st
  next f he =>
    obtain ⟨w', Cs', Os', N, p, e, i', _⟩ := st
    rw [e]
    refine ⟨nomem_ok _, fun w'' e => ?_⟩
    cases e
    exact ⟨_, _, _, i'⟩
  next k he =>
    rw [st]
    rw [he] at hn
    exact ⟨⟨fun e => hn.1 (by cases e; rfl), fun e => hn.2 (by cases e; rfl)⟩, fun _ e => (nomatch e)⟩
  next => rw [st]; exact ⟨⟨fun e => (nomatch e), fun e => (nomatch e)⟩, fun _ e => (nomatch e)⟩
  next => rw [st]; exact ⟨⟨fun e => (nomatch e), fun e => (nomatch e)⟩, fun _ e => (nomatch e)⟩

/-- A call with the thread's own things makes no mistakes with memory. -/
theorem own_safe {l : Client} {h : Heap} {c : AnyCall} (o : Own l h) (ha : c.Allowed h l) :
    NoMem ((c.prog l).interp h) ∧ ∀ l' h', (c.prog l).interp h = .ok (l', h') → Own l' h' := by
  cases l with
  | current l =>
    cases c with
    | compat c => exact ha.elim
    | current c =>
      obtain ⟨Ts, Ls, Hs, Us, K, i⟩ := o
      obtain ⟨h1, h2⟩ := inv_safe i ha
      rw [current_same]
      refine ⟨nomem_bind h1 fun _ => nomem_ok _, fun l' h' e => ?_⟩
      obtain ⟨w, e1, e2⟩ := Res.bind_eq_ok.mp e
      cases e2
      exact h2 w e1
  | compat l =>
    cases c with
    | current c => exact ha.elim
    | compat c =>
      obtain ⟨Cs, Os, K, i⟩ := o
      obtain ⟨h1, h2⟩ := cinv_safe i ha
      rw [compat_same]
      refine ⟨nomem_bind h1 fun _ => nomem_ok _, fun l' h' e => ?_⟩
      obtain ⟨w, e1, e2⟩ := Res.bind_eq_ok.mp e
      cases e2
      exact h2 w e1

omit [Platform] in
theorem allowed_with {c : AnyCall} {h : Heap} {l : Client} (ha : c.Allowed h l) (g : Nat → Nat) : c.Allowed (h.with g) l := by
  cases l with
  | current l => cases c with
    | current c => cases c <;> exact ha
    | compat c => exact ha
  | compat l => cases c with
    | current c => exact ha
    | compat c => cases c <;> exact ha

/-- What holds when a call of a thread has ended. -/
def Done : Res (Client × Ptr) → Heap → Prop
  | .ok (l, _), h => Own l h
  | _, _ => True

theorem runs_own {S : Nat → Option Cell} {l : Client} {h : Heap} {c : AnyCall} (o : Own l h) (ha : c.Allowed h l)
    (d : Apart S h) : Runs S (fun x h' => (Apart S h' ∧ Ends (c.prog l >>= fun l => .ret (l, none)) h.with x h'.with) ∧ Done x h')
      (c.prog l >>= fun l => .ret (l, none)) h := by
  refine (runs_alone (S := S) (fun g => ?_) d).mono fun x h' hx => ⟨hx, ?_⟩
  · have := (own_safe (o.with g) (allowed_with ha g)).1
    rw [Prog.interp_bind, HeapM.bind_apply]
    exact nomem_bind this fun _ => nomem_ok _
  · obtain ⟨d', g, g', e⟩ := hx
    cases x with
    | ok x =>
      obtain ⟨l', p⟩ := x
      rw [Prog.interp_bind, HeapM.bind_apply] at e
      obtain ⟨⟨l1, h1⟩, e1, e2⟩ := Res.bind_eq_ok.mp e
      have : Res.ok ((l1, (none : Ptr)), h1) = Res.ok ((l', p), h'.with g') := e2
      simp only [Res.ok.injEq, Prod.mk.injEq] at this
      obtain ⟨⟨rfl, -⟩, rfl⟩ := this
      exact ((own_safe (o.with g) (allowed_with ha g)).2 _ _ e1).with'
    | _ => trivial

end

end Id3.H
