import Verif.Props.Memory
import Verif.Props.Heap
import Verif.Spec.Programs
import Verif.Thread.Solo

/-!
# Programs on a machine where anything may fail (C87)
-/

namespace Id3.Props

open Id3 Spec H

variable [Platform]

/-- What is known after a call that got all its memory. -/
def MoveOk (p p' : Running) (r : Res Unit) (K : List Block) (lk : Nat) (o : Sys × Res (Nat → Abs)) : Prop :=
  p'.machine.sys = o.1 ∧
  match o.2 with
  | .ok f => r = .ok () ∧ p'.machine.sys.streams = p.machine.sys.streams ∧ ∃ Ts' Ls' Hs' Us' N q, Inv p'.world Ts' Ls' Hs' Us' (N ++ K) ∧ absOf p'.world Ts' Us' = f q ∧
      Gone lk N
  | .ub k => r = .ub k ∧ k ≠ .useAfterFree ∧ k ≠ .badFree
  | .exit => r = .exit
  | .diverge => r = .diverge

theorem run_disk {w w' : World} {c : Call} (hc : c.InMemory) (h : c.run w = .ok w') : w'.disk = w.disk := by
  cases c <;> first
    | exact hc.elim
    | (simp only [Call.run] at h; obtain ⟨_, _, rfl⟩ := exec_inv _ h; rfl)

theorem memory_step {p p' : Running} {r : Res Unit} {c : Call} {e : Faults} {a : Lack} {Ts : List HTag} {Ls : List HList}
    {Hs : List (Nat × TagHeader)} {Us : List (Nat × Bytes)} {K : List Block} (i : Inv p.world Ts Ls Hs Us K)
    (hc : c.InMemory) (ha : c.Allowed p.world) (hr : (Move.memory c).run e a p = (p', r)) :
    (p'.machine.short = true ∧ p'.machine.sys.files = p.machine.sys.files ∧ r = .ub .nullDeref) ∨
    (p'.machine.short = false ∧
      MoveOk p p' r K ((Move.memory c).lost p (absOf p.world Ts Us)) ((Move.memory c).value e p (absOf p.world Ts Us))) := by
  rcases hm : inMemory (c.prog p.known) e a { p.machine with short := false } with ⟨m, o⟩
  obtain ⟨h1, h2⟩ := program_out_of_memory _ e a _ m o rfl hm
  have hr : (match (inMemory (c.prog p.known) e a { p.machine with short := false }) with
    | (m, .ok l) => ((⟨m, l.tags, l.lists, l.headers, l.buffers⟩ : Running), Res.ok ())
    | (m, .ub k) => ({ p with machine := m }, .ub k)
    | (m, .exit) => ({ p with machine := m }, .exit)
    | (m, .diverge) => ({ p with machine := m }, .diverge)) = (p', r) := hr
  rw [hm] at hr
  cases hs : m.short with
  | true =>
    rw [hs, if_pos rfl] at h2
    subst h2
    cases hr
    exact .inl ⟨hs, h1, rfl⟩
  | false =>
    rw [hs, if_neg (by decide)] at h2
    obtain ⟨h', n', g1, g2⟩ := inMemory_enough (c.prog p.known) e p.machine.sys p.machine.heap p.machine.requests false
    have h2 : inMemory (c.prog p.known) e enough ⟨p.machine.sys, p.machine.heap, p.machine.requests, false⟩ = (m, o) := h2
    rw [h2, call_same] at g1
    rw [call_same] at g2
    have st := step_ok i c ha
    have ew : p.known.world p.machine.heap = p.world := rfl
    rw [ew] at g1 g2
    unfold StepOk at st
    refine .inr ?_
    unfold MoveOk Move.value Move.lost
    dsimp only
    have ea : c.abs p.world.heap (absOf p.world Ts Us) = c.abs p.machine.heap (absOf p.world Ts Us) := rfl
    rw [← ea]
    cases he : c.abs p.world.heap (absOf p.world Ts Us) with
    | ok f =>
      rw [he] at st
      obtain ⟨w', Ts', Ls', Hs', Us', N, q, e1, i', e2, hN⟩ := st
      rw [e1] at g1 g2
      have g2 : h' = w'.heap := g2 _ rfl
      subst g2
      cases g1
      cases hr
      have hd := run_disk hc e1
      have ew' : Running.world ⟨⟨p.machine.sys, w'.heap, n', false⟩, w'.loc.tags, w'.loc.lists, w'.loc.headers,
          w'.loc.buffers⟩ = w' := by
        obtain ⟨wh, wd, wt, wl, wh', wb⟩ := w'
        obtain rfl : wd = none := hd
        rfl
      refine ⟨rfl, rfl, rfl, rfl, Ts', Ls', Hs', Us', N, q, ?_, ?_, hN⟩
      · rw [ew']; exact i'
      · rw [ew']; exact e2
    | ub k =>
      rw [he] at st
      rw [show c.run p.world = .ub k from st] at g1
      cases g1
      cases hr
      have hn := nomem_abs i.holds ha
      rw [he] at hn
      exact ⟨rfl, rfl, rfl, fun h => hn.1 (by rw [h]), fun h => hn.2 (by rw [h])⟩
    | exit =>
      rw [he] at st
      rw [show c.run p.world = .exit from st] at g1
      cases g1
      cases hr
      exact ⟨rfl, rfl, rfl⟩
    | diverge =>
      rw [he] at st
      rw [show c.run p.world = .diverge from st] at g1
      cases g1
      cases hr
      exact ⟨rfl, rfl, rfl⟩

/-- What is known after a call that did not get its memory. -/
def MoveShort (p p' : Running) (r : Res Unit) (c : Move) (Ts : List HTag) (Ls : List HList) (Hs : List (Nat × TagHeader))
    (Us : List (Nat × Bytes)) (K : List Block) : Prop :=
  p'.machine.sys.files = p.machine.sys.files ∧
    (r = .ub .nullDeref ∨ r = .ok () ∧ (∃ n, c = .file (.read n)) ∧ p'.machine.sys.streams = p.machine.sys.streams ∧
      Inv p'.world Ts Ls Hs Us K ∧ absOf p'.world Ts Us = absOf p.world Ts Us)

/-- A call with a file name. -/
theorem file_step {β : Type} {p p' : Running} {r : Res Unit} {c : MCall} {v : FileCall} {e : Faults} {a : Lack}
    {Ts : List HTag} {Ls : List HList} {Hs : List (Nat × TagHeader)} {Us : List (Nat × Bytes)} {K X : List Block}
    (i : Inv p.world Ts Ls Hs Us K) (hw : p.machine.sys.streams = fun _ => none)
    (os : CIO β) (g : β → Answer) (f : β → Nat → Abs) (lk : Nat) (hv : v.run = do return g (← os))
    (hx : (∃ n, c = .read n) → X = Ts.flatMap HTag.blocks ++ rest Ls Hs Us K)
    (hg : Given X p.machine.heap c v)
    (hq : ∀ y q m, os e p.machine.sys = (m.sys, .ok y) → Gives X m.heap c q (g y) → ∃ Ts' Ls' Hs' Us' N x, Inv (p.returned m q c).world Ts' Ls' Hs' Us' (N ++ K) ∧
      absOf (p.returned m q c).world Ts' Us' = f y x ∧ Gone lk N)
    (hr : (Move.file c).run e a p = (p', r)) :
    (p'.machine.short = true ∧ MoveShort p p' r (.file c) Ts Ls Hs Us K) ∨
    (p'.machine.short = false ∧ MoveOk p p' r K lk ((do return f (← os) : CIO (Nat → Abs)) e p.machine.sys)) := by
  have hw' : ∀ h, p.machine.sys.next ≤ h → p.machine.sys.streams h = none := fun h _ => by rw [hw]
  rcases hm : c.run e a { p.machine with short := false } with ⟨m, o⟩
  have hr : (match c.run e a { p.machine with short := false } with
    | (m, .ok q) => (p.returned m q c, Res.ok ())
    | (m, .ub k) => ({ p with machine := m }, .ub k)
    | (m, .exit) => ({ p with machine := m }, .exit)
    | (m, .diverge) => ({ p with machine := m }, .diverge)) = (p', r) := hr
  rw [hm] at hr
  have hret : ∀ q, (p.returned m q c).machine = m := fun q => by cases c <;> rfl
  cases hs : m.short with
  | true =>
    obtain ⟨h1, h2 | ⟨⟨n, h2⟩, h3, h4, h5⟩⟩ := out_of_memory_keeps_files c v X e a { p.machine with short := false } m o hg hw' rfl hm hs
    · subst h2
      cases hr
      exact .inl ⟨hs, h1, .inl rfl⟩
    · subst h2 h3
      cases hr
      rw [hx ⟨n, rfl⟩] at h5
      exact .inl ⟨hs, h1, .inr ⟨rfl, ⟨n, rfl⟩, h4, ⟨h5, i.tags, i.lists, i.headers, i.buffers⟩, rfl⟩⟩
  | false =>
    obtain ⟨z, h1, h2⟩ := call_on_heap c v X e { p.machine with short := false } m o hg (enough_memory c v X e a { p.machine with short := false } m o hg hw' rfl hm hs)
    have h1 : v.run e p.machine.sys = (m.sys, z) := h1
    obtain ⟨-, hst, hu, hb⟩ := call_keeps_to_its_file v e p.machine.sys m.sys z hw' h1
    rw [hv, cio_bind] at h1
    unfold MoveOk
    rw [cio_bind]
    rcases hos : os e p.machine.sys with ⟨w', y | k | _ | _⟩
    · rw [hos] at h1
      obtain ⟨rfl, rfl⟩ := Prod.mk.inj h1
      obtain ⟨q, rfl, h3⟩ := h2
      cases hr
      obtain ⟨Ts', Ls', Hs', Us', N, x, h4, h5, h6⟩ := hq y q m hos h3
      exact .inr ⟨by rw [hret]; exact hs, by rw [hret]; rfl, rfl, by rw [hret]; exact hst _ rfl, Ts', Ls', Hs', Us', N, x, h4, h5, h6⟩
    · rw [hos] at h1
      obtain ⟨rfl, rfl⟩ := Prod.mk.inj h1
      obtain rfl : o = _ := h2
      cases hr
      exact .inr ⟨hs, rfl, rfl, fun h => hu (by rw [h]), fun h => hb (by rw [h])⟩
    all_goals
      rw [hos] at h1
      obtain ⟨rfl, rfl⟩ := Prod.mk.inj h1
      obtain rfl : o = _ := h2
      cases hr
      exact .inr ⟨hs, rfl, rfl⟩

/-- All results of the function are such. -/
def Yields {α : Type} (Q : α → Prop) (m : CIO α) : Prop := ∀ e w w' y, m e w = (w', .ok y) → Q y

omit [Platform] in
theorem Yields.bind {α β : Type} {Q : β → Prop} {m : CIO α} {f : α → CIO β} (h : ∀ x, Yields Q (f x)) :
    Yields Q (m >>= f) := by
  intro e w w' y hy
  rw [cio_bind] at hy
  rcases hm : m e w with ⟨w1, x | _ | _ | _⟩ <;> rw [hm] at hy
  · exact h x e w1 w' y hy
  all_goals cases hy

theorem write_os_frames (n : Name) (t : Tag) (e : Faults) (w w' : Sys) (t' : Tag)
    (h : ID3v2_write_tag_os n t e w = (w', .ok t')) : t'.frames = t.frames := by
  have : Yields (fun x : Tag => x.frames = t.frames) (ID3v2_write_tag_os n t) := by
    unfold ID3v2_write_tag_os
    iterate 16 refine .bind fun _ => ?_
    intro e w w' y hy
    cases hy
    rfl
  exact this e w w' t' h

omit [Platform] in
theorem quiet_of_streams {K : List Block} (h : OfStreams K) : Quiet K := by
  intro b hb he
  rcases h b hb with ⟨_, e⟩ | ⟨_, e⟩ <;> rw [e] at he <;> exact he

/-- One step of a program. -/
theorem move_step {p p' : Running} {r : Res Unit} {c : Move} {e : Faults} {a : Lack}
    {Ts : List HTag} {Ls : List HList} {Hs : List (Nat × TagHeader)} {Us : List (Nat × Bytes)} {K : List Block}
    (i : Inv p.world Ts Ls Hs Us K) (hw : p.machine.sys.streams = fun _ => none) (ha : c.Allowed p)
    (hr : c.run e a p = (p', r)) :
    (p'.machine.short = true ∧ MoveShort p p' r c Ts Ls Hs Us K) ∨
    (p'.machine.short = false ∧ MoveOk p p' r K (c.lost p (absOf p.world Ts Us)) (c.value e p (absOf p.world Ts Us))) := by
  cases c with
  | memory c =>
    exact (memory_step i ha.1 ha.2 hr).imp (fun ⟨h1, h2, h3⟩ => ⟨h1, h2, .inl h3⟩) id
  | file c =>
    cases c with
    | readHeader n =>
      refine file_step (v := .readHeader n) i hw (ID3v2_read_tag_header_os n) .header (fun _ _ => absOf p.world Ts Us) 0 rfl
        (fun _ => rfl) ⟨rfl, i.rep⟩ ?_ hr
      intro y q m hos h
      cases y with
      | none =>
        cases q with
        | none => exact ⟨Ts, Ls, Hs, Us, [], 0, ⟨h, i.tags, i.lists, i.headers, i.buffers⟩, rfl, .nil⟩
        | some q => exact h.elim
      | some y =>
        cases q with
        | none => exact h.elim
        | some q =>
          refine ⟨Ts, Ls, (q, y) :: Hs, Us, [], 0, ⟨Rep.perm (show Rep m.heap _ from h) ?_, i.tags, i.lists, ?_, i.buffers⟩, rfl, .nil⟩
          · unfold rest
            rw [List.map_cons]
            blocks
          · show q :: p.headers = q :: Hs.map (·.1)
            rw [← i.headers]
            rfl
    | read n =>
      refine file_step (v := .read n) i hw (ID3v2_read_tag_os n) .tag (fun t => (absOf p.world Ts Us).add t) 0 rfl
        (fun _ => rfl) ⟨rfl, i.rep⟩ ?_ hr
      intro y q m hos h
      cases y with
      | none =>
        cases q with
        | none => exact ⟨Ts, Ls, Hs, Us, [], 0, ⟨h, i.tags, i.lists, i.headers, i.buffers⟩, rfl, .nil⟩
        | some q => exact h.elim
      | some y =>
        cases q with
        | none => exact h.elim
        | some q =>
          obtain ⟨T, rfl, rfl, r⟩ := h
          refine ⟨T :: Ts, Ls, Hs, Us, [], T.addr, ⟨Rep.perm (show Rep m.heap _ from r) (by rw [List.flatMap_cons]; blocks), ?_, i.lists, i.headers,
            i.buffers⟩, rfl, .nil⟩
          show T.addr :: p.tags = T.addr :: Ts.map (·.addr)
          rw [← i.tags]
          rfl
    | write n t =>
      obtain ⟨A, T, B, rfl, rfl, hA, hB, rr⟩ := i.tag ha
      unfold Move.value Move.lost tagLeft
      dsimp only
      rw [show (absOf p.world (A ++ T :: B) Us).tags.lookup T.addr = some T.value from abs_lookup hA]
      refine file_step (v := .write n T.value) i hw (ID3v2_write_tag_os n T.value) .written
        (fun v' _ => { absOf p.world (A ++ T :: B) Us with tags := setAt T.addr v' (absOf p.world (A ++ T :: B) Us).tags })
        (writeLost T.value.frames) rfl (fun ⟨n, h⟩ => (nomatch h)) ⟨rfl, T, rfl, rfl, rr⟩ ?_ hr
      intro y q m hos h
      cases q with
      | some q => exact h.elim
      | none =>
        obtain ⟨N, hN, hS, T', h1, h2, h3⟩ := h
        obtain ⟨T2, i', e'⟩ := i.changed (N := N) (v := y) (h' := m.heap) ⟨T', h1, h2, h3.perm (by blocks)⟩ hA hB none
        exact ⟨_, Ls, Hs, Us, N, 0, i', e', by rw [hN, write_os_frames n T.value e _ _ _ hos], quiet_of_streams hS⟩
    | delete n =>
      refine file_step (v := .delete n) i hw (ID3v2_delete_tag_os n) (fun _ => .done) (fun _ _ => absOf p.world Ts Us) 0 rfl
        (fun ⟨n, h⟩ => (nomatch h)) ⟨rfl, i.rep⟩ ?_ hr
      intro y q m hos h
      cases q with
      | none => exact ⟨Ts, Ls, Hs, Us, [], 0, ⟨h, i.tags, i.lists, i.headers, i.buffers⟩, rfl, .nil⟩
      | some q => exact h.elim
    | load n => exact ha.elim
    | set n t => exact ha.elim
    | remove n => exact ha.elim
    | cover n t => exact ha.elim

/-- What is known of the heap of a program, with the number of blocks that it has lost, and of its streams. -/
theorem goes_inv {p : Running} {n : Nat} (h : Goes p n) :
    (p.machine.sys.streams = fun _ => none) ∧ ∃ Ts Ls Hs Us K, Inv p.world Ts Ls Hs Us K ∧ K.length = n := by
  induction h with
  | start files picks => exact ⟨rfl, _, _, _, _, _, inv_start none picks, rfl⟩
  | @call p p' n s c e a _ hs ha hr ih =>
    obtain ⟨hw, Ts, Ls, Hs, Us, K, i, hK⟩ := ih
    obtain rfl := i.eq hs
    rcases move_step i hw ha hr with ⟨h1, h2, h3 | ⟨h3, h4, h5, h6, h7⟩⟩ | ⟨h1, h2, h3⟩
    · cases h3
    · exact ⟨h5.trans hw, Ts, Ls, Hs, Us, K, h6, by rw [h1, if_pos rfl]; exact hK⟩
    · cases hv : (c.value e p (absOf p.world Ts Us)).2 with
      | ok f =>
        rw [hv] at h3
        obtain ⟨-, h4, Ts', Ls', Hs', Us', N, q, i', h5, h6⟩ := h3
        exact ⟨h4.trans hw, Ts', Ls', Hs', Us', N ++ K, i', by
          rw [h1, if_neg (by decide), List.length_append, h6.1, hK, Nat.add_comm]⟩
      | ub k => rw [hv] at h3; cases h3.1
      | exit => rw [hv] at h3; cases h3
      | diverge => rw [hv] at h3; cases h3
  | others files _ ih => exact ih

/-- **C87**: a program makes any calls on any files, other programs change the files between the calls, and any I/O operation
and any request for memory may fail. Then every call does to the tags and the files what it does with the tags as values and
the same I/O failures; if memory runs out in it, no file is changed, and either the NULL pointer is followed, or
`ID3v2_read_tag` returns NULL and the tags are as before. -/
theorem program_values {p p' : Running} {n : Nat} {s : Abs} {c : Move} {e : Faults} {a : Lack} {r : Res Unit} (h : Goes p n)
    (hs : p.world.Holds s) (ha : c.Allowed p) (hr : c.run e a p = (p', r)) :
    if p'.machine.short then
      p'.machine.sys.files = p.machine.sys.files ∧
        (r = .ub .nullDeref ∨ (∃ name, c = .file (.read name)) ∧ r = .ok () ∧ p'.world.Holds s)
    else
      p'.machine.sys = (c.value e p s).1 ∧
        match (c.value e p s).2 with
        | .ok f => r = .ok () ∧ ∃ q, p'.world.Holds (f q)
        | .ub k => r = .ub k
        | .exit => r = .exit
        | .diverge => r = .diverge := by
  obtain ⟨hw, Ts, Ls, Hs, Us, K, i, hK⟩ := goes_inv h
  obtain rfl := i.eq hs
  rcases move_step i hw ha hr with ⟨h1, h2, h3⟩ | ⟨h1, h2, h3⟩
  · rw [h1, if_pos rfl]
    exact ⟨h2, h3.imp id fun ⟨h3, h4, h5, h6, h7⟩ => ⟨h4, h3, h7 ▸ h6.holds⟩⟩
  · rw [h1, if_neg (by decide)]
    refine ⟨h2, ?_⟩
    cases hv : (c.value e p (absOf p.world Ts Us)).2 with
    | ok f =>
      rw [hv] at h3
      obtain ⟨h3, h4, Ts', Ls', Hs', Us', N, q, i', h5, h6⟩ := h3
      exact ⟨h3, q, h5 ▸ i'.holds⟩
    | ub k => rw [hv] at h3; exact h3.1
    | exit => rw [hv] at h3; exact h3
    | diverge => rw [hv] at h3; exact h3

/-- **C87**: no call of such a program accesses a block that was freed, or frees something that is not allocated. -/
theorem program_safe {p p' : Running} {n : Nat} {c : Move} {e : Faults} {a : Lack} {r : Res Unit} (h : Goes p n)
    (ha : c.Allowed p) (hr : c.run e a p = (p', r)) : r ≠ .ub .useAfterFree ∧ r ≠ .ub .badFree := by
  obtain ⟨hw, Ts, Ls, Hs, Us, K, i, hK⟩ := goes_inv h
  rcases move_step i hw ha hr with ⟨h1, h2, h3 | ⟨h3, h4⟩⟩ | ⟨h1, h2, h3⟩
  · rw [h3]
    exact ⟨fun h => (nomatch h), fun h => (nomatch h)⟩
  · rw [h3]
    exact ⟨fun h => (nomatch h), fun h => (nomatch h)⟩
  · cases hv : (c.value e p (absOf p.world Ts Us)).2 with
    | ok f =>
      rw [hv] at h3
      rw [h3.1]
      exact ⟨fun h => (nomatch h), fun h => (nomatch h)⟩
    | ub k =>
      rw [hv] at h3
      rw [h3.1]
      exact ⟨fun h => h3.2.1 (by cases h; rfl), fun h => h3.2.2 (by cases h; rfl)⟩
    | exit =>
      rw [hv] at h3
      rw [show r = .exit from h3]
      exact ⟨fun h => (nomatch h), fun h => (nomatch h)⟩
    | diverge =>
      rw [hv] at h3
      rw [show r = .diverge from h3]
      exact ⟨fun h => (nomatch h), fun h => (nomatch h)⟩

/-- **C87**: between its calls such a program has no stream open, and if it holds nothing any more, then exactly as many
blocks are allocated as its calls have lost by the count of the specification. Failures lose nothing. -/
theorem program_leaks {p : Running} {n : Nat} (h : Goes p n) :
    (∀ f, p.machine.sys.streams f = none) ∧
    (p.tags = [] → p.lists = [] → p.headers = [] → p.buffers = [] →
      ∃ K : List Nat, K.Nodup ∧ K.length = n ∧ ∀ a, p.machine.heap.cells a ≠ none ↔ a ∈ K) := by
  obtain ⟨hw, Ts, Ls, Hs, Us, K, i, hK⟩ := goes_inv h
  refine ⟨fun f => by rw [hw], fun h1 h2 h3 h4 => ?_⟩
  have e1 : p.tags = _ := i.tags
  have e2 : p.lists = _ := i.lists
  have e3 : p.headers = _ := i.headers
  have e4 : p.buffers = _ := i.buffers
  rw [h1] at e1
  rw [h2] at e2
  rw [h3] at e3
  rw [h4] at e4
  obtain rfl := List.map_eq_nil_iff.mp e1.symm
  obtain rfl := List.map_eq_nil_iff.mp e2.symm
  obtain rfl := List.map_eq_nil_iff.mp e3.symm
  obtain rfl := List.map_eq_nil_iff.mp e4.symm
  have r : Rep p.machine.heap K := Rep.perm (show Rep p.machine.heap _ from i.rep) (by simp [rest])
  refine ⟨K.map (·.1), r.nodup, by rw [List.length_map, hK], fun a => ?_⟩
  rw [List.mem_map]
  constructor
  · intro ha
    cases hc : p.machine.heap.cells a with
    | none => exact absurd hc ha
    | some c => exact ⟨(a, c), (r.cells a c).mp hc, rfl⟩
  · rintro ⟨⟨a', c⟩, hb, rfl⟩
    rw [(r.cells a' c).mpr hb]
    exact Option.some_ne_none _

/-! ### Example -/

/-- A call returned. -/
def hasReturned (r : Res Unit) : Bool :=
  match r with
  | .ok _ => true
  | _ => false

/-- A program in a state that it can reach makes a call that returns. -/
theorem goes_on {p : Running} {n : Nat} {c : Move} {e : Faults} {a : Lack} (h : Goes p n) (ha : c.Allowed p)
    (hr : hasReturned (c.run e a p).2 = true) : ∃ n', Goes (c.run e a p).1 n' := by
  obtain ⟨hw, Ts, Ls, Hs, Us, K, i, hK⟩ := goes_inv h
  rcases hm : c.run e a p with ⟨p', _ | _ | _ | _⟩ <;> rw [hm] at hr
  · exact ⟨_, .call h i.holds ha hm⟩
  all_goals cases hr

/-- A program reads the tag of `a`, which fails for lack of memory, … -/
def unlucky1 : Running × Res Unit :=
  @Move.run strict (fun _ => false) (fun k => k == 3) (Running.start twoFiles.files id) (.file (.read [0x61]))

/-- … reads it again, … -/
def unlucky2 : Running × Res Unit := @Move.run strict (fun _ => false) enough unlucky1.1 (.file (.read [0x61]))

/-- … writes it, where one operation fails (number 81: the byte of audio cannot be put in the temporary file), … -/
def unlucky3 : Running × Res Unit := @Move.run strict (fun t => t == 81) enough unlucky2.1 (.file (.write [0x61] 10))

/-- … and frees it. -/
def unlucky4 : Running × Res Unit := @Move.run strict (fun _ => false) enough unlucky3.1 (.memory (.freeTag 10))

/-- What is seen of a run: whether memory ran out, whether the call returned, the tags held, and the file `a`. -/
def looks (r : Running × Res Unit) : Bool × Bool × List Nat × Option (List (Option UInt8)) :=
  (r.1.machine.short, hasReturned r.2, r.1.tags, r.1.machine.sys.files [0x61])

/-- The file `a`: a tag without frames, and then the audio. -/
def tagAndAudio (audio : List UInt8) : List (Option UInt8) :=
  ([0x49, 0x44, 0x33, 3, 0, 0, 0, 0, 0, 10] ++ List.replicate 10 0 ++ audio).map some

omit [Platform] in
theorem unlucky1_looks : looks unlucky1 = (true, true, [], some (tagAndAudio [0x41])) := by decide +kernel

omit [Platform] in
theorem unlucky2_looks : looks unlucky2 = (false, true, [10], some (tagAndAudio [0x41])) := by decide +kernel

omit [Platform] in
/-- The call returns, and the tag is written, but the audio is lost. -/
theorem unlucky3_looks : looks unlucky3 = (false, true, [10], some (tagAndAudio [])) := by decide +kernel

omit [Platform] in
theorem unlucky4_looks : looks unlucky4 = (false, true, [], some (tagAndAudio [])) := by decide +kernel

omit [Platform] in
theorem looks_eq {r : Running × Res Unit} {s b : Bool} {l : List Nat} {f : Option (List (Option UInt8))}
    (h : looks r = (s, b, l, f)) : hasReturned r.2 = b ∧ r.1.tags = l := by
  simp only [looks, Prod.mk.injEq] at h
  exact ⟨h.2.1, h.2.2.1⟩

omit [Platform] in
theorem may_write {p : Running} {t : Nat} (n : Name) (h : p.tags = [t]) : (Move.file (.write n t)).Allowed p := by
  show t ∈ p.tags
  rw [h]
  exact List.mem_cons_self

omit [Platform] in
theorem may_free {p : Running} {t : Nat} (h : p.tags = [t]) : (Move.memory (.freeTag t)).Allowed p := by
  refine ⟨trivial, ?_⟩
  show t ∈ p.tags
  rw [h]
  exact List.mem_cons_self

omit [Platform] in
/-- The hypotheses of the theorems are met by this program after each of its calls. -/
theorem unlucky_goes : (∃ n, @Goes strict unlucky1.1 n) ∧ (∃ n, @Goes strict unlucky2.1 n) ∧
    (∃ n, @Goes strict unlucky3.1 n) ∧ ∃ n, @Goes strict unlucky4.1 n := by
  have g1 : ∃ n, @Goes strict unlucky1.1 n :=
    @goes_on strict _ _ _ _ _ (@Goes.start strict _ _) trivial (looks_eq unlucky1_looks).1
  have g2 : ∃ n, @Goes strict unlucky2.1 n := by
    obtain ⟨n, g⟩ := g1
    exact @goes_on strict _ _ _ _ _ g trivial (looks_eq unlucky2_looks).1
  have g3 : ∃ n, @Goes strict unlucky3.1 n := by
    obtain ⟨n, g⟩ := g2
    exact @goes_on strict _ _ _ _ _ g (may_write _ (looks_eq unlucky2_looks).2) (looks_eq unlucky3_looks).1
  have g4 : ∃ n, @Goes strict unlucky4.1 n := by
    obtain ⟨n, g⟩ := g3
    exact @goes_on strict _ _ _ _ _ g (may_free (looks_eq unlucky3_looks).2) (looks_eq unlucky4_looks).1
  exact ⟨g1, g2, g3, g4⟩

end Id3.Props
