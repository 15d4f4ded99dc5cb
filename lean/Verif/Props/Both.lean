import Verif.Props.Programs
import Verif.Props.CompatHeap
import Verif.Spec.Both

/-!
# Programs that use both APIs on a machine where anything may fail (C88)
-/

namespace Id3.Props

open Id3 Spec H

variable [Platform]

/-- What is known after a call of the compatibility API that got all its memory. -/
def CMoveOk (p p' : Both) (r : Res Unit) (K : List Block) (lk : Nat) (o : Sys × Res (Nat → CAbs)) : Prop :=
  p'.current.machine.sys = o.1 ∧
  match o.2 with
  | .ok f => r = .ok () ∧ p'.current.machine.sys.streams = p.current.machine.sys.streams ∧ ∃ Cs' Os' N q,
      CInv p'.compat Cs' Os' (N ++ K) ∧ cabs p'.compat Cs' Os' = f q ∧ Gone lk N
  | .ub k => r = .ub k ∧ k ≠ .useAfterFree ∧ k ≠ .badFree
  | .exit => r = .exit
  | .diverge => r = .diverge

omit [Platform] in
theorem cexec_inv {α : Type} {w w' : CWorld} {x : HeapM α} {k : α → Heap → CWorld} (h : w.exec x k = .ok w') :
    ∃ a h', w' = k a h' := by
  unfold CWorld.exec at h
  obtain ⟨⟨a, h'⟩, _, h⟩ := Res.bind_eq_ok.mp h
  cases h
  exact ⟨a, h', rfl⟩

theorem crun_disk {w w' : CWorld} {c : CCall} (hc : c.InMemory) (h : c.run w = .ok w') : w'.disk = w.disk := by
  cases c <;> first
    | exact hc.elim
    | (simp only [CCall.run] at h; obtain ⟨_, _, rfl⟩ := cexec_inv h; rfl)

theorem cmemory_step {p p' : Both} {r : Res Unit} {c : CCall} {e : Faults} {a : Lack} {Cs : List HCTag} {Os : List HThing}
    {K : List Block} (i : CInv p.compat Cs Os K)
    (hc : c.InMemory) (ha : c.Allowed p.compat) (hr : (BothMove.memory c).run e a p = (p', r)) :
    (p'.current.machine.short = true ∧ p'.current.machine.sys.files = p.current.machine.sys.files ∧ r = .ub .nullDeref) ∨
    (p'.current.machine.short = false ∧
      CMoveOk p p' r K (c.leak p.current.machine.heap (cabs p.compat Cs Os))
        ((BothMove.memory c).cvalue e p (cabs p.compat Cs Os))) := by
  rcases hm : inMemory (c.prog ⟨none, p.ctags, p.things⟩) e a { p.current.machine with short := false } with ⟨m, o⟩
  obtain ⟨h1, h2⟩ := program_out_of_memory _ e a _ m o rfl hm
  have hr : (match inMemory (c.prog ⟨none, p.ctags, p.things⟩) e a { p.current.machine with short := false } with
    | (m, .ok l) => (p.after m l.tags l.things, Res.ok ())
    | (m, .ub k) => (p.after m p.ctags p.things, .ub k)
    | (m, .exit) => (p.after m p.ctags p.things, .exit)
    | (m, .diverge) => (p.after m p.ctags p.things, .diverge)) = (p', r) := hr
  rw [hm] at hr
  cases hs : m.short with
  | true =>
    rw [hs, if_pos rfl] at h2
    subst h2
    cases hr
    exact .inl ⟨hs, h1, rfl⟩
  | false =>
    rw [hs, if_neg (by decide)] at h2
    obtain ⟨h', n', g1, g2⟩ := inMemory_enough (c.prog ⟨none, p.ctags, p.things⟩) e p.current.machine.sys
      p.current.machine.heap p.current.machine.requests false
    have h2 : inMemory (c.prog ⟨none, p.ctags, p.things⟩) e enough ⟨p.current.machine.sys, p.current.machine.heap,
      p.current.machine.requests, false⟩ = (m, o) := h2
    rw [h2, ccall_same] at g1
    rw [ccall_same] at g2
    have st := cstep_ok i c ha
    have ew : CLocal.world ⟨none, p.ctags, p.things⟩ p.current.machine.heap = p.compat := rfl
    rw [ew] at g1 g2
    unfold CStepOk at st
    refine .inr ?_
    unfold CMoveOk BothMove.cvalue
    dsimp only
    have ea : c.abs p.compat.heap (cabs p.compat Cs Os) = c.abs p.current.machine.heap (cabs p.compat Cs Os) := rfl
    rw [← ea]
    cases he : c.abs p.compat.heap (cabs p.compat Cs Os) with
    | ok f =>
      rw [he] at st
      obtain ⟨w', Cs', Os', N, q, e1, i', e2, -, hN⟩ := st
      rw [e1] at g1 g2
      have g2 : h' = w'.heap := g2 _ rfl
      subst g2
      cases g1
      cases hr
      have hd := crun_disk hc e1
      have ew' : (p.after ⟨p.current.machine.sys, w'.heap, n', false⟩ w'.loc.tags w'.loc.things).compat = w' := by
        obtain ⟨wh, wd, wt, wo⟩ := w'
        obtain rfl : wd = none := hd
        rfl
      refine ⟨rfl, rfl, rfl, rfl, Cs', Os', N, q, ?_, ?_, loses_length i ha he e2 hN, fun b hb =>
        i'.quiet b (List.mem_append_left _ hb)⟩
      · rw [ew']; exact i'
      · rw [ew']; exact e2
    | ub k =>
      rw [he] at st
      rw [show c.run p.compat = .ub k from st] at g1
      cases g1
      cases hr
      have hn := nomem_cabs i ha
      rw [he] at hn
      exact ⟨rfl, rfl, rfl, fun h => hn.1 (by rw [h]), fun h => hn.2 (by rw [h])⟩
    | exit =>
      rw [he] at st
      rw [show c.run p.compat = .exit from st] at g1
      cases g1
      cases hr
      exact ⟨rfl, rfl, rfl⟩
    | diverge =>
      rw [he] at st
      rw [show c.run p.compat = .diverge from st] at g1
      cases g1
      cases hr
      exact ⟨rfl, rfl, rfl⟩

/-- A call with a file name. -/
theorem cfile_step {β : Type} {p p' : Both} {r : Res Unit} {c : MCall} {v : FileCall} {e : Faults} {a : Lack}
    {K X : List Block} (hw : p.current.machine.sys.streams = fun _ => none) (hc : ∀ n, c ≠ .read n)
    (os : CIO β) (g : β → Answer) (f : β → Nat → CAbs) (lk : Nat) (hv : v.run = do return g (← os))
    (hg : Given X p.current.machine.heap c v)
    (hq : ∀ y q m, os e p.current.machine.sys = (m.sys, .ok y) → Gives X m.heap c q (g y) → ∃ Cs' Os' N x,
      CInv (p.after m (p.loaded q c) p.things).compat Cs' Os' (N ++ K) ∧
      cabs (p.after m (p.loaded q c) p.things).compat Cs' Os' = f y x ∧ Gone lk N)
    (hr : (BothMove.file c).run e a p = (p', r)) :
    (p'.current.machine.short = true ∧ p'.current.machine.sys.files = p.current.machine.sys.files ∧ r = .ub .nullDeref) ∨
    (p'.current.machine.short = false ∧
      CMoveOk p p' r K lk ((do return f (← os) : CIO (Nat → CAbs)) e p.current.machine.sys)) := by
  have hw' : ∀ h, p.current.machine.sys.next ≤ h → p.current.machine.sys.streams h = none := fun h _ => by rw [hw]
  rcases hm : c.run e a { p.current.machine with short := false } with ⟨m, o⟩
  have hr : (match c.run e a { p.current.machine with short := false } with
    | (m, .ok q) => (p.after m (p.loaded q c) p.things, Res.ok ())
    | (m, .ub k) => (p.after m p.ctags p.things, .ub k)
    | (m, .exit) => (p.after m p.ctags p.things, .exit)
    | (m, .diverge) => (p.after m p.ctags p.things, .diverge)) = (p', r) := hr
  rw [hm] at hr
  cases hs : m.short with
  | true =>
    obtain ⟨h1, h2 | ⟨⟨n, h2⟩, -⟩⟩ :=
      out_of_memory_keeps_files c v X e a { p.current.machine with short := false } m o hg hw' rfl hm hs
    · subst h2
      cases hr
      exact .inl ⟨hs, h1, rfl⟩
    · exact (hc n h2).elim
  | false =>
    obtain ⟨z, h1, h2⟩ := call_on_heap c v X e { p.current.machine with short := false } m o hg
      (enough_memory c v X e a { p.current.machine with short := false } m o hg hw' rfl hm hs)
    have h1 : v.run e p.current.machine.sys = (m.sys, z) := h1
    obtain ⟨-, hst, hu, hb⟩ := call_keeps_to_its_file v e p.current.machine.sys m.sys z hw' h1
    rw [hv, cio_bind] at h1
    unfold CMoveOk
    rw [cio_bind]
    rcases hos : os e p.current.machine.sys with ⟨w', y | k | _ | _⟩
    · rw [hos] at h1
      obtain ⟨rfl, rfl⟩ := Prod.mk.inj h1
      obtain ⟨q, rfl, h3⟩ := h2
      cases hr
      obtain ⟨Cs', Os', N, x, h4, h5, h6⟩ := hq y q m hos h3
      exact .inr ⟨hs, rfl, rfl, hst _ rfl, Cs', Os', N, x, h4, h5, h6⟩
    · rw [hos] at h1
      obtain ⟨rfl, rfl⟩ := Prod.mk.inj h1
      obtain rfl : o = _ := h2
      cases hr
      exact .inr ⟨hs, rfl, rfl, fun h => hu (by rw [h]), fun h => hb (by rw [h])⟩
    all_goals
      rw [hos] at h1
      obtain ⟨rfl, rfl⟩ := Prod.mk.inj h1
      obtain rfl : o = _ := h2
      cases hr
      exact .inr ⟨hs, rfl, rfl⟩

theorem set_os_frames (n : Name) (t : CTag) (e : Faults) (w w' : Sys) (t' : CTag)
    (h : set_tag_os n t e w = (w', .ok t')) : t'.tag.frames = t.tag.frames := by
  unfold set_tag_os at h
  rw [cio_bind] at h
  rcases hm : ID3v2_write_tag_os n t.tag e w with ⟨w1, x | _ | _ | _⟩ <;> rw [hm] at h
  · cases h
    exact write_os_frames n t.tag e w _ x hm
  all_goals cases h

/-- A call of the compatibility API. -/
theorem cmove_step {p p' : Both} {r : Res Unit} {c : BothMove} {e : Faults} {a : Lack} {s : Abs}
    {Cs : List HCTag} {Os : List HThing} {K : List Block} (hc : ∀ m, c ≠ .current m)
    (i : CInv p.compat Cs Os K) (hw : p.current.machine.sys.streams = fun _ => none) (ha : c.Allowed p)
    (hr : c.run e a p = (p', r)) :
    (p'.current.machine.short = true ∧ p'.current.machine.sys.files = p.current.machine.sys.files ∧ r = .ub .nullDeref) ∨
    (p'.current.machine.short = false ∧
      CMoveOk p p' r K (c.lost e p s (cabs p.compat Cs Os)) (c.cvalue e p (cabs p.compat Cs Os))) := by
  cases c with
  | current c => exact (hc c rfl).elim
  | memory c => exact cmemory_step i ha.1 ha.2 hr
  | file c =>
    cases c with
    | readHeader n => exact ha.elim
    | read n => exact ha.elim
    | write n t => exact ha.elim
    | delete n => exact ha.elim
    | load n =>
      refine cfile_step (c := .load n) (v := .load n) hw (fun _ h => nomatch h) (load_tag_os n) .loaded
        (fun v q => { cabs p.compat Cs Os with tags := (q, v) :: (cabs p.compat Cs Os).tags }) _ rfl ⟨rfl, i.rep⟩ ?_ hr
      intro y q m hos h
      cases q with
      | none => exact h.elim
      | some q =>
        obtain ⟨N, hN, hS, C, rfl, rfl, hl, rr⟩ := h
        refine ⟨C :: Cs, Os, N, C.addr, i.newTag hl (quiet_of_streams hS) rr, rfl, ?_, quiet_of_streams hS⟩
        show _ = match (load_tag_os n e p.current.machine.sys).2 with
          | .ok v => rawLeft v
          | _ => 0
        rw [hos]
        exact hN
    | set n t =>
      obtain ⟨A, C, B, rfl, rfl, hl, hA, hB, rr⟩ := i.tag ha
      unfold BothMove.cvalue BothMove.lost ctagLeft CAbs.fileUpdate
      dsimp only
      rw [show (cabs p.compat (A ++ C :: B) Os).tags.lookup C.addr = some C.value from cabs_lookup hA]
      refine cfile_step (c := .set n C.addr) (v := .set n C.value) hw (fun _ h => nomatch h) (set_tag_os n C.value) .loaded
        (fun v' _ => { cabs p.compat (A ++ C :: B) Os with tags := setAt C.addr v' (cabs p.compat (A ++ C :: B) Os).tags })
        _ rfl ⟨rfl, C, rfl, rfl, hl, rr⟩ ?_ hr
      intro y q m hos h
      cases q with
      | some q => exact h.elim
      | none =>
        obtain ⟨N, hN, hS, C', h1, rfl, h3, h4⟩ := h
        obtain ⟨i', e'⟩ := i.changed (N := N) (h' := m.heap) (C' := C') h1 h3 (quiet_of_streams hS) h4 hA hB none
        exact ⟨_, Os, N, 0, i', e', by rw [hN, set_os_frames n C.value e _ _ _ hos], quiet_of_streams hS⟩
    | remove n =>
      refine cfile_step (c := .remove n) (v := .remove n) hw (fun _ h => nomatch h) (remove_tag_os n) (fun _ => .done)
        (fun _ _ => cabs p.compat Cs Os) 0 rfl ⟨rfl, i.rep⟩ ?_ hr
      intro y q m hos h
      cases q with
      | some q => exact h.elim
      | none => exact ⟨Cs, Os, [], 0, ⟨h, i.linked, i.tags, i.things, i.quiet⟩, rfl, .nil⟩
    | cover n t =>
      obtain ⟨A, C, B, rfl, rfl, hl, hA, hB, rr⟩ := i.tag ha
      unfold BothMove.cvalue CAbs.fileUpdate
      dsimp only
      rw [show (cabs p.compat (A ++ C :: B) Os).tags.lookup C.addr = some C.value from cabs_lookup hA]
      refine cfile_step (c := .cover n C.addr) (v := .cover n C.value) hw (fun _ h => nomatch h) (tag_set_album_cover_os n C.value) .loaded
        (fun v' _ => { cabs p.compat (A ++ C :: B) Os with tags := setAt C.addr v' (cabs p.compat (A ++ C :: B) Os).tags })
        0 rfl ⟨rfl, C, rfl, rfl, hl, rr⟩ ?_ hr
      intro y q m hos h
      cases q with
      | some q => exact h.elim
      | none =>
        obtain ⟨C', h1, rfl, h3, h4⟩ := h
        obtain ⟨i', e'⟩ := i.changed (N := []) (h' := m.heap) (C' := C') h1 h3 .nil h4 hA hB none
        exact ⟨_, Os, [], 0, i', e', .nil⟩

/-! ### Both at once -/

/-- What is known of the heap: it holds what the program has of both APIs, and `K` beside it. -/
structure BothInv (p : Both) (Ts : List HTag) (Ls : List HList) (Hs : List (Nat × TagHeader)) (Us : List (Nat × Bytes))
    (Cs : List HCTag) (Os : List HThing) (K : List Block) : Prop where
  main : Inv p.current.world Ts Ls Hs Us (Cs.flatMap HCTag.blocks ++ (Os.flatMap HThing.blocks ++ K))
  linked : ∀ C ∈ Cs, C.Linked
  ctags : p.ctags = Cs.map (·.addr)
  things : p.things = Os.map fun O => (O.addr, O.value.kind)
  quiet : Quiet K

omit [Platform] in
theorem quiet_rest (Ts : List HTag) (Ls : List HList) (Hs : List (Nat × TagHeader)) (Us : List (Nat × Bytes)) :
    Quiet (Ts.flatMap HTag.blocks ++ rest Ls Hs Us []) := by
  refine .append ?_ (.append ?_ (.append ?_ (.append ?_ .nil)))
  · intro b hb
    obtain ⟨T, _, hb⟩ := List.mem_flatMap.mp hb
    exact quiet_tag T b hb
  · intro b hb
    obtain ⟨L, _, hb⟩ := List.mem_flatMap.mp hb
    exact quiet_nodes _ _ b hb
  · intro b hb
    obtain ⟨_, _, rfl⟩ := List.mem_map.mp hb
    exact id
  · intro b hb
    obtain ⟨_, _, rfl⟩ := List.mem_map.mp hb
    exact id

section

variable {p p' : Both} {Ts : List HTag} {Ls : List HList} {Hs : List (Nat × TagHeader)} {Us : List (Nat × Bytes)}
  {Cs : List HCTag} {Os : List HThing} {K : List Block}

omit [Platform] in
theorem BothInv.compat (i : BothInv p Ts Ls Hs Us Cs Os K) :
    CInv p.compat Cs Os ((Ts.flatMap HTag.blocks ++ rest Ls Hs Us []) ++ K) :=
  ⟨i.main.rep.perm (by unfold rest; blocks), i.linked, i.ctags, i.things, (quiet_rest Ts Ls Hs Us).append i.quiet⟩

omit [Platform] in
/-- After a call of the main API. -/
theorem BothInv.of_main (i : BothInv p Ts Ls Hs Us Cs Os K) {q : Running} {Ts' : List HTag} {Ls' : List HList}
    {Hs' : List (Nat × TagHeader)} {Us' : List (Nat × Bytes)} {N : List Block} (hN : Quiet N)
    (j : Inv q.world Ts' Ls' Hs' Us' (N ++ (Cs.flatMap HCTag.blocks ++ (Os.flatMap HThing.blocks ++ K)))) :
    BothInv { p with current := q } Ts' Ls' Hs' Us' Cs Os (N ++ K) :=
  ⟨⟨j.rep.perm (by unfold rest; blocks), j.tags, j.lists, j.headers, j.buffers⟩, i.linked, i.ctags, i.things,
    hN.append i.quiet⟩

omit [Platform] in
/-- After a call of the compatibility API. -/
theorem BothInv.of_compat (i : BothInv p Ts Ls Hs Us Cs Os K) {m : Machine} {tags : List Nat} {things : List (Nat × Kind)}
    {Cs' : List HCTag} {Os' : List HThing} {N : List Block}
    (j : CInv (p.after m tags things).compat Cs' Os' (N ++ ((Ts.flatMap HTag.blocks ++ rest Ls Hs Us []) ++ K))) :
    BothInv (p.after m tags things) Ts Ls Hs Us Cs' Os' (N ++ K) :=
  ⟨⟨j.rep.perm (by unfold rest; blocks), i.main.tags, i.main.lists, i.main.headers, i.main.buffers⟩, j.linked, j.tags,
    j.things, fun b hb => j.quiet b (by
      rcases List.mem_append.mp hb with h | h
      · exact List.mem_append_left _ h
      · exact List.mem_append_right _ (List.mem_append_right _ h))⟩

/-- A call of the compatibility API changes the machine and the pointers of that API. -/
theorem both_after {c : BothMove} {e : Faults} {a : Lack} {r : Res Unit} (hc : ∀ m, c ≠ .current m)
    (hr : c.run e a p = (p', r)) : ∃ m tags things, p' = p.after m tags things := by
  cases c with
  | current c => exact (hc c rfl).elim
  | memory c =>
    unfold BothMove.run at hr
    dsimp only at hr
    split at hr <;> cases hr <;> exact ⟨_, _, _, rfl⟩
  | file c =>
    unfold BothMove.run at hr
    dsimp only at hr
    split at hr <;> cases hr <;> exact ⟨_, _, _, rfl⟩

/-- What is known after a call that got all its memory. -/
def BothOk (p p' : Both) (r : Res Unit) (K : List Block) (lk : Nat) (o : Sys × Res (Nat → Abs × CAbs)) : Prop :=
  p'.current.machine.sys = o.1 ∧
  match o.2 with
  | .ok f => r = .ok () ∧ p'.current.machine.sys.streams = p.current.machine.sys.streams ∧
      ∃ Ts' Ls' Hs' Us' Cs' Os' N q, BothInv p' Ts' Ls' Hs' Us' Cs' Os' (N ++ K) ∧
      (absOf p'.current.world Ts' Us', cabs p'.compat Cs' Os') = f q ∧ N.length = lk
  | .ub k => r = .ub k ∧ k ≠ .useAfterFree ∧ k ≠ .badFree
  | .exit => r = .exit
  | .diverge => r = .diverge

/-- What is known after a call that did not get its memory. -/
def BothShort (p p' : Both) (r : Res Unit) (c : BothMove) (Ts : List HTag) (Ls : List HList) (Hs : List (Nat × TagHeader))
    (Us : List (Nat × Bytes)) (Cs : List HCTag) (Os : List HThing) (K : List Block) : Prop :=
  p'.current.machine.sys.files = p.current.machine.sys.files ∧
    (r = .ub .nullDeref ∨ r = .ok () ∧ (∃ n, c = .current (.file (.read n))) ∧
      p'.current.machine.sys.streams = p.current.machine.sys.streams ∧ BothInv p' Ts Ls Hs Us Cs Os K ∧
      absOf p'.current.world Ts Us = absOf p.current.world Ts Us ∧ cabs p'.compat Cs Os = cabs p.compat Cs Os)

/-- One step of a program. -/
theorem both_step {r : Res Unit} {c : BothMove} {e : Faults} {a : Lack} (i : BothInv p Ts Ls Hs Us Cs Os K)
    (hw : p.current.machine.sys.streams = fun _ => none) (ha : c.Allowed p) (hr : c.run e a p = (p', r)) :
    (p'.current.machine.short = true ∧ BothShort p p' r c Ts Ls Hs Us Cs Os K) ∨
    (p'.current.machine.short = false ∧
      BothOk p p' r K (c.lost e p (absOf p.current.world Ts Us) (cabs p.compat Cs Os))
        (c.value e p (absOf p.current.world Ts Us) (cabs p.compat Cs Os))) := by
  by_cases hc : ∃ m, c = .current m
  · obtain ⟨c, rfl⟩ := hc
    rcases hm : c.run e a p.current with ⟨q, o⟩
    have hr : ({ p with current := (c.run e a p.current).1 }, (c.run e a p.current).2) = (p', r) := hr
    rw [hm] at hr
    cases hr
    rcases move_step i.main hw ha hm with ⟨h1, h2, h3⟩ | ⟨h1, h2, h3⟩
    · refine .inl ⟨h1, h2, h3.imp id fun ⟨h3, ⟨n, h4⟩, h5, h6, h7⟩ => ⟨h3, ⟨n, by rw [h4]⟩, h5, ?_, h7, rfl⟩⟩
      exact ⟨h6, i.linked, i.ctags, i.things, i.quiet⟩
    · refine .inr ⟨h1, h2, ?_⟩
      unfold BothMove.value
      dsimp only
      cases hv : (c.value e p.current (absOf p.current.world Ts Us)).2 with
      | ok f =>
        rw [hv] at h3
        obtain ⟨h3, h4, Ts', Ls', Hs', Us', N, x, h5, h6, h7⟩ := h3
        exact ⟨h3, h4, Ts', Ls', Hs', Us', Cs, Os, N, x, i.of_main h7.2 h5, by rw [h6]; rfl, h7.1⟩
      | ub k => rw [hv] at h3; exact h3
      | exit => rw [hv] at h3; exact h3
      | diverge => rw [hv] at h3; exact h3
  · have hc : ∀ m, c ≠ .current m := fun m h => hc ⟨m, h⟩
    have hval : c.value e p (absOf p.current.world Ts Us) (cabs p.compat Cs Os) =
        ((c.cvalue e p (cabs p.compat Cs Os)).1, do
          let f ← (c.cvalue e p (cabs p.compat Cs Os)).2
          return fun q => (absOf p.current.world Ts Us, f q)) := by
      cases c with
      | current c => exact (hc c rfl).elim
      | memory c => rfl
      | file c => rfl
    rw [hval]
    obtain ⟨m, tags, things, rfl⟩ := both_after hc hr
    rcases cmove_step (s := absOf p.current.world Ts Us) hc i.compat hw ha hr with ⟨h1, h2, h3⟩ | ⟨h1, h2, h3⟩
    · exact .inl ⟨h1, h2, .inl h3⟩
    · refine .inr ⟨h1, h2, ?_⟩
      dsimp only
      cases hv : (c.cvalue e p (cabs p.compat Cs Os)).2 with
      | ok f =>
        rw [hv] at h3
        obtain ⟨h3, h4, Cs', Os', N, x, h5, h6, h7⟩ := h3
        exact ⟨h3, h4, Ts, Ls, Hs, Us, Cs', Os', N, x, i.of_compat h5, by rw [h6]; rfl, h7.1⟩
      | ub k => rw [hv] at h3; exact h3
      | exit => rw [hv] at h3; exact h3
      | diverge => rw [hv] at h3; exact h3

end

/-- What is known of the heap of a program, with the number of blocks that it has lost, and of its streams. -/
theorem both_inv {p : Both} {n : Nat} (h : BothGoes p n) : (p.current.machine.sys.streams = fun _ => none) ∧
    ∃ Ts Ls Hs Us Cs Os K, BothInv p Ts Ls Hs Us Cs Os K ∧ K.length = n := by
  induction h with
  | start files picks =>
    exact ⟨rfl, [], [], [], [], [], [], [], ⟨inv_start none picks, fun _ h => (nomatch h), rfl, rfl, .nil⟩, rfl⟩
  | @call p p' n s t c e a _ hs ht ha hr ih =>
    obtain ⟨hw, Ts, Ls, Hs, Us, Cs, Os, K, i, hK⟩ := ih
    obtain rfl := i.main.eq hs
    obtain rfl := i.compat.eq ht
    rcases both_step i hw ha hr with ⟨h1, h2, h3 | ⟨h3, h4, h5, h6, h7⟩⟩ | ⟨h1, h2, h3⟩
    · cases h3
    · exact ⟨h5.trans hw, Ts, Ls, Hs, Us, Cs, Os, K, h6, by rw [h1, if_pos rfl]; exact hK⟩
    · cases hv : (c.value e p (absOf p.current.world Ts Us) (cabs p.compat Cs Os)).2 with
      | ok f =>
        rw [hv] at h3
        obtain ⟨-, h4, Ts', Ls', Hs', Us', Cs', Os', N, q, i', h5, h6⟩ := h3
        exact ⟨h4.trans hw, Ts', Ls', Hs', Us', Cs', Os', N ++ K, i', by
          rw [h1, if_neg (by decide), List.length_append, h6, hK, Nat.add_comm]⟩
      | ub k => rw [hv] at h3; cases h3.1
      | exit => rw [hv] at h3; cases h3
      | diverge => rw [hv] at h3; cases h3
  | others files _ ih =>
    obtain ⟨hw, Ts, Ls, Hs, Us, Cs, Os, K, i, hK⟩ := ih
    exact ⟨hw, Ts, Ls, Hs, Us, Cs, Os, K, ⟨i.main, i.linked, i.ctags, i.things, i.quiet⟩, hK⟩

/-- **C88**: a program makes any calls of both APIs on any files, other programs change the files between the calls, and any
I/O operation and any request for memory may fail. Then every call does to the tags of both APIs and to the files what it does
with the tags as values and the same I/O failures; in particular a call of one API changes nothing of the other. If memory
runs out in it, no file is changed, and either the NULL pointer is followed, or `ID3v2_read_tag` returns NULL and all tags are
as before. -/
theorem both_values {p p' : Both} {n : Nat} {s : Abs} {t : CAbs} {c : BothMove} {e : Faults} {a : Lack} {r : Res Unit}
    (h : BothGoes p n) (hs : p.current.world.Holds s) (ht : p.compat.Holds t) (ha : c.Allowed p)
    (hr : c.run e a p = (p', r)) :
    if p'.current.machine.short then
      p'.current.machine.sys.files = p.current.machine.sys.files ∧
        (r = .ub .nullDeref ∨ (∃ name, c = .current (.file (.read name))) ∧ r = .ok () ∧ p'.current.world.Holds s ∧
          p'.compat.Holds t)
    else
      p'.current.machine.sys = (c.value e p s t).1 ∧
        match (c.value e p s t).2 with
        | .ok f => r = .ok () ∧ ∃ q, p'.current.world.Holds (f q).1 ∧ p'.compat.Holds (f q).2
        | .ub k => r = .ub k
        | .exit => r = .exit
        | .diverge => r = .diverge := by
  obtain ⟨hw, Ts, Ls, Hs, Us, Cs, Os, K, i, hK⟩ := both_inv h
  obtain rfl := i.main.eq hs
  obtain rfl := i.compat.eq ht
  rcases both_step i hw ha hr with ⟨h1, h2, h3⟩ | ⟨h1, h2, h3⟩
  · rw [h1, if_pos rfl]
    exact ⟨h2, h3.imp id fun ⟨h3, h4, h5, h6, h7, h8⟩ => ⟨h4, h3, h7 ▸ h6.main.holds, h8 ▸ h6.compat.holds⟩⟩
  · rw [h1, if_neg (by decide)]
    refine ⟨h2, ?_⟩
    cases hv : (c.value e p (absOf p.current.world Ts Us) (cabs p.compat Cs Os)).2 with
    | ok f =>
      rw [hv] at h3
      obtain ⟨h3, h4, Ts', Ls', Hs', Us', Cs', Os', N, q, i', h5, h6⟩ := h3
      refine ⟨h3, q, ?_⟩
      rw [← h5]
      exact ⟨i'.main.holds, i'.compat.holds⟩
    | ub k => rw [hv] at h3; exact h3.1
    | exit => rw [hv] at h3; exact h3
    | diverge => rw [hv] at h3; exact h3

/-- **C88**: no call of such a program accesses a block that was freed, or frees something that is not allocated. -/
theorem both_safe {p p' : Both} {n : Nat} {c : BothMove} {e : Faults} {a : Lack} {r : Res Unit} (h : BothGoes p n)
    (ha : c.Allowed p) (hr : c.run e a p = (p', r)) : r ≠ .ub .useAfterFree ∧ r ≠ .ub .badFree := by
  obtain ⟨hw, Ts, Ls, Hs, Us, Cs, Os, K, i, hK⟩ := both_inv h
  rcases both_step i hw ha hr with ⟨h1, h2, h3 | ⟨h3, h4⟩⟩ | ⟨h1, h2, h3⟩
  · rw [h3]
    exact ⟨fun h => (nomatch h), fun h => (nomatch h)⟩
  · rw [h3]
    exact ⟨fun h => (nomatch h), fun h => (nomatch h)⟩
  · cases hv : (c.value e p (absOf p.current.world Ts Us) (cabs p.compat Cs Os)).2 with
    | ok f =>
      rw [hv] at h3
      rw [h3.1]
      exact ⟨fun h => (nomatch h), fun h => (nomatch h)⟩
    | ub k =>
      rw [hv] at h3
      rw [h3.1]
      exact ⟨fun h => h3.2.1 (by cases h; rfl), fun h => h3.2.2 (by cases h; rfl)⟩
    | exit =>
      rw [hv] at h3
      rw [show r = .exit from h3]
      exact ⟨fun h => (nomatch h), fun h => (nomatch h)⟩
    | diverge =>
      rw [hv] at h3
      rw [show r = .diverge from h3]
      exact ⟨fun h => (nomatch h), fun h => (nomatch h)⟩

/-- **C88**: between its calls such a program has no stream open, and if it holds nothing any more, then exactly as many
blocks are allocated as its calls have lost by the count of the specification. Failures lose nothing. -/
theorem both_leaks {p : Both} {n : Nat} (h : BothGoes p n) :
    (∀ f, p.current.machine.sys.streams f = none) ∧
    (p.current.tags = [] → p.current.lists = [] → p.current.headers = [] → p.current.buffers = [] → p.ctags = [] →
      p.things = [] → ∃ K : List Nat, K.Nodup ∧ K.length = n ∧ ∀ a, p.current.machine.heap.cells a ≠ none ↔ a ∈ K) := by
  obtain ⟨hw, Ts, Ls, Hs, Us, Cs, Os, K, i, hK⟩ := both_inv h
  refine ⟨fun f => by rw [hw], fun h1 h2 h3 h4 h5 h6 => ?_⟩
  obtain rfl := List.map_eq_nil_iff.mp (h1 ▸ show p.current.tags = _ from i.main.tags).symm
  obtain rfl := List.map_eq_nil_iff.mp (h2 ▸ show p.current.lists = _ from i.main.lists).symm
  obtain rfl := List.map_eq_nil_iff.mp (h3 ▸ show p.current.headers = _ from i.main.headers).symm
  obtain rfl := List.map_eq_nil_iff.mp (h4 ▸ show p.current.buffers = _ from i.main.buffers).symm
  obtain rfl := List.map_eq_nil_iff.mp (h5 ▸ i.ctags).symm
  obtain rfl := List.map_eq_nil_iff.mp (h6 ▸ i.things).symm
  have r : Rep p.current.machine.heap K := i.main.rep
  refine ⟨K.map (·.1), r.nodup, by rw [List.length_map]; exact hK, fun a => ?_⟩
  constructor
  · intro h
    cases hc : p.current.machine.heap.cells a with
    | none => exact absurd hc h
    | some c => exact List.mem_map.mpr ⟨(a, c), (r.cells a c).mp hc, rfl⟩
  · intro h
    obtain ⟨⟨a, c⟩, hb, rfl⟩ := List.mem_map.mp h
    rw [(r.cells a c).mpr hb]
    exact Option.some_ne_none _

/-! ### A program -/

theorem both_on {p : Both} {n : Nat} {c : BothMove} {e : Faults} {a : Lack} (h : BothGoes p n) (ha : c.Allowed p)
    (hr : hasReturned (c.run e a p).2 = true) : ∃ n', BothGoes (c.run e a p).1 n' := by
  obtain ⟨hw, Ts, Ls, Hs, Us, Cs, Os, K, i, hK⟩ := both_inv h
  rcases hm : c.run e a p with ⟨p', _ | _ | _ | _⟩ <;> rw [hm] at hr
  · exact ⟨_, .call h i.main.holds i.compat.holds ha hm⟩
  all_goals cases hr

/-- A call after others. -/
def doNext (e : Faults) (a : Lack) (r : Both × Res Unit) (c : BothMove) : Both × Res Unit := @BothMove.run strict e a r.1 c

omit [Platform] in
theorem next_goes {r : Both × Res Unit} {c : BothMove} {e : Faults} {a : Lack} (h : ∃ n, @BothGoes strict r.1 n)
    (ha : c.Allowed r.1) (hr : hasReturned (doNext e a r c).2 = true) : ∃ n, @BothGoes strict (doNext e a r c).1 n := by
  obtain ⟨n, h⟩ := h
  exact @both_on strict _ _ _ _ _ h ha hr

/-- A tag with a title of two bytes, … -/
def songTag (title : List UInt8) : List UInt8 :=
  [0x49, 0x44, 0x33, 3, 0, 0, 0, 0, 0, 24, 0x54, 0x49, 0x54, 0x32, 0, 0, 0, 4, 0, 0, 0] ++ title ++ List.replicate 11 0

/-- … and the file with it and a byte of audio. -/
def songFile (title : List UInt8) : List UInt8 :=
  songTag title ++ [0x41]

/-- A program reads the tag of `a` with the main API, which fails for lack of memory, … -/
def mixed1 : Both × Res Unit :=
  doNext (fun _ => false) (fun k => k == 3)
    (.start (fun n => if n = [0x61] then some (ofB (songFile [0x68, 0x69])) else none) id, .ok ())
    (.current (.file (.read [0x61])))

/-- … reads it again, … -/
def mixed2 : Both × Res Unit := doNext (fun _ => false) enough mixed1 (.current (.file (.read [0x61])))

/-- … loads it with the compatibility API as well, … -/
def mixed3 : Both × Res Unit := doNext (fun _ => false) enough mixed2 (.file (.load [0x61]))

/-- … sets the title there, … -/
def mixed4 : Both × Res Unit :=
  doNext (fun _ => false) enough mixed3 (.memory (.setText .title (.literal (ofB [0x48, 0x69, 0])) 0 33))

/-- … writes it, … -/
def mixed5 : Both × Res Unit := doNext (fun _ => false) enough mixed4 (.file (.set [0x61] 33))

/-- … writes the first tag, where the file cannot be opened at first (operation 230), so that the old tag is not seen, … -/
def mixed6 : Both × Res Unit := doNext (fun t => t == 230) enough mixed5 (.current (.file (.write [0x61] 10)))

/-- … frees the second tag, … -/
def mixed7 : Both × Res Unit := doNext (fun _ => false) enough mixed6 (.memory (.freeTag 33))

/-- … and the first. -/
def mixed8 : Both × Res Unit := doNext (fun _ => false) enough mixed7 (.current (.memory (.freeTag 10)))

/-- What is seen of a run: whether memory ran out, whether the call returned, the tags held of both APIs, and the file `a`. -/
def sees (r : Both × Res Unit) : Bool × Bool × List Nat × List Nat × Option (List (Option UInt8)) :=
  (r.1.current.machine.short, hasReturned r.2, r.1.current.tags, r.1.ctags, r.1.current.machine.sys.files [0x61])

omit [Platform] in
set_option synthInstance.maxSize 1000 in
theorem mixed1_sees : sees mixed1 = (true, true, [], [], some ((songFile [0x68, 0x69]).map some)) := by decide +kernel

omit [Platform] in
set_option synthInstance.maxSize 1000 in
theorem mixed2_sees : sees mixed2 = (false, true, [10], [], some ((songFile [0x68, 0x69]).map some)) := by decide +kernel

omit [Platform] in
set_option synthInstance.maxSize 1000 in
theorem mixed3_sees : sees mixed3 = (false, true, [10], [33], some ((songFile [0x68, 0x69]).map some)) := by decide +kernel

omit [Platform] in
set_option synthInstance.maxSize 1000 in
theorem mixed4_sees : sees mixed4 = (false, true, [10], [33], some ((songFile [0x68, 0x69]).map some)) := by decide +kernel

omit [Platform] in
set_option synthInstance.maxSize 1000 in
theorem mixed5_sees : sees mixed5 = (false, true, [10], [33], some ((songFile [0x48, 0x69]).map some)) := by decide +kernel

omit [Platform] in
set_option synthInstance.maxSize 1000 in
/-- The call returns, and both tags are in the file. -/
theorem mixed6_sees : sees mixed6 = (false, true, [10], [33], some ((songTag [0x68, 0x69] ++ songFile [0x48, 0x69]).map some)) := by decide +kernel

omit [Platform] in
set_option synthInstance.maxSize 1000 in
theorem mixed7_sees : sees mixed7 = (false, true, [10], [], some ((songTag [0x68, 0x69] ++ songFile [0x48, 0x69]).map some)) := by decide +kernel

omit [Platform] in
set_option synthInstance.maxSize 1000 in
theorem mixed8_sees : sees mixed8 = (false, true, [], [], some ((songTag [0x68, 0x69] ++ songFile [0x48, 0x69]).map some)) := by decide +kernel

omit [Platform] in
theorem sees_eq {r : Both × Res Unit} {s b : Bool} {l l' : List Nat} {f : Option (List (Option UInt8))}
    (h : sees r = (s, b, l, l', f)) : hasReturned r.2 = b ∧ r.1.current.tags = l ∧ r.1.ctags = l' := by
  simp only [sees, Prod.mk.injEq] at h
  exact ⟨h.2.1, h.2.2.1, h.2.2.2.1⟩

omit [Platform] in
theorem may_load {p : Both} (n : Name) : (BothMove.file (.load n)).Allowed p := trivial

omit [Platform] in
theorem may_read {p : Both} (n : Name) : (BothMove.current (.file (.read n))).Allowed p := trivial

omit [Platform] in
theorem may_put {p : Both} {t : Nat} (n : Name) (h : p.current.tags = [t]) :
    (BothMove.current (.file (.write n t))).Allowed p := may_write (p := p.current) n h

omit [Platform] in
theorem may_drop {p : Both} {t : Nat} (h : p.current.tags = [t]) : (BothMove.current (.memory (.freeTag t))).Allowed p :=
  may_free (p := p.current) h

omit [Platform] in
theorem may_set {p : Both} {t : Nat} (n : Name) (h : p.ctags = [t]) : (BothMove.file (.set n t)).Allowed p := by
  show t ∈ p.ctags
  rw [h]
  exact List.mem_cons_self

omit [Platform] in
theorem may_title {p : Both} {t : Nat} (b : Bytes) (h : p.ctags = [t]) :
    (BothMove.memory (.setText .title (.literal b) 0 t)).Allowed p := by
  refine ⟨trivial, ?_, trivial⟩
  show t ∈ p.ctags
  rw [h]
  exact List.mem_cons_self

omit [Platform] in
theorem may_cfree {p : Both} {t : Nat} (h : p.ctags = [t]) : (BothMove.memory (.freeTag t)).Allowed p := by
  refine ⟨trivial, ?_⟩
  show t ∈ p.ctags
  rw [h]
  exact List.mem_cons_self

omit [Platform] in
/-- The hypotheses of the theorems are met by this program after each of its calls. -/
theorem mixed_goes : (∃ n, @BothGoes strict mixed1.1 n) ∧ (∃ n, @BothGoes strict mixed2.1 n) ∧
    (∃ n, @BothGoes strict mixed3.1 n) ∧ (∃ n, @BothGoes strict mixed4.1 n) ∧ (∃ n, @BothGoes strict mixed5.1 n) ∧
    (∃ n, @BothGoes strict mixed6.1 n) ∧ (∃ n, @BothGoes strict mixed7.1 n) ∧ ∃ n, @BothGoes strict mixed8.1 n := by
  have g1 : ∃ n, @BothGoes strict mixed1.1 n :=
    next_goes ⟨0, @BothGoes.start strict _ _⟩ (may_read _) (sees_eq mixed1_sees).1
  have g2 : ∃ n, @BothGoes strict mixed2.1 n :=
    next_goes g1 (may_read _) (sees_eq mixed2_sees).1
  have g3 : ∃ n, @BothGoes strict mixed3.1 n :=
    next_goes g2 (may_load _) (sees_eq mixed3_sees).1
  have g4 : ∃ n, @BothGoes strict mixed4.1 n :=
    next_goes g3 (may_title _ (sees_eq mixed3_sees).2.2) (sees_eq mixed4_sees).1
  have g5 : ∃ n, @BothGoes strict mixed5.1 n :=
    next_goes g4 (may_set _ (sees_eq mixed4_sees).2.2) (sees_eq mixed5_sees).1
  have g6 : ∃ n, @BothGoes strict mixed6.1 n :=
    next_goes g5 (may_put _ (sees_eq mixed5_sees).2.1) (sees_eq mixed6_sees).1
  have g7 : ∃ n, @BothGoes strict mixed7.1 n :=
    next_goes g6 (may_cfree (sees_eq mixed6_sees).2.2) (sees_eq mixed7_sees).1
  have g8 : ∃ n, @BothGoes strict mixed8.1 n :=
    next_goes g7 (may_drop (sees_eq mixed7_sees).2.1) (sees_eq mixed8_sees).1
  exact ⟨g1, g2, g3, g4, g5, g6, g7, g8⟩

end Id3.Props
