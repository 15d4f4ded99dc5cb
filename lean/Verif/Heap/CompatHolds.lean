import Verif.Heap.CompatSession
import Verif.Proof.NoMemCompat

/-!
# What a program that uses the compatibility API holds

The values of its compat tags are determined by its heap, and every call changes them as the value-level model says.
-/

namespace Id3.H

open Id3 Spec

/-! ## The heap determines the tags -/

theorem centry_unique {c : Nat → Option Cell} {x y : HCFrame} (ha : x.addr = y.addr) (hf : x.frame = y.frame)
    (h : Has c x.blocks) (g : Has c y.blocks) : x = y := by
  unfold HCFrame.blocks at h g
  obtain ⟨a, d, i, n, f, b, F⟩ := x
  obtain ⟨a', d', i', n', f', b', F'⟩ := y
  simp only at ha hf h g
  subst ha hf
  have e1 := h.agree g
  simp only [Cell.cframe.injEq, Option.some.injEq] at e1
  obtain ⟨rfl, rfl, rfl, rfl, _⟩ := e1
  have e2 := h.tail.agree g.tail
  cases e2
  rfl

theorem clist_unique {c : Nat → Option Cell} {k k' : Nat} : ∀ (last last' : Option Ptr)
    (l l' : List (Nat × Option HCFrame)),
    l.map (fun n => n.2.map (·.frame)) = l'.map (fun n => n.2.map (·.frame)) →
    first (cspine l) = first (cspine l') → Has c (cnodes k last (cspine l) ++ centries l) →
    Has c (cnodes k' last' (cspine l') ++ centries l') → l = l' ∧ (l ≠ [] → last = last')
  | _, _, [], [], _, _, _, _ => ⟨rfl, fun h => absurd rfl h⟩
  | _, _, [], _ :: _, e, _, _, _ => by cases e
  | _, _, _ :: _, [], e, _, _, _ => by cases e
  | last, last', (a, f) :: l, (a', f') :: l', ef, e, h, g => by
    obtain rfl : a = a' := by
      have : some a = some a' := e
      cases this
      rfl
    have h1 := h.left
    have g1 := g.left
    rw [cspine_cons, cnodes_cons] at h1 g1
    have e1 := h1.agree g1
    simp only [Cell.cnode.injEq] at e1
    obtain ⟨e2, e3, _, e4⟩ := e1
    simp only [List.map_cons, List.cons.injEq] at ef
    have key : ∀ {f : Option HCFrame} {l : List (Nat × Option HCFrame)}, Has c (centries ((a, f) :: l)) →
        Has c (centries l) := by
      intro f l h b hb
      exact h b (by unfold centries at hb ⊢; rw [List.flatMap_cons]; exact List.mem_append_right _ hb)
    have e5 := (clist_unique none none l l' ef.2 e3
      (fun b hb => (List.mem_append.mp hb).elim (fun hb => h1.tail b hb) (fun hb => key h.right b hb))
      (fun b hb => (List.mem_append.mp hb).elim (fun hb => g1.tail b hb) (fun hb => key g.right b hb))).1
    subst e5
    refine ⟨?_, fun _ => e4⟩
    cases f with
    | none =>
      cases f' with
      | none => rfl
      | some F' => cases e2
    | some F =>
      cases f' with
      | none => cases e2
      | some F' =>
        have e5 : F.addr = F'.addr := Option.some.inj e2
        have h2 := h.right
        have g2 := g.right
        rw [centries_some] at h2 g2
        rw [centry_unique e5 (Option.some.inj ef.1) h2.left g2.left]

theorem ctag_unique {c : Nat → Option Cell} {C D : HCTag} (ha : C.addr = D.addr) (hC : C.Linked) (hD : D.Linked)
    (h : Has c C.blocks) (g : Has c D.blocks) : C = D := by
  have hT : C.tag.addr = D.tag.addr := by
    unfold HCTag.blocks at h g
    rw [ha] at h
    have e1 := h.agree g
    simp only [Cell.ctag.injEq, Option.some.injEq] at e1
    exact e1.2.2.2
  have e := tag_unique hT (fun b hb => h b (mem_inner C b hb)) (fun b hb => g b (mem_inner D b hb))
  have hf : C.list.map (fun n => n.2.map (·.frame)) = D.list.map (fun n => n.2.map (·.frame)) := by
    rw [hC.frames, hD.frames, e]
  have hl := clist_unique (c := c) (k := C.head) (k' := D.head) C.last D.last C.list D.list hf
  have h1 : Has c (cnodes C.head C.last (cspine C.list) ++ centries C.list) := fun b hb =>
    (List.mem_append.mp hb).elim (fun hb => h b (mem_cnodes C b hb)) (fun hb => h b (mem_centries C b hb))
  have g1 : Has c (cnodes D.head D.last (cspine D.list) ++ centries D.list) := fun b hb =>
    (List.mem_append.mp hb).elim (fun hb => g b (mem_cnodes D b hb)) (fun hb => g b (mem_centries D b hb))
  unfold HCTag.blocks at h g
  obtain ⟨a, hd, raw, x, k, la, en, re, T⟩ := C
  obtain ⟨a', hd', raw', x', k', la', en', re', T'⟩ := D
  simp only at ha e h g
  subst ha e
  have e1 := h.agree g
  simp only [Cell.ctag.injEq, Option.some.injEq] at e1
  obtain ⟨e1, rfl, rfl, _⟩ := e1
  have e2 := h.tail.agree g.tail
  simp only [Cell.cheader.injEq] at e2
  subst e2
  obtain ⟨e3, e4⟩ := hl rfl h1 g1
  replace e4 := e4 (by simp [HCTag.list])
  simp only [HCTag.list, List.cons.injEq, Prod.mk.injEq, true_and] at e3 e4
  obtain ⟨rfl, rfl⟩ := e3
  subst e4
  have h2 := h.tail.tail.left
  have g2 := g.tail.tail.left
  cases raw with
  | none =>
    cases raw' with
    | none => rfl
    | some p => cases e1
  | some p =>
    cases raw' with
    | none => cases e1
    | some q =>
      obtain ⟨p, b⟩ := p
      obtain ⟨q, b'⟩ := q
      simp only [Option.map_some, Option.some.injEq] at e1
      subst e1
      have e5 := Has.agree (h2 : Has c [(p, Cell.bytes b)]) (g2 : Has c [(p, Cell.bytes b')])
      cases e5
      rfl

theorem ctags_unique {c : Nat → Option Cell} : ∀ (Cs Ds : List HCTag), Cs.map (·.addr) = Ds.map (·.addr) →
    (∀ C ∈ Cs, C.Linked) → (∀ D ∈ Ds, D.Linked) →
    Has c (Cs.flatMap HCTag.blocks) → Has c (Ds.flatMap HCTag.blocks) → Cs = Ds
  | [], [], _, _, _, _, _ => rfl
  | [], _ :: _, e, _, _, _, _ => by cases e
  | _ :: _, [], e, _, _, _, _ => by cases e
  | T :: Ts, S :: Ss, e, hl, gl, h, g => by
    simp only [List.map_cons, List.cons.injEq] at e
    rw [List.flatMap_cons] at h g
    rw [ctag_unique e.1 (hl T List.mem_cons_self) (gl S List.mem_cons_self) h.left g.left,
      ctags_unique Ts Ss e.2 (fun C hC => hl C (List.mem_cons_of_mem _ hC)) (fun C hC => gl C (List.mem_cons_of_mem _ hC))
        h.right g.right]

theorem thing_unique {c : Nat → Option Cell} {O P : HThing} (ha : O.addr = P.addr) (hk : O.value.kind = P.value.kind)
    (h : Has c O.blocks) (g : Has c P.blocks) : O = P := by
  cases O with
  | text a d x =>
    cases P with
    | text a' d' y =>
      obtain rfl : a = a' := ha
      have e1 := Has.agree h g
      simp only [Cell.textContent.injEq, Option.some.injEq] at e1
      obtain ⟨e1, e2, rfl⟩ := e1
      have e3 := Has.agree h.tail g.tail
      simp only [Cell.bytes.injEq] at e3
      cases x; cases y
      simp only at e1 e2 e3
      subst e1 e2 e3
      rfl
    | _ => cases hk
  | comment a t l s n e x =>
    cases P with
    | comment a' t' l' s' n' e' x' =>
      obtain rfl : a = a' := ha
      have e1 := Has.agree h g
      simp only [Cell.commentContent.injEq, Option.some.injEq] at e1
      obtain ⟨rfl, rfl, rfl⟩ := e1
      have e3 := Has.agree h.tail g.tail
      simp only [Cell.textContent.injEq] at e3
      obtain ⟨rfl, rfl, rfl⟩ := e3
      rfl
    | _ => cases hk
  | picture a e m t d n q =>
    cases P with
    | picture a' e' m' t' d' n' q' =>
      obtain rfl : a = a' := ha
      have e1 := Has.agree h g
      simp only [Cell.apicContent.injEq] at e1
      obtain ⟨rfl, rfl, rfl, rfl, rfl, rfl⟩ := e1
      rfl
    | _ => cases hk
  | buffer a b =>
    cases P with
    | buffer a' b' =>
      obtain rfl : a = a' := ha
      have e1 := Has.agree h g
      cases e1
      rfl
    | _ => cases hk

theorem things_unique {c : Nat → Option Cell} : ∀ (Os Ps : List HThing),
    Os.map (fun O => (O.addr, O.value.kind)) = Ps.map (fun O => (O.addr, O.value.kind)) →
    Has c (Os.flatMap HThing.blocks) → Has c (Ps.flatMap HThing.blocks) → Os = Ps
  | [], [], _, _, _ => rfl
  | [], _ :: _, e, _, _ => by cases e
  | _ :: _, [], e, _, _ => by cases e
  | O :: Os, P :: Ps, e, h, g => by
    simp only [List.map_cons, List.cons.injEq, Prod.mk.injEq] at e
    rw [List.flatMap_cons] at h g
    rw [thing_unique e.1.1 e.1.2 h.left g.left, things_unique Os Ps e.2 h.right g.right]

theorem cholds_unique {w : CWorld} {s s' : CAbs} (h : w.Holds s) (g : w.Holds s') : s = s' := by
  obtain ⟨Cs, Os, e1, e2, e3, e4, e5, e6, _, h⟩ := h
  obtain ⟨Ds, Ps, d1, d2, d3, d4, d5, d6, _, g⟩ := g
  obtain ⟨a, b, c⟩ := s
  obtain ⟨a', b', c'⟩ := s'
  simp only at e1 e4 e6 d1 d4 d6
  have q1 := ctags_unique Cs Ds (e2.symm.trans d2) e3 d3 (Has.left h) (Has.left g)
  have q2 := things_unique Os Ps (e5.symm.trans d5) (Has.right h) (Has.right g)
  subst q1 q2 e1 d1 e4 d4 e6 d6
  rfl

/-! ## The invariant and what the program holds -/

theorem CInv.holds {w : CWorld} {Cs : List HCTag} {Os : List HThing} {K : List Block} (i : CInv w Cs Os K) :
    w.Holds (cabs w Cs Os) := by
  have p : (Cs.flatMap HCTag.blocks ++ (Os.flatMap HThing.blocks ++ K)).Perm
      ((Cs.flatMap HCTag.blocks ++ Os.flatMap HThing.blocks) ++ K) := by blocks
  have r := i.rep.perm p
  refine ⟨Cs, Os, rfl, i.tags, i.linked, rfl, i.things, rfl, ?_, ?_⟩
  · have := r.nodup
    rw [List.map_append, List.nodup_append] at this
    exact this.1
  · intro b hb
    exact (r.cells _ _).mpr (List.mem_append_left _ hb)

theorem CInv.eq {w : CWorld} {Cs : List HCTag} {Os : List HThing} {K : List Block} (i : CInv w Cs Os K) {s : CAbs}
    (h : w.Holds s) : s = cabs w Cs Os := cholds_unique h i.holds

theorem cinv_start (disk : File) (picks : Nat → Nat := id) : CInv (CWorld.start disk picks) [] [] [] :=
  ⟨⟨fun a c => by simp [CWorld.start], by simp, by simp⟩, fun _ h => (nomatch h), rfl, rfl, .nil⟩

/-- A call that succeeds keeps the invariant. -/
theorem cinv_step [Platform] {w w' : CWorld} {Cs : List HCTag} {Os : List HThing} {K : List Block} {c : CCall}
    (i : CInv w Cs Os K) (ha : c.Allowed w) (hr : c.run w = .ok w') :
    ∃ Cs' Os' N f p, CInv w' Cs' Os' (N ++ K) ∧ c.abs w.heap (cabs w Cs Os) = .ok f ∧ cabs w' Cs' Os' = f p ∧
      Kept c Cs Os Cs' Os' ∧ Loses c Cs Cs' N := by
  have st := cstep_ok i c ha
  rw [hr] at st
  cases he : c.abs w.heap (cabs w Cs Os) with
  | ok f =>
    rw [he] at st
    obtain ⟨w'', Cs', Os', N, p, e, i', e', hk, hl⟩ := st
    cases e
    exact ⟨Cs', Os', N, f, p, i', rfl, e', hk, hl⟩
  | ub k => rw [he] at st; cases st
  | exit => rw [he] at st; cases st
  | diverge => rw [he] at st; cases st

theorem creachable_inv [Platform] {w : CWorld} (h : CReachable w) : ∃ Cs Os K, CInv w Cs Os K := by
  induction h with
  | start disk picks => exact ⟨_, _, _, cinv_start disk picks⟩
  | @step w w' c _ ha hr ih =>
    obtain ⟨Cs, Os, K, i⟩ := ih
    obtain ⟨Cs', Os', N, _, _, i', _⟩ := cinv_step i ha hr
    exact ⟨_, _, _, i'⟩

theorem allKn_of {w : CWorld} {Cs : List HCTag} {Os : List HThing} {K : List Block} (i : CInv w Cs Os K)
    (h : w.AllKnown) : AllKn Cs := fun C hC f hf => h _ i.holds (C.addr, C.value) (List.mem_map.mpr ⟨C, hC, rfl⟩) f hf

theorem streams_zero (l : FrameList) (h : ∀ f, some f ∈ l → Known f) : listStreams l = 0 := by
  have := raw_zero h
  rw [streams_count]
  omega

theorem leaks_nil {T : HTag} (hk : ∀ f, some f ∈ T.value.frames → Known f) : leaks T.list = [] :=
  List.eq_nil_of_length_eq_zero ((leaks_length T.list).trans (left_zero hk))

theorem streams_nil {n : Nat} {N : List Block} (h : Streams n N) (hn : n = 0) : N = [] := by
  subst hn
  cases h
  rfl

/-- A call loses nothing when all frames are known, before and after it. -/
theorem loses_nil {c : CCall} {Cs Cs' : List HCTag} {N : List Block} (h : Loses c Cs Cs' N) (k : AllKn Cs)
    (k' : AllKn Cs') : N = [] := by
  cases c with
  | loadTag =>
    obtain ⟨C, rfl, hs⟩ := h
    exact streams_nil hs (streams_zero _ (k' C List.mem_cons_self))
  | loadTagWithBuffer b n =>
    obtain ⟨C, rfl, hs⟩ := h
    exact streams_nil hs (streams_zero _ (k' C List.mem_cons_self))
  | setTag t =>
    obtain ⟨C, hC, _, n, hs, hn, _⟩ := h
    rw [streams_zero _ (k C hC)] at hn
    exact streams_nil hs (by omega)
  | freeTag t =>
    obtain ⟨C, hC, _, rfl⟩ := h
    exact leaks_nil (k C hC)
  | _ => exact h

theorem creachable_tidy [Platform] {w : CWorld} (h : CReachableTidy w) : ∃ Cs Os, CInv w Cs Os [] ∧ AllKn Cs := by
  induction h with
  | start disk picks => exact ⟨_, _, cinv_start disk picks, fun _ h => (nomatch h)⟩
  | @step w w' c _ ha hr hk ih =>
    obtain ⟨Cs, Os, i, k⟩ := ih
    obtain ⟨Cs', Os', N, _, _, i', _, _, _, hl⟩ := cinv_step i ha hr
    have k' := allKn_of i' hk
    obtain rfl := loses_nil hl k k'
    exact ⟨_, _, i', k'⟩

theorem ctidy_reachable [Platform] {w : CWorld} (h : CReachableTidy w) : CReachable w := by
  induction h with
  | start disk picks => exact .start disk picks
  | step _ ha hr _ ih => exact .step ih ha hr

/-- A call does to a program what the specification says. -/
theorem ccall_refines [Platform] {w : CWorld} {s : CAbs} {c : CCall} (h : CReachable w) (hs : w.Holds s)
    (ha : c.Allowed w) :
    match c.abs w.heap s with
    | .ok f => ∃ w' p, c.run w = .ok w' ∧ w'.Holds (f p)
    | .ub k => c.run w = .ub k
    | .exit => c.run w = .exit
    | .diverge => c.run w = .diverge := by
  obtain ⟨Cs, Os, K, i⟩ := creachable_inv h
  obtain rfl := i.eq hs
  have st := cstep_ok i c ha
  unfold CStepOk at st
  split at st
  next f he =>
    obtain ⟨w', Cs', Os', N, p, e, i', e', _⟩ := st
    rw [he]
    exact ⟨w', p, e, e' ▸ i'.holds⟩
  next he => rw [he]; exact st
  next he => rw [he]; exact st
  next he => rw [he]; exact st

/-! ## Values know no dangling pointers -/

theorem nomem_cupdate {s : CAbs} {t : Nat} {f : CTag → Res CTag} (ht : t ∈ s.tags.map (·.1)) (hf : ∀ v, NoMem (f v)) :
    NoMem (s.update t f) := by
  obtain ⟨v, hv⟩ := mem_lookup _ ht
  unfold CAbs.update
  rw [hv]
  exact nomem_bind (hf v) fun _ => nomem_ok _

theorem nomem_cquery {α : Type} {s : CAbs} {t : Nat} {f : CTag → Res α} (ht : t ∈ s.tags.map (·.1))
    (hf : ∀ v, NoMem (f v)) : NoMem (s.query t f) := by
  obtain ⟨v, hv⟩ := mem_lookup _ ht
  unfold CAbs.query
  rw [hv]
  exact nomem_bind (hf v) fun _ => nomem_ok _

theorem nomem_field_set [Platform] (f : Field) (b : Bytes) (e : UInt8) (v : CTag) : NoMem (f.set b e v) := by
  cases f <;> exact (nomem_set_text _ _).bind fun _ => (nomem_tag_get _ _).bind fun _ => nomem_update_ctag _ _ _

theorem nomem_cabs [Platform] {w : CWorld} {Cs : List HCTag} {Os : List HThing} {K : List Block} (i : CInv w Cs Os K)
    {c : CCall} (ha : c.Allowed w) : NoMem (c.abs w.heap (cabs w Cs Os)) := by
  have ht : ∀ t, t ∈ w.tags → t ∈ (cabs w Cs Os).tags.map (·.1) := by
    intro t ht
    rw [i.tags] at ht
    show t ∈ (Cs.map _).map _
    rw [List.map_map]
    exact ht
  cases c with
  | newTag => exact nomem_ok _
  | loadTag => exact nomem_bind (nomem_load_tag _) fun _ => nomem_ok _
  | loadTagWithBuffer b n => exact nomem_bind (nomem_load_buffer _ _) fun _ => nomem_ok _
  | setText f s e t => exact nomem_cupdate (ht t ha.1) fun v => nomem_field_set _ _ _ _
  | setComment s e t => exact nomem_cupdate (ht t ha.1) fun v => nomem_set_comment_ctag _ _ _
  | setCoverFromBytes s m n t => exact nomem_cupdate (ht t ha.1) fun v => nomem_set_cover_ctag _ _ _ _
  | setCover n f t => exact nomem_cupdate (ht t ha) fun v => nomem_set_cover_file _ _ _
  | getText f t => exact nomem_cquery (ht t ha) fun v => by cases f <;> exact nomem_get_entry _ _
  | getComment t => exact nomem_cquery (ht t ha) fun v => nomem_get_entry _ _
  | getCover t => exact nomem_cquery (ht t ha) fun v => nomem_get_entry _ _
  | parseText p =>
    obtain ⟨C, hC, n, e, he, rfl⟩ := i.entry ha
    show NoMem (fetchEntry e.addr w.heap >>= _)
    rw [i.fetch hC he]
    rw [Res.bind_ok]
    exact nomem_bind (nomem_parse_text _) fun _ => nomem_ok _
  | parseComment p =>
    obtain ⟨C, hC, n, e, he, rfl⟩ := i.entry ha
    show NoMem (fetchEntry e.addr w.heap >>= _)
    rw [i.fetch hC he]
    rw [Res.bind_ok]
    exact nomem_bind (nomem_parse_comment _) fun _ => nomem_ok _
  | parsePicture p =>
    obtain ⟨C, hC, n, e, he, rfl⟩ := i.entry ha
    show NoMem (fetchEntry e.addr w.heap >>= _)
    rw [i.fetch hC he]
    rw [Res.bind_ok]
    exact nomem_bind (nomem_parse_picture _) fun _ => nomem_ok _
  | setTag t =>
    obtain ⟨v, hv⟩ := mem_lookup _ (ht t ha)
    simp only [CCall.abs, hv]
    exact nomem_bind (nomem_set_ctag _ _) fun _ => nomem_ok _
  | removeTag => exact nomem_bind (nomem_delete_tag _) fun _ => nomem_ok _
  | freeTag t =>
    obtain ⟨v, hv⟩ := mem_lookup _ (ht t ha)
    simp only [CCall.abs, hv]
    exact nomem_bind (nomem_free_ctag _) fun _ => nomem_ok _
  | release _ _ => exact nomem_ok _
  | alloc _ => exact nomem_ok _
  | overwrite _ _ => exact nomem_ok _
  | changeDisk _ => exact nomem_ok _

end Id3.H
