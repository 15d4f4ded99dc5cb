import Verif.Heap.Session
import Verif.Proof.NoMem

/-!
# What a program holds

The values of the tags of a program are determined by its heap, and every call changes them as the value-level model says.
-/

namespace Id3.H

open Id3.Spec

/-! ## The heap determines the tags -/

/-- The heap holds the blocks. -/
def Has (c : Nat → Option Cell) (L : List Block) : Prop := ∀ b ∈ L, c b.1 = some b.2

theorem Has.left {c : Nat → Option Cell} {L M : List Block} (h : Has c (L ++ M)) : Has c L :=
  fun b hb => h b (List.mem_append_left _ hb)

theorem Has.right {c : Nat → Option Cell} {L M : List Block} (h : Has c (L ++ M)) : Has c M :=
  fun b hb => h b (List.mem_append_right _ hb)

theorem Has.head {c : Nat → Option Cell} {a : Nat} {x : Cell} {M : List Block} (h : Has c ((a, x) :: M)) : c a = some x :=
  h _ List.mem_cons_self

theorem Has.tail {c : Nat → Option Cell} {b : Block} {M : List Block} (h : Has c (b :: M)) : Has c M :=
  fun x hx => h x (List.mem_cons_of_mem _ hx)

theorem Has.agree {c : Nat → Option Cell} {a : Nat} {x y : Cell} {M N : List Block} (h : Has c ((a, x) :: M))
    (g : Has c ((a, y) :: N)) : x = y := by
  have := h.head.symm.trans g.head
  cases this
  rfl

theorem payload_unique {c : Nat → Option Cell} {p q : HPayload} {a : Nat} (h : Has c ((a, p.cell) :: p.buffers))
    (g : Has c ((a, q.cell) :: q.buffers)) : p = q := by
  have e := h.agree g
  have h' := h.tail
  have g' := g.tail
  cases p with
  | text d t =>
    cases q with
    | text d' t' =>
      simp only [HPayload.cell, Cell.textData.injEq, Option.some.injEq] at e
      obtain ⟨e1, e2, rfl⟩ := e
      have e3 := Has.agree h' g'
      simp only [Cell.bytes.injEq] at e3
      cases d; cases d'
      simp only at e1 e2 e3
      subst e1 e2 e3
      rfl
    | _ => cases e
  | comment d s t =>
    cases q with
    | comment d' s' t' =>
      simp only [HPayload.cell, Cell.commentData.injEq, Option.some.injEq] at e
      obtain ⟨e1, e2, e3, rfl, rfl⟩ := e
      have e4 := Has.agree h' g'
      have e5 := Has.agree h'.tail g'.tail
      simp only [Cell.bytes.injEq] at e4 e5
      cases d; cases d'
      simp only at e1 e2 e3 e4 e5
      subst e1 e2 e3 e4 e5
      rfl
    | _ => cases e
  | apic d m t p =>
    cases q with
    | apic d' m' t' p' =>
      simp only [HPayload.cell, Cell.apicData.injEq, Option.some.injEq] at e
      obtain ⟨e1, rfl, e2, rfl, rfl, e3⟩ := e
      have e4 := Has.agree h' g'
      have e5 := Has.agree h'.tail g'.tail
      have e6 := Has.agree h'.tail.tail g'.tail.tail
      simp only [Cell.bytes.injEq] at e4 e5 e6
      cases d; cases d'
      simp only at e1 e2 e3 e4 e5 e6
      subst e1 e2 e3 e4 e5 e6
      rfl
    | _ => cases e
  | raw b =>
    cases q with
    | raw b' => cases e; rfl
    | _ => cases e

theorem frame_unique {c : Nat → Option Cell} {F G : HFrame} (ha : F.addr = G.addr) (h : Has c F.blocks)
    (g : Has c G.blocks) : F = G := by
  unfold HFrame.blocks at h g
  obtain ⟨fa, fh, fd, fx, fp⟩ := F
  obtain ⟨ga, gh, gd, gx, gp⟩ := G
  simp only at ha h g
  subst ha
  have e1 := h.agree g
  simp only [Cell.frame.injEq, Option.some.injEq] at e1
  obtain ⟨rfl, rfl⟩ := e1
  have e2 := h.tail.agree g.tail
  simp only [Cell.frameHeader.injEq] at e2
  subst e2
  have e3 := payload_unique h.tail.tail g.tail.tail
  subst e3
  rfl

theorem list_unique {c : Nat → Option Cell} {k k' : Nat} : ∀ (l l' : List (Nat × Option HFrame)),
    first (spine l) = first (spine l') → Has c (listNodes k (spine l) ++ frameBlocks l) →
    Has c (listNodes k' (spine l') ++ frameBlocks l') → l = l'
  | [], [], _, _, _ => rfl
  | [], _ :: _, e, _, _ => by cases e
  | _ :: _, [], e, _, _ => by cases e
  | (a, f) :: l, (a', f') :: l', e, h, g => by
    obtain rfl : a = a' := by
      have : some a = some a' := e
      cases this
      rfl
    have h1 := h.left
    have g1 := g.left
    rw [spine_cons, listNodes_cons] at h1 g1
    have e1 := h1.agree g1
    simp only [Cell.node.injEq] at e1
    obtain ⟨e2, e3, _⟩ := e1
    have h2 := h.right
    have g2 := g.right
    rw [frameBlocks_cons] at h2 g2
    have e4 : l = l' := list_unique l l' e3
      (fun b hb => (List.mem_append.mp hb).elim (fun hb => h1.tail b hb) (fun hb => h2.right b hb))
      (fun b hb => (List.mem_append.mp hb).elim (fun hb => g1.tail b hb) (fun hb => g2.right b hb))
    subst e4
    cases f with
    | none =>
      cases f' with
      | none => rfl
      | some F' => cases e2
    | some F =>
      cases f' with
      | none => cases e2
      | some F' =>
        have e5 : F.addr = F'.addr := Option.some.inj e2
        have e6 := frame_unique e5 h2.left g2.left
        subst e6
        rfl

theorem tag_unique {c : Nat → Option Cell} {T S : HTag} (ha : T.addr = S.addr) (h : Has c T.blocks)
    (g : Has c S.blocks) : T = S := by
  unfold HTag.blocks HTag.list at h g
  obtain ⟨ta, th, tx, tp, tk, tf, tr⟩ := T
  obtain ⟨sa, sh, sx, sp, sk, sf, sr⟩ := S
  simp only at ha h g
  subst ha
  have e1 := h.agree g
  simp only [Cell.tag.injEq, Option.some.injEq] at e1
  obtain ⟨rfl, rfl, rfl⟩ := e1
  have e2 := h.tail.agree g.tail
  simp only [Cell.tagHeader.injEq] at e2
  subst e2
  have e3 := list_unique ((tk, tf) :: tr) ((tk, sf) :: sr) rfl h.tail.tail g.tail.tail
  simp only [List.cons.injEq, Prod.mk.injEq, true_and] at e3
  obtain ⟨rfl, rfl⟩ := e3
  rfl

theorem tags_unique {c : Nat → Option Cell} : ∀ (Ts Ss : List HTag), Ts.map (·.addr) = Ss.map (·.addr) →
    Has c (Ts.flatMap HTag.blocks) → Has c (Ss.flatMap HTag.blocks) → Ts = Ss
  | [], [], _, _, _ => rfl
  | [], _ :: _, e, _, _ => by cases e
  | _ :: _, [], e, _, _ => by cases e
  | T :: Ts, S :: Ss, e, h, g => by
    simp only [List.map_cons, List.cons.injEq] at e
    rw [List.flatMap_cons] at h g
    rw [tag_unique e.1 h.left g.left, tags_unique Ts Ss e.2 h.right g.right]

theorem buffers_unique {c : Nat → Option Cell} : ∀ (l m : List (Nat × Bytes)), l.map (·.1) = m.map (·.1) →
    Has c (l.map fun p => (p.1, Cell.bytes p.2)) → Has c (m.map fun p => (p.1, Cell.bytes p.2)) → l = m
  | [], [], _, _, _ => rfl
  | [], _ :: _, e, _, _ => by cases e
  | _ :: _, [], e, _, _ => by cases e
  | (a, x) :: l, (b, y) :: m, e, h, g => by
    simp only [List.map_cons, List.cons.injEq] at e
    obtain ⟨rfl, e⟩ := e
    have e1 := h.agree g
    cases e1
    rw [buffers_unique l m e h.tail g.tail]

theorem holds_unique {w : World} {s s' : Abs} (h : w.Holds s) (g : w.Holds s') : s = s' := by
  obtain ⟨Ts, e1, e2, e3, e4, _, h⟩ := h
  obtain ⟨Ss, d1, d2, d3, d4, _, g⟩ := g
  obtain ⟨a, b, c⟩ := s
  obtain ⟨a', b', c'⟩ := s'
  simp only at e1 e3 e4 d1 d3 d4 h g
  have q1 := tags_unique Ts Ss (e2.symm.trans d2) (Has.left h) (Has.left g)
  subst q1
  have q2 := buffers_unique _ _ (e3.symm.trans d3) (Has.right h) (Has.right g)
  subst q2 e4 d4 e1 d1
  rfl

/-! ## The invariant and what the program holds -/

theorem Inv.holds {w : World} {Ts : List HTag} {Ls : List HList} {Hs : List (Nat × TagHeader)} {Us : List (Nat × Bytes)}
    {K : List Block} (i : Inv w Ts Ls Hs Us K) : w.Holds (absOf w Ts Us) := by
  have p : (Ts.flatMap HTag.blocks ++ rest Ls Hs Us K).Perm ((Ts.flatMap HTag.blocks ++
      Us.map (fun p => (p.1, Cell.bytes p.2))) ++ (Ls.flatMap HList.blocks ++
      (Hs.map (fun p => (p.1, Cell.tagHeader p.2)) ++ K))) := by
    unfold rest
    blocks
  have r := i.rep.perm p
  refine ⟨Ts, rfl, i.tags, i.buffers, rfl, ?_, ?_⟩
  · have := r.nodup
    rw [List.map_append, List.nodup_append] at this
    exact this.1
  · intro b hb
    exact (r.cells _ _).mpr (List.mem_append_left _ hb)

theorem Inv.eq {w : World} {Ts : List HTag} {Ls : List HList} {Hs : List (Nat × TagHeader)} {Us : List (Nat × Bytes)}
    {K : List Block} (i : Inv w Ts Ls Hs Us K) {s : Abs} (h : w.Holds s) : s = absOf w Ts Us := holds_unique h i.holds

theorem inv_start (disk : File) (picks : Nat → Nat := id) : Inv (World.start disk picks) [] [] [] [] [] :=
  ⟨⟨fun a c => by simp [World.start, rest], by simp [rest], by simp [rest]⟩, rfl, rfl, rfl, rfl⟩

theorem reachable_inv [Platform] {w : World} (h : Reachable w) : ∃ Ts Ls Hs Us K, Inv w Ts Ls Hs Us K := by
  induction h with
  | start disk picks => exact ⟨_, _, _, _, _, inv_start disk picks⟩
  | @step w w' c _ ha hr ih =>
    obtain ⟨Ts, Ls, Hs, Us, K, i⟩ := ih
    have st := step_ok i c ha
    rw [hr] at st
    cases he : c.abs w.heap (absOf w Ts Us) with
    | ok f =>
      rw [he] at st
      obtain ⟨w'', Ts', Ls', Hs', Us', N, p, e, i', _⟩ := st
      cases e
      exact ⟨_, _, _, _, _, i'⟩
    | ub k => rw [he] at st; cases st
    | exit => rw [he] at st; cases st
    | diverge => rw [he] at st; cases st

theorem reachable_tidy [Platform] {w : World} (h : ReachableTidy w) : ∃ Ts Ls Hs Us, Inv w Ts Ls Hs Us [] := by
  induction h with
  | start disk picks => exact ⟨_, _, _, _, inv_start disk picks⟩
  | @step w w' c _ hk h0 ha hr ih =>
    obtain ⟨Ts, Ls, Hs, Us, i⟩ := ih
    have st := step_ok i c ha
    rw [hr] at st
    cases he : c.abs w.heap (absOf w Ts Us) with
    | ok f =>
      rw [he] at st
      obtain ⟨w'', Ts', Ls', Hs', Us', N, p, e, i', _, hN⟩ := st
      cases e
      rw [tidy_leak ⟨hk _ i.holds, h0⟩] at hN
      obtain rfl := List.eq_nil_of_length_eq_zero hN.1
      exact ⟨_, _, _, _, i'⟩
    | ub k => rw [he] at st; cases st
    | exit => rw [he] at st; cases st
    | diverge => rw [he] at st; cases st

theorem tidy_reachable [Platform] {w : World} (h : ReachableTidy w) : Reachable w := by
  induction h with
  | start disk picks => exact .start disk picks
  | step _ _ _ ha hr ih => exact .step ih ha hr

/-- A call does to a program what the specification says. -/
theorem call_refines [Platform] {w : World} {s : Abs} {c : Call} (h : Reachable w) (hs : w.Holds s) (ha : c.Allowed w) :
    match c.abs w.heap s with
    | .ok f => ∃ w' p, c.run w = .ok w' ∧ w'.Holds (f p)
    | .ub k => c.run w = .ub k
    | .exit => c.run w = .exit
    | .diverge => c.run w = .diverge := by
  obtain ⟨Ts, Ls, Hs, Us, K, i⟩ := reachable_inv h
  obtain rfl := i.eq hs
  have st := step_ok i c ha
  unfold StepOk at st
  split at st
  next f he =>
    obtain ⟨w', Ts', Ls', Hs', Us', N, p, e, i', e', _⟩ := st
    rw [he]
    exact ⟨w', p, e, e' ▸ i'.holds⟩
  next he => rw [he]; exact st
  next he => rw [he]; exact st
  next he => rw [he]; exact st

/-! ## Values know no dangling pointers -/

theorem nomem_freeFrames : ∀ l, NoMem (freeFrames l)
  | [] => by unfold freeFrames; nomem
  | none :: l => nomem_freeFrames l
  | some f :: l => by
    have := nomem_freeFrames l
    have := nomem_frame_free f
    unfold freeFrames
    nomem

theorem mem_lookup {α : Type} {a : Nat} : ∀ l : List (Nat × α), a ∈ l.map (·.1) → ∃ x, l.lookup a = some x
  | [], h => by cases h
  | (b, y) :: l, h => by
    by_cases e : a = b
    · subst e
      exact ⟨y, by simp⟩
    · have h1 : (a == b) = false := by simpa using e
      rw [List.lookup, h1]
      exact mem_lookup l (by
        rcases List.mem_cons.mp h with h | h
        · exact absurd h e
        · exact h)

theorem nomem_bind {α β : Type} {x : Res α} {f : α → Res β} (h : NoMem x) (g : ∀ a, NoMem (f a)) : NoMem (x >>= f) := by
  cases x with
  | ok a => exact g a
  | ub k => exact ⟨fun e => h.1 (by cases e; rfl), fun e => h.2 (by cases e; rfl)⟩
  | exit => exact ⟨fun e => (nomatch e), fun e => (nomatch e)⟩
  | diverge => exact ⟨fun e => (nomatch e), fun e => (nomatch e)⟩

theorem nomem_ok {α : Type} (a : α) : NoMem (Res.ok a) := ⟨fun e => (nomatch e), fun e => (nomatch e)⟩

theorem nomem_update {s : Abs} {t : Nat} {f : Tag → Res Tag} (ht : t ∈ s.tags.map (·.1)) (hf : ∀ v, NoMem (f v)) :
    NoMem (s.update t f) := by
  obtain ⟨v, hv⟩ := mem_lookup _ ht
  unfold Abs.update
  rw [hv]
  exact nomem_bind (hf v) fun _ => nomem_ok _

theorem nomem_query {α : Type} {s : Abs} {t : Nat} {f : Tag → Res α} (ht : t ∈ s.tags.map (·.1)) (hf : ∀ v, NoMem (f v)) :
    NoMem (s.query t f) := by
  obtain ⟨v, hv⟩ := mem_lookup _ ht
  unfold Abs.query
  rw [hv]
  exact nomem_bind (hf v) fun _ => nomem_ok _

theorem nomem_abs [Platform] {w : World} {s : Abs} {c : Call} (hs : w.Holds s) (ha : c.Allowed w) :
    NoMem (c.abs w.heap s) := by
  have ht : ∀ t, t ∈ w.tags → t ∈ s.tags.map (·.1) := by
    obtain ⟨Ts, e1, e2, _⟩ := hs
    intro t ht
    rw [e2] at ht
    rw [← e1, List.map_map]
    exact ht
  cases c with
  | newTag => exact nomem_ok _
  | readTagFromBuffer b n => exact nomem_bind (nomem_read_buffer _ _) fun _ => nomem_ok _
  | readTag => exact nomem_bind (nomem_read_tag _) fun _ => nomem_ok _
  | setTextFrame t i => exact nomem_update (ht t ha.1) fun v => nomem_set_text _ _
  | setCommentFrame t i => exact nomem_update (ht t ha.1) fun v => nomem_set_comment _ _
  | addCommentFrame t i => exact nomem_update (ht t ha.1) fun v => nomem_add_comment _ _
  | setApicFrame t i => exact nomem_update (ht t ha.1) fun v => nomem_set_apic _ _
  | addApicFrame t i => exact nomem_update (ht t ha.1) fun v => nomem_add_apic _ _
  | deleteFrame t b => exact nomem_update (ht t ha.1) fun v => nomem_delete _ _
  | deleteFrameAt t id n => exact nomem_update (ht t ha) fun v => nomem_delete_at _ _ _
  | getFrame t b => exact nomem_query (ht t ha.1) fun v => nomem_tag_get _ _
  | getFrames t b => exact nomem_query (ht t ha.1) fun v => nomem_tag_gets _ _
  | writeTag t =>
    obtain ⟨v, hv⟩ := mem_lookup _ (ht t ha)
    simp only [Call.abs, hv]
    exact nomem_bind (nomem_write_tag _ _) fun _ => nomem_ok _
  | freeTag t =>
    obtain ⟨v, hv⟩ := mem_lookup _ (ht t ha)
    simp only [Call.abs, hv]
    exact nomem_bind (nomem_freeFrames _) fun _ => nomem_ok _
  | readHeaderFromBuffer b => exact nomem_bind (nomem_read_header_buffer _) fun _ => nomem_ok _
  | readHeader => exact nomem_bind (nomem_read_header _) fun _ => nomem_ok _
  | deleteTag => exact nomem_bind (nomem_delete_tag _) fun _ => nomem_ok _
  | unlinkList _ => exact nomem_ok _
  | freeHeader _ => exact nomem_ok _
  | alloc _ => exact nomem_ok _
  | overwrite _ _ => exact nomem_ok _
  | dispose _ => exact nomem_ok _
  | changeDisk _ => exact nomem_ok _

end Id3.H
