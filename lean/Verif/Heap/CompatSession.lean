import Verif.Heap.CompatContent

/-!
# Every call of a program that uses the compatibility API does what the value-level model says

The invariant of such a program: the heap holds exactly the blocks of its compat tags, of the other things it holds, and
blocks that were lost.
-/

namespace Id3.H

open Id3 Spec

/-- The invariant. -/
structure CInv (w : CWorld) (Cs : List HCTag) (Os : List HThing) (K : List Block) : Prop where
  rep : Rep w.heap (Cs.flatMap HCTag.blocks ++ (Os.flatMap HThing.blocks ++ K))
  linked : ∀ C ∈ Cs, C.Linked
  tags : w.tags = Cs.map (·.addr)
  things : w.things = Os.map fun O => (O.addr, O.value.kind)
  quiet : Quiet K

/-- The program as the specification sees it. -/
def cabs (w : CWorld) (Cs : List HCTag) (Os : List HThing) : CAbs :=
  { tags := Cs.map fun C => (C.addr, C.value), things := Os.map fun O => (O.addr, O.value), disk := w.disk }

/-- What a call does not touch. -/
structure Kept (c : CCall) (Cs : List HCTag) (Os : List HThing) (Cs' : List HCTag) (Os' : List HThing) : Prop where
  entries : ∀ C ∈ Cs, ∀ n e, (n, some e) ∈ C.list → c ≠ .freeTag C.addr →
    (∀ k, c.sets = some (C.addr, k) → e.frame_id ≠ ofB k) → ∃ C' ∈ Cs', C'.addr = C.addr ∧ (n, some e) ∈ C'.list
  things : ∀ O ∈ Os, c.Leaves O.addr → O ∈ Os'

/-- All frames of the tags are known. -/
def AllKn (Cs : List HCTag) : Prop := ∀ C ∈ Cs, ∀ f, some f ∈ C.value.tag.frames → Known f

/-- What a call loses: two blocks for each unknown frame that it writes or converts, and the unknown frames of the tag
that it frees. -/
def Loses (c : CCall) (Cs Cs' : List HCTag) (N : List Block) : Prop :=
  match c with
  | .loadTag | .loadTagWithBuffer _ _ => ∃ C, Cs' = C :: Cs ∧ Streams (listStreams C.value.tag.frames) N
  | .setTag t => ∃ C ∈ Cs, C.addr = t ∧ ∃ n, Streams n N ∧ n ≤ listStreams C.value.tag.frames ∧
      (C.tag.frame ≠ none → n = listStreams C.value.tag.frames) ∧ (C.tag.frame = none → n = 0)
  | .freeTag t => ∃ C ∈ Cs, C.addr = t ∧ N = leaks C.tag.list
  | _ => N = []

/-- One step of the program does what the specification says. -/
def CStepOk (c : CCall) (Cs : List HCTag) (Os : List HThing) (r : Res CWorld) (e : Res (Nat → CAbs)) (K : List Block) :
    Prop :=
  match e with
  | .ok f => ∃ w' Cs' Os' N p, r = .ok w' ∧ CInv w' Cs' Os' (N ++ K) ∧ cabs w' Cs' Os' = f p ∧ Kept c Cs Os Cs' Os' ∧
      Loses c Cs Cs' N
  | .ub k => r = .ub k
  | .exit => r = .exit
  | .diverge => r = .diverge

theorem CStepOk.mk {α β : Type} {c : CCall} {Cs : List HCTag} {Os : List HThing} {w : CWorld} {x : HeapM α} {v : Res β}
    {r : Res CWorld} {e : Res (Nat → CAbs)} {Q : β → α → Heap → Prop} {K : List Block} (k : α → Heap → CWorld)
    (g : β → Nat → CAbs) (hx : Refines (x w.heap) v Q) (hr : r = w.exec x k) (he : e = (v >>= fun b => .ok (g b)))
    (hk : ∀ b a h', v = .ok b → Q b a h' → ∃ Cs' Os' N p, CInv (k a h') Cs' Os' (N ++ K) ∧
      cabs (k a h') Cs' Os' = g b p ∧ Kept c Cs Os Cs' Os' ∧ Loses c Cs Cs' N) : CStepOk c Cs Os r e K := by
  subst hr he
  unfold CWorld.exec
  cases v with
  | ok b =>
    obtain ⟨a, h', e, q⟩ := hx
    obtain ⟨Cs', Os', N, p, i, e', t⟩ := hk b a h' rfl q
    rw [e]
    exact ⟨_, Cs', Os', N, p, rfl, i, e', t⟩
  | ub k => rw [show x w.heap = .ub k from hx]; rfl
  | exit => rw [show x w.heap = .exit from hx]; rfl
  | diverge => rw [show x w.heap = .diverge from hx]; rfl

/-! ## Permutations of the blocks -/

theorem ctags_out (A B : List HCTag) (C : HCTag) (R : List Block) :
    ((A ++ C :: B).flatMap HCTag.blocks ++ R).Perm (C.blocks ++ ((A ++ B).flatMap HCTag.blocks ++ R)) := by
  simp only [List.flatMap_append, List.flatMap_cons]
  blocks

theorem things_out (A B : List HThing) (O : HThing) (L K : List Block) :
    (L ++ ((A ++ O :: B).flatMap HThing.blocks ++ K)).Perm (O.blocks ++ (L ++ ((A ++ B).flatMap HThing.blocks ++ K))) := by
  simp only [List.flatMap_append, List.flatMap_cons]
  blocks

theorem clost (L M N K : List Block) : (N ++ (L ++ (M ++ K))).Perm (L ++ (M ++ (N ++ K))) := by blocks

/-! ## Lookup -/

theorem caddr_mem (C : HCTag) : C.addr ∈ C.blocks.map (·.1) := List.mem_map.mpr ⟨_, mem_ctag C, rfl⟩

theorem thing_addr_mem (O : HThing) : O.addr ∈ O.blocks.map (·.1) := by
  cases O <;> exact List.mem_cons_self

theorem not_caddr {A : List HCTag} {C : HCTag} {R : List Block}
    (hn : ((C.blocks ++ (A.flatMap HCTag.blocks ++ R)).map (·.1)).Nodup) : ∀ C' ∈ A, C'.addr ≠ C.addr := by
  intro C' hC' e
  rw [List.map_append, List.nodup_append] at hn
  refine hn.2.2 C.addr (caddr_mem C) C.addr ?_ rfl
  rw [List.map_append, List.mem_append]
  left
  rw [← e]
  obtain ⟨b, hb, e'⟩ := List.mem_map.mp (caddr_mem C')
  exact List.mem_map.mpr ⟨b, List.mem_flatMap.mpr ⟨C', hC', hb⟩, e'⟩

theorem not_thing {A : List HThing} {O : HThing} {L K : List Block}
    (hn : ((O.blocks ++ (L ++ (A.flatMap HThing.blocks ++ K))).map (·.1)).Nodup) : ∀ O' ∈ A, O'.addr ≠ O.addr := by
  intro O' hO' e
  rw [List.map_append, List.nodup_append] at hn
  refine hn.2.2 O.addr (thing_addr_mem O) O.addr ?_ rfl
  rw [← e]
  obtain ⟨b, hb, e'⟩ := List.mem_map.mp (thing_addr_mem O')
  exact List.mem_map.mpr ⟨b, List.mem_append_right _ (List.mem_append_left _ (List.mem_flatMap.mpr ⟨O', hO', hb⟩)), e'⟩

section

variable {w : CWorld} {Cs : List HCTag} {Os : List HThing} {K : List Block}

/-- A tag that the program holds. -/
theorem CInv.tag (i : CInv w Cs Os K) {t : Nat} (ht : t ∈ w.tags) :
    ∃ A C B, Cs = A ++ C :: B ∧ C.addr = t ∧ C.Linked ∧ (∀ C' ∈ A, C'.addr ≠ t) ∧ (∀ C' ∈ B, C'.addr ≠ t) ∧
      Rep w.heap (C.blocks ++ ((A ++ B).flatMap HCTag.blocks ++ (Os.flatMap HThing.blocks ++ K))) := by
  rw [i.tags] at ht
  obtain ⟨C, hC, rfl⟩ := List.mem_map.mp ht
  have hl := i.linked C hC
  obtain ⟨A, B, rfl⟩ := List.append_of_mem hC
  have r := i.rep.perm (ctags_out A B C _)
  have hn := not_caddr r.nodup
  exact ⟨A, C, B, rfl, rfl, hl, fun T' h => hn T' (List.mem_append_left _ h),
    fun T' h => hn T' (List.mem_append_right _ h), r⟩

/-- Something else that the program holds. -/
theorem CInv.thing (i : CInv w Cs Os K) {a : Nat} {k : Kind} (ht : (a, k) ∈ w.things) :
    ∃ A O B, Os = A ++ O :: B ∧ O.addr = a ∧ O.value.kind = k ∧ (∀ O' ∈ A, O'.addr ≠ a) ∧ (∀ O' ∈ B, O'.addr ≠ a) ∧
      Rep w.heap (O.blocks ++ (Cs.flatMap HCTag.blocks ++ ((A ++ B).flatMap HThing.blocks ++ K))) := by
  rw [i.things] at ht
  obtain ⟨O, hO, e⟩ := List.mem_map.mp ht
  cases e
  obtain ⟨A, B, rfl⟩ := List.append_of_mem hO
  have r := i.rep.perm (things_out A B O _ K)
  have hn := not_thing r.nodup
  exact ⟨A, O, B, rfl, rfl, rfl, fun T' h => hn T' (List.mem_append_left _ h),
    fun T' h => hn T' (List.mem_append_right _ h), r⟩

theorem cmap_ne {A : List HCTag} {t : Nat} (h : ∀ C' ∈ A, C'.addr ≠ t) :
    ∀ p ∈ A.map (fun C => (C.addr, C.value)), p.1 ≠ t := by
  intro p hp
  obtain ⟨T, hT, rfl⟩ := List.mem_map.mp hp
  exact h T hT

theorem tmap_ne {A : List HThing} {t : Nat} (h : ∀ O' ∈ A, O'.addr ≠ t) :
    ∀ p ∈ A.map (fun O => (O.addr, O.value)), p.1 ≠ t := by
  intro p hp
  obtain ⟨T, hT, rfl⟩ := List.mem_map.mp hp
  exact h T hT

theorem cabs_lookup {A B : List HCTag} {C : HCTag} (h : ∀ C' ∈ A, C'.addr ≠ C.addr) :
    ((A ++ C :: B).map fun C => (C.addr, C.value)).lookup C.addr = some C.value := by
  rw [List.map_append, List.map_cons]
  exact lookup_mid _ _ _ _ (cmap_ne h)

/-- An entry that was not freed belongs to one of the tags. -/
theorem CInv.entry (i : CInv w Cs Os K) {p : Nat} (h : EntryLive w.heap p) :
    ∃ C ∈ Cs, ∃ n e, (n, some e) ∈ C.list ∧ e.addr = p := by
  obtain ⟨a, b, c, d, g, h⟩ := h
  have hm := (i.rep.cells _ _).mp h
  rcases List.mem_append.mp hm with hm | hm
  · obtain ⟨C, hC, hm⟩ := List.mem_flatMap.mp hm
    exact ⟨C, hC, entry_of_blocks hm trivial⟩
  rcases List.mem_append.mp hm with hm | hm
  · obtain ⟨O, hO, hm⟩ := List.mem_flatMap.mp hm
    exact (quiet_thing O _ hm trivial).elim
  · exact (i.quiet _ hm trivial).elim

/-- The blocks of an entry of one of the tags, and of its frame. -/
theorem CInv.entry_blocks (i : CInv w Cs Os K) {C : HCTag} (hC : C ∈ Cs) {n : Nat} {e : HCFrame}
    (h : (n, some e) ∈ C.list) :
    (∀ b ∈ e.blocks, b ∈ Cs.flatMap HCTag.blocks ++ (Os.flatMap HThing.blocks ++ K)) ∧
      ∀ b ∈ e.frame.blocks, b ∈ Cs.flatMap HCTag.blocks ++ (Os.flatMap HThing.blocks ++ K) := by
  have hb := H.entry_blocks (i.linked C hC) h
  exact ⟨fun b h => List.mem_append_left _ (List.mem_flatMap.mpr ⟨C, hC, hb.1 b h⟩),
    fun b h => List.mem_append_left _ (List.mem_flatMap.mpr ⟨C, hC, hb.2 b h⟩)⟩

theorem has_of {h : Heap} {L M : List Block} (r : Rep h L) (hm : ∀ b ∈ M, b ∈ L) : Has h.cells M := fun b hb =>
  (r.cells _ _).mpr (hm b hb)

theorem CInv.fetch (i : CInv w Cs Os K) {C : HCTag} (hC : C ∈ Cs) {n : Nat} {e : HCFrame} (h : (n, some e) ∈ C.list) :
    fetchEntry e.addr w.heap = .ok (e.value, w.heap) := by
  have hb := i.entry_blocks hC h
  exact fetch_entry (has_of i.rep hb.1) (has_of i.rep hb.2)

/-! ## Keeping -/

theorem Kept.same (c : CCall) (Cs : List HCTag) (Os : List HThing) : Kept c Cs Os Cs Os :=
  ⟨fun C hC _ _ he _ _ => ⟨C, hC, rfl, he⟩, fun _ hO _ => hO⟩

theorem Kept.newTag (c : CCall) (Cs : List HCTag) (Os : List HThing) (D : HCTag) : Kept c Cs Os (D :: Cs) Os :=
  ⟨fun C hC _ _ he _ _ => ⟨C, List.mem_cons_of_mem _ hC, rfl, he⟩, fun _ hO _ => hO⟩

theorem Kept.newThing (c : CCall) (Cs : List HCTag) (Os : List HThing) (O : HThing) : Kept c Cs Os Cs (O :: Os) :=
  ⟨fun C hC _ _ he _ _ => ⟨C, hC, rfl, he⟩, fun _ hO _ => List.mem_cons_of_mem _ hO⟩

/-- One of the tags was changed. -/
theorem Kept.changed {c : CCall} {A B : List HCTag} {C C' : HCTag} {Os : List HThing} (ha : C'.addr = C.addr)
    (h : ∀ n e, (n, some e) ∈ C.list → (∀ k, c.sets = some (C.addr, k) → e.frame_id ≠ ofB k) → (n, some e) ∈ C'.list) :
    Kept c (A ++ C :: B) Os (A ++ C' :: B) Os := by
  refine ⟨?_, fun _ hO _ => hO⟩
  intro D hD n e he _ hs
  rcases List.mem_append.mp hD with hD | hD
  · exact ⟨D, by simp [hD], rfl, he⟩
  rcases List.mem_cons.mp hD with rfl | hD
  · exact ⟨C', by simp, ha, h n e he hs⟩
  · exact ⟨D, by simp [hD], rfl, he⟩

/-! ## Steps -/

/-- The tag was changed, and some blocks were lost. -/
theorem CInv.changed {A B : List HCTag} {C : HCTag} (i : CInv w (A ++ C :: B) Os K) {N : List Block} {h' : Heap}
    {C' : HCTag} (ha : C'.addr = C.addr) (hl : C'.Linked) (hN : Quiet N)
    (r : Rep h' (C'.blocks ++ (N ++ ((A ++ B).flatMap HCTag.blocks ++ (Os.flatMap HThing.blocks ++ K)))))
    (hA : ∀ C' ∈ A, C'.addr ≠ C.addr) (hB : ∀ C' ∈ B, C'.addr ≠ C.addr) (disk : File) :
    CInv { w with heap := h', disk := disk } (A ++ C' :: B) Os (N ++ K) ∧
      cabs { w with heap := h', disk := disk } (A ++ C' :: B) Os =
        { (cabs w (A ++ C :: B) Os) with tags := setAt C.addr C'.value (cabs w (A ++ C :: B) Os).tags, disk := disk } := by
  refine ⟨⟨?_, ?_, ?_, i.things, hN.append i.quiet⟩, ?_⟩
  · refine r.perm (((clost _ _ N K).append_left _).trans ?_)
    exact (ctags_out A B C' _).symm
  · intro D hD
    rcases List.mem_append.mp hD with hD | hD
    · exact i.linked D (by simp [hD])
    rcases List.mem_cons.mp hD with rfl | hD
    · exact hl
    · exact i.linked D (by simp [hD])
  · have := i.tags
    simp only [List.map_append, List.map_cons] at this ⊢
    rw [this, ha]
  · unfold cabs
    congr 1
    simp only [List.map_append, List.map_cons]
    rw [setAt_mid _ _ _ _ _ (cmap_ne hA) (cmap_ne hB), ha]

/-- A new tag. -/
theorem CInv.newTag (i : CInv w Cs Os K) {N : List Block} {h' : Heap} {C : HCTag} (hl : C.Linked) (hN : Quiet N)
    (r : Rep h' (C.blocks ++ (N ++ (Cs.flatMap HCTag.blocks ++ (Os.flatMap HThing.blocks ++ K))))) :
    CInv { w with heap := h', tags := C.addr :: w.tags } (C :: Cs) Os (N ++ K) := by
  refine ⟨r.perm ?_, ?_, ?_, i.things, hN.append i.quiet⟩
  · rw [List.flatMap_cons]
    blocks
  · intro D hD
    rcases List.mem_cons.mp hD with rfl | hD
    · exact hl
    · exact i.linked D hD
  · show C.addr :: w.tags = C.addr :: Cs.map (·.addr)
    rw [i.tags]

/-- A new thing. -/
theorem CInv.newThing (i : CInv w Cs Os K) {h' : Heap} {O : HThing}
    (r : Rep h' (O.blocks ++ (Cs.flatMap HCTag.blocks ++ (Os.flatMap HThing.blocks ++ K)))) :
    CInv { w with heap := h', things := (O.addr, O.value.kind) :: w.things } Cs (O :: Os) ([] ++ K) := by
  refine ⟨r.perm ?_, i.linked, i.tags, ?_, i.quiet⟩
  · rw [List.flatMap_cons]
    blocks
  · show _ :: w.things = _ :: Os.map _
    rw [i.things]

/-- A setter. -/
theorem step_set (i : CInv w Cs Os K) {t : Nat} (ht : t ∈ w.tags) {x : HeapM Unit} {f : CTag → Res CTag}
    {c : CCall} {k : List UInt8} (hc : c.sets = some (t, k)) (hlost : ∀ Cs', Loses c Cs Cs' [])
    (hx : ∀ C X, C.addr = t → C.Linked → Rep w.heap (C.blocks ++ X) →
      Refines (x w.heap) (f C.value) (fun v _ h' => CSetPost C k X v h')) :
    CStepOk c Cs Os (w.exec x fun _ h => { w with heap := h }) ((cabs w Cs Os).update t f) K := by
  obtain ⟨A, C, B, rfl, rfl, hl, hA, hB, r⟩ := i.tag ht
  unfold CAbs.update
  rw [show (cabs w (A ++ C :: B) Os).tags.lookup C.addr = some C.value from cabs_lookup hA]
  refine CStepOk.mk (fun _ h => { w with heap := h }) (fun t' _ =>
    { (cabs w (A ++ C :: B) Os) with tags := setAt C.addr t' (cabs w (A ++ C :: B) Os).tags }) (hx C _ rfl hl r) rfl rfl ?_
  rintro v _ h' _ ⟨C', c', j, n, d, e1, rfl, hl', r', hj, hd, hput, _, _⟩
  obtain ⟨i', e⟩ := i.changed (N := []) e1 hl' .nil r' hA hB w.disk
  refine ⟨_, Os, [], 0, i', e, Kept.changed e1 ?_, hlost _⟩
  intro m g hg hs
  rw [hput]
  refine cput_other _ _ hj hg ?_
  intro e
  cases e
  exact hs k hc hd

/-- A getter. -/
theorem step_get (i : CInv w Cs Os K) {t : Nat} (ht : t ∈ w.tags) (id : Bytes) {c : CCall}
    (hlost : ∀ Cs', Loses c Cs Cs' []) :
    CStepOk c Cs Os (w.exec (tag_get id t) fun _ h => { w with heap := h })
      ((cabs w Cs Os).query t fun v => Id3.get_from_list v.frames id) K := by
  obtain ⟨A, C, B, rfl, rfl, hl, hA, hB, r⟩ := i.tag ht
  unfold CAbs.query
  rw [show (cabs w (A ++ C :: B) Os).tags.lookup C.addr = some C.value from cabs_lookup hA]
  refine CStepOk.mk (fun _ h => { w with heap := h }) (fun _ _ => cabs w (A ++ C :: B) Os)
    (tag_get_spec r id) rfl rfl ?_
  rintro v a _ _ ⟨rfl, _⟩
  exact ⟨_, Os, [], 0, i, rfl, .same _ _ _, hlost _⟩

theorem field_set_spec [Platform] (f : Field) (s : Src) (e : UInt8) {h : Heap} {C : HCTag} {X : List Block}
    (hl : C.Linked) (r : Rep h (C.blocks ++ X)) (b : Bytes) (hs : s.At (C.blocks ++ X) b) :
    Refines (f.hset s e C.addr h) (f.set b e C.value) (fun v _ h' => CSetPost C f.id X v h') := by
  cases f <;> exact set_text_cspec (by decide) (.inl rfl) hl r s b hs

theorem cstep_ok [Platform] (i : CInv w Cs Os K) (c : CCall) (ha : c.Allowed w) :
    CStepOk c Cs Os (c.run w) (c.abs w.heap (cabs w Cs Os)) K := by
  cases c with
  | newTag =>
    refine CStepOk.mk (fun a h => { w with heap := h, tags := a :: w.tags })
      (fun t a => { (cabs w Cs Os) with tags := (a, t) :: (cabs w Cs Os).tags }) (new_tag_spec i.rep) rfl rfl ?_
    rintro v a h' _ ⟨C, rfl, rfl, hl, r⟩
    exact ⟨C :: Cs, Os, [], C.addr, i.newTag (N := []) hl .nil r, rfl, .newTag _ _ _ _, rfl⟩
  | loadTag =>
    refine CStepOk.mk (fun a h => { w with heap := h, tags := a :: w.tags })
      (fun t a => { (cabs w Cs Os) with tags := (a, t) :: (cabs w Cs Os).tags }) (load_tag_spec i.rep w.disk) rfl rfl ?_
    rintro v a h' _ ⟨N, hN, C, rfl, rfl, hl, r⟩
    exact ⟨C :: Cs, Os, N, C.addr, i.newTag hl (quiet_streams hN) r, rfl, .newTag _ _ _ _, C, rfl, hN⟩
  | loadTagWithBuffer s n =>
    refine CStepOk.mk (fun a h => { w with heap := h, tags := a :: w.tags })
      (fun t a => { (cabs w Cs Os) with tags := (a, t) :: (cabs w Cs Os).tags })
      (load_buffer_spec i.rep s _ n (src_at i.rep ha)) rfl rfl ?_
    rintro v a h' _ ⟨N, hN, C, rfl, rfl, hl, r⟩
    exact ⟨C :: Cs, Os, N, C.addr, i.newTag hl (quiet_streams hN) r, rfl, .newTag _ _ _ _, C, rfl, hN⟩
  | setText f s e t =>
    refine step_set i ha.1 (k := f.id) rfl (fun _ => rfl) ?_
    rintro C X rfl hl r
    exact field_set_spec f s e hl r _ (src_at r ha.2)
  | setComment s e t =>
    refine step_set i ha.1 rfl (fun _ => rfl) ?_
    rintro C X rfl hl r
    exact set_comment_cspec hl r s _ (src_at r ha.2) e
  | setCoverFromBytes s m n t =>
    refine step_set i ha.1 rfl (fun _ => rfl) ?_
    rintro C X rfl hl r
    exact set_cover_cspec hl r s _ (src_at r ha.2.1) m _ (src_at r ha.2.2) n
  | setCover name image t =>
    refine step_set i ha rfl (fun _ => rfl) ?_
    rintro C X rfl hl r
    exact set_cover_file_spec hl r name image
  | getText f t => cases f <;> exact step_get i ha _ fun _ => rfl
  | getComment t => exact step_get i ha _ fun _ => rfl
  | getCover t => exact step_get i ha _ fun _ => rfl
  | parseText p =>
    obtain ⟨C, hC, n, e, he, rfl⟩ := i.entry ha
    have hb := i.entry_blocks hC he
    refine CStepOk.mk (fun a h => { w with heap := h, things := (a, .text) :: w.things })
      (fun v a => { (cabs w Cs Os) with things := (a, .text v) :: (cabs w Cs Os).things })
      (parse_text_spec i.rep hb.1 hb.2) rfl ?_ ?_
    · show (fetchEntry e.addr w.heap >>= _) = _
      rw [i.fetch hC he]
      rfl
    · rintro v a h' _ ⟨d, r⟩
      exact ⟨Cs, _, [], a, i.newThing r, rfl, .newThing _ _ _ _, rfl⟩
  | parseComment p =>
    obtain ⟨C, hC, n, e, he, rfl⟩ := i.entry ha
    have hb := i.entry_blocks hC he
    refine CStepOk.mk (fun a h => { w with heap := h, things := (a, .comment) :: w.things })
      (fun v a => { (cabs w Cs Os) with things := (a, .comment) :: (cabs w Cs Os).things })
      (parse_comment_spec i.rep hb.1 hb.2) rfl ?_ ?_
    · show (fetchEntry e.addr w.heap >>= _) = _
      rw [i.fetch hC he]
      rfl
    · rintro v a h' _ ⟨O, rfl, ⟨d, s, c, _, _, _, _, rfl⟩, r⟩
      exact ⟨Cs, _, [], _, i.newThing r, rfl, .newThing _ _ _ _, rfl⟩
  | parsePicture p =>
    obtain ⟨C, hC, n, e, he, rfl⟩ := i.entry ha
    have hb := i.entry_blocks hC he
    refine CStepOk.mk (fun a h => { w with heap := h, things := (a, .picture) :: w.things })
      (fun v a => { (cabs w Cs Os) with things := (a, .picture) :: (cabs w Cs Os).things })
      (parse_picture_spec i.rep hb.1 hb.2) rfl ?_ ?_
    · show (fetchEntry e.addr w.heap >>= _) = _
      rw [i.fetch hC he]
      rfl
    · rintro v a h' _ ⟨O, rfl, ⟨d, m, de, q, _, _, _, rfl⟩, r⟩
      exact ⟨Cs, _, [], _, i.newThing r, rfl, .newThing _ _ _ _, rfl⟩
  | setTag t =>
    obtain ⟨A, C, B, rfl, rfl, hl, hA, hB, r⟩ := i.tag ha
    show CStepOk _ _ _ _ (match (cabs w (A ++ C :: B) Os).tags.lookup C.addr with
      | none => .ub .badFree
      | some v => do
        let (f, v') ← Id3.set_tag w.disk v
        return fun _ => { (cabs w (A ++ C :: B) Os) with
          tags := setAt C.addr v' (cabs w (A ++ C :: B) Os).tags, disk := f }) _
    rw [show (cabs w (A ++ C :: B) Os).tags.lookup C.addr = some C.value from cabs_lookup hA]
    refine CStepOk.mk (fun f h => { w with heap := h, disk := f }) (fun v _ => { (cabs w (A ++ C :: B) Os) with
      tags := setAt C.addr v.2 (cabs w (A ++ C :: B) Os).tags, disk := v.1 }) (set_tag_spec hl r w.disk) rfl rfl ?_
    rintro ⟨f, v⟩ _ h' _ ⟨rfl, N, n, C', hN, h1, h2, h3, e1, rfl, hl', hlist, r'⟩
    obtain ⟨i', e⟩ := i.changed e1 hl' (quiet_streams hN) r' hA hB _
    refine ⟨_, Os, N, 0, i', e, Kept.changed e1 ?_, C, by simp, rfl, n, hN, h1, h2, h3⟩
    intro m g hg _
    rw [hlist]
    exact hg
  | removeTag =>
    refine CStepOk.mk (fun f h => { w with heap := h, disk := f }) (fun f _ => { (cabs w Cs Os) with disk := f })
      (delete_tag_spec i.rep w.disk) rfl rfl ?_
    rintro f _ h' _ ⟨rfl, r'⟩
    exact ⟨Cs, Os, [], 0, ⟨r', i.linked, i.tags, i.things, i.quiet⟩, rfl, .same _ _ _, rfl⟩
  | freeTag t =>
    obtain ⟨A, C, B, rfl, rfl, hl, hA, hB, r⟩ := i.tag ha
    show CStepOk _ _ _ _ (match (cabs w (A ++ C :: B) Os).tags.lookup C.addr with
      | none => .ub .badFree
      | some v => do
        Id3.free_tag v
        return fun _ => { (cabs w (A ++ C :: B) Os) with
          tags := (cabs w (A ++ C :: B) Os).tags.filter fun p => p.1 ≠ C.addr }) _
    rw [show (cabs w (A ++ C :: B) Os).tags.lookup C.addr = some C.value from cabs_lookup hA]
    refine CStepOk.mk (fun _ h => { w with heap := h, tags := w.tags.erase C.addr }) (fun _ _ =>
      { (cabs w (A ++ C :: B) Os) with tags := (cabs w (A ++ C :: B) Os).tags.filter fun p => p.1 ≠ C.addr })
      (free_tag_spec r) rfl rfl ?_
    rintro _ _ h' _ r'
    refine ⟨A ++ B, Os, leaks C.tag.list, 0, ⟨r'.perm (clost _ _ _ _), ?_, ?_, i.things,
      (quiet_leaks _).append i.quiet⟩, ?_, ⟨?_, fun _ hO _ => hO⟩, C, by simp, rfl, rfl⟩
    · intro D hD
      exact i.linked D ((List.mem_append.mp hD).elim (fun h => by simp [h]) (fun h => by simp [h]))
    · show w.tags.erase C.addr = _
      rw [i.tags, List.map_append, List.map_cons, erase_mid, List.map_append]
      intro hm
      obtain ⟨T', hT', e⟩ := List.mem_map.mp hm
      exact hA T' hT' e
    · unfold cabs
      simp only [List.map_append, List.map_cons]
      rw [filter_mid _ _ _ _ (cmap_ne hA) (cmap_ne hB)]
    · intro D hD n e he hne _
      rcases List.mem_append.mp hD with hD | hD
      · exact ⟨D, by simp [hD], rfl, he⟩
      rcases List.mem_cons.mp hD with rfl | hD
      · exact (hne rfl).elim
      · exact ⟨D, by simp [hD], rfl, he⟩
  | release k a =>
    obtain ⟨A, O, B, rfl, rfl, rfl, hA, hB, r⟩ := i.thing ha
    refine CStepOk.mk (fun _ h => { w with heap := h, things := w.things.erase (O.addr, O.value.kind) }) (fun _ _ =>
      { (cabs w Cs (A ++ O :: B)) with things := (cabs w Cs (A ++ O :: B)).things.filter fun p => p.1 ≠ O.addr })
      (release_spec r) rfl rfl ?_
    rintro _ _ h' _ r'
    refine ⟨Cs, A ++ B, [], 0, ⟨r', i.linked, i.tags, ?_, i.quiet⟩, ?_, ⟨?_, ?_⟩, rfl⟩
    · show w.things.erase _ = _
      rw [i.things, List.map_append, List.map_cons, List.erase_append_right, List.map_append]
      · simp
      · intro hm
        obtain ⟨O', hO', e⟩ := List.mem_map.mp hm
        exact hA O' hO' (congrArg Prod.fst e)
    · unfold cabs
      simp only [List.map_append, List.map_cons]
      rw [filter_mid _ _ _ _ (tmap_ne hA) (tmap_ne hB)]
    · exact fun C hC _ _ he _ _ => ⟨C, hC, rfl, he⟩
    · intro D hD hne
      rcases List.mem_append.mp hD with hD | hD
      · simp [hD]
      rcases List.mem_cons.mp hD with rfl | hD
      · exact (hne.1 _ rfl).elim
      · simp [hD]
  | alloc b =>
    have hx : Refines (Id3.malloc (.bytes b) w.heap) (.ok ()) (fun _ a h' => Rep h' ((HThing.buffer a b).blocks ++
        (Cs.flatMap HCTag.blocks ++ (Os.flatMap HThing.blocks ++ K)))) := .last (.malloc i.rep fun a h' r' => .pure r')
    refine CStepOk.mk (fun a h => { w with heap := h, things := (a, .buffer) :: w.things }) (
      fun _ a => { (cabs w Cs Os) with things := (a, .buffer b) :: (cabs w Cs Os).things }) hx rfl rfl ?_
    intro _ a h' _ r'
    exact ⟨Cs, _, [], a, i.newThing r', rfl, .newThing _ _ _ _, rfl⟩
  | overwrite a b =>
    obtain ⟨A, O, B, rfl, rfl, hk, hA, hB, r⟩ := i.thing ha
    cases O with
    | buffer a x =>
      have hx : Refines (storeCell (some a) (.bytes b) w.heap) (.ok ())
          (fun _ _ h' => Rep h' ((HThing.buffer a b).blocks ++
            (Cs.flatMap HCTag.blocks ++ ((A ++ B).flatMap HThing.blocks ++ K)))) :=
        .last (.store r (List.Perm.refl _) fun h' r' => .pure r')
      refine CStepOk.mk (fun _ h => { w with heap := h }) (fun _ _ => { (cabs w Cs (A ++ HThing.buffer a x :: B)) with
        things := setAt a (.buffer b) (cabs w Cs (A ++ HThing.buffer a x :: B)).things }) hx rfl rfl ?_
      intro _ _ h' _ r'
      refine ⟨Cs, A ++ HThing.buffer a b :: B, [], 0, ⟨r'.perm (things_out A B _ _ K).symm, i.linked, i.tags, ?_, i.quiet⟩, ?_,
        ⟨fun C hC _ _ he _ _ => ⟨C, hC, rfl, he⟩, ?_⟩, rfl⟩
      · have := i.things
        simp only [List.map_append, List.map_cons] at this ⊢
        exact this
      · unfold cabs
        simp only [List.map_append, List.map_cons]
        show _ = CAbs.mk _ (setAt a _ (_ ++ (a, _) :: _)) _
        rw [setAt_mid a _ _ _ _ (tmap_ne hA) (tmap_ne hB)]
        rfl
      · intro D hD hne
        rcases List.mem_append.mp hD with hD | hD
        · simp [hD]
        rcases List.mem_cons.mp hD with rfl | hD
        · exact (hne.2 _ rfl).elim
        · simp [hD]
    | _ => cases hk
  | changeDisk f =>
    exact ⟨_, Cs, Os, [], 0, rfl, ⟨i.rep, i.linked, i.tags, i.things, i.quiet⟩, rfl, .same _ _ _, rfl⟩

end

end Id3.H
