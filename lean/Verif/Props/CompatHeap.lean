import Verif.Heap.CompatHolds
import Verif.Props.Heap

/-!
# C54-C56: the heap of programs that use the compatibility API

The properties are about programs that use the compatibility API as its documentation allows (Spec/CompatSession.lean):
`CReachable w`.
-/

namespace Id3.Props

open Id3 Id3.Spec Id3.H

variable [p : Platform]

/-! ## C54 -/

/-- C54: no call of a program accesses a freed block, or frees a block twice, or frees something that was not allocated.
In particular the entries, which point to the frames of the tag, never point to a freed frame. -/
theorem C54 {w : CWorld} {c : CCall} (h : CReachable w) (ha : c.Allowed w) :
    c.run w ≠ .ub .useAfterFree ∧ c.run w ≠ .ub .badFree := by
  obtain ⟨Cs, Os, K, i⟩ := creachable_inv h
  have hn := nomem_cabs i ha
  have st := ccall_refines h i.holds ha
  split at st
  next f he =>
    obtain ⟨w', a, e, _⟩ := st
    rw [e]
    exact ⟨fun e => (nomatch e), fun e => (nomatch e)⟩
  next k he =>
    rw [st]
    rw [he] at hn
    exact ⟨fun e => hn.1 (by cases e; rfl), fun e => hn.2 (by cases e; rfl)⟩
  next => rw [st]; exact ⟨fun e => (nomatch e), fun e => (nomatch e)⟩
  next => rw [st]; exact ⟨fun e => (nomatch e), fun e => (nomatch e)⟩

/-- C54, for whole programs: as long as every call is allowed, no program ends with a memory error. -/
theorem C54_program : ∀ (cs : List CCall) {w : CWorld}, CReachable w → CAllowedCalls w cs →
    crunCalls w cs ≠ .ub .useAfterFree ∧ crunCalls w cs ≠ .ub .badFree
  | [], _, _, _ => ⟨fun e => (nomatch e), fun e => (nomatch e)⟩
  | c :: cs, w, h, ha => by
    have h1 := C54 h ha.1
    show (c.run w >>= fun w' => crunCalls w' cs) ≠ _ ∧ (c.run w >>= fun w' => crunCalls w' cs) ≠ _
    cases e : c.run w with
    | ok w' => exact C54_program cs (.step h ha.1 e) (ha.2 w' e)
    | ub k =>
      rw [e] at h1
      exact ⟨fun e => h1.1 (by cases e; rfl), fun e => h1.2 (by cases e; rfl)⟩
    | exit => exact ⟨fun e => (nomatch e), fun e => (nomatch e)⟩
    | diverge => exact ⟨fun e => (nomatch e), fun e => (nomatch e)⟩

/-- Every call of a program does to the tags, to the texts and buffers that the program holds and to the file what the
value-level model says, and fails in the same way: pointers make no difference. -/
theorem C54_refinement {w : CWorld} {s : CAbs} {c : CCall} (h : CReachable w) (hs : w.Holds s) (ha : c.Allowed w) :
    match c.abs w.heap s with
    | .ok f => ∃ w' a, c.run w = .ok w' ∧ w'.Holds (f a)
    | .ub k => c.run w = .ub k
    | .exit => c.run w = .exit
    | .diverge => c.run w = .diverge := ccall_refines h hs ha

/-- The theorems above are about programs that hold what they are said to hold: there always is a value, and only one. -/
theorem C54_holds {w : CWorld} (h : CReachable w) : ∃ s, w.Holds s ∧ ∀ s', w.Holds s' → s' = s := by
  obtain ⟨Cs, Os, K, i⟩ := creachable_inv h
  exact ⟨_, i.holds, fun s' hs' => i.eq hs'⟩

/-! ## C55 -/

/-- C55 holds for programs whose tags have text, comment and picture frames only: once such a program has freed all its
tags, and everything else it holds, nothing is allocated. Missing: frames of other kinds (`C55_false`). -/
theorem C55_partial {w : CWorld} (h : CReachableTidy w) (h1 : w.tags = []) (h2 : w.things = []) (a : Nat) :
    w.heap.cells a = none := by
  obtain ⟨Cs, Os, i, _⟩ := creachable_tidy h
  have e1 := i.tags
  have e2 := i.things
  rw [h1] at e1
  rw [h2] at e2
  obtain rfl := List.map_eq_nil_iff.mp e1.symm
  obtain rfl := List.map_eq_nil_iff.mp e2.symm
  cases hc : w.heap.cells a with
  | none => rfl
  | some c => exact absurd ((i.rep.cells a c).mp hc) (by simp)

/-- What a program keeps along some calls: the entries that are spared, and the things that are left alone. -/
theorem kept_steps {ok : CCall → Prop} {w w' : CWorld} {Cs : List HCTag} {Os : List HThing} {K : List Block}
    (i : CInv w Cs Os K) (hs : CSteps ok w w') :
    ∃ Cs' Os' N, CInv w' Cs' Os' (N ++ K) ∧
      (∀ C ∈ Cs, ∀ n e k, (n, some e) ∈ C.list → e.frame_id = ofB k → (∀ c, ok c → c.Spares C.addr k) →
        ∃ C' ∈ Cs', C'.addr = C.addr ∧ (n, some e) ∈ C'.list) ∧
      ∀ O ∈ Os, (∀ c, ok c → c.Leaves O.addr) → O ∈ Os' := by
  induction hs with
  | refl => exact ⟨Cs, Os, [], i, fun C hC n e _ he _ _ => ⟨C, hC, rfl, he⟩, fun O hO _ => hO⟩
  | @step w1 w2 c _ hok ha hr ih =>
    obtain ⟨Cs1, Os1, N1, i1, he1, ho1⟩ := ih
    obtain ⟨Cs2, Os2, N2, _, _, i2, _, _, hk, _⟩ := cinv_step i1 ha hr
    refine ⟨Cs2, Os2, N2 ++ N1, by rw [List.append_assoc]; exact i2, ?_, fun O hO hl => hk.things O (ho1 O hO hl) (hl c hok)⟩
    intro C hC n e k he hid hsp
    obtain ⟨C1, hC1, e1, hm1⟩ := he1 C hC n e k he hid hsp
    have hsp := hsp c hok
    obtain ⟨C2, hC2, e2, hm2⟩ := hk.entries C1 hC1 n e hm1 (by rw [e1]; exact hsp.1) (by
      intro k' hk' e'
      rw [e1] at hk'
      refine hsp.2 ?_
      rw [hk']
      have : k' = k := by
        have : ofB k = ofB k' := hid.symm.trans e'
        unfold ofB at this
        exact (List.map_inj_right (fun _ _ h => Option.some.inj h)).mp this.symm
      rw [this])
    exact ⟨C2, hC2, e2.trans e1, hm2⟩

theorem cinv_lost {w : CWorld} {Cs : List HCTag} {Os : List HThing} {N K : List Block} (i : CInv w Cs Os (N ++ K)) :
    CLost w N := by
  have key : ∀ {w' Cs' Os' M}, CInv w' Cs' Os' (M ++ (N ++ K)) → ∃ X, Rep w'.heap (N ++ X) := by
    intro w' Cs' Os' M i
    refine ⟨Cs'.flatMap HCTag.blocks ++ (Os'.flatMap HThing.blocks ++ (M ++ K)), i.rep.perm ?_⟩
    blocks
  constructor
  · obtain ⟨X, r⟩ := key (M := []) i
    have := r.nodup
    rw [List.map_append, List.nodup_append] at this
    exact this.1
  · intro w' hw b hb
    obtain ⟨Cs', Os', M, i', _⟩ := kept_steps i hw
    obtain ⟨X, r⟩ := key i'
    exact (r.cells _ _).mpr (List.mem_append_left _ hb)

omit p in
/-- Run a call that succeeds. -/
theorem cexec_ok {α β : Type} {w w' : CWorld} {x : HeapM α} {v : Res β} {Q : β → α → Heap → Prop} (k : α → Heap → CWorld)
    (hx : Refines (x w.heap) v Q) (hr : w.exec x k = .ok w') : ∃ b a h', v = .ok b ∧ Q b a h' ∧ w' = k a h' := by
  obtain ⟨⟨a, h'⟩, e1, e2⟩ := Res.bind_eq_ok.mp hr
  cases e2
  cases v with
  | ok b =>
    obtain ⟨_, _, e, q⟩ := hx
    rw [e1] at e
    cases e
    exact ⟨b, a, h', rfl, q, rfl⟩
  | ub k => rw [show x w.heap = .ub k from hx] at e1; cases e1
  | exit => rw [show x w.heap = .exit from hx] at e1; cases e1
  | diverge => rw [show x w.heap = .diverge from hx] at e1; cases e1

/-- Loading a tag loses two blocks for every frame of an unknown kind: they stay allocated whatever the program does, also
when it frees the tag. (The stream that is made to copy the data of such a frame is never freed.) -/
theorem C55_load {w w' : CWorld} {c : CCall} (h : CReachable w) (hc : c = .loadTag ∨ ∃ s n, c = .loadTagWithBuffer s n)
    (ha : c.Allowed w) (hr : c.run w = .ok w') :
    ∃ t v K, w'.tags = t :: w.tags ∧ (∀ s, w'.Holds s → s.tags.lookup t = some v) ∧
      K.length = 2 * (v.tag.frames.filter isRaw).length ∧ CLost w' K := by
  obtain ⟨Cs, Os, K, i⟩ := creachable_inv h
  obtain ⟨Cs', Os', N, _, _, i', _, _, _, hl⟩ := cinv_step i ha hr
  have hl : ∃ C, Cs' = C :: Cs ∧ Streams (listStreams C.value.tag.frames) N := by
    rcases hc with rfl | ⟨s, n, rfl⟩
    · exact hl
    · exact hl
  obtain ⟨C, rfl, hs⟩ := hl
  refine ⟨C.addr, C.value, N, ?_, ?_, ?_, cinv_lost i'⟩
  · rw [i'.tags, List.map_cons, i.tags]
  · intro s hs
    rw [i'.eq hs]
    show ((C :: Cs).map fun C => (C.addr, C.value)).lookup C.addr = _
    simp
  · rw [hs.length, streams_count]

/-- Writing a tag to a file loses two blocks for every frame of an unknown kind as well. -/
theorem C55_write {w w' : CWorld} {t : Nat} {s : CAbs} {v : CTag} (h : CReachable w) (hs : w.Holds s)
    (hv : s.tags.lookup t = some v) (hf : v.tag.frames.head? ≠ some none) (ht : t ∈ w.tags)
    (hr : (CCall.setTag t).run w = .ok w') :
    ∃ K, K.length = 2 * (v.tag.frames.filter isRaw).length ∧ CLost w' K := by
  obtain ⟨Cs, Os, K, i⟩ := creachable_inv h
  obtain rfl := i.eq hs
  obtain ⟨A, C, B, rfl, rfl, hl, hA, hB, r⟩ := i.tag ht
  obtain rfl : C.value = v := Option.some.inj ((cabs_lookup hA).symm.trans hv)
  obtain ⟨_, _, h', _, ⟨rfl, N, n, C', hN, _, hn, _, e1, _, hl', _, r'⟩, rfl⟩ := cexec_ok
    (fun f h => { w with heap := h, disk := f }) (set_tag_spec hl r w.disk) hr
  obtain ⟨i', _⟩ := i.changed e1 hl' (quiet_streams hN) r' hA hB _
  refine ⟨N, ?_, cinv_lost i'⟩
  rw [hN.length, hn ?_, streams_count]
  intro e
  apply hf
  show (C.tag.frame.map HFrame.value :: _).head? = some none
  rw [e]
  rfl

/-- What `free_tag` leaves allocated, exactly: everything that does not belong to the tag, and, for every frame of the tag
whose id does not begin with `T`, `C` or `A`, the frame itself (and the buffers of its data struct). -/
theorem C55_free {w w' : CWorld} {t : Nat} (h : CReachable w) (ht : t ∈ w.tags) (hr : (CCall.freeTag t).run w = .ok w') :
    ∃ C : HCTag, C.addr = t ∧ (∀ b ∈ C.blocks, w.heap.cells b.1 = some b.2) ∧
      (∀ s, w.Holds s → s.tags.lookup t = some C.value) ∧
      ∀ a c, w'.heap.cells a = some c ↔ w.heap.cells a = some c ∧ ((a, c) ∈ C.blocks →
        ∃ n F, (n, some F) ∈ C.tag.list ∧ UnknownId F.header.id ∧
          ((a, c) = (F.addr, .frame (some F.hdr) (some F.data)) ∨ (a, c) ∈ F.payload.buffers)) := by
  obtain ⟨Cs, Os, K, i⟩ := creachable_inv h
  obtain ⟨A, C, B, rfl, rfl, hl, hA, hB, r⟩ := i.tag ht
  refine ⟨C, rfl, fun b hb => (r.cells _ _).mpr (List.mem_append_left _ hb), ?_, ?_⟩
  · intro s hs
    rw [i.eq hs]
    exact cabs_lookup hA
  obtain ⟨_, _, h', _, r', rfl⟩ := cexec_ok
    (fun _ h => { w with heap := h, tags := w.tags.erase C.addr }) (free_tag_spec r) hr
  intro a c
  show h'.cells a = some c ↔ _
  have hl : (a, c) ∈ leaks C.tag.list ↔ ∃ n F, (n, some F) ∈ C.tag.list ∧ UnknownId F.header.id ∧
      ((a, c) = (F.addr, .frame (some F.hdr) (some F.data)) ∨ (a, c) ∈ F.payload.buffers) := by
    unfold leaks
    rw [List.mem_flatMap]
    constructor
    · rintro ⟨⟨n, f⟩, hm, hb⟩
      cases f with
      | none => cases hb
      | some F =>
        have hb' : (a, c) ∈ F.leak := hb
        unfold HFrame.leak at hb'
        split at hb'
        · cases hb'
        next hn =>
          rw [not_or, not_or] at hn
          exact ⟨n, F, hm, hn, List.mem_cons.mp hb'⟩
    · rintro ⟨n, F, hm, hu, hb⟩
      refine ⟨(n, some F), hm, ?_⟩
      show (a, c) ∈ F.leak
      unfold HFrame.leak
      rw [if_neg (by rw [not_or, not_or]; exact hu)]
      exact List.mem_cons.mpr hb
  have hsub : (a, c) ∈ leaks C.tag.list → (a, c) ∈ C.blocks := by
    intro hm
    obtain ⟨n, F, hF, _, hb⟩ := hl.mp hm
    refine mem_inner C _ (mem_frames C.tag _ (List.mem_flatMap.mpr ⟨(n, some F), hF, ?_⟩))
    show (a, c) ∈ F.blocks
    unfold HFrame.blocks
    rcases hb with hb | hb
    · rw [hb]; exact List.mem_cons_self
    · exact List.mem_cons_of_mem _ (List.mem_cons_of_mem _ (List.mem_cons_of_mem _ hb))
  have hdis : (a, c) ∈ C.blocks → (a, c) ∉ (A ++ B).flatMap HCTag.blocks ++ (Os.flatMap HThing.blocks ++ K) := by
    intro h1 h2
    have hn := r.nodup
    rw [List.map_append, List.nodup_append] at hn
    exact hn.2.2 a (List.mem_map.mpr ⟨_, h1, rfl⟩) a (List.mem_map.mpr ⟨_, h2, rfl⟩) rfl
  rw [r'.cells, r.cells, ← hl]
  constructor
  · intro hm
    rcases List.mem_append.mp hm with hm | hm
    · exact ⟨List.mem_append_left _ (hsub hm), fun _ => hm⟩
    · exact ⟨List.mem_append_right _ hm, fun hb => absurd hm (hdis hb)⟩
  · rintro ⟨hm, g⟩
    rcases List.mem_append.mp hm with hm | hm
    · exact List.mem_append_left _ (g hm)
    · exact List.mem_append_right _ hm

/-! ## C56 -/

omit p in
theorem slot_valid (s : Slot) : ValidId s.id := by
  cases s with
  | text f => cases f <;> decide
  | comment => decide
  | cover => decide

omit p in
theorem get_id {k : List UInt8} (hk : ValidId k) : ∀ {l : CList} {c : CFrame}, get_from_list l (lit k) = .ok (some c) →
    c.frame_id.take 4 = ofB k
  | [], c, h => by cases h
  | none :: l, c, h => by cases h
  | some f :: l, c, h => by
    unfold get_from_list at h
    obtain ⟨b, h1, h2⟩ := Res.bind_eq_ok.mp h
    cases b with
    | false =>
      simp only [Bool.false_eq_true, if_false] at h2
      exact get_id hk h2
    | true =>
      cases h2
      rw [lit_eq] at h1
      have h3 := hk.1
      have := strncmp_true k f.frame_id (ofB [0]) hk.2 (by rw [h3]; exact h1)
      rw [h3] at this
      exact this

omit p in
theorem entry_live {h : Heap} {e : HCFrame} (hb : Has h.cells e.blocks) : EntryLive h e.addr :=
  ⟨_, _, _, _, _, hb.head⟩

omit p in
theorem mem_of_lookup {α : Type} {a : Nat} {x : α} : ∀ l : List (Nat × α), l.lookup a = some x → (a, x) ∈ l
  | [], h => by cases h
  | (b, y) :: l, h => by
    by_cases e : a = b
    · subst e
      rw [List.lookup_cons_self] at h
      cases h
      exact List.mem_cons_self
    · rw [List.lookup_cons, beq_false_of_ne e] at h
      exact List.mem_cons_of_mem _ (mem_of_lookup l h)

omit p in
theorem slot_hget (s : Slot) (t : Nat) : s.hget t = tag_get (lit s.id) t := by
  cases s with
  | text f => cases f <;> rfl
  | comment => rfl
  | cover => rfl

omit p in
theorem slot_get (s : Slot) (v : CTag) : s.get v = Id3.get_from_list v.frames (lit s.id) := by
  cases s with
  | text f => cases f <;> rfl
  | comment => rfl
  | cover => rfl

omit p in
/-- The entry that a getter returns. -/
theorem slot_entry {w : CWorld} {Cs : List HCTag} {Os : List HThing} {K : List Block} (i : CInv w Cs Os K) {t a : Nat}
    {s : Slot} {h' : Heap} (ht : t ∈ w.tags) (hg : s.hget t w.heap = .ok (some a, h')) :
    h' = w.heap ∧ ∃ C ∈ Cs, C.addr = t ∧ (∀ s, w.Holds s → s.tags.lookup t = some C.value) ∧
      ∃ (j n : Nat) (e : HCFrame), C.list[j]? = some (n, some e) ∧
        (∀ x, x < j → ∃ (m : Nat) (g : HCFrame), C.list[x]? = some (m, some g) ∧ strncmpEq 4 g.frame_id (lit s.id) = .ok false) ∧
        e.addr = a ∧ e.frame_id = ofB s.id ∧ s.get C.value = .ok (some e.value) := by
  obtain ⟨A, C, B, rfl, rfl, hl, hA, hB, r⟩ := i.tag ht
  rw [slot_hget] at hg
  have hx := tag_get_spec r (lit s.id)
  rw [hg] at hx
  cases hv : Id3.get_from_list C.value.frames (lit s.id) with
  | ok v =>
    rw [hv] at hx
    obtain ⟨_, _, e, rfl, q⟩ := hx
    cases e
    refine ⟨rfl, C, by simp, rfl, ?_, ?_⟩
    · intro s hs
      rw [i.eq hs]
      exact cabs_lookup hA
    · cases v with
      | none => cases q
      | some v =>
        obtain ⟨j, n, e, hm, hj, rfl, ea⟩ := q
        refine ⟨j, n, e, hm, hj, (Option.some.inj ea).symm, ?_, (slot_get s _).trans hv⟩
        have := get_id (slot_valid s) hv
        have hlen := entry_id_length hl (List.mem_of_getElem? hm)
        rw [← this]
        show e.frame_id = e.frame_id.take 4
        rw [List.take_of_length_le (by omega)]
  | ub k => rw [hv] at hx; cases hx
  | exit => rw [hv] at hx; cases hx
  | diverge => rw [hv] at hx; cases hx

/-- C56, getters: a getter returns NULL, or a pointer to an entry with the value that the value-level getter computes. It
changes nothing. -/
theorem C56_get {w : CWorld} {x : CAbs} {t : Nat} {v : CTag} (s : Slot) (h : CReachable w) (hx : w.Holds x)
    (hv : x.tags.lookup t = some v) :
    match s.get v with
    | .ok none => s.hget t w.heap = .ok (none, w.heap)
    | .ok (some c) => ∃ a, s.hget t w.heap = .ok (some a, w.heap) ∧ EntryLive w.heap a ∧
        fetchEntry a w.heap = .ok (c, w.heap)
    | .ub k => s.hget t w.heap = .ub k
    | .exit => s.hget t w.heap = .exit
    | .diverge => s.hget t w.heap = .diverge := by
  obtain ⟨Cs, Os, K, i⟩ := creachable_inv h
  obtain rfl := i.eq hx
  have ht : t ∈ w.tags := by
    rw [i.tags]
    have : (t, v) ∈ Cs.map fun C => (C.addr, C.value) := mem_of_lookup _ hv
    obtain ⟨C, hC, e⟩ := List.mem_map.mp this
    cases e
    exact List.mem_map.mpr ⟨C, hC, rfl⟩
  obtain ⟨A, C, B, rfl, rfl, hl, hA, hB, r⟩ := i.tag ht
  obtain rfl : C.value = v := Option.some.inj ((cabs_lookup hA).symm.trans hv)
  have q := tag_get_spec r (lit s.id)
  rw [slot_hget, slot_get]
  cases hv : Id3.get_from_list C.value.frames (lit s.id) with
  | ok b =>
    rw [hv] at q
    obtain ⟨a, h', e, rfl, q⟩ := q
    cases b with
    | none => rw [e, q]
    | some c =>
      obtain ⟨j, n, e', hj, _, rfl, rfl⟩ := q
      have hm := List.mem_of_getElem? hj
      exact ⟨e'.addr, e, entry_live (has_of i.rep (i.entry_blocks (by simp) hm).1), i.fetch (by simp) hm⟩
  | ub k => rw [hv] at q; exact q
  | exit => rw [hv] at q; exact q
  | diverge => rw [hv] at q; exact q

/-- C56, entries: the pointer that a getter returns is that of an entry with the value that the value-level getter
computes, and it stays valid, with the same value, as long as the program does not set the same field of the same tag, and
does not free the tag. All other calls are allowed in between: the other setters, loading and writing tags, freeing other
tags. -/
theorem C56_entry {w w' : CWorld} {t a : Nat} {s : Slot} {h' : Heap} (h : CReachable w) (ht : t ∈ w.tags)
    (hg : s.hget t w.heap = .ok (some a, h')) (hs : CSteps (fun c => c.Spares t s.id) w w') :
    ∃ v c, (∀ x, w.Holds x → x.tags.lookup t = some v) ∧ s.get v = .ok (some c) ∧
      fetchEntry a w'.heap = .ok (c, w'.heap) := by
  obtain ⟨Cs, Os, K, i⟩ := creachable_inv h
  obtain ⟨_, C, hC, rfl, hv, j, n, e, hm, _, rfl, hid, hget⟩ := slot_entry i ht hg
  replace hm := List.mem_of_getElem? hm
  obtain ⟨Cs', Os', N, i', he, _⟩ := kept_steps i hs
  obtain ⟨C', hC', _, hm'⟩ := he C hC n e _ hm hid fun c hc => hc
  exact ⟨C.value, e.value, hv, hget, i'.fetch hC' hm'⟩

theorem steps_reachable {ok : CCall → Prop} {w w' : CWorld} (h : CReachable w) (hs : CSteps ok w w') : CReachable w' := by
  induction hs with
  | refl => exact h
  | step _ _ ha hr ih => exact .step ih ha hr

/-- C56, texts: what `parse_text_frame_content` returns is a copy of the text of the entry. It stays valid, with the same
value, until the program frees it: also when the field is set, or the tag is freed. -/
theorem C56_text {w w1 : CWorld} {a : Nat} (h : CReachable w) (ha : EntryLive w.heap a)
    (hr : (CCall.parseText a).run w = .ok w1) :
    ∃ b c v, w1.things = (b, .text) :: w.things ∧ fetchEntry a w.heap = .ok (c, w.heap) ∧
      parse_text_frame_content c = .ok v ∧
      ∀ w', CSteps (fun x => x.Leaves b) w1 w' → fetchText (some b) w'.heap = .ok (v, w'.heap) := by
  obtain ⟨Cs, Os, K, i⟩ := creachable_inv h
  obtain ⟨C, hC, n, e, he, rfl⟩ := i.entry ha
  have hb := i.entry_blocks hC he
  obtain ⟨v, b, h', hv, ⟨d, r⟩, rfl⟩ := cexec_ok (fun a h => { w with heap := h, things := (a, .text) :: w.things })
    (parse_text_spec i.rep hb.1 hb.2) hr
  refine ⟨b, e.value, v, rfl, i.fetch hC he, hv, ?_⟩
  intro w' hs
  obtain ⟨Cs', Os', N, i', _, ho⟩ := kept_steps (i.newThing r) hs
  have hm := ho (.text b d v) List.mem_cons_self fun c hc => hc
  have hh : Has w'.heap.cells (HThing.text b d v).blocks := has_of i'.rep fun x hx =>
    List.mem_append_right _ (List.mem_append_left _ (List.mem_flatMap.mpr ⟨_, hm, hx⟩))
  exact fetch_text hh.head hh.tail.head

/-- C56, comments: what `parse_comment_frame_content` returns points into the tag. It has the value of the comment, and
stays valid, with the same value, as long as the program does not free it, does not set the comment of that tag, and does
not free that tag. -/
theorem C56_comment {w w1 w2 : CWorld} {t a : Nat} {s : Slot} {h' : Heap} (h : CReachable w) (ht : t ∈ w.tags)
    (hg : s.hget t w.heap = .ok (some a, h')) (hs : CSteps (fun c => c.Spares t s.id) w w1)
    (hr : (CCall.parseComment a).run w1 = .ok w2) :
    ∃ b c v, w2.things = (b, .comment) :: w1.things ∧ fetchEntry a w1.heap = .ok (c, w1.heap) ∧
      parse_comment_frame_content c = .ok v ∧
      ∀ w', CSteps (fun x => x.Spares t s.id ∧ x.Leaves b) w2 w' → fetchComment b w'.heap = .ok (v, w'.heap) := by
  obtain ⟨Cs, Os, K, i⟩ := creachable_inv h
  obtain ⟨_, C, hC, rfl, hv, j, n, e, hm, _, rfl, hid, hget⟩ := slot_entry i ht hg
  replace hm := List.mem_of_getElem? hm
  obtain ⟨Cs1, Os1, N1, i1, he1, _⟩ := kept_steps i hs
  obtain ⟨C1, hC1, ea1, hm1⟩ := he1 C hC n e _ hm hid fun c hc => hc
  have hb := i1.entry_blocks hC1 hm1
  obtain ⟨v, _, h2, hv, ⟨O, rfl, ho, r⟩, rfl⟩ := cexec_ok
    (fun a h => { w1 with heap := h, things := (a, .comment) :: w1.things }) (parse_comment_spec i1.rep hb.1 hb.2) hr
  refine ⟨O.addr, e.value, v, rfl, i1.fetch hC1 hm1, hv, ?_⟩
  intro w' hs'
  have ek : O.value.kind = .comment := by
    obtain ⟨_, _, _, _, _, _, _, rfl⟩ := ho
    rfl
  have i2 := i1.newThing r
  rw [ek] at i2
  obtain ⟨Cs', Os', N, i', he', ho'⟩ := kept_steps i2 hs'
  obtain ⟨C', hC', _, hm'⟩ := he' C1 hC1 n e _ hm1 hid fun c hc => by rw [ea1]; exact hc.1
  have hO := ho' O List.mem_cons_self fun c hc => hc.2
  exact fetch_comment ho (has_of i'.rep fun x hx =>
    List.mem_append_right _ (List.mem_append_left _ (List.mem_flatMap.mpr ⟨_, hO, hx⟩)))
    (has_of i'.rep (i'.entry_blocks hC' hm').2)

/-- C56, pictures: the same for `parse_apic_frame_content`. -/
theorem C56_picture {w w1 w2 : CWorld} {t a : Nat} {s : Slot} {h' : Heap} (h : CReachable w) (ht : t ∈ w.tags)
    (hg : s.hget t w.heap = .ok (some a, h')) (hs : CSteps (fun c => c.Spares t s.id) w w1)
    (hr : (CCall.parsePicture a).run w1 = .ok w2) :
    ∃ b c v, w2.things = (b, .picture) :: w1.things ∧ fetchEntry a w1.heap = .ok (c, w1.heap) ∧
      parse_apic_frame_content c = .ok v ∧
      ∀ w', CSteps (fun x => x.Spares t s.id ∧ x.Leaves b) w2 w' → fetchPicture b w'.heap = .ok (v, w'.heap) := by
  obtain ⟨Cs, Os, K, i⟩ := creachable_inv h
  obtain ⟨_, C, hC, rfl, hv, j, n, e, hm, _, rfl, hid, hget⟩ := slot_entry i ht hg
  replace hm := List.mem_of_getElem? hm
  obtain ⟨Cs1, Os1, N1, i1, he1, _⟩ := kept_steps i hs
  obtain ⟨C1, hC1, ea1, hm1⟩ := he1 C hC n e _ hm hid fun c hc => hc
  have hb := i1.entry_blocks hC1 hm1
  obtain ⟨v, _, h2, hv, ⟨O, rfl, ho, r⟩, rfl⟩ := cexec_ok
    (fun a h => { w1 with heap := h, things := (a, .picture) :: w1.things }) (parse_picture_spec i1.rep hb.1 hb.2) hr
  refine ⟨O.addr, e.value, v, rfl, i1.fetch hC1 hm1, hv, ?_⟩
  intro w' hs'
  have ek : O.value.kind = .picture := by
    obtain ⟨_, _, _, _, _, _, _, rfl⟩ := ho
    rfl
  have i2 := i1.newThing r
  rw [ek] at i2
  obtain ⟨Cs', Os', N, i', he', ho'⟩ := kept_steps i2 hs'
  obtain ⟨C', hC', _, hm'⟩ := he' C1 hC1 n e _ hm1 hid fun c hc => by rw [ea1]; exact hc.1
  have hO := ho' O List.mem_cons_self fun c hc => hc.2
  exact fetch_picture ho (has_of i'.rep fun x hx =>
    List.mem_append_right _ (List.mem_append_left _ (List.mem_flatMap.mpr ⟨_, hO, hx⟩)))
    (has_of i'.rep (i'.entry_blocks hC' hm').2)

/-! ### When the pointers dangle -/

/-- The other calls do invalidate the pointer: after a successful setter of the same field of the same tag, the entry is
freed, and accessing it is undefined behaviour. -/
theorem C56_set_dangles {w w' : CWorld} {t a : Nat} {s : Slot} {h' : Heap} {c : CCall} (h : CReachable w) (ht : t ∈ w.tags)
    (hg : s.hget t w.heap = .ok (some a, h')) (hc : c.sets = some (t, s.id)) (ha : c.Allowed w) (hr : c.run w = .ok w') :
    fetchEntry a w'.heap = .ub .useAfterFree := by
  obtain ⟨Cs, Os, K, i⟩ := creachable_inv h
  obtain ⟨_, D, hD, eD, -, x, n, e, hx, hbefore, rfl, hid, -⟩ := slot_entry i ht hg
  have key : ∀ {C : HCTag} {X v h2}, D = C → CSetPost C s.id X v h2 → h2.cells e.addr = none := by
    rintro C X v h2 rfl ⟨C', g, j, m, d, -, -, -, r', hj, hd, -, hfirst, hno⟩
    have : x = j := by
      rcases Nat.lt_trichotomy x j with hlt | heq | hlt
      · obtain ⟨m', e', he', hf⟩ := hfirst x hlt
        rw [hx] at he'
        obtain ⟨-, rfl⟩ : n = m' ∧ e = e' := by simpa using he'
        rw [hid, idEq_ofB _ _ (slot_valid s).1 (slot_valid s).1] at hf
        simp at hf
      · exact heq
      · obtain ⟨m', e', he', hf⟩ := hbefore j hlt
        rw [hj] at he'
        obtain ⟨-, rfl⟩ : m = m' ∧ d = e' := by simpa using he'
        rw [hd, lit_eq, strncmp_ofB 4 _ _ _ (slot_valid s).1 (slot_valid s).1 (slot_valid s).2] at hf
        simp at hf
    subst this
    rw [hx] at hj
    obtain ⟨-, rfl⟩ : n = m ∧ e = d := by simpa using hj
    exact r'.absent hno
  have fin : w'.heap.cells e.addr = none → fetchEntry e.addr w'.heap = .ub .useAfterFree := by
    intro hn
    simp only [fetchEntry, HeapM.bind_apply, loadCFrame, loadCell, hn, Res.bind_ub]
  apply fin
  have step : ∀ {y : HeapM Unit} {g : CTag → Res CTag}, (w.exec y fun _ h => { w with heap := h }) = .ok w' →
      (∀ C X, C.addr = t → C.Linked → Rep w.heap (C.blocks ++ X) →
        Refines (y w.heap) (g C.value) (fun v _ h' => CSetPost C s.id X v h')) → w'.heap.cells e.addr = none := by
    intro y g hr hy
    obtain ⟨A, C, B, rfl, eC, hl, hA, hB, r⟩ := i.tag ht
    obtain ⟨_, _, h2, _, hp, rfl⟩ := cexec_ok (fun _ h => { w with heap := h }) (hy C _ eC hl r) hr
    refine key ?_ hp
    rcases List.mem_append.mp hD with hD | hD
    · exact absurd eD (hA D hD)
    · rcases List.mem_cons.mp hD with hD | hD
      · exact hD
      · exact absurd eD (hB D hD)
  cases c with
  | setText f b en t' =>
    obtain ⟨rfl, hk⟩ := Prod.mk.inj (Option.some.inj hc)
    refine step (g := f.set (srcValue w.heap b) en) hr fun C X eC hl r => ?_
    subst eC
    rw [← hk]
    exact field_set_spec f b en hl r _ (src_at r ha.2)
  | setComment b en t' =>
    obtain ⟨rfl, hk⟩ := Prod.mk.inj (Option.some.inj hc)
    refine step (g := Id3.tag_set_comment (srcValue w.heap b) en) hr fun C X eC hl r => ?_
    subst eC
    rw [← hk]
    exact set_comment_cspec hl r b _ (src_at r ha.2) en
  | setCoverFromBytes b m n t' =>
    obtain ⟨rfl, hk⟩ := Prod.mk.inj (Option.some.inj hc)
    refine step (g := Id3.tag_set_album_cover_from_bytes (srcValue w.heap b) (srcValue w.heap m) n) hr
      fun C X eC hl r => ?_
    subst eC
    rw [← hk]
    exact set_cover_cspec hl r b _ (src_at r ha.2.1) m _ (src_at r ha.2.2) n
  | setCover name image t' =>
    obtain ⟨rfl, hk⟩ := Prod.mk.inj (Option.some.inj hc)
    refine step (g := Id3.tag_set_album_cover name image) hr fun C X eC hl r => ?_
    subst eC
    rw [← hk]
    exact set_cover_file_spec hl r name image
  | _ => cases hc

omit p in
/-- Of a tag that is freed only frames and buffers can be left. -/
theorem freed {h h' : Heap} {C : HCTag} {X : List Block} {a : Nat} {c : Cell} (r : Rep h (C.blocks ++ X))
    (r' : Rep h' (leaks C.tag.list ++ X)) (hm : (a, c) ∈ C.blocks) (h1 : ∀ x y, c ≠ .frame x y) (h2 : ∀ b, c ≠ .bytes b) :
    h'.cells a = none := by
  refine r'.absent fun hx => ?_
  rw [List.map_append] at hx
  rcases List.mem_append.mp hx with hx | hx
  · obtain ⟨⟨a', c'⟩, hb, rfl⟩ := List.mem_map.mp hx
    have hin : (a', c') ∈ C.blocks ∧ ((∃ x y, c' = .frame x y) ∨ ∃ b, c' = .bytes b) := by
      obtain ⟨⟨n, f⟩, hm, hb⟩ := List.mem_flatMap.mp hb
      cases f with
      | none => cases hb
      | some F =>
        have hb : (a', c') ∈ F.leak := hb
        unfold HFrame.leak at hb
        split at hb
        · cases hb
        · have hF : ∀ b ∈ F.blocks, b ∈ C.blocks := fun b hb =>
            mem_inner C _ (mem_frames C.tag _ (List.mem_flatMap.mpr ⟨(n, some F), hm, hb⟩))
          unfold HFrame.blocks at hF
          rcases List.mem_cons.mp hb with hb | hb
          · cases hb
            exact ⟨hF _ List.mem_cons_self, .inl ⟨_, _, rfl⟩⟩
          · refine ⟨hF _ (List.mem_cons_of_mem _ (List.mem_cons_of_mem _ (List.mem_cons_of_mem _ hb))), .inr ?_⟩
            obtain ⟨Fa, Fh, Fd, Fhd, pl⟩ := F
            cases pl <;> simp only [HPayload.buffers, List.mem_cons, Prod.mk.injEq, List.not_mem_nil, or_false] at hb
            · exact ⟨_, hb.2⟩
            · rcases hb with hb | hb <;> exact ⟨_, hb.2⟩
            · rcases hb with hb | hb | hb <;> exact ⟨_, hb.2⟩
    have e1 := (r.cells a' c).mpr (List.mem_append_left _ hm)
    have e2 := (r.cells a' c').mpr (List.mem_append_left _ hin.1)
    rw [e1] at e2
    cases e2
    rcases hin.2 with ⟨x, y, e⟩ | ⟨b, e⟩
    · exact h1 x y e
    · exact h2 b e
  · have hn := r.nodup
    rw [List.map_append, List.nodup_append] at hn
    exact hn.2.2 a (List.mem_map.mpr ⟨_, hm, rfl⟩) a hx rfl

/-- After `free_tag` the entries of the tag are freed, and the contents of the comments point to freed memory. -/
theorem C56_free_dangles {w w1 w2 : CWorld} {t a : Nat} {s : Slot} {h' : Heap} (h : CReachable w) (ht : t ∈ w.tags)
    (hg : s.hget t w.heap = .ok (some a, h')) (hr : (CCall.parseComment a).run w = .ok w1)
    (hf : (CCall.freeTag t).run w1 = .ok w2) :
    fetchEntry a w2.heap = .ub .useAfterFree ∧
      ∃ b, w1.things = (b, .comment) :: w.things ∧ fetchComment b w2.heap = .ub .useAfterFree := by
  obtain ⟨Cs, Os, K, i⟩ := creachable_inv h
  obtain ⟨_, C, hC, rfl, -, j, n, e, hj, -, rfl, hid, -⟩ := slot_entry i ht hg
  have hm := List.mem_of_getElem? hj
  have hb := i.entry_blocks hC hm
  obtain ⟨v, _, h1, -, ⟨O, rfl, ho, r⟩, rfl⟩ := cexec_ok
    (fun a h => { w with heap := h, things := (a, .comment) :: w.things }) (parse_comment_spec i.rep hb.1 hb.2) hr
  have ek : O.value.kind = .comment := by
    obtain ⟨_, _, _, _, _, _, _, rfl⟩ := ho
    rfl
  have i1 := i.newThing r
  rw [ek] at i1
  obtain ⟨A, D, B, rfl, eD, hl, hA, hB, r1⟩ := i1.tag ht
  obtain rfl : C = D := by
    rcases List.mem_append.mp hC with hC | hC
    · exact absurd rfl (hA C hC)
    · rcases List.mem_cons.mp hC with hC | hC
      · exact hC
      · exact absurd rfl (hB C hC)
  obtain ⟨_, _, h2, -, r2, rfl⟩ := cexec_ok
    (fun _ h => { w with heap := h, things := (O.addr, .comment) :: w.things, tags := w.tags.erase C.addr })
    (free_tag_spec r1) hf
  have he : h2.cells e.addr = none := freed r1 r2
    (mem_centries C _ (List.mem_flatMap.mpr ⟨_, hm, mem_cframe e⟩)) (fun _ _ h => (nomatch h)) (fun _ h => (nomatch h))
  refine ⟨?_, O.addr, rfl, ?_⟩
  · show fetchEntry e.addr h2 = _
    simp only [fetchEntry, HeapM.bind_apply, loadCFrame, loadCell, he, Res.bind_ub]
  · show fetchComment O.addr h2 = _
    obtain ⟨m, hF, -⟩ := linked_entry hl (i := j) hj
    have hblock := mem_inner C _ (mem_frames C.tag _ (List.mem_flatMap.mpr
      ⟨_, List.mem_of_getElem? hF, mem_data e.frame⟩))
    obtain ⟨d, s', c', hp, -, b, t', rfl⟩ := ho
    rw [hp] at hblock
    have hd : h2.cells e.frame.data = none := freed r1 r2 hblock (fun _ _ h => (nomatch h)) (fun _ h => (nomatch h))
    have hO : h2.cells b = some (.commentContent (some e.frame.data) (some s') (some t')) :=
      (r2.cells _ _).mpr (List.mem_append_right _ (List.mem_append_right _ (List.mem_append_left _
        (List.mem_flatMap.mpr ⟨_, List.mem_cons_self, List.mem_cons_self⟩))))
    simp only [fetchComment, HThing.addr, HeapM.bind_apply, loadCell, hO, Res.bind_ok, hd, Res.bind_ub]

/-! ### Running programs -/

theorem cdo_call {w : CWorld} {s : CAbs} {c : CCall} {f : Nat → CAbs} (h : CReachable w) (hs : w.Holds s)
    (ha : c.Allowed w) (e : c.abs w.heap s = .ok f) :
    ∃ w' a, c.run w = .ok w' ∧ w'.Holds (f a) ∧ CReachable w' := by
  have st := ccall_refines h hs ha
  rw [e] at st
  obtain ⟨w', a, e1, q⟩ := st
  exact ⟨w', a, e1, q, .step h ha e1⟩

omit p in
theorem cholds_tags {w : CWorld} {s : CAbs} (h : w.Holds s) : w.tags = s.tags.map (·.1) := by
  obtain ⟨Cs, Os, e1, e2, _⟩ := h
  rw [← e1, e2, List.map_map]
  rfl

omit p in
theorem cholds_things {w : CWorld} {s : CAbs} (h : w.Holds s) :
    w.things = s.things.map fun p => (p.1, p.2.kind) := by
  obtain ⟨Cs, Os, _, _, _, e1, e2, _⟩ := h
  rw [← e1, e2, List.map_map]
  rfl

omit p in
theorem callKnown_of {w : CWorld} {s : CAbs} (h : w.Holds s)
    (hk : ∀ p ∈ s.tags, ∀ f, some f ∈ p.2.tag.frames → Known f) : w.AllKnown := by
  intro s' h'
  rw [cholds_unique h' h]
  exact hk

/-- Load a tag from a buffer that the program has as a literal. -/
theorem cload {b : Bytes} {n : Int} {v : CTag} (hv : load_tag_with_buffer b n = .ok v) :
    ∃ w t, (CCall.loadTagWithBuffer (.literal b) n).run (CWorld.start none) = .ok w ∧ CReachable w ∧
      w.Holds ⟨[(t, v)], [], none⟩ := by
  obtain ⟨w, t, hr, hw, hreach⟩ := cdo_call (.start none) (cinv_start none).holds
    (c := .loadTagWithBuffer (.literal b) n) trivial (f := fun a => ⟨[(a, v)], [], none⟩) (by
      show (load_tag_with_buffer b n >>= _) = _
      rw [hv]
      rfl)
  exact ⟨w, t, hr, hreach, hw⟩

/-- Free the only tag. -/
theorem cfree {w : CWorld} {t : Nat} {v : CTag} {d : File} (h : CReachable w) (hw : w.Holds ⟨[(t, v)], [], d⟩)
    (hf : free_tag v = .ok ()) :
    ∃ w', (CCall.freeTag t).run w = .ok w' ∧ CReachable w' ∧ w'.Holds ⟨[], [], d⟩ := by
  have ht : t ∈ w.tags := by rw [cholds_tags hw]; exact List.mem_cons_self
  have e : ([(t, v)] : List (Nat × CTag)).lookup t = some v := by simp
  obtain ⟨w', _, hr, hw', hreach⟩ := cdo_call (c := .freeTag t) h hw ht (f := fun _ => ⟨[], [], d⟩) (by
    simp only [CCall.abs, e, hf, Res.bind_ok]
    simp)
  exact ⟨w', hr, hreach, hw'⟩

/-! ## C74, for the compatibility API -/

/-- The number of blocks that a call loses is that of the specification. -/
theorem loses_length {w : CWorld} {c : CCall} {Cs Cs' : List HCTag} {Os Os' : List HThing} {K N : List Block}
    {f : Nat → CAbs} {q : Nat} {w' : CWorld} (i : CInv w Cs Os K) (ha : c.Allowed w)
    (he : c.abs w.heap (cabs w Cs Os) = .ok f) (e : cabs w' Cs' Os' = f q) (hl : Loses c Cs Cs' N) :
    N.length = c.leak w.heap (cabs w Cs Os) := by
  have load : ∀ {v : Res CTag}, (v >>= fun t => Res.ok fun a => { (cabs w Cs Os) with tags := (a, t) :: (cabs w Cs Os).tags })
      = .ok f → (∃ C, Cs' = C :: Cs ∧ Streams (listStreams C.value.tag.frames) N) →
      N.length = match v with | .ok t => rawLeft t | _ => 0 := by
    intro v hv hC
    obtain ⟨t, rfl, hf⟩ := Res.bind_eq_ok.mp hv
    obtain ⟨C, rfl, hs⟩ := hC
    cases hf
    have := congrArg CAbs.tags e
    have : C.value = t := (Prod.mk.inj (List.cons.inj this).1).2
    rw [hs.length, streams_count, this]
    rfl
  cases c with
  | loadTag => exact load he hl
  | loadTagWithBuffer b n => exact load he hl
  | setTag t =>
    obtain ⟨A, C, B, rfl, rfl, hk, hA, hB, r⟩ := i.tag ha
    obtain ⟨D, hD, ea, n, hs, _, h2, h3⟩ := hl
    have hDC : D = C := by
      rcases List.mem_append.mp hD with hD | hD
      · exact absurd ea (hA D hD)
      rcases List.mem_cons.mp hD with rfl | hD
      · rfl
      · exact absurd ea (hB D hD)
    subst hDC
    simp only [CCall.leak, ctagLeft]
    rw [show (cabs w (A ++ D :: B) Os).tags.lookup D.addr = some D.value from cabs_lookup hA]
    dsimp only
    rw [hs.length]
    have hh : D.value.tag.frames.head? = some (D.tag.frame.map HFrame.value) := rfl
    cases hf : D.tag.frame with
    | none => rw [h3 hf, hh, hf]; rfl
    | some F =>
      rw [h2 (by rw [hf]; exact fun h => (nomatch h)), streams_count, hh, hf]
      rfl
  | freeTag t =>
    obtain ⟨A, C, B, rfl, rfl, hk, hA, hB, r⟩ := i.tag ha
    obtain ⟨D, hD, ea, rfl⟩ := hl
    have hDC : D = C := by
      rcases List.mem_append.mp hD with hD | hD
      · exact absurd ea (hA D hD)
      rcases List.mem_cons.mp hD with rfl | hD
      · rfl
      · exact absurd ea (hB D hD)
    subst hDC
    simp only [CCall.leak, ctagLeft]
    rw [show (cabs w (A ++ D :: B) Os).tags.lookup D.addr = some D.value from cabs_lookup hA]
    exact leaks_length D.tag.list
  | _ => obtain rfl := hl; rfl

theorem cruns_inv {w : CWorld} {n : Nat} (h : CRunsTo w n) : ∃ Cs Os K, CInv w Cs Os K ∧ K.length = n := by
  induction h with
  | start disk picks => exact ⟨_, _, _, cinv_start disk picks, rfl⟩
  | @step w w' c s n _ ha hs hr ih =>
    obtain ⟨Cs, Os, K, i, hK⟩ := ih
    obtain rfl := i.eq hs
    obtain ⟨Cs', Os', N, f, q, i', he, e, _, hl⟩ := cinv_step i ha hr
    exact ⟨_, _, _, i', by rw [List.length_append, loses_length i ha he e hl, hK, Nat.add_comm]⟩

/-- Counting does not restrict the programs. -/
theorem cruns_reachable {w : CWorld} {n : Nat} (h : CRunsTo w n) : CReachable w := by
  induction h with
  | start disk picks => exact .start disk picks
  | step _ ha _ hr ih => exact .step ih ha hr

/-- Every program loses some number of blocks. -/
theorem creachable_runs {w : CWorld} (h : CReachable w) : ∃ n, CRunsTo w n := by
  induction h with
  | start disk picks => exact ⟨0, .start disk picks⟩
  | @step w w' c h ha hr ih =>
    obtain ⟨n, ih⟩ := ih
    obtain ⟨Cs, Os, K, i⟩ := creachable_inv h
    exact ⟨_, .step ih ha i.holds hr⟩

/-- The blocks that a program has lost stay allocated, whatever it does next. -/
theorem cleak_lost {w : CWorld} {n : Nat} (h : CRunsTo w n) : ∃ K : List Block, K.length = n ∧ CLost w K := by
  obtain ⟨Cs, Os, K, i, hK⟩ := cruns_inv h
  exact ⟨K, hK, cinv_lost (K := []) (by rw [List.append_nil]; exact i)⟩

/-- C74, for the compatibility API: a program that holds nothing any more has exactly as many blocks allocated as its calls
have lost, by the count of the specification. -/
theorem cleak_exact {w : CWorld} {n : Nat} (h : CRunsTo w n) (h1 : w.tags = []) (h2 : w.things = []) :
    ∃ K : List Nat, K.Nodup ∧ K.length = n ∧ ∀ a, w.heap.cells a ≠ none ↔ a ∈ K := by
  obtain ⟨Cs, Os, K, i, hK⟩ := cruns_inv h
  have e1 := i.tags
  have e2 := i.things
  rw [h1] at e1
  rw [h2] at e2
  obtain rfl := List.map_eq_nil_iff.mp e1.symm
  obtain rfl := List.map_eq_nil_iff.mp e2.symm
  have r : Rep w.heap K := i.rep.perm (by simp)
  refine ⟨K.map (·.1), r.nodup, by rw [List.length_map, hK], fun a => ?_⟩
  rw [List.mem_map]
  constructor
  · intro ha
    cases hc : w.heap.cells a with
    | none => exact (ha hc).elim
    | some c => exact ⟨(a, c), (r.cells a c).mp hc, rfl⟩
  · rintro ⟨⟨a', c⟩, hm, rfl⟩
    rw [(r.cells _ _).mpr hm]
    exact fun h => (nomatch h)

end Id3.Props

namespace Id3.Props

open Id3 Id3.Spec Id3.H

/-! ### Examples and counterexamples -/

/-- A buffer with a title, a comment and a picture. -/
def demo : Bytes := ofB [0x49, 0x44, 0x33, 3, 0, 0, 0, 0, 0, 51,
  0x54, 0x49, 0x54, 0x32, 0, 0, 0, 4, 0, 0, 0, 0x68, 0x69, 0,
  0x43, 0x4F, 0x4D, 0x4D, 0, 0, 0, 8, 0, 0, 0, 0x65, 0x6E, 0x67, 0, 0x79, 0x6F, 0,
  0x41, 0x50, 0x49, 0x43, 0, 0, 0, 9, 0, 0, 0, 0x69, 0x2F, 0x70, 0, 3, 0, 0x64, 0x65]

/-- A text. -/
def demoText : Bytes := ofB [0x79, 0]

attribute [local instance] lenient

set_option maxRecDepth 10000 in
theorem demo_value : ∃ v, load_tag_with_buffer demo 61 = .ok v ∧
    (∃ c, Slot.get (.text .title) v = .ok (some c) ∧ ∃ x, parse_text_frame_content c = .ok x) ∧
    (∃ c, Slot.get .comment v = .ok (some c) ∧ ∃ x, parse_comment_frame_content c = .ok x) ∧
    (∃ c, Slot.get .cover v = .ok (some c) ∧ ∃ x, parse_apic_frame_content c = .ok x) ∧
    (∃ v', tag_set_title demoText 0 v = .ok v') ∧ free_tag v = .ok () ∧
    ∃ f g k, v.tag.frames = [some f, some g, some k] ∧ Known f ∧ Known g ∧ Known k :=
  ⟨_, rfl, ⟨_, rfl, _, rfl⟩, ⟨_, rfl, _, rfl⟩, ⟨_, rfl, _, rfl⟩, ⟨_, rfl⟩, rfl, _, _, _, rfl, rfl, rfl, rfl⟩

/-- The hypotheses of `C54` and of `C54_program` are met: a tag is loaded, its title is set, and it is freed. -/
example : ∃ (w : CWorld) (c : CCall) (t : Nat), CReachable w ∧ t ∈ w.tags ∧ c = .setText .title (.literal demoText) 0 t ∧
    c.Allowed w ∧ CAllowedCalls w [c, .freeTag t] ∧ ∃ w', c.run w = .ok w' := by
  obtain ⟨v, hv, _, _, _, ⟨v', hs⟩, _⟩ := demo_value
  obtain ⟨w, t, _, hreach, hw⟩ := cload hv
  have ht : t ∈ w.tags := by rw [cholds_tags hw]; exact List.mem_cons_self
  have e : ([(t, v)] : List (Nat × CTag)).lookup t = some v := by simp
  obtain ⟨w', _, hr, hw', _⟩ := cdo_call (c := .setText .title (.literal demoText) 0 t) hreach hw ⟨ht, trivial⟩
    (f := fun _ => ⟨setAt t v' [(t, v)], [], none⟩) (by
      show CAbs.update ⟨[(t, v)], [], none⟩ t (tag_set_title demoText 0) = _
      simp only [CAbs.update, e, hs, Res.bind_ok]
      rfl)
  refine ⟨w, _, t, hreach, ht, rfl, ⟨ht, trivial⟩, ⟨⟨ht, trivial⟩, ?_⟩, w', hr⟩
  intro w'' hr'
  rw [hr] at hr'
  cases hr'
  refine ⟨?_, fun _ _ => trivial⟩
  show t ∈ w'.tags
  rw [cholds_tags hw']
  simp [setAt]

/-- The hypotheses of `C55_partial` are met: a tag with a title, a comment and a picture is loaded and freed. -/
example : ∃ w : CWorld, CReachableTidy w ∧ w.tags = [] ∧ w.things = [] := by
  obtain ⟨v, hv, _, _, _, _, hf, f, g, k, hl, h1, h2, h3⟩ := demo_value
  obtain ⟨w, t, hr, hreach, hw⟩ := cload hv
  obtain ⟨w', hr', _, hw'⟩ := cfree hreach hw hf
  have ht : t ∈ w.tags := by rw [cholds_tags hw]; exact List.mem_cons_self
  refine ⟨w', .step (c := .freeTag t) (.step (c := .loadTagWithBuffer (.literal demo) 61) (.start none) trivial hr ?_) ht
    hr' ?_, (cholds_tags hw').trans rfl, (cholds_things hw').trans rfl⟩
  · refine callKnown_of hw fun q hq f' hf' => ?_
    rcases List.mem_singleton.mp hq with rfl
    have hf' : some f' ∈ v.tag.frames := hf'
    rw [hl] at hf'
    simp only [List.mem_cons, Option.some.injEq, List.not_mem_nil, or_false] at hf'
    rcases hf' with rfl | rfl | rfl
    · exact h1
    · exact h2
    · exact h3
  · exact callKnown_of hw' fun q hq => by cases hq

theorem xyzw_value : ∃ v, load_tag_with_buffer xyzw 22 = .ok v ∧ (v.tag.frames.filter isRaw).length = 1 ∧
    v.tag.frames.head? ≠ some none ∧ free_tag v = .ok () ∧ ∃ x, set_tag (some []) v = .ok x :=
  ⟨_, rfl, rfl, fun h => (nomatch h), rfl, _, rfl⟩

/-- C55 is false: a program that loads the tag `xyzw` and frees it, and holds nothing any more, has lost memory. -/
theorem C55_false : ∃ w : CWorld, CReachable w ∧ w.tags = [] ∧ w.things = [] ∧ ∃ a c, w.heap.cells a = some c := by
  obtain ⟨v, hv, hn, _, hf, _⟩ := xyzw_value
  obtain ⟨w, t, hr, hreach, hw⟩ := cload hv
  obtain ⟨w', hr', hreach', hw'⟩ := cfree hreach hw hf
  have ht : t ∈ w.tags := by rw [cholds_tags hw]; exact List.mem_cons_self
  obtain ⟨t', v', K, et, hv', hK, hl⟩ := C55_load (c := .loadTagWithBuffer (.literal xyzw) 22)
    (.start none) (.inr ⟨_, _, rfl⟩) trivial hr
  refine ⟨w', hreach', (cholds_tags hw').trans rfl, (cholds_things hw').trans rfl, ?_⟩
  have e1 := hv' _ hw
  have e2 : t' = t := by
    rw [cholds_tags hw] at et
    exact (List.cons.inj et).1.symm
  subst e2
  have e3 : v = v' := by simpa using e1
  subst e3
  rw [hn] at hK
  cases K with
  | nil => cases hK
  | cons b K => exact ⟨b.1, b.2, hl.2 w' (.step (c := .freeTag t') .refl trivial ht hr') b List.mem_cons_self⟩

/-- The hypotheses of `cleak_exact` are met by a program that has lost three blocks: it loads the tag `xyzw`, which loses
two blocks, and frees it, which loses one more. -/
example : ∃ w : CWorld, CRunsTo w 3 ∧ w.tags = [] ∧ w.things = [] := by
  have hx : ∃ v, load_tag_with_buffer xyzw 22 = .ok v ∧ rawLeft v = 2 ∧ free_tag v = .ok () ∧
      ((v.tag.frames.filterMap id).map frameLeft).sum = 1 := ⟨_, rfl, rfl, rfl, rfl⟩
  obtain ⟨v, hv, h1, hf, h2⟩ := hx
  obtain ⟨w, t, hr, hreach, hw⟩ := cload hv
  obtain ⟨w', hr', _, hw'⟩ := cfree hreach hw hf
  have ht : t ∈ w.tags := by rw [cholds_tags hw]; exact List.mem_cons_self
  have e : ([(t, v)] : List (Nat × CTag)).lookup t = some v := by simp
  refine ⟨w', ?_, (cholds_tags hw').trans rfl, (cholds_things hw').trans rfl⟩
  have := CRunsTo.step (c := .freeTag t) (.step (c := .loadTagWithBuffer (.literal xyzw) 22) (.start none) trivial
    (cinv_start none).holds hr) ht hw hr'
  simp only [CCall.leak, ctagLeft, srcValue, hv, e, h1, h2] at this
  exact this

/-- The hypotheses of `C55_load`, `C55_write` and `C55_free` are met, with a frame of an unknown kind. -/
example : ∃ (w w1 : CWorld) (t : Nat) (s : CAbs) (v : CTag), CReachable w ∧ w.Holds s ∧ s.tags.lookup t = some v ∧
    v.tag.frames.head? ≠ some none ∧ (v.tag.frames.filter isRaw).length = 1 ∧ t ∈ w.tags ∧
    (CCall.setTag t).run w = .ok w1 ∧ ∃ w2, (CCall.freeTag t).run w = .ok w2 := by
  obtain ⟨v, hv, hn, hh, hf, ⟨d, v'⟩, hx⟩ := xyzw_value
  obtain ⟨w0, t, hr, hreach, hw⟩ := cload hv
  obtain ⟨w, _, _, hw, hreach⟩ := cdo_call (c := .changeDisk (some [])) hreach hw trivial rfl
  have ht : t ∈ w.tags := by rw [cholds_tags hw]; exact List.mem_cons_self
  have e : ([(t, v)] : List (Nat × CTag)).lookup t = some v := by simp
  obtain ⟨w2, hr2, _, _⟩ := cfree hreach hw hf
  obtain ⟨w1, _, hr1, _⟩ := cdo_call (c := .setTag t) hreach hw ht (f := fun _ => ⟨setAt t v' [(t, v)], [], d⟩) (by
    simp only [CCall.abs, e, hx, Res.bind_ok]
    rfl)
  exact ⟨w, w1, t, _, v, hreach, hw, e, hh, hn, ht, hr1, w2, hr2⟩

/-- The hypotheses of `C56_entry`, `C56_comment` and `C56_set_dangles` are met: a program loads a tag and gets its comment;
then it sets the title, and parses the comment, and sets the title again; and it can also set the title that it got. -/
example : ∃ (w w1 w2 w3 : CWorld) (t a b : Nat) (h' h'' : Heap), CReachable w ∧ t ∈ w.tags ∧
    Slot.comment.hget t w.heap = .ok (some a, h') ∧ (Slot.text .title).hget t w.heap = .ok (some b, h'') ∧
    (CCall.setText .title (.literal demoText) 0 t).sets = some (t, (Slot.text .title).id) ∧
    (CCall.setText .title (.literal demoText) 0 t).Allowed w ∧
    (CCall.setText .title (.literal demoText) 0 t).run w = .ok w1 ∧
    CSteps (fun c => c.Spares t Slot.comment.id) w w1 ∧ (CCall.parseComment a).run w1 = .ok w2 ∧
    (∃ x, w2.things = [(x, .comment)] ∧ CSteps (fun c => c.Spares t Slot.comment.id ∧ c.Leaves x) w2 w3) := by
  obtain ⟨v, hv, ⟨ct, hgt, _⟩, ⟨cc, hgc, x, hx⟩, _, ⟨v', hs⟩, _⟩ := demo_value
  obtain ⟨w, t, _, hreach, hw⟩ := cload hv
  have ht : t ∈ w.tags := by rw [cholds_tags hw]; exact List.mem_cons_self
  have e : ([(t, v)] : List (Nat × CTag)).lookup t = some v := by simp
  have q1 := C56_get .comment hreach hw e
  have q2 := C56_get (.text .title) hreach hw e
  rw [hgc] at q1
  rw [hgt] at q2
  obtain ⟨a, hga, hlive, hfetch⟩ := q1
  obtain ⟨b, hgb, _⟩ := q2
  obtain ⟨w1, _, hr, hw1, hreach1⟩ := cdo_call (c := .setText .title (.literal demoText) 0 t) hreach hw ⟨ht, trivial⟩
    (f := fun _ => ⟨setAt t v' [(t, v)], [], none⟩) (by
      show CAbs.update ⟨[(t, v)], [], none⟩ t (tag_set_title demoText 0) = _
      simp only [CAbs.update, e, hs, Res.bind_ok]
      rfl)
  have hsp : CSteps (fun c => c.Spares t Slot.comment.id) w w1 :=
    .step (c := .setText .title (.literal demoText) 0 t) .refl ⟨fun h => (nomatch h), fun h => by
      have := (Prod.mk.inj (Option.some.inj h)).2
      exact absurd this (by decide)⟩ ⟨ht, trivial⟩ hr
  obtain ⟨v2, c2, hv2, hg2, hf2⟩ := C56_entry hreach ht hga hsp
  obtain rfl : v = v2 := by simpa using hv2 _ hw
  rw [hgc] at hg2
  obtain rfl : cc = c2 := by simpa using hg2
  have hlive1 : EntryLive w1.heap a := by
    obtain ⟨Cs, Os, K, i⟩ := creachable_inv hreach
    obtain ⟨_, C, hC, rfl, _, j, n, en, hm, _, rfl, hid, _⟩ := slot_entry i ht hga
    obtain ⟨Cs', Os', N, i', he', _⟩ := kept_steps i hsp
    obtain ⟨C', hC', _, hm'⟩ := he' C hC n en _ (List.mem_of_getElem? hm) hid fun c hc => hc
    exact entry_live (has_of i'.rep (i'.entry_blocks hC' hm').1)
  obtain ⟨w2, y, hr2, hw2, hreach2⟩ := cdo_call (c := .parseComment a) hreach1 hw1 hlive1
    (f := fun y => ⟨setAt t v' [(t, v)], [(y, .comment)], none⟩) (by
      simp only [CCall.abs, hf2, Res.bind_ok, hx]
      rfl)
  exact ⟨w, w1, w2, w2, t, a, b, _, _, hreach, ht, hga, hgb, rfl, ⟨ht, trivial⟩, hr, hsp, hr2, y,
    (cholds_things hw2).trans rfl, .refl⟩

/-- The hypotheses of `C56_text`, `C56_picture` and `C56_free_dangles` are met: a program loads a tag, gets its title, its
comment and its picture, and parses them; it can also free the tag after it has parsed the comment. -/
example : ∃ (w w1 w2 w3 w4 : CWorld) (t a b c : Nat) (h' h'' : Heap), CReachable w ∧ t ∈ w.tags ∧ EntryLive w.heap a ∧
    (CCall.parseText a).run w = .ok w1 ∧ Slot.cover.hget t w.heap = .ok (some b, h') ∧
    (CCall.parsePicture b).run w = .ok w2 ∧ Slot.comment.hget t w.heap = .ok (some c, h'') ∧
    (CCall.parseComment c).run w = .ok w3 ∧ (CCall.freeTag t).run w3 = .ok w4 := by
  obtain ⟨v, hv, ⟨ct, hgt, xt, hxt⟩, ⟨cc, hgc, xc, hxc⟩, ⟨cp, hgp, xp, hxp⟩, _, hf, _⟩ := demo_value
  obtain ⟨w, t, _, hreach, hw⟩ := cload hv
  have ht : t ∈ w.tags := by rw [cholds_tags hw]; exact List.mem_cons_self
  have e : ([(t, v)] : List (Nat × CTag)).lookup t = some v := by simp
  have q1 := C56_get (.text .title) hreach hw e
  have q2 := C56_get .comment hreach hw e
  have q3 := C56_get .cover hreach hw e
  rw [hgt] at q1
  rw [hgc] at q2
  rw [hgp] at q3
  obtain ⟨a, _, la, fa⟩ := q1
  obtain ⟨c, gc, lc, fc⟩ := q2
  obtain ⟨b, gb, lb, fb⟩ := q3
  obtain ⟨w1, _, r1, _⟩ := cdo_call (c := .parseText a) hreach hw la
    (f := fun y => ⟨[(t, v)], [(y, .text xt)], none⟩) (by
      simp only [CCall.abs, fa, Res.bind_ok, hxt]
      rfl)
  obtain ⟨w2, _, r2, _⟩ := cdo_call (c := .parsePicture b) hreach hw lb
    (f := fun y => ⟨[(t, v)], [(y, .picture)], none⟩) (by
      simp only [CCall.abs, fb, Res.bind_ok, hxp]
      rfl)
  obtain ⟨w3, y, r3, hw3, hreach3⟩ := cdo_call (c := .parseComment c) hreach hw lc
    (f := fun y => ⟨[(t, v)], [(y, .comment)], none⟩) (by
      simp only [CCall.abs, fc, Res.bind_ok, hxc]
      rfl)
  have ht3 : t ∈ w3.tags := by rw [cholds_tags hw3]; exact List.mem_cons_self
  obtain ⟨w4, _, r4, _⟩ := cdo_call (c := .freeTag t) hreach3 hw3 ht3 (f := fun _ => ⟨[], [(y, .comment)], none⟩) (by
    simp only [CCall.abs, e, hf, Res.bind_ok]
    simp)
  exact ⟨w, w1, w2, w3, w4, t, a, b, c, _, _, hreach, ht, la, r1, gb, r2, gc, r3, r4⟩

end Id3.Props
