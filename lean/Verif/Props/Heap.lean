import Verif.Proof.Parse
import Verif.Heap.Holds

/-!
# C36-C39: the heap

The properties are about programs that use the library as its documentation allows (Spec/Session.lean): `Reachable w`.
-/

namespace Id3.Props

open Id3 Id3.Spec Id3.H

variable [p : Platform]

/-! ## Example programs -/

/-- "TIT2", zero terminated. -/
def tit2 : Bytes := [some 0x54, some 0x49, some 0x54, some 0x32, some 0]

/-! ## C36 -/

theorem run_holds {w w' : World} {s : Abs} {c : Call} (h : Reachable w) (hs : w.Holds s) (ha : c.Allowed w)
    (hr : c.run w = .ok w') : ∃ f a, c.abs w.heap s = .ok f ∧ w'.Holds (f a) := by
  have st := call_refines h hs ha
  rw [hr] at st
  split at st
  next f he =>
    obtain ⟨w'', a, e, q⟩ := st
    cases e
    exact ⟨f, a, he, q⟩
  next => cases st
  next => cases st
  next => cases st

theorem callerOnly_holds {w w' : World} {s : Abs} (h : Reachable w) (hs : w.Holds s) (hc : CallerOnly w w') :
    Reachable w' ∧ ∃ s', w'.Holds s' ∧ s'.tags = s.tags := by
  induction hc with
  | refl => exact ⟨h, s, hs, rfl⟩
  | @alloc w' w'' b _ hr ih =>
    obtain ⟨h1, s1, hs1, e⟩ := ih
    obtain ⟨f, a, he, q⟩ := run_holds h1 hs1 (c := .alloc b) trivial hr
    cases he
    exact ⟨.step (c := .alloc b) h1 trivial hr, _, q, e⟩
  | @overwrite w' w'' a b _ ha hr ih =>
    obtain ⟨h1, s1, hs1, e⟩ := ih
    obtain ⟨f, a', he, q⟩ := run_holds h1 hs1 (c := .overwrite a b) ha hr
    cases he
    exact ⟨.step (c := .overwrite a b) h1 ha hr, _, q, e⟩
  | @dispose w' w'' a _ ha hr ih =>
    obtain ⟨h1, s1, hs1, e⟩ := ih
    obtain ⟨f, a', he, q⟩ := run_holds h1 hs1 (c := .dispose a) ha hr
    cases he
    exact ⟨.step (c := .dispose a) h1 ha hr, _, q, e⟩

/-- C36: a setter gives the tag the value that the value-level setter computes from the characters that the arguments
point to at that time, wherever they are; it leaves the caller's buffers alone; no block of a tag is a block of the
caller (`World.Holds`); and whatever the caller does to its buffers afterwards, all tags keep their values. -/
theorem C36 {w w' : World} {s : Abs} {c : Call} (h : Reachable w) (hs : w.Holds s) (ha : c.Allowed w) (hc : IsSetter c)
    (hr : c.run w = .ok w') :
    ∃ s' f a, c.abs w.heap s = .ok f ∧ s' = f a ∧ w'.Holds s' ∧ s'.buffers = s.buffers ∧
      ∀ w'', CallerOnly w' w'' → ∃ s'', w''.Holds s'' ∧ s''.tags = s'.tags := by
  obtain ⟨f, a, he, q⟩ := run_holds h hs ha hr
  refine ⟨f a, f, a, he, rfl, q, ?_, fun w'' hw => (callerOnly_holds (.step h ha hr) q hw).2⟩
  have key : ∀ t g, s.update t g = .ok f → (f a).buffers = s.buffers := by
    intro t g e
    unfold Abs.update at e
    split at e
    · cases e
    · obtain ⟨v, _, e2⟩ := Res.bind_eq_ok.mp e
      cases e2
      rfl
  cases c with
  | setTextFrame => exact key _ _ he
  | setCommentFrame => exact key _ _ he
  | addCommentFrame => exact key _ _ he
  | setApicFrame => exact key _ _ he
  | addApicFrame => exact key _ _ he
  | _ => exact hc.elim

/-- The value of the tag does not depend on where the strings are, only on what they are: two calls whose arguments point
to the same characters have the same effect. -/
theorem C36_contents {w : World} {s : Abs} {t : Nat} (i j : H.TextFrameInput)
    (e : textValue w.heap i = textValue w.heap j) :
    (Call.setTextFrame t i).abs w.heap s = (Call.setTextFrame t j).abs w.heap s := by
  simp only [Call.abs, e]

/-! ## C37 -/

/-- C37: no call of a program accesses a freed block, or frees a block twice, or frees something that was not allocated. -/
theorem C37 {w : World} {c : Call} (h : Reachable w) (ha : c.Allowed w) :
    c.run w ≠ .ub .useAfterFree ∧ c.run w ≠ .ub .badFree := by
  obtain ⟨Ts, Ls, Hs, Us, K, i⟩ := reachable_inv h
  have hs := i.holds
  have hn := nomem_abs hs ha
  have st := call_refines h hs ha
  split at st
  next f he =>
    obtain ⟨w', a, e, _⟩ := st
    rw [e]
    exact ⟨fun e => (nomatch e), fun e => (nomatch e)⟩
  next k he =>
    rw [st]
    rw [he] at hn
    exact ⟨fun e => hn.1 (by cases e; rfl), fun e => hn.2 (by cases e; rfl)⟩
  next => rw [st]; exact ⟨fun e => (nomatch e), fun e => (nomatch e)⟩
  next => rw [st]; exact ⟨fun e => (nomatch e), fun e => (nomatch e)⟩

/-- C37, for whole programs: as long as every call is allowed, no program ends with a memory error. -/
theorem C37_program : ∀ (cs : List Call) {w : World}, Reachable w → w.AllowedAll cs →
    w.runAll cs ≠ .ub .useAfterFree ∧ w.runAll cs ≠ .ub .badFree
  | [], _, _, _ => ⟨fun e => (nomatch e), fun e => (nomatch e)⟩
  | c :: cs, w, h, ha => by
    have h1 := C37 h ha.1
    show (c.run w >>= fun w' => w'.runAll cs) ≠ _ ∧ (c.run w >>= fun w' => w'.runAll cs) ≠ _
    cases e : c.run w with
    | ok w' => exact C37_program cs (.step h ha.1 e) (ha.2 w' e)
    | ub k =>
      rw [e] at h1
      exact ⟨fun e => h1.1 (by cases e; rfl), fun e => h1.2 (by cases e; rfl)⟩
    | exit => exact ⟨fun e => (nomatch e), fun e => (nomatch e)⟩
    | diverge => exact ⟨fun e => (nomatch e), fun e => (nomatch e)⟩

/-- Every call of a program does to the tags, to the caller's buffers and to the file what the value-level model says, and
fails in the same way: pointers make no difference. -/
theorem C37_refinement {w : World} {s : Abs} {c : Call} (h : Reachable w) (hs : w.Holds s) (ha : c.Allowed w) :
    match c.abs w.heap s with
    | .ok f => ∃ w' a, c.run w = .ok w' ∧ w'.Holds (f a)
    | .ub k => c.run w = .ub k
    | .exit => c.run w = .exit
    | .diverge => c.run w = .diverge := call_refines h hs ha

/-- The theorems above are about programs that hold what they are said to hold: there always is a value, and only one. -/
theorem C37_holds {w : World} (h : Reachable w) : ∃ s, w.Holds s ∧ ∀ s', w.Holds s' → s' = s := by
  obtain ⟨Ts, Ls, Hs, Us, K, i⟩ := reachable_inv h
  exact ⟨_, i.holds, fun s' hs' => i.eq hs'⟩

/-! ## C38 -/

/-- A tag with one frame of an unknown kind. -/
def xyzw : Bytes := [some 0x49, some 0x44, some 0x33, some 3, some 0, some 0, some 0, some 0, some 0, some 12,
  some 0x58, some 0x59, some 0x5A, some 0x57, some 0, some 0, some 0, some 1, some 0, some 0, some 7, some 0]

/-- C38 holds for programs whose tags have text, comment and picture frames only, and that delete comments and pictures by
the index 0 only: once such a program holds nothing any more, nothing is allocated. Missing: frames of other kinds
(`C38_false`), and other indices (`C38_false_index`). -/
theorem C38_partial {w : World} (h : ReachableTidy w) (h1 : w.tags = []) (h2 : w.lists = []) (h3 : w.headers = [])
    (h4 : w.buffers = []) (a : Nat) : w.heap.cells a = none := by
  obtain ⟨Ts, Ls, Hs, Us, i⟩ := reachable_tidy h
  have e1 := i.tags
  have e2 := i.lists
  have e3 := i.headers
  have e4 := i.buffers
  rw [h1] at e1
  rw [h2] at e2
  rw [h3] at e3
  rw [h4] at e4
  obtain rfl := List.map_eq_nil_iff.mp e1.symm
  obtain rfl := List.map_eq_nil_iff.mp e2.symm
  obtain rfl := List.map_eq_nil_iff.mp e3.symm
  obtain rfl := List.map_eq_nil_iff.mp e4.symm
  cases hc : w.heap.cells a with
  | none => rfl
  | some c => exact absurd ((i.rep.cells a c).mp hc) (by simp [rest])

omit p in
/-- The tags of a state that are known. -/
theorem allKnown_of {w : World} {s : Abs} (hs : w.Holds s) (hk : ∀ q ∈ s.tags, ∀ f, some f ∈ q.2.frames → Known f) :
    w.AllKnown := fun s' hs' => by rw [holds_unique hs' hs]; exact hk

theorem inv_steps {w w' : World} {Ts : List HTag} {Ls : List HList} {Hs : List (Nat × TagHeader)}
    {Us : List (Nat × Bytes)} {K : List Block} (i : Inv w Ts Ls Hs Us K) (h : Steps w w') :
    ∃ Ts' Ls' Hs' Us' N, Inv w' Ts' Ls' Hs' Us' (N ++ K) := by
  induction h with
  | refl => exact ⟨_, _, _, _, [], i⟩
  | @step w' w'' c _ ha hr ih =>
    obtain ⟨Ts', Ls', Hs', Us', N, i'⟩ := ih
    have st := step_ok i' c ha
    rw [hr] at st
    unfold StepOk at st
    split at st
    next f he =>
      obtain ⟨w3, Ts', Ls', Hs', Us', N', q, e, i', _⟩ := st
      cases e
      exact ⟨_, _, _, _, N' ++ N, by rw [List.append_assoc]; exact i'⟩
    next => cases st
    next => cases st
    next => cases st

theorem inv_lost {w : World} {Ts : List HTag} {Ls : List HList} {Hs : List (Nat × TagHeader)}
    {Us : List (Nat × Bytes)} {N K : List Block} (i : Inv w Ts Ls Hs Us (N ++ K)) : Lost w N := by
  have key : ∀ {w' Ts' Ls' Hs' Us' M}, Inv w' Ts' Ls' Hs' Us' (M ++ (N ++ K)) →
      ∃ X, Rep w'.heap (N ++ X) := by
    intro w' Ts' Ls' Hs' Us' M i
    refine ⟨Ts'.flatMap HTag.blocks ++ rest Ls' Hs' Us' (M ++ K), i.rep.perm ?_⟩
    unfold rest
    blocks
  constructor
  · obtain ⟨X, r⟩ := key (M := []) i
    have := r.nodup
    rw [List.map_append, List.nodup_append] at this
    exact this.1
  · intro w' hw b hb
    obtain ⟨Ts', Ls', Hs', Us', M, i'⟩ := inv_steps i hw
    obtain ⟨X, r⟩ := key i'
    exact (r.cells _ _).mpr (List.mem_append_left _ hb)

omit p in
/-- Run a call that succeeds. -/
theorem exec_ok {α β : Type} {w w' : World} {x : HeapM α} {v : Res β} {Q : β → α → Heap → Prop} (k : α → Heap → World)
    (hx : Refines (x w.heap) v Q) (hr : w.exec x k = .ok w') : ∃ b a h', v = .ok b ∧ Q b a h' ∧ w' = k a h' := by
  obtain ⟨⟨a, h'⟩, e1, e2⟩ := Res.bind_eq_ok.mp hr
  cases e2
  cases v with
  | ok b =>
    obtain ⟨_, _, e, q⟩ := hx
    rw [e1] at e
    cases e
    exact ⟨b, a, h', rfl, q, rfl⟩
  | ub k => rw [show x w.heap = .ub k from hx] at e1; cases e1
  | exit => rw [show x w.heap = .exit from hx] at e1; cases e1
  | diverge => rw [show x w.heap = .diverge from hx] at e1; cases e1

/-- What `ID3v2_Tag_free` leaves allocated, exactly: everything that does not belong to the tag, and, for every frame of
the tag whose id does not begin with `T`, `C` or `A`, the frame itself (and the buffers of its data struct, for a frame made
by `ID3v2_Tag_set_text_frame` with such an id). -/
theorem C38_free {w w' : World} {t : Nat} (h : Reachable w) (ht : t ∈ w.tags) (hr : (Call.freeTag t).run w = .ok w') :
    ∃ T : HTag, T.addr = t ∧ (∀ b ∈ T.blocks, w.heap.cells b.1 = some b.2) ∧
      (∀ s, w.Holds s → s.tags.lookup t = some T.value) ∧
      ∀ a c, w'.heap.cells a = some c ↔ w.heap.cells a = some c ∧ ((a, c) ∈ T.blocks →
        ∃ n F, (n, some F) ∈ T.list ∧ UnknownId F.header.id ∧
          ((a, c) = (F.addr, .frame (some F.hdr) (some F.data)) ∨ (a, c) ∈ F.payload.buffers)) := by
  obtain ⟨Ts, Ls, Hs, Us, K, i⟩ := reachable_inv h
  obtain ⟨A, T, B, rfl, rfl, hA, hB, r⟩ := i.tag ht
  refine ⟨T, rfl, fun b hb => (r.cells _ _).mpr (List.mem_append_left _ hb), ?_, ?_⟩
  · intro s hs
    rw [i.eq hs]
    exact abs_lookup hA
  obtain ⟨_, _, h', _, r', rfl⟩ := exec_ok
    (fun _ h => { w with heap := h, tags := w.tags.erase T.addr }) (tag_free_spec r) hr
  intro a c
  show h'.cells a = some c ↔ _
  have hl : (a, c) ∈ leaks T.list ↔ ∃ n F, (n, some F) ∈ T.list ∧ UnknownId F.header.id ∧
      ((a, c) = (F.addr, .frame (some F.hdr) (some F.data)) ∨ (a, c) ∈ F.payload.buffers) := by
    unfold leaks
    rw [List.mem_flatMap]
    constructor
    · rintro ⟨⟨n, f⟩, hm, hb⟩
      cases f with
      | none => cases hb
      | some F =>
        have hb' : (a, c) ∈ F.leak := hb
        unfold HFrame.leak at hb'
        split at hb'
        · cases hb'
        next hn =>
          rw [not_or, not_or] at hn
          exact ⟨n, F, hm, hn, List.mem_cons.mp hb'⟩
    · rintro ⟨n, F, hm, hu, hb⟩
      refine ⟨(n, some F), hm, ?_⟩
      show (a, c) ∈ F.leak
      unfold HFrame.leak
      rw [if_neg (by rw [not_or, not_or]; exact hu)]
      exact List.mem_cons.mpr hb
  have hsub : (a, c) ∈ leaks T.list → (a, c) ∈ T.blocks := by
    intro hm
    obtain ⟨n, F, hF, _, hb⟩ := hl.mp hm
    refine mem_frames T _ (List.mem_flatMap.mpr ⟨(n, some F), hF, ?_⟩)
    show (a, c) ∈ F.blocks
    unfold HFrame.blocks
    rcases hb with hb | hb
    · rw [hb]; exact List.mem_cons_self
    · exact List.mem_cons_of_mem _ (List.mem_cons_of_mem _ (List.mem_cons_of_mem _ hb))
  have hdis : (a, c) ∈ T.blocks → (a, c) ∉ (A ++ B).flatMap HTag.blocks ++ rest Ls Hs Us K := by
    intro h1 h2
    have hn := r.nodup
    rw [List.map_append, List.nodup_append] at hn
    exact hn.2.2 a (List.mem_map.mpr ⟨_, h1, rfl⟩) a (List.mem_map.mpr ⟨_, h2, rfl⟩) rfl
  rw [r'.cells, r.cells, ← hl]
  constructor
  · intro hm
    rcases List.mem_append.mp hm with hm | hm
    · exact ⟨List.mem_append_left _ (hsub hm), fun _ => hm⟩
    · exact ⟨List.mem_append_right _ hm, fun hb => absurd hm (hdis hb)⟩
  · rintro ⟨hm, g⟩
    rcases List.mem_append.mp hm with hm | hm
    · exact List.mem_append_left _ (g hm)
    · exact List.mem_append_right _ hm

/-- Writing a tag to a file loses two blocks for every frame of an unknown kind: they stay allocated whatever the program
does, also when it frees the tag. (The stream made for such a frame is never freed.) -/
theorem C38_write {w w' : World} {t : Nat} {s : Abs} {v : Tag} (h : Reachable w) (hs : w.Holds s)
    (hv : s.tags.lookup t = some v) (hf : v.frames.head? ≠ some none) (ht : t ∈ w.tags)
    (hr : (Call.writeTag t).run w = .ok w') : ∃ K, K.length = 2 * (v.frames.filter isRaw).length ∧ Lost w' K := by
  obtain ⟨Ts, Ls, Hs, Us, K, i⟩ := reachable_inv h
  obtain rfl := i.eq hs
  obtain ⟨A, T, B, rfl, rfl, hA, hB, r⟩ := i.tag ht
  obtain rfl : T.value = v := Option.some.inj ((abs_lookup hA).symm.trans hv)
  obtain ⟨_, _, h', _, ⟨rfl, N, n, hN, _, hn, _, tr⟩, rfl⟩ := exec_ok
    (fun f h => { w with heap := h, disk := f }) (write_spec r w.disk) hr
  obtain ⟨T', i', _⟩ := i.changed tr hA hB _
  refine ⟨N, ?_, inv_lost i'⟩
  rw [hN.length, hn ?_, streams_count]
  intro e
  apply hf
  show (T.frame.map HFrame.value :: _).head? = some none
  rw [e]
  rfl

/-- Deleting a comment or a picture by index loses list nodes: as many as the index says, or, if the index is not that of
a comment or picture, all nodes of the list of matches. They stay allocated whatever the program does. -/
theorem C38_index {w w' : World} {t : Nat} {s : Abs} {v : Tag} {id : Bytes} {index : Int} {m : List (Nat × Frame)}
    (h : Reachable w) (hs : w.Holds s) (hv : s.tags.lookup t = some v) (hm : FrameList_matching v.frames id = .ok m)
    (hne : m ≠ []) (ht : t ∈ w.tags) (hr : (Call.deleteFrameAt t id index).run w = .ok w') :
    ∃ K, K.length = (if 0 ≤ index ∧ index < m.length then index.toNat else m.length) ∧ Lost w' K := by
  obtain ⟨Ts, Ls, Hs, Us, K, i⟩ := reachable_inv h
  obtain rfl := i.eq hs
  obtain ⟨A, T, B, rfl, rfl, hA, hB, r⟩ := i.tag ht
  obtain rfl : T.value = v := Option.some.inj ((abs_lookup hA).symm.trans hv)
  obtain ⟨_, _, h', _, ⟨N, L, tr, al⟩, rfl⟩ := exec_ok (fun _ h => { w with heap := h })
    (delete_at_spec r id index) hr
  obtain ⟨T', i', _⟩ := i.changed (N := N ++ L) tr hA hB w.disk
  rw [List.append_assoc] at i'
  refine ⟨N, ?_, inv_lost i'⟩
  obtain ⟨m', e, hl⟩ := al.count
  obtain rfl : m = m' := by
    have := hm.symm.trans e
    cases this
    rfl
  rw [hl]
  unfold leakedNodes
  have : max 1 m.length = m.length := by
    cases m with
    | nil => exact absurd rfl hne
    | cons => simp
  rw [this]

/-! ### Examples and counterexamples -/

theorem do_call {w : World} {s : Abs} {c : Call} {f : Nat → Abs} (h : Reachable w) (hs : w.Holds s) (ha : c.Allowed w)
    (e : c.abs w.heap s = .ok f) : ∃ w' a, c.run w = .ok w' ∧ w'.Holds (f a) ∧ Reachable w' := by
  have st := call_refines h hs ha
  rw [e] at st
  obtain ⟨w', a, e1, q⟩ := st
  exact ⟨w', a, e1, q, .step h ha e1⟩

omit p in
theorem exec_inv {α : Type} {w w' : World} {x : HeapM α} (k : α → Heap → World) (hr : w.exec x k = .ok w') :
    ∃ a h, w' = k a h := by
  obtain ⟨⟨a, h'⟩, _, e2⟩ := Res.bind_eq_ok.mp hr
  cases e2
  exact ⟨a, h', rfl⟩

omit p in
theorem holds_start (disk : File) : (World.start disk).Holds ⟨[], [], disk⟩ := (inv_start disk).holds

omit p in
theorem holds_tags {w : World} {s : Abs} (h : w.Holds s) : w.tags = s.tags.map (·.1) := by
  obtain ⟨Ts, e1, e2, _⟩ := h
  rw [e2, ← e1, List.map_map]
  rfl

/-- The hypotheses of `C36` and `C37` are met: the title of a new tag is set from a buffer of the caller. -/
example : ∃ w w' s c a b, c = Call.setTextFrame a ⟨.literal tit2, .literal [some 0, some 0], .block b⟩ ∧ b ∈ w.buffers ∧
    Reachable w ∧ w.Holds s ∧ c.Allowed w ∧ IsSetter c ∧ c.run w = .ok w' := by
  have hv : ∃ v, ID3v2_Tag_set_text_frame ID3v2_Tag_new_empty ⟨tit2, [some 0, some 0], [some 0x68, some 0x69, some 0]⟩ =
      .ok v := by
    obtain ⟨b, n, c⟩ := p
    cases b <;> cases c <;> exact ⟨_, rfl⟩
  obtain ⟨v, hv⟩ := hv
  obtain ⟨w, a, _, hw, hreach⟩ := do_call (.start none) (holds_start none) (c := .newTag) trivial
    (f := Abs.add ⟨[], [], none⟩ (some ID3v2_Tag_new_empty)) rfl
  obtain ⟨w, b, _, hw, hreach⟩ := do_call hreach hw (c := .alloc [some 0x68, some 0x69, some 0]) trivial
    (f := fun x => ⟨[(a, ID3v2_Tag_new_empty)], [(x, [some 0x68, some 0x69, some 0])], none⟩) rfl
  have ht : a ∈ w.tags := by rw [holds_tags hw]; exact List.mem_cons_self
  obtain ⟨Ts, h1, h2, h3, h4, h5, h6⟩ := id hw
  have hb : w.heap.cells b = some (.bytes [some 0x68, some 0x69, some 0]) :=
    h6 (b, .bytes [some 0x68, some 0x69, some 0]) (List.mem_append_right _ List.mem_cons_self)
  have ha : (Call.setTextFrame a ⟨.literal tit2, .literal [some 0, some 0], .block b⟩).Allowed w :=
    ⟨ht, trivial, trivial, _, hb⟩
  have e : ([(a, ID3v2_Tag_new_empty)] : List (Nat × Tag)).lookup a = some ID3v2_Tag_new_empty := by simp
  obtain ⟨w', _, hr, _⟩ := do_call hreach hw ha
    (f := fun _ => ⟨setAt a v [(a, ID3v2_Tag_new_empty)], [(b, [some 0x68, some 0x69, some 0])], none⟩) (by
      show Abs.update ⟨[(a, ID3v2_Tag_new_empty)], _, none⟩ a _ = _
      simp only [Abs.update, e, textValue, srcValue, hb, hv]
      rfl)
  exact ⟨w, w', _, _, a, b, rfl, by rw [h3]; exact List.mem_cons_self, hreach, hw, ha, trivial, hr⟩

/-- The program that reads the tag `xyzw`. -/
theorem read_xyzw : ∃ w a v f, Reachable w ∧ w.Holds ⟨[(a, v)], [], none⟩ ∧ w.lists = [] ∧ w.headers = [] ∧
    w.buffers = [] ∧ v.frames = [some f] ∧ UnknownId f.header.id ∧ isRaw (some f) ∧ freeFrames v.frames = .ok () ∧
    ∃ x, ID3v2_write_tag (some []) v = .ok x := by
  have hv : ∃ v f, ID3v2_read_tag_from_buffer xyzw 22 = .ok (some v) ∧ v.frames = [some f] ∧ UnknownId f.header.id ∧
      isRaw (some f) ∧ freeFrames v.frames = .ok () ∧ ∃ x, ID3v2_write_tag (some []) v = .ok x := by
    obtain ⟨b, n, c⟩ := p
    unfold ID3v2_write_tag existingTagSize ID3v2_read_tag_header ID3v2_read_tag_from_buffer Tag_parse
    simp only [header_sign, header_buffer_sign]
    cases b <;> cases c <;> exact ⟨_, _, rfl, rfl, ⟨by decide, by decide, by decide⟩, rfl, rfl, _, rfl⟩
  obtain ⟨v, f, h1, h2, h3, h4, h5, h6⟩ := hv
  obtain ⟨w, a, hr, hw, hreach⟩ := do_call (.start none) (holds_start none) (c := .readTagFromBuffer (.literal xyzw) 22)
    trivial (f := Abs.add ⟨[], [], none⟩ (some v)) (by
      show (ID3v2_read_tag_from_buffer xyzw 22 >>= _) = _
      rw [h1]
      rfl)
  obtain ⟨a', h', rfl⟩ := exec_inv (fun p h => { (World.start none) with heap := h, tags := hold p [] }) hr
  exact ⟨_, a, v, f, hreach, hw, rfl, rfl, rfl, h2, h3, h4, h5, h6⟩

/-- C38 is false: a program that reads this tag and frees it, and holds nothing any more, has lost a block. -/
theorem C38_false : ∃ w : World, Reachable w ∧ w.tags = [] ∧ w.lists = [] ∧ w.headers = [] ∧ w.buffers = [] ∧
    ∃ a c, w.heap.cells a = some c := by
  obtain ⟨w, a, v, f, hreach, hw, e1, e2, e3, hv, hu, _, hf, _⟩ := read_xyzw
  have ht : a ∈ w.tags := by rw [holds_tags hw]; exact List.mem_cons_self
  obtain ⟨w', b, hr, hw', hreach'⟩ := do_call (c := .freeTag a) hreach hw ht (f := fun _ => ⟨[], [], none⟩) (by
    have e : ([(a, v)] : List (Nat × Tag)).lookup a = some v := by simp
    simp only [Call.abs, e, hf]
    simp [Res.bind_ok])
  obtain ⟨T, rfl, hT, hval, hcells⟩ := C38_free hreach ht hr
  obtain rfl : v = T.value := by
    have := hval _ hw
    simpa using this
  obtain ⟨u, h', rfl⟩ := exec_inv (fun _ h => { w with heap := h, tags := w.tags.erase T.addr }) hr
  refine ⟨_, hreach', (holds_tags hw').trans rfl, e1, e2, e3, ?_⟩
  have hv' : T.frame.map HFrame.value :: vals T.rest = [some f] := hv
  simp only [List.cons.injEq] at hv'
  obtain ⟨F, hF, rfl⟩ := Option.map_eq_some_iff.mp hv'.1
  have hm : (T.head, some F) ∈ T.list := by
    unfold HTag.list
    rw [hF]
    exact List.mem_cons_self
  have hb : (F.addr, Cell.frame (some F.hdr) (some F.data)) ∈ T.blocks :=
    mem_frames T _ (List.mem_flatMap.mpr ⟨_, hm, List.mem_cons_self⟩)
  exact ⟨F.addr, _, (hcells _ _).mpr ⟨hT _ hb, fun _ => ⟨_, F, hm, hu, .inl rfl⟩⟩⟩

/-- The hypotheses of `C38_free` and `C38_write` are met: the tag can be written to an empty file, and freed. -/
example : ∃ w t s v w', Reachable w ∧ w.Holds s ∧ s.tags.lookup t = some v ∧ v.frames.head? ≠ some none ∧ t ∈ w.tags ∧
    (Call.writeTag t).run w = .ok w' ∧ (v.frames.filter isRaw).length = 1 := by
  obtain ⟨w, a, v, f, hreach, hw, e1, e2, e3, hv, hu, hraw, hf, ⟨x, v'⟩, hx⟩ := read_xyzw
  obtain ⟨w1, b, hr, hw1, hreach1⟩ := do_call (c := .changeDisk (some [])) hreach hw trivial rfl
  have ht : a ∈ w1.tags := by rw [holds_tags hw1]; exact List.mem_cons_self
  have e : ([(a, v)] : List (Nat × Tag)).lookup a = some v := by simp
  obtain ⟨w', c, hr', _⟩ := do_call (c := .writeTag a) hreach1 hw1 ht (f := fun _ =>
      ⟨setAt a v' [(a, v)], [], x⟩) (by
    simp only [Call.abs, e, hx]
    simp only [Res.bind_ok]
    rfl)
  refine ⟨w1, a, _, v, w', hreach1, hw1, e, ?_, ht, hr', ?_⟩
  · rw [hv]; simp
  · rw [hv, List.filter_cons, if_pos hraw]; rfl

/-- A comment. -/
def someComment : H.CommentFrameInput :=
  ⟨.literal [some 0, some 0], .literal [some 0x65, some 0x6E, some 0x67], .literal [some 0x61, some 0],
    .literal [some 0x62, some 0]⟩

/-- The program that makes a tag with this comment. It has known frames only. -/
theorem make_comment : ∃ w a v m, Reachable w ∧ w.Holds ⟨[(a, v)], [], none⟩ ∧ w.lists = [] ∧ w.headers = [] ∧
    w.buffers = [] ∧ (∀ f, some f ∈ v.frames → Known f) ∧ FrameList_matching v.frames COMMENT_ID = .ok [m] ∧
    ID3v2_Tag_delete_frame_at v COMMENT_ID 1 = .ok v ∧ freeFrames v.frames = .ok () ∧ ReachableTidy w := by
  have hv : ∃ v m f, ID3v2_Tag_add_comment_frame ID3v2_Tag_new_empty ⟨[some 0, some 0], [some 0x65, some 0x6E, some 0x67],
      [some 0x61, some 0], [some 0x62, some 0]⟩ = .ok v ∧ v.frames = [some f] ∧ Known f ∧
      FrameList_matching v.frames COMMENT_ID = .ok [m] ∧ ID3v2_Tag_delete_frame_at v COMMENT_ID 1 = .ok v ∧
      freeFrames v.frames = .ok () := by
    obtain ⟨b, n, c⟩ := p
    cases b <;> cases c <;> exact ⟨_, _, _, rfl, rfl, rfl, rfl, rfl, rfl⟩
  obtain ⟨v, m, f, h1, h2, h3, h4, h5, h6⟩ := hv
  have hk : ∀ f, some f ∈ v.frames → Known f := by
    intro g hg
    rw [h2] at hg
    cases List.mem_singleton.mp hg
    exact h3
  obtain ⟨w, a, hr, hw, hreach⟩ := do_call (.start none) (holds_start none) (c := .newTag) trivial
    (f := Abs.add ⟨[], [], none⟩ (some ID3v2_Tag_new_empty)) rfl
  have ht : a ∈ w.tags := by rw [holds_tags hw]; exact List.mem_cons_self
  have e : ([(a, ID3v2_Tag_new_empty)] : List (Nat × Tag)).lookup a = some ID3v2_Tag_new_empty := by simp
  have ha : (Call.addCommentFrame a someComment).Allowed w := ⟨ht, trivial, trivial, trivial, trivial⟩
  obtain ⟨w', c, hr', hw', hreach'⟩ := do_call (c := .addCommentFrame a someComment) hreach hw ha
    (f := fun _ => ⟨setAt a v [(a, ID3v2_Tag_new_empty)], [], none⟩) (by
      show Abs.update ⟨[(a, ID3v2_Tag_new_empty)], [], none⟩ a _ = _
      simp only [Abs.update, e, commentValue, srcValue, someComment, h1]
      rfl)
  have tidy : ReachableTidy w' := by
    refine .step (c := .addCommentFrame a someComment) (.step (c := .newTag) (.start none) ?_ (fun _ _ _ e => by cases e)
      trivial hr) ?_ (fun _ _ _ e => by cases e) ha hr'
    · exact allKnown_of (holds_start none) fun q hq => by cases hq
    · refine allKnown_of hw fun q hq f hf => ?_
      rcases List.mem_singleton.mp hq with rfl
      have : some f ∈ [none] := hf
      cases List.mem_singleton.mp this
  obtain ⟨a', h', rfl⟩ := exec_inv (fun a h => { (World.start none) with heap := h, tags := a :: [] }) hr
  obtain ⟨_, h'', rfl⟩ := exec_inv (fun _ h =>
    { (World.start none) with heap := h, tags := a' :: [] }) hr'
  have es : setAt a v [(a, ID3v2_Tag_new_empty)] = [(a, v)] := by simp [setAt]
  rw [es] at hw'
  exact ⟨_, a, v, m, hreach', hw', rfl, rfl, rfl, hk, h4, h5, h6, tidy⟩

/-- The hypotheses of `C38_partial` are met: the tag with the comment is freed. -/
example : ∃ w : World, ReachableTidy w ∧ w.tags = [] ∧ w.lists = [] ∧ w.headers = [] ∧ w.buffers = [] := by
  obtain ⟨w, a, v, m, hreach, hw, e1, e2, e3, hk, _, _, hf, tidy⟩ := make_comment
  have ht : a ∈ w.tags := by rw [holds_tags hw]; exact List.mem_cons_self
  have e : ([(a, v)] : List (Nat × Tag)).lookup a = some v := by simp
  obtain ⟨w', b, hr, hw', hreach'⟩ := do_call (c := .freeTag a) hreach hw ht (f := fun _ => ⟨[], [], none⟩) (by
    simp only [Call.abs, e, hf]
    simp [Res.bind_ok])
  have tidy' : ReachableTidy w' := .step (c := .freeTag a) tidy (allKnown_of hw fun q hq => by
    rcases List.mem_singleton.mp hq with rfl
    exact hk) (fun _ _ _ e => by cases e) ht hr
  obtain ⟨u, h', rfl⟩ := exec_inv (fun _ h => { w with heap := h, tags := w.tags.erase a }) hr
  exact ⟨_, tidy', (holds_tags hw').trans rfl, e1, e2, e3⟩

/-- C38 is false also without unknown frames: a program that makes a tag with one comment, deletes the second comment,
which does not exist, and frees the tag has lost a block. -/
theorem C38_false_index : ∃ w : World, Reachable w ∧ w.tags = [] ∧ w.lists = [] ∧ w.headers = [] ∧ w.buffers = [] ∧
    ∃ a c, w.heap.cells a = some c := by
  obtain ⟨w, a, v, m, hreach, hw, e1, e2, e3, hk, hm, hd, hf, _⟩ := make_comment
  have ht : a ∈ w.tags := by rw [holds_tags hw]; exact List.mem_cons_self
  have e : ([(a, v)] : List (Nat × Tag)).lookup a = some v := by simp
  have es : setAt a v [(a, v)] = [(a, v)] := by simp [setAt]
  obtain ⟨w1, b, hr, hw1, hreach1⟩ := do_call (c := .deleteFrameAt a COMMENT_ID 1) hreach hw ht
    (f := fun _ => ⟨[(a, v)], [], none⟩) (by
      show Abs.update ⟨[(a, v)], [], none⟩ a _ = _
      simp only [Abs.update, e, hd, Res.bind_ok, es]
      rfl)
  obtain ⟨K, hK, hlost⟩ := C38_index hreach hw e hm (by simp) ht hr
  obtain ⟨_, h', rfl⟩ := exec_inv (fun _ h => { w with heap := h }) hr
  obtain ⟨w2, b, hr2, hw2, hreach2⟩ := do_call (c := .freeTag a) hreach1 hw1 ht (f := fun _ => ⟨[], [], none⟩) (by
    simp only [Call.abs, e, hf]
    simp [Res.bind_ok])
  have hs := hlost.2 w2 (.step (c := .freeTag a) .refl ht hr2)
  obtain ⟨_, h'', rfl⟩ := exec_inv (fun _ h => { w with heap := h, tags := w.tags.erase a }) hr2
  refine ⟨_, hreach2, (holds_tags hw2).trans rfl, e1, e2, e3, ?_⟩
  cases K with
  | nil => cases hK
  | cons k K => exact ⟨k.1, k.2, hs k List.mem_cons_self⟩

/-! ## C74 -/

/-- What is known of the heap of a program, with the number of blocks that it has lost. -/
theorem runs_inv {w : World} {n : Nat} (h : RunsTo w n) : ∃ Ts Ls Hs Us K, Inv w Ts Ls Hs Us K ∧ K.length = n := by
  induction h with
  | start disk picks => exact ⟨_, _, _, _, _, inv_start disk picks, rfl⟩
  | @step w w' c s n _ ha hs hr ih =>
    obtain ⟨Ts, Ls, Hs, Us, K, i, hK⟩ := ih
    obtain rfl := i.eq hs
    have st := step_ok i c ha
    rw [hr] at st
    unfold StepOk at st
    split at st
    next f he =>
      obtain ⟨w3, Ts', Ls', Hs', Us', N, q, e, i', _, hN⟩ := st
      cases e
      exact ⟨_, _, _, _, N ++ K, i', by rw [List.length_append, hN.1, hK, Nat.add_comm]⟩
    next => cases st
    next => cases st
    next => cases st

/-- Counting does not restrict the programs. -/
theorem runs_reachable {w : World} {n : Nat} (h : RunsTo w n) : Reachable w := by
  induction h with
  | start disk picks => exact .start disk picks
  | step _ ha _ hr ih => exact .step ih ha hr

/-- Every program loses some number of blocks. -/
theorem reachable_runs {w : World} (h : Reachable w) : ∃ n, RunsTo w n := by
  induction h with
  | start disk picks => exact ⟨0, .start disk picks⟩
  | @step w w' c h ha hr ih =>
    obtain ⟨n, ih⟩ := ih
    obtain ⟨Ts, Ls, Hs, Us, K, i⟩ := reachable_inv h
    exact ⟨_, .step ih ha i.holds hr⟩

/-- The blocks that a program has lost stay allocated, whatever it does next. -/
theorem leak_lost {w : World} {n : Nat} (h : RunsTo w n) : ∃ K : List Block, K.length = n ∧ Lost w K := by
  obtain ⟨Ts, Ls, Hs, Us, K, i, hK⟩ := runs_inv h
  exact ⟨K, hK, inv_lost (K := []) (by rw [List.append_nil]; exact i)⟩

/-- C74: a program that holds nothing any more has exactly as many blocks allocated as its calls have lost, by the count of
the specification: each call loses what `Call.leak` says, no block more and no block less. -/
theorem leak_exact {w : World} {n : Nat} (h : RunsTo w n) (h1 : w.tags = []) (h2 : w.lists = []) (h3 : w.headers = [])
    (h4 : w.buffers = []) : ∃ K : List Nat, K.Nodup ∧ K.length = n ∧ ∀ a, w.heap.cells a ≠ none ↔ a ∈ K := by
  obtain ⟨Ts, Ls, Hs, Us, K, i, hK⟩ := runs_inv h
  have e1 := i.tags
  have e2 := i.lists
  have e3 := i.headers
  have e4 := i.buffers
  rw [h1] at e1
  rw [h2] at e2
  rw [h3] at e3
  rw [h4] at e4
  obtain rfl := List.map_eq_nil_iff.mp e1.symm
  obtain rfl := List.map_eq_nil_iff.mp e2.symm
  obtain rfl := List.map_eq_nil_iff.mp e3.symm
  obtain rfl := List.map_eq_nil_iff.mp e4.symm
  have r : Rep w.heap K := i.rep.perm (by simp [rest])
  refine ⟨K.map (·.1), r.nodup, by rw [List.length_map, hK], fun a => ?_⟩
  rw [List.mem_map]
  constructor
  · intro ha
    cases hc : w.heap.cells a with
    | none => exact (ha hc).elim
    | some c => exact ⟨(a, c), (r.cells a c).mp hc, rfl⟩
  · rintro ⟨⟨a', c⟩, hm, rfl⟩
    rw [(r.cells _ _).mpr hm]
    exact fun h => (nomatch h)

/-- A call, counted. -/
theorem do_runs {w : World} {s : Abs} {c : Call} {f : Nat → Abs} {n : Nat} (h : RunsTo w n) (hs : w.Holds s)
    (ha : c.Allowed w) (e : c.abs w.heap s = .ok f) :
    ∃ w' a, c.run w = .ok w' ∧ w'.Holds (f a) ∧ RunsTo w' (n + c.leak w.heap s) := by
  obtain ⟨w', a, hr, hw, _⟩ := do_call (runs_reachable h) hs ha e
  exact ⟨w', a, hr, hw, .step h ha hs hr⟩

/-- The hypotheses of `leak_exact` are met by a program that has lost three blocks: it reads the tag `xyzw`, writes it to an
empty file, which loses two blocks, and frees it, which loses one more. -/
theorem lose_three : ∃ w : World, RunsTo w 3 ∧ w.tags = [] ∧ w.lists = [] ∧ w.headers = [] ∧ w.buffers = [] := by
  have hv : ∃ v v' x, ID3v2_read_tag_from_buffer xyzw 22 = .ok (some v) ∧ ID3v2_write_tag (some []) v = .ok (x, v') ∧
      freeFrames v'.frames = .ok () ∧ v.frames.head? ≠ some none ∧ (v.frames.filter isRaw).length = 1 ∧
      ((v'.frames.filterMap id).map frameLeft).sum = 1 := by
    obtain ⟨b, n, c⟩ := p
    unfold ID3v2_write_tag existingTagSize ID3v2_read_tag_header ID3v2_read_tag_from_buffer Tag_parse
    simp only [header_sign, header_buffer_sign]
    cases b <;> cases c <;> exact ⟨_, _, _, rfl, rfl, rfl, fun h => (nomatch h), rfl, rfl⟩
  obtain ⟨v, v', x, h1, h2, h3, h4, h5, h6⟩ := hv
  obtain ⟨w1, a, hr1, hw1, n1⟩ := do_runs (.start (some [])) (holds_start _) (c := .readTagFromBuffer (.literal xyzw) 22)
    trivial (f := Abs.add ⟨[], [], some []⟩ (some v)) (by
      show (ID3v2_read_tag_from_buffer xyzw 22 >>= _) = _
      rw [h1]
      rfl)
  obtain ⟨a', h', rfl⟩ := exec_inv (fun p h => { (World.start (some [])) with heap := h, tags := hold p [] }) hr1
  have ht := holds_tags hw1
  have e : ([(a, v)] : List (Nat × Tag)).lookup a = some v := by simp
  have es : setAt a v' [(a, v)] = [(a, v')] := by simp [setAt]
  obtain ⟨w2, b, hr2, hw2, n2⟩ := do_runs (c := .writeTag a) n1 hw1 (by
      show a ∈ _
      rw [ht]
      exact List.mem_cons_self) (f := fun _ => ⟨[(a, v')], [], x⟩) (by
    simp only [Call.abs, Abs.add, e, h2, Res.bind_ok, es]
    rfl)
  obtain ⟨_, h'', rfl⟩ := exec_inv (fun f h =>
    { (World.start (some [])) with heap := h, tags := hold a' [], disk := f }) hr2
  have e' : ([(a, v')] : List (Nat × Tag)).lookup a = some v' := by simp
  have ht := holds_tags hw2
  obtain ⟨w3, c, hr3, hw3, n3⟩ := do_runs (c := .freeTag a) n2 hw2 (by
      show a ∈ _
      rw [ht]
      exact List.mem_cons_self) (f := fun _ => ⟨[], [], x⟩) (by
    simp only [Call.abs, e', h3]
    simp [Res.bind_ok])
  obtain ⟨_, h3, rfl⟩ := exec_inv (fun _ h =>
    { (World.start (some [])) with heap := h, tags := (hold a' []).erase a, disk := _ }) hr3
  refine ⟨_, ?_, (holds_tags hw3).trans rfl, rfl, rfl, rfl⟩
  have := n3
  simp only [Call.leak, tagLeft, Abs.add, e, e', h4, h5, h6, if_false] at this
  exact this

example : ∃ (w : World) (K : List Nat), Reachable w ∧ w.tags = [] ∧ K.Nodup ∧ K.length = 3 ∧
    ∀ a, w.heap.cells a ≠ none ↔ a ∈ K := by
  obtain ⟨w, hr, h1, h2, h3, h4⟩ := lose_three
  obtain ⟨K, hK⟩ := leak_exact hr h1 h2 h3 h4
  exact ⟨w, K, runs_reachable hr, h1, hK⟩

/-! ## C39 -/

omit p in
theorem rep_ext {h h' : Heap} {L : List Block} (r : Rep h L) (r' : Rep h' L) : h.cells = h'.cells := by
  funext a
  cases e : h.cells a with
  | none =>
    cases e' : h'.cells a with
    | none => rfl
    | some c =>
      have := (r.cells a c).mpr ((r'.cells a c).mp e')
      rw [e] at this
      cases this
  | some c => exact ((r'.cells a c).mpr ((r.cells a c).mp e)).symm

/-- C39: a program that gets the list of the frames with some id and unlinks it has the heap that it had before: the list is
freed, and nothing else. In between nothing that was there is changed, so that the nodes of the list are new blocks, and
the list can always be unlinked. -/
theorem C39 {w w1 : World} {t : Nat} {id : Src} (h : Reachable w) (ht : t ∈ w.tags) (hid : Src.Live w.heap id)
    (hr : (Call.getFrames t id).run w = .ok w1) :
    ∃ l w2, w1.lists = l :: w.lists ∧ (∀ a c, w.heap.cells a = some c → w1.heap.cells a = some c) ∧
      w.heap.cells l = none ∧ (Call.unlinkList l).run w1 = .ok w2 ∧ w2.heap.cells = w.heap.cells ∧ w2.tags = w.tags := by
  obtain ⟨Ts, Ls, Hs, Us, K, i⟩ := reachable_inv h
  obtain ⟨A, T, B, rfl, rfl, hA, hB, r⟩ := i.tag ht
  obtain ⟨_, l, h', _, ⟨m, hm, _, _, r'⟩, rfl⟩ := exec_ok (fun a h => { w with heap := h, lists := a :: w.lists })
    (tag_get_frames_spec r id _ (src_at r hid)) hr
  cases m with
  | nil => cases hm
  | cons x m =>
    obtain ⟨b, f⟩ := x
    obtain rfl : b = l := by simpa using hm
    have hu : Refines ((do H.ID3v2_FrameList_unlink (← heapFuel) (some b) : HeapM Unit) h') (.ok ())
        (fun _ _ h'' => Rep h'' (T.blocks ++ ((A ++ B).flatMap HTag.blocks ++ rest Ls Hs Us K))) := by
      refine .fuel r' fun n hn => ?_
      refine unlink_spec b n (spine ((b, f) :: m)) _ _ r' ?_
      rw [List.length_append] at hn
      have : ∀ (h : Nat) (s : List (Nat × Ptr)), (listNodes h s).length = s.length := by
        intro h s
        induction s with
        | nil => rfl
        | cons x s ih => exact congrArg (· + 1) ih
      rw [this] at hn
      omega
    obtain ⟨_, h2, e, r2⟩ := hu
    refine ⟨b, { w with heap := h2, lists := (b :: w.lists).erase b }, rfl, ?_, ?_, ?_, rep_ext r2 r, rfl⟩
    · intro a c hc
      exact (r'.cells a c).mpr (List.mem_append_right _ ((r.cells a c).mp hc))
    · cases e : w.heap.cells b with
      | none => rfl
      | some c =>
        have h1 := (r.cells b c).mp e
        have hn := r'.nodup
        rw [List.map_append, List.nodup_append] at hn
        refine absurd rfl (hn.2.2 b ?_ b (List.mem_map.mpr ⟨_, h1, rfl⟩))
        rw [spine_cons, listNodes_cons]
        exact List.mem_cons_self
    · show ((do H.ID3v2_FrameList_unlink (← heapFuel) (some b) : HeapM Unit) h' >>= _) = _
      rw [e]
      rfl

/-- C39 at any later time: whatever happened to the tag in between, also if it was freed, unlinking the list succeeds and
changes no tag, no buffer of the caller and no file. -/
theorem C39_later {w : World} {s : Abs} {l : Nat} (h : Reachable w) (hs : w.Holds s) (hl : l ∈ w.lists) :
    ∃ w', (Call.unlinkList l).run w = .ok w' ∧ w'.Holds s := by
  obtain ⟨w', _, hr, hw, _⟩ := do_call (c := .unlinkList l) h hs hl rfl
  exact ⟨w', hr, hw⟩

/-- The hypotheses of `C39` are met: the comments of a tag with one comment. -/
example : ∃ w t w1, Reachable w ∧ t ∈ w.tags ∧ Src.Live w.heap (.literal COMMENT_ID) ∧
    (Call.getFrames t (.literal COMMENT_ID)).run w = .ok w1 := by
  obtain ⟨w, a, v, m, hreach, hw, _, _, _, _, hm, _⟩ := make_comment
  have ht : a ∈ w.tags := by rw [holds_tags hw]; exact List.mem_cons_self
  have e : ([(a, v)] : List (Nat × Tag)).lookup a = some v := by simp
  have hg : ∃ l, ID3v2_Tag_get_frames v COMMENT_ID = .ok l := by
    unfold ID3v2_Tag_get_frames FrameList_get_frames_by_id
    rw [hm]
    exact ⟨_, rfl⟩
  obtain ⟨l, hl⟩ := hg
  obtain ⟨w1, _, hr, _⟩ := do_call (c := .getFrames a (.literal COMMENT_ID)) hreach hw ⟨ht, trivial⟩
    (f := fun _ => ⟨[(a, v)], [], none⟩) (by
      show Abs.query ⟨[(a, v)], [], none⟩ a _ = _
      simp only [Abs.query, e, srcValue, hl]
      rfl)
  exact ⟨w, a, w1, hreach, ht, trivial, hr⟩

/-! ## Addresses that are used again -/

/-- The heap may give out an address that was freed, so the theorems about programs are not only about addresses that are
new: here the second tag is where the first one was. -/
theorem memory_is_reused : ∃ w1 w2 w3 : World, ∃ t : Nat,
    (Call.newTag).run (World.start none fun _ => 0) = .ok w1 ∧ (Call.freeTag t).run w1 = .ok w2 ∧
    (Call.newTag).run w2 = .ok w3 ∧ w1.tags = [t] ∧ w2.tags = [] ∧ w3.tags = [t] ∧ Reachable w3 := by
  refine ⟨_, _, _, _, rfl, rfl, rfl, rfl, rfl, rfl, ?_⟩
  exact .step (c := .newTag) (.step (c := .freeTag _) (.step (c := .newTag) (.start none fun _ => 0) trivial rfl)
    List.mem_cons_self rfl) trivial rfl

end Id3.Props
