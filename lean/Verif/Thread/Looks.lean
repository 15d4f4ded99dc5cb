import Verif.Thread.Reads

/-! The calls that read a tag which does not change. -/

namespace Id3.H

open Id3 Id3.Spec

variable {S : Nat → Option Cell}

theorem runs_next {α : Type} {Q : Res α → Heap → Prop} {p : Prog α} {h : Heap} (r : Runs S Q p h) :
    Runs S (fun x h' => h.next ≤ h'.next ∧ Q x h') p h := by
  induction p generalizing h with
  | ret a => exact ⟨Nat.le_refl _, r⟩
  | ub k => exact ⟨Nat.le_refl _, r⟩
  | exit => exact ⟨Nat.le_refl _, r⟩
  | hang => exact ⟨Nat.le_refl _, r⟩
  | malloc c k ih =>
    exact fun a ha => (ih a (r a ha)).mono fun x h' ⟨h1, q⟩ => ⟨Nat.le_trans (Nat.le_max_left ..) h1, q⟩
  | free a k ih => exact ⟨r.1, ih r.2⟩
  | load a k ih => obtain ⟨c, hc, r⟩ := r; exact ⟨c, hc, ih c r⟩
  | store a c k ih => exact ⟨r.1, ih r.2⟩
  | fuel k ih => exact ih _ r

/-- A program that only looks, and makes no mistakes with memory. -/
theorem runs_look {α : Type} {p : Prog α} {h : Heap} (hp : Silent p) (safe : ∀ g, NoMem (p.interp (h.view S g)))
    (d : Apart S h) : Runs S (fun x h' => h' = h ∧ Ends p (h.view S) x (h.view S)) p h := by
  have r := runs_view (runs_new (hp.new []) (fun _ h => (nomatch h)) (fun g => (safe g).1) d) d
  refine (runs_silent r hp).mono ?_
  rintro x h' ⟨rfl, ⟨_, e⟩, _⟩
  exact ⟨rfl, e⟩

theorem apart_none {h : Heap} (d : Apart S h) {a : Nat} {c : Cell} (hc : S a = some c) : h.cells a = none := by
  cases e : h.cells a with
  | none => rfl
  | some x => rw [d.2 a x e] at hc; cases hc

theorem or_shared {h : Heap} (d : Apart S h) {a : Nat} {c : Cell} (hc : S a = some c) :
    (h.cells a).or (S a) = some c := by rw [apart_none d hc, hc]; rfl

theorem nomem_refines {α β : Type} {x : Res (α × Heap)} {v : Res β} {Q : β → α → Heap → Prop} (r : Refines x v Q)
    (h : NoMem v) : NoMem x := by
  cases v with
  | ok b => obtain ⟨a, h', e, _⟩ := r; rw [e]; exact nomem_ok _
  | ub k => rw [show x = .ub k from r]; exact ⟨fun e => h.1 (by cases e; rfl), fun e => h.2 (by cases e; rfl)⟩
  | exit => rw [show x = .exit from r]; exact ⟨fun e => (nomatch e), fun e => (nomatch e)⟩
  | diverge => rw [show x = .diverge from r]; exact ⟨fun e => (nomatch e), fun e => (nomatch e)⟩

/-- The frames with the id, in a list that does not change, are put into a list of the thread. -/
theorem runs_collect (head sub : Nat) (id : Bytes) {M : List Block} {m : Heap} (rm : Rep m M) :
    ∀ (k : Nat) (l : List (Nat × Option HFrame)) (f : Ptr) (rest : List (Nat × Ptr)) (L : List Block) (h : Heap),
      Rep h (listNodes sub ((sub, f) :: rest) ++ L) → (∀ b ∈ listNodes head (spine l), b ∈ M) →
      (∀ b ∈ frameBlocks l, b ∈ M) → Apart m.cells h → m.next ≤ h.next →
      Runs m.cells (fun _ _ => True) (T.collect k (first (spine l)) id sub) h
  | 0, _, _, _, _, _, _, _, _, _, _ => trivial
  | k + 1, [], f, rest, L, h, r, _, _, _, _ => trivial
  | k + 1, (a, none) :: l, f, rest, L, h, r, hn, _, d, _ =>
    ⟨_, or_shared d ((rm.cells _ _).mpr (hn _ List.mem_cons_self)), by trivial⟩
  | k + 1, (a, some F) :: l, f, rest, L, h, r, hn, hf, d, hle => by
    refine ⟨_, or_shared d ((rm.cells _ _).mpr (hn _ List.mem_cons_self)), ?_⟩
    have hF : ∀ b ∈ F.blocks, b ∈ M := fun b hb => hf b (by rw [frameBlocks_some]; exact List.mem_append_left _ hb)
    have hn' : ∀ b ∈ listNodes head (spine l), b ∈ M := fun b hb => hn b (List.mem_cons_of_mem _ hb)
    have hf' : ∀ b ∈ frameBlocks l, b ∈ M := fun b hb =>
      hf b (by rw [frameBlocks_some]; exact List.mem_append_right _ hb)
    have hm : ∀ g, NoMem ((T.idMatches (some F.addr) id).interp (h.view m.cells g)) := fun g => by
      have e : (T.idMatches (some F.addr) id).interp = idMatches (some F.addr) id := Same.eq
      rw [e]
      refine nomem_refines (idMatches_spec (rep_view rm r d hle g)
        (fun b hb => List.mem_append_left _ (hF b hb)) id) (nomem_strncmp _ _ _)
    refine Runs.seq (f := fun b : Bool => if b then do
        T.FrameList_add_frame sub (some F.addr)
        T.collect k (first (spine l)) id sub
      else T.collect k (first (spine l)) id sub) (runs_look (silent_matches _ _) hm d) ?_ (fun _ _ _ => trivial)
      (fun _ _ => trivial) (fun _ _ => trivial)
    rintro b h' ⟨rfl, -⟩
    cases b with
    | false => exact runs_collect head sub id rm k l f rest L h' r hn' hf' d hle
    | true =>
      refine Runs.seq (runs_next (runs_alone (S := m.cells) (p := T.FrameList_add_frame sub (some F.addr)) (fun g => ?_) d)) ?_
        (fun _ _ _ => trivial) (fun _ _ => trivial) (fun _ _ => trivial)
      · have e : (T.FrameList_add_frame sub (some F.addr)).interp = FrameList_add_frame sub (some F.addr) := Same.eq
        rw [e]
        exact nomem_refines (add_frame_spec (Rep.with r g) F.addr) (nomem_ok _)
      · rintro u h1 ⟨hle1, d1, g, g', e1⟩
        have e : (T.FrameList_add_frame sub (some F.addr)).interp = FrameList_add_frame sub (some F.addr) := Same.eq
        obtain ⟨_, h2, e2, sp, r1, hsp⟩ := add_frame_spec (Rep.with r g) F.addr
        rw [e, e2] at e1
        cases e1
        have : ∃ f1 rest1, sp = (sub, f1) :: rest1 := by
          cases f with
          | none => exact ⟨_, _, hsp⟩
          | some g => obtain ⟨c, hsp⟩ := hsp; exact ⟨_, _, hsp⟩
        obtain ⟨f1, rest1, rfl⟩ := this
        refine runs_collect head sub id rm k l f1 rest1 L h1 (Rep.with' r1) hn' hf' d1 (Nat.le_trans hle hle1)

theorem rep_add {h : Heap} {L : List Block} (r : Rep h L) {a : Nat} (ha : h.cells a = none) (c : Cell) :
    Rep (h.add a c) ((a, c) :: L) := by
  obtain ⟨a', h', e, r'⟩ := (Rep.with r (picksCons a fun _ => 0)).malloc c
  have hx : (h.with (picksCons a fun _ => 0)).place = a := place_eq ha
  unfold malloc at e
  simp only [hx, Res.ok.injEq, Prod.mk.injEq] at e
  obtain ⟨rfl, rfl⟩ := e
  exact Rep.same r' (fun _ => rfl) (Nat.le_refl _)

theorem src_view {h : Heap} {g g' : Nat → Nat} {s : Src} (hs : Src.Live (h.view S g) s) : Src.Live (h.view S g') s := by
  cases s <;> exact hs

theorem srcValue_view {h : Heap} {g g' : Nat → Nat} {s : Src} : srcValue (h.view S g) s = srcValue (h.view S g') s := by
  cases s <;> rfl

theorem runs_get_frames {m h : Heap} {D : HTag} {X L : List Block} (rm : Rep m (D.blocks ++ X)) (r : Rep h L)
    (d : Apart m.cells h) (hle : m.next ≤ h.next) {s : Src} (hs : Src.Live (h.view m.cells fun _ => 0) s) :
    Runs m.cells (fun _ _ => True) (T.ID3v2_Tag_get_frames D.addr s) h := by
  have hsrc : ∀ g, NoMem ((T.readSrc s).interp (h.view m.cells g)) := fun g => by
    have e : (T.readSrc s).interp = s.read := Same.eq
    rw [e]
    have hn : NoMem ((s.read >>= fun b => (pure b : HeapM Bytes)) (h.view m.cells g)) :=
      nomem_refines (src_read (v := .ok ()) (Q := fun _ _ _ => True) (rep_view rm r d hle g)
        (src_at (rep_view rm r d hle g) (src_view hs)) ⟨_, _, rfl, trivial⟩) (nomem_ok _)
    rwa [HeapM.bind_pure] at hn
  refine Runs.seq (runs_look (silent_src s) hsrc d) ?_ (fun _ _ _ => trivial) (fun _ _ => trivial) (fun _ _ => trivial)
  rintro id h' ⟨rfl, -⟩
  refine ⟨_, or_shared d ((rm.cells _ _).mpr (List.mem_append_left _ (mem_tag D))), ?_⟩
  intro a ha
  have r1 : Rep (h'.add a (.node none none none)) (listNodes a ((a, none) :: []) ++ L) := by
    exact rep_add r (Option.or_eq_none_iff.mp ha).1 _
  refine Runs.seq (P := fun _ _ => True) (f := fun _ => pure a)
    (runs_collect D.head a id rm _ D.list none [] L _ r1 (fun b hb => ?_) (fun b hb => ?_) (d.add ha _) ?_)
    (fun _ _ _ => trivial) (fun _ _ _ => trivial) (fun _ _ => trivial) (fun _ _ => trivial)
  · exact (tag_list D X).mem_iff.mpr (List.mem_append_left _ hb)
  · exact (tag_list D X).mem_iff.mpr (List.mem_append_right _ (List.mem_append_left _ hb))
  · exact Nat.le_trans hle (Nat.le_max_left ..)

/-- `ID3v2_Tag_get_frames`: which frames are in the list. -/
theorem tag_get_frames_at {h : Heap} {D : HTag} {X : List Block} (r : Rep h (D.blocks ++ X)) (s : Src) (id : Bytes)
    (hs : s.At (D.blocks ++ X) id) :
    Refines (ID3v2_Tag_get_frames D.addr s h) (FrameList_matching (vals D.list) id)
      (fun m sub h' => ∃ (ms : List (Nat × HFrame)) (f : Ptr) (rest : List (Nat × Ptr)),
        m = ms.map (fun p => (p.1, p.2.value)) ∧ (∀ p ∈ ms, ∃ n, D.list[p.1]? = some (n, some p.2)) ∧
        Rep h' (listNodes sub ((sub, f) :: rest) ++ (D.blocks ++ X)) ∧
        f :: rest.map (·.2) = matchPtrs (ms.map (·.2.addr))) := by
  unfold ID3v2_Tag_get_frames
  refine src_read r hs ?_
  refine .loadTag r (List.mem_append_left _ (mem_tag D)) ?_
  exact get_frames_spec r D.head id D.list (tag_list D X)

/-- The blocks of a thread. -/
theorem Own.rep {l : Client} {h : Heap} (o : Own l h) : ∃ L, Rep h L := by
  cases l with
  | current l => obtain ⟨Ts, Ls, Hs, Us, K, i⟩ := o; exact ⟨_, i.rep⟩
  | compat l => obtain ⟨Cs, Os, K, i⟩ := o; exact ⟨_, i.rep⟩

theorem ends_ok {α : Type} {p : Prog α} {x : HeapM α} (e : p.interp = x) {h0 h1 : (Nat → Nat) → Heap} {a : α}
    (he : Ends p h0 (.ok a) h1) : ∃ g g', x (h0 g) = .ok (a, h1 g') := by
  obtain ⟨g, g', h⟩ := he
  exact ⟨g, g', by rw [← e, h]; rfl⟩

/-- A call that makes a new thing of the thread. -/
theorem runs_parse {m h : Heap} {l : CLocal} {M : List Block} (rm : Rep m M) (o : Own (.compat l) h) (d : Apart m.cells h)
    (hle : m.next ≤ h.next) {β : Type} {p : Prog Nat} {x : HeapM Nat} {v : Res β} {R : β → HThing → Prop} (kind : Kind)
    (hp : OnlyNew [] p) (he : p.interp = x) (hv : NoMem v) (hk : ∀ b O, R b O → O.value.kind = kind)
    (hx : ∀ h X, Rep h (M ++ X) → Refines (x h) v (fun b a h' => ∃ O, O.addr = a ∧ R b O ∧ Rep h' (O.blocks ++ (M ++ X)))) :
    Runs m.cells Done (p >>= fun a => .ret (.compat { l with things := (a, kind) :: l.things }, some a)) h := by
  obtain ⟨Cs, Os, K, i⟩ := o
  have hs : ∀ g, NoMem (p.interp (h.view m.cells g)) := fun g => by
    rw [he]
    exact nomem_refines (hx _ _ (rep_view rm i.rep d hle g)) hv
  refine Runs.seq (runs_view (runs_new hp (fun _ h => (nomatch h)) (fun g => (hs g).1) d) d) ?_ (fun _ _ _ => trivial)
    (fun _ _ => trivial) (fun _ _ => trivial)
  rintro a h' ⟨⟨d', e⟩, -⟩
  obtain ⟨g, g', e⟩ := ends_ok he e
  have hr := hx _ _ (rep_view rm i.rep d hle g)
  cases v with
  | ok b =>
    obtain ⟨a', h1, e1, O, rfl, hR, r1⟩ := hr
    have e2 := e1.symm.trans e
    simp only [Res.ok.injEq, Prod.mk.injEq] at e2
    obtain ⟨rfl, rfl⟩ := e2
    have r2 := rep_split (L := O.blocks ++ (Cs.flatMap HCTag.blocks ++ (Os.flatMap HThing.blocks ++ K))) rm d' (r1.perm (by blocks))
    have := CInv.newThing i r2
    rw [hk b O hR] at this
    exact ⟨_, _, _, this⟩
  | ub k => cases hr.symm.trans e
  | exit => cases hr.symm.trans e
  | diverge => cases hr.symm.trans e

/-- A call that only looks. -/
theorem runs_getter {S : Nat → Option Cell} {h : Heap} {l : Client} (o : Own l h) (d : Apart S h) {p : Prog Ptr}
    (hp : Silent p) (safe : ∀ g, NoMem (p.interp (h.view S g))) : Runs S Done (p >>= fun a => .ret (l, a)) h := by
  refine Runs.seq (runs_look hp safe d) ?_ (fun _ _ _ => trivial) (fun _ _ => trivial) (fun _ _ => trivial)
  rintro a h' ⟨rfl, -⟩
  exact o

theorem runs_entry {m h : Heap} {lm : CLocal} {l : CLocal} (om : Own (.compat lm) m) (o : Own (.compat l) h)
    (d : Apart m.cells h) (hle : m.next ≤ h.next) {t : Nat} (ht : t ∈ lm.tags) (id : Bytes) :
    Runs m.cells Done (T.tag_get id t >>= fun a => .ret (.compat l, a)) h := by
  obtain ⟨Cs, Os, K, im⟩ := om
  obtain ⟨A, C, B, rfl, rfl, hl, hA, hB, r⟩ := im.tag ht
  obtain ⟨L, rl⟩ := o.rep
  refine runs_getter o d (silent_ctag_get id _) fun g => ?_
  have e : (T.tag_get id C.addr).interp = tag_get id C.addr := Same.eq
  rw [e]
  have rv := rep_view r rl d hle g
  rw [List.append_assoc] at rv
  exact nomem_refines (tag_get_spec rv id) (nomem_get_entry _ _)

/-- A call that reads a tag of the program. -/
theorem runs_read {m h : Heap} {main l : Client} {r : Read} (om : Own main m) (o : Own l h) (d : Apart m.cells h)
    (hle : m.next ≤ h.next) (ha : r.Allowed main m (h.view m.cells fun _ => 0) l) :
    Runs m.cells (fun x h' => (Apart m.cells h' ∧ Ends (r.prog l) (h.view m.cells) x (h'.view m.cells)) ∧ Done x h')
      (r.prog l) h := by
  refine runs_view ?_ d
  cases l with
  | current l =>
    cases r with
    | getFrame t s =>
      cases main with
      | compat lm => exact ha.1.elim
      | current lm =>
        obtain ⟨ht, hs⟩ := ha
        obtain ⟨Ts, Ls, Hs, Us, K, im⟩ := om
        obtain ⟨A, D, B, rfl, rfl, hA, hB, rm⟩ := im.tag ht
        obtain ⟨L, rl⟩ := o.rep
        refine runs_getter o d (silent_tag_get _ s) fun g => ?_
        have e : (T.ID3v2_Tag_get_frame D.addr s).interp = ID3v2_Tag_get_frame D.addr s := Same.eq
        rw [e]
        have rv := rep_view rm rl d hle g
        have hsrc := src_at rv (src_view hs)
        rw [List.append_assoc] at rv hsrc
        exact nomem_refines (tag_get_frame_at rv s _ hsrc) (nomem_tag_get _ _)
    | getFrames t s =>
      cases main with
      | compat lm => exact ha.1.elim
      | current lm =>
        obtain ⟨ht, hs⟩ := ha
        obtain ⟨Ts, Ls, Hs, Us, K, im⟩ := om
        obtain ⟨A, D, B, rfl, rfl, hA, hB, rm⟩ := im.tag ht
        obtain ⟨Ts', Ls', Hs', Us', K', i⟩ := o
        refine Runs.seq (runs_view (runs_get_frames rm i.rep d hle hs) d) ?_ (fun _ _ _ => trivial) (fun _ _ => trivial)
          (fun _ _ => trivial)
        rintro a h' ⟨⟨d', e⟩, -⟩
        obtain ⟨g, g', e⟩ := ends_ok Same.eq e
        have rv := rep_view (m := m) (h := h) rm i.rep d hle g
        have hsrc := src_at rv (src_view hs)
        rw [List.append_assoc] at rv hsrc
        have hr := tag_get_frames_at rv s _ hsrc
        rw [e] at hr
        cases hv : FrameList_matching (vals D.list) (srcValue (h.view m.cells g) s) with
        | ok v =>
          rw [hv] at hr
          obtain ⟨_, _, e1, ms, f, rest, -, -, r1, -⟩ := hr
          cases e1
          rw [← List.append_assoc] at r1
          have r2 := rep_split (L := listNodes a ((a, f) :: rest) ++ (Ts'.flatMap HTag.blocks ++ H.rest Ls' Hs' Us' K')) rm d' (r1.perm (by blocks))
          refine ⟨Ts', (a, f, rest) :: Ls', Hs', Us', K', r2.perm ?_, i.tags, ?_, i.headers, i.buffers⟩
          · unfold H.rest
            simp only [List.flatMap_cons, HList.blocks]
            blocks
          · show _ :: l.lists = _ :: Ls'.map _
            rw [← i.lists]
            rfl
        | ub k => rw [hv] at hr; cases hr
        | exit => rw [hv] at hr; cases hr
        | diverge => rw [hv] at hr; cases hr
    | _ => exact ha.elim
  | compat l =>
    cases main with
    | current lm => cases r <;> exact ha.elim
    | compat lm =>
      cases r with
      | getFrame t s => exact ha.elim
      | getFrames t s => exact ha.elim
      | getText f t => cases f <;> exact runs_entry om o d hle ha _
      | getComment t => exact runs_entry om o d hle ha _
      | getCover t => exact runs_entry om o d hle ha _
      | parseText p =>
        obtain ⟨Cs, Os, K, im⟩ := om
        obtain ⟨C, hC, n, e, hn, rfl⟩ := im.entry ha
        obtain ⟨b1, b2⟩ := im.entry_blocks hC hn
        refine runs_parse im.rep o d hle .text (new_parse_text _) Same.eq (nomem_parse_text e.value)
          (R := fun v O => ∃ a d, O = .text a d v) ?_ fun h X r => ?_
        · rintro b O ⟨a, d, rfl⟩
          rfl
        · refine (parse_text_spec r (fun b hb => List.mem_append_left _ (b1 b hb))
            (fun b hb => List.mem_append_left _ (b2 b hb))).mono ?_
          rintro v a h' _ ⟨d, r'⟩
          exact ⟨_, rfl, ⟨a, d, rfl⟩, r'⟩
      | parseComment p =>
        obtain ⟨Cs, Os, K, im⟩ := om
        obtain ⟨C, hC, n, e, hn, rfl⟩ := im.entry ha
        obtain ⟨b1, b2⟩ := im.entry_blocks hC hn
        refine runs_parse im.rep o d hle .comment (new_parse_comment _) Same.eq (nomem_parse_comment e.value)
          (R := CommentOf e.frame) ?_ fun h X r => ?_
        · rintro b O ⟨_, _, _, _, _, _, _, rfl⟩
          rfl
        · exact parse_comment_spec r (fun b hb => List.mem_append_left _ (b1 b hb))
            (fun b hb => List.mem_append_left _ (b2 b hb))
      | parsePicture p =>
        obtain ⟨Cs, Os, K, im⟩ := om
        obtain ⟨C, hC, n, e, hn, rfl⟩ := im.entry ha
        obtain ⟨b1, b2⟩ := im.entry_blocks hC hn
        refine runs_parse im.rep o d hle .picture (new_parse_picture _) Same.eq (nomem_parse_picture e.value)
          (R := PictureOf e.frame) ?_ fun h X r => ?_
        · rintro b O ⟨_, _, _, _, _, _, _, rfl⟩
          rfl
        · exact parse_picture_spec r (fun b hb => List.mem_append_left _ (b1 b hb))
            (fun b hb => List.mem_append_left _ (b2 b hb))

end Id3.H
