import Verif.Proof.TimeOps
import Verif.Heap.CompatHolds

/-!
# Counting the memory accesses of the compatibility API
-/

namespace Id3.T

open Id3 Spec Prog H

variable {α β : Type}

/-! ## Calls with a constant number of accesses -/

theorem AtMost.loadCNode (a : Ptr) : AtMost 1 (T.loadCNode a) := by
  unfold T.loadCNode
  exact AtMost.bind (m := 0) (.load _) fun c => by split <;> first | exact .pure _ | exact .lift _

theorem AtMost.loadCFrame (a : Ptr) : AtMost 1 (T.loadCFrame a) := by
  unfold T.loadCFrame
  exact AtMost.bind (m := 0) (.load _) fun c => by split <;> first | exact .pure _ | exact .lift _

theorem AtMost.loadCTag (a : Ptr) : AtMost 1 (T.loadCTag a) := by
  unfold T.loadCTag
  exact AtMost.bind (m := 0) (.load _) fun c => by split <;> first | exact .pure _ | exact .lift _

theorem AtMost.tagOf (a : Nat) : AtMost 1 (T.tagOf a) := by
  unfold T.tagOf
  exact AtMost.bind (m := 0) (.loadCTag _) fun c => by split <;> first | exact .pure _ | exact .lift _

theorem AtMost.entry [Platform] (p : Ptr) : AtMost 25 (T.frame_to_compat_frame p) := by
  unfold T.frame_to_compat_frame
  refine AtMost.bind (m := 24) (.malloc _) fun c => ?_
  cases p with
  | none => exact .lift _
  | some a =>
    exact AtMost.bind (m := 23) (.loadFrame _) fun _ => AtMost.bind (m := 22) (.loadFrameHeader _) fun _ =>
      AtMost.bind (m := 22) (n := 0) (.lift _) fun _ => AtMost.bind (m := 22) (n := 0) (.lift _) fun _ =>
      AtMost.bind (m := 5) (.frameOut _) fun _ => AtMost.bind (m := 5) (n := 0) (.lift _) fun _ =>
      AtMost.bind (m := 5) (n := 0) (.lift _) fun _ => AtMost.bind (m := 4) (.malloc _) fun _ =>
      AtMost.bind (m := 3) (.store _ _) fun _ => AtMost.bind (m := 0) (.csFree _) fun _ => .pure _

theorem AtMost.addEntry (main frame : Nat) : AtMost 7 (T.add_to_list main frame) := by
  unfold T.add_to_list
  refine AtMost.bind (m := 6) (.loadCNode _) fun m => ?_
  split
  · exact (AtMost.store _ _).mono (by decide)
  · refine AtMost.bind (m := 5) (.malloc _) fun _ => AtMost.bind (m := 4) (.store _ _) fun _ => ?_
    split
    · exact .lift _
    · exact AtMost.bind (m := 3) (.loadCNode _) fun _ => AtMost.bind (m := 2) (.store _ _) fun _ =>
        AtMost.bind (m := 1) (.loadCNode _) fun _ => .store _ _

theorem AtMost.freeEntry (p : Ptr) : AtMost 3 (T.free_frame p) := by
  unfold T.free_frame
  exact AtMost.bind (m := 2) (.loadCFrame _) fun _ => AtMost.bind (m := 1) (.free _) fun _ => .free _

theorem AtMost.compatNew : AtMost 8 T.new_tag := by
  unfold T.new_tag
  exact AtMost.bind (m := 7) (.malloc _) fun _ => AtMost.bind (m := 6) (.malloc _) fun _ =>
    AtMost.bind (m := 5) (.malloc _) fun _ => AtMost.bind (m := 1) .tagNew fun _ => AtMost.bind (m := 0) (.store _ _) fun _ => .pure _

theorem AtMost.parseText (p : Nat) : AtMost 7 (T.parse_text_frame_content p) := by
  unfold T.parse_text_frame_content
  refine AtMost.bind (m := 6) (.malloc _) fun _ => AtMost.bind (m := 5) (.loadCFrame _) fun _ =>
    AtMost.bind (m := 4) (.loadFrame _) fun _ => AtMost.bind (m := 3) (.load _) fun c => ?_
  split
  · exact AtMost.bind (m := 2) (.loadBytes _) fun _ => AtMost.bind (m := 2) (n := 0) (.lift _) fun _ =>
      AtMost.bind (m := 1) (.malloc _) fun _ => AtMost.bind (m := 0) (.store _ _) fun _ => .pure _
  · exact .lift _

theorem AtMost.parseComment (p : Nat) : AtMost 6 (T.parse_comment_frame_content p) := by
  unfold T.parse_comment_frame_content
  refine AtMost.bind (m := 5) (.malloc _) fun _ => AtMost.bind (m := 4) (.loadCFrame _) fun _ =>
    AtMost.bind (m := 3) (.loadFrame _) fun _ => AtMost.bind (m := 2) (.load _) fun c => ?_
  split
  · exact AtMost.bind (m := 1) (.malloc _) fun _ => AtMost.bind (m := 0) (.store _ _) fun _ => .pure _
  · exact .lift _

theorem AtMost.parsePicture (p : Nat) : AtMost 5 (T.parse_apic_frame_content p) := by
  unfold T.parse_apic_frame_content
  refine AtMost.bind (m := 4) (.malloc _) fun _ => AtMost.bind (m := 3) (.loadCFrame _) fun _ =>
    AtMost.bind (m := 2) (.loadFrame _) fun _ => AtMost.bind (m := 1) (.load _) fun c => ?_
  split
  · exact AtMost.bind (m := 0) (.store _ _) fun _ => .pure _
  · exact .lift _

theorem AtMost.release (k : Kind) (a : Nat) : AtMost 3 (releaseProg k a) := by
  unfold releaseProg
  cases k with
  | text =>
    refine AtMost.bind (m := 2) (.load _) fun c => ?_
    split
    · exact AtMost.bind (m := 1) (.free _) fun _ => .free _
    · exact .lift _
  | comment =>
    refine AtMost.bind (m := 2) (.load _) fun c => ?_
    split
    · exact AtMost.bind (m := 1) (.free _) fun _ => .free _
    · exact .lift _
  | picture => exact (AtMost.free _).mono (by decide)
  | buffer => exact (AtMost.free _).mono (by decide)

/-! ## Lists -/

theorem acc_loadCNode {a : Nat} {f n s : Ptr} {l : Option Ptr} {h : Heap} {L : List Block} (r : Rep h L)
    (hm : (a, Cell.cnode f n s l) ∈ L)
    (k : CNode → Prog β) : (T.loadCNode (some a) >>= k).accesses h = 1 + (k ⟨f, n, s, l⟩).accesses h := by
  show (Prog.load a _).accesses h = _
  simp only [accesses, r.load hm]
  rfl

theorem acc_loadCFrame {a : Nat} {i f : Bytes} {n : Int} {d g : Ptr} {h : Heap} {L : List Block} (r : Rep h L)
    (hm : (a, Cell.cframe i n f d g) ∈ L)
    (k : CFrameStruct → Prog β) : (T.loadCFrame (some a) >>= k).accesses h = 1 + (k ⟨i, n, f, d, g⟩).accesses h := by
  show (Prog.load a _).accesses h = _
  simp only [accesses, r.load hm]
  rfl

theorem acc_loadCTag {a : Nat} {x : Option Ptr} {y z t : Ptr} {h : Heap} {L : List Block} (r : Rep h L)
    (hm : (a, Cell.ctag x y z t) ∈ L)
    (k : CTagStruct → Prog β) : (T.loadCTag (some a) >>= k).accesses h = 1 + (k ⟨x, y, z, t⟩).accesses h := by
  show (Prog.load a _).accesses h = _
  simp only [accesses, r.load hm]
  rfl

/-- A call, then another program. -/
theorem bound_ok {x : Prog α} {y : HeapM α} [s : Same x y] {k : α → Prog β} {γ : Type} {v : Res γ} {h : Heap}
    {Q : γ → α → Heap → Prop} {m n : Nat} (hx : Refines (y h) v Q) (hc : x.accesses h ≤ m)
    (hk : ∀ b a h', v = .ok b → Q b a h' → (k a).accesses h' ≤ n) : (x >>= k).accesses h ≤ n + m := by
  rcases acc_call (x := x) (k := k) hx with ⟨b, a, h', e', q, e⟩ | ⟨-, e⟩
  · have := hk b a h' e' q
    omega
  · omega

theorem bound_entry {h : Heap} {L : List Block} (r : Rep h L) (head : Nat) (id : Bytes) :
    ∀ (k : Nat) (last : Option Ptr) (l : List (Nat × Option HCFrame)), (∀ b ∈ cnodes head last (cspine l), b ∈ L) →
      (∀ b ∈ centries l, b ∈ L) → l.length < k →
      (get_from_list k (first (cspine l)) id).accesses h ≤ 2 * l.length
  | 0, _, _, _, _, hk => absurd hk (by omega)
  | _ + 1, _, [], _, _, _ => Nat.zero_le _
  | k + 1, last, (a, none) :: l, hn, _, _ => by
    show (get_from_list (k + 1) (some a) id).accesses h ≤ _
    unfold get_from_list
    rw [acc_loadCNode r (hn _ List.mem_cons_self), List.length_cons]
    show 1 + 0 ≤ _
    omega
  | k + 1, last, (a, some c) :: l, hn, hf, hk => by
    show (get_from_list (k + 1) (some a) id).accesses h ≤ _
    unfold get_from_list
    rw [acc_loadCNode r (hn _ List.mem_cons_self), List.length_cons]
    have := bound_entry r head id k none l (fun b hb => hn b (List.mem_cons_of_mem _ hb))
      (fun b hb => hf b (List.mem_append_right _ hb)) (by simp only [List.length_cons] at hk; omega)
    dsimp only [Option.map]
    rw [acc_loadCFrame r (hf _ (List.mem_append_left _ (mem_cframe c)))]
    have e : ∀ n, n ≤ 2 * l.length → 1 + (1 + n) ≤ 2 * (l.length + 1) := by omega
    refine e _ (bound_lift fun b => ?_)
    cases b with
    | true => exact Nat.zero_le _
    | false => exact this

theorem bound_uniq {h : Heap} {L : List Block} (r : Rep h L) (head : Nat) (c : HCFrame) (hc : ∀ b ∈ c.blocks, b ∈ L) :
    ∀ (k : Nat) (last : Option Ptr) (l : List (Nat × Option HCFrame)), (∀ b ∈ cnodes head last (cspine l), b ∈ L) →
      (∀ b ∈ centries l, b ∈ L) → l.length < k →
      (add_uniq_to_list k (first (cspine l)) c.addr).accesses h ≤ 3 * l.length + 4
  | 0, _, _, _, _, hk => absurd hk (by omega)
  | _ + 1, _, [], _, _, _ => Nat.zero_le _
  | k + 1, last, (a, none) :: l, hn, _, _ => by
    show (add_uniq_to_list (k + 1) (some a) c.addr).accesses h ≤ _
    unfold add_uniq_to_list
    rw [acc_loadCNode r (hn _ List.mem_cons_self), List.length_cons]
    show 1 + 0 ≤ _
    omega
  | k + 1, last, (a, some d) :: l, hn, hf, hk => by
    show (add_uniq_to_list (k + 1) (some a) c.addr).accesses h ≤ _
    unfold add_uniq_to_list
    rw [acc_loadCNode r (hn _ List.mem_cons_self), List.length_cons]
    have := bound_uniq r head c hc k none l (fun b hb => hn b (List.mem_cons_of_mem _ hb))
      (fun b hb => hf b (List.mem_append_right _ hb)) (by simp only [List.length_cons] at hk; omega)
    dsimp only [Option.map]
    rw [acc_loadCFrame r (hf _ (List.mem_append_left _ (mem_cframe d))), acc_loadCFrame r (hc _ (mem_cframe c))]
    have e : ∀ n, n ≤ 3 * l.length + 4 → 1 + (1 + (1 + n)) ≤ 3 * (l.length + 1) + 4 := by omega
    refine e _ (bound_lift fun b => ?_)
    cases b with
    | true => exact Nat.le_trans (AtMost.bind (m := 1) (.freeEntry _) (fun _ => .store _ _) h) (by omega)
    | false => exact this

theorem bound_entries_free (head : Nat) : ∀ (k : Nat) (last : Option Ptr) (l : List (Nat × Option HCFrame)) (X : List Block)
    (h : Heap), Rep h (cnodes head last (cspine l) ++ (centries l ++ X)) → l.length < k →
    (free_list k (first (cspine l))).accesses h ≤ 6 * l.length
  | 0, _, _, _, _, _, hk => absurd hk (by omega)
  | _ + 1, _, [], X, h, r, _ => Nat.zero_le _
  | k + 1, last, (a, none) :: l, X, h, r, hk => by
    show (free_list (k + 1) (some a)).accesses h ≤ _
    unfold free_list
    rw [acc_loadCNode r (List.mem_append_left _ List.mem_cons_self), List.length_cons]
    show 1 + 0 ≤ _
    omega
  | k + 1, last, (a, some c) :: l, X, h, r, hk => by
    show (free_list (k + 1) (some a)).accesses h ≤ _
    unfold free_list
    rw [acc_loadCNode r (List.mem_append_left _ List.mem_cons_self), List.length_cons]
    have e : ∀ n, n ≤ 6 * l.length + 2 + 3 → 1 + n ≤ 6 * (l.length + 1) := by omega
    refine e _ ?_
    dsimp only [Option.map]
    refine bound_call (free_frame_spec (c := c) (X := cnodes head last (cspine ((a, some c) :: l)) ++ (centries l ++ X))
      (r.perm (by rw [centries_some]; blocks))) (AtMost.freeEntry _ _) fun _ _ h1 r1 => ?_
    rw [acc_loadCNode r1 (List.mem_append_left _ List.mem_cons_self)]
    obtain ⟨h2, r2, e⟩ := acc_free r1 (List.Perm.refl _) (fun _ => free_list k (first (cspine l)))
    have := bound_entries_free head k none l X h2 r2 (by simp only [List.length_cons] at hk; omega)
    show 1 + (free (some a) >>= fun _ => free_list k (first (cspine l))).accesses h1 ≤ _
    rw [e]
    omega

/-- The number of frames in a list. -/
def somes (l : List (Nat × Option HFrame)) : Nat := ((vals l).filterMap id).length

theorem bound_load_more [Platform] (node head : Nat) (X : List Block) :
    ∀ (k : Nat) (l : List (Nat × Option HFrame)) (c0 : HCFrame) (rest : List (Nat × Option HCFrame)) (z : Nat)
      (K0 : List Block) (h : Heap), ((∃ init f, rest = init ++ [(z, f)]) ∨ (rest = [] ∧ z = head)) →
      Rep h (cnodes head (some (some z)) (cspine ((head, some c0) :: rest)) ++
        (centries ((head, some c0) :: rest) ++ (K0 ++ X))) →
      (∀ b ∈ listNodes node (spine l), b ∈ X) → (∀ b ∈ frameBlocks l, b ∈ X) → l.length < k →
      (load_frames k (first (spine l)) head).accesses h ≤ 34 * somes l + 2
  | 0, _, _, _, _, _, _, _, _, _, _, hk => absurd hk (by omega)
  | _ + 1, [], c0, rest, z, K0, h, _, r, _, _, _ => Nat.zero_le _
  | k + 1, (a, none) :: l, c0, rest, z, K0, h, _, r, hn, _, _ => by
    show (load_frames (k + 1) (some a) head).accesses h ≤ _
    unfold load_frames
    rw [acc_loadNode r (List.mem_append_right _ (List.mem_append_right _ (List.mem_append_right _
      (hn _ List.mem_cons_self))))]
    have e : ∀ n, n ≤ 0 + 1 → 1 + n ≤ 34 * somes ((a, none) :: l) + 2 := by omega
    refine e _ ?_
    exact bound_call (x := frame_to_compat_frame none) (Q := fun _ _ _ => False) (compat_frame_null r)
      (AtMost.bind (m := 0) (.malloc _) (fun _ => .lift _) h) fun _ _ _ hf => hf.elim
  | k + 1, (a, some F) :: l, c0, rest, z, K0, h, hz, r, hn, hf, hk => by
    show (load_frames (k + 1) (some a) head).accesses h ≤ _
    unfold load_frames
    rw [acc_loadNode r (List.mem_append_right _ (List.mem_append_right _ (List.mem_append_right _
      (hn _ List.mem_cons_self))))]
    have e : ∀ n, n ≤ (34 * somes l + 3) + 7 + 25 → 1 + n ≤ 34 * somes ((a, some F) :: l) + 2 := by
      have : somes ((a, some F) :: l) = somes l + 1 := rfl
      omega
    refine e _ ?_
    have hF : ∀ b ∈ F.blocks, b ∈ X := fun b hb => hf b (by rw [frameBlocks_some]; exact List.mem_append_left _ hb)
    refine bound_call (compat_frame_spec r fun b hb => List.mem_append_right _ (List.mem_append_right _
      (List.mem_append_right _ (hF b hb)))) (AtMost.entry _ h) ?_
    rintro _ _ h1 ⟨c, K1, rfl, rfl, rfl, hid, hK1, r1⟩
    have hz' : (∃ init, cspine rest = init ++ [(z, match rest.getLast? with | some (_, some e) => some e.addr | _ => none)]) ∨
        (cspine rest = [] ∧ z = head) := by
      rcases hz with ⟨init, f, rfl⟩ | ⟨rfl, rfl⟩
      · refine .inl ⟨cspine init, ?_⟩
        rw [cspine_append]
        cases f <;> simp [cspine]
      · exact .inr ⟨rfl, rfl⟩
    refine bound_call (add_more_spec (q := c0.addr) c.addr hz' (R := centries ((head, some c0) :: rest) ++
      (c.blocks ++ (K1 ++ (K0 ++ X)))) (r1.perm (by rw [cspine_cons]; simp only [Option.map_some]; blocks)))
      (AtMost.addEntry _ _ h1) ?_
    rintro _ _ h2 ⟨d, r2⟩
    have r3 : Rep h2 (cnodes head (some (some d)) (cspine ((head, some c0) :: (rest ++ [(d, some c)]))) ++
        (centries ((head, some c0) :: (rest ++ [(d, some c)])) ++ ((K1 ++ K0) ++ X))) := by
      refine r2.perm ?_
      rw [cspine_cons, cspine_append, centries_some, centries_some, centries_append, centries_some]
      show (cnodes head (some (some d)) ((head, some c0.addr) :: (cspine rest ++ [(d, some c.addr)])) ++ _).Perm
        (cnodes head (some (some d)) ((head, some c0.addr) :: (cspine rest ++ [(d, some c.addr)])) ++ _)
      refine List.Perm.append_left _ ?_
      show List.Perm _ (c0.blocks ++ (centries rest ++ (c.blocks ++ [])) ++ _)
      blocks
    rw [acc_loadNode r3 (List.mem_append_right _ (List.mem_append_right _ (List.mem_append_right _
      (hn _ List.mem_cons_self))))]
    have ih := bound_load_more node head X k l c0 (rest ++ [(d, some c)]) d (K1 ++ K0) h2 (.inl ⟨rest, _, rfl⟩) r3
      (fun b hb => hn b (List.mem_cons_of_mem _ hb))
      (fun b hb => hf b (by rw [frameBlocks_some]; exact List.mem_append_right _ hb))
      (by simp only [List.length_cons] at hk; omega)
    have e : ∀ n, n ≤ 34 * somes l + 2 → 1 + n ≤ 34 * somes l + 3 := by omega
    exact e _ ih

theorem bound_load_frames [Platform] {h : Heap} {X : List Block} (node head : Nat) (k : Nat) (a : Nat) (f : Option HFrame)
    (l : List (Nat × Option HFrame)) (r : Rep h ((head, .cnode none none none none) :: X))
    (hn : ∀ b ∈ listNodes node (spine ((a, f) :: l)), b ∈ X) (hf : ∀ b ∈ frameBlocks ((a, f) :: l), b ∈ X)
    (hk : ((a, f) :: l).length < k) : (load_frames k (some a) head).accesses h ≤ 34 * somes ((a, f) :: l) + 2 := by
  cases k with
  | zero => exact absurd hk (by omega)
  | succ k =>
    cases f with
    | none =>
      unfold load_frames
      rw [acc_loadNode r (List.mem_cons_of_mem _ (hn _ List.mem_cons_self))]
      have e : ∀ n, n ≤ 0 + 1 → 1 + n ≤ 34 * somes ((a, none) :: l) + 2 := by omega
      refine e _ ?_
      exact bound_call (x := frame_to_compat_frame none) (Q := fun _ _ _ => False) (compat_frame_null r)
        (AtMost.bind (m := 0) (.malloc _) (fun _ => .lift _) h) fun _ _ _ hf => hf.elim
    | some F =>
      unfold load_frames
      rw [acc_loadNode r (List.mem_cons_of_mem _ (hn _ List.mem_cons_self))]
      have e : ∀ n, n ≤ (34 * somes l + 3) + 7 + 25 → 1 + n ≤ 34 * somes ((a, some F) :: l) + 2 := by
        have : somes ((a, some F) :: l) = somes l + 1 := rfl
        omega
      refine e _ ?_
      have hF : ∀ b ∈ F.blocks, b ∈ X := fun b hb => hf b (by rw [frameBlocks_some]; exact List.mem_append_left _ hb)
      refine bound_call (compat_frame_spec r fun b hb => List.mem_cons_of_mem _ (hF b hb)) (AtMost.entry _ h) ?_
      rintro _ _ h1 ⟨c, K1, rfl, rfl, rfl, hid, hK1, r1⟩
      refine bound_call (add_first_spec c.addr (head := head) (last := none) (R := c.blocks ++ (K1 ++ X)) (r1.perm (by
        simp only [cnodes, List.head?, Option.map]; blocks))) (AtMost.addEntry _ _ h1) fun _ _ h2 r2 => ?_
      rw [acc_loadNode r2 (List.mem_append_right _ (List.mem_append_right _ (List.mem_append_right _
        (hn _ List.mem_cons_self))))]
      have ih := bound_load_more node head X k l c [] head K1 h2 (.inr ⟨rfl, rfl⟩)
        (r2.perm (by
          show List.Perm _ (cnodes head (some (some head)) [(head, some c.addr)] ++ ((c.blocks ++ []) ++ (K1 ++ X)))
          blocks))
        (fun b hb => hn b (List.mem_cons_of_mem _ hb))
        (fun b hb => hf b (by rw [frameBlocks_some]; exact List.mem_append_right _ hb))
        (by simp only [List.length_cons] at hk; omega)
      have e : ∀ n, n ≤ 34 * somes l + 2 → 1 + n ≤ 34 * somes l + 3 := by omega
      exact e _ ih

/-! ## Calls -/

theorem at_mono {s : Src} {b : Bytes} {L L' : List Block} (h : s.At L b) (hm : ∀ x ∈ L, x ∈ L') : s.At L' b := by
  cases s with
  | literal b' => exact h
  | block a => exact hm _ h
  | frameId a =>
    obtain ⟨x, hx, e⟩ := h
    exact ⟨x, hm _ hx, e⟩

/-- The rest of `load_tag_with_buffer`, when the tag was read. -/
def loadRest [Platform] (buffer : Src) (length : Int) (tag : Ptr) : Prog Nat := do
  let compat_tag ← malloc (.ctag none none none none)
  let tag_header ← malloc (.cheader Id3.new_tag.tag_header)
  let b ← readSrc buffer
  let r ← lift (memcpySrc b length)
  let raw ← malloc (.bytes r)
  match tag with
  | none => lift (.ub .nullDeref)
  | some t =>
    let s ← loadTag (some t)
    let x ← loadTagHeader s.header
    storeCell (some tag_header) (.cheader
      { tag := x.identifier, major_version := some x.major_version, minor_version := some x.minor_version,
        flags := some x.flags, tag_size := some (toInt32 x.tag_size),
        extended_header_size := x.extended_header_size.map toInt32 })
    let compat_frames ← new_frame_list
    load_frames (← heapFuel) s.frames compat_frames
    storeCell (some compat_tag) (.ctag (some (some raw)) (some tag_header) (some compat_frames) (some t))
    return compat_tag

theorem bound_load_rest [Platform] {h : Heap} {Y X : List Block} (r : Rep h (Y ++ X)) (s : Src) (b : Bytes) (n : Int)
    (hs : s.At X b) (p : Ptr) (t : Option Tag) (hY : OptTag Y p t) (m : Nat) (hm : ∀ x, t = some x → (framesOf x).length ≤ m) :
    (loadRest s n p).accesses h ≤ 34 * m + 11 := by
  unfold loadRest
  obtain ⟨a, h2, r2, e⟩ := acc_malloc (c := .ctag none none none none) r (fun compat_tag => do
    let tag_header ← malloc (.cheader Id3.new_tag.tag_header)
    let b ← readSrc s
    let r ← lift (memcpySrc b n)
    let raw ← malloc (.bytes r)
    match p with
    | none => lift (.ub .nullDeref)
    | some t =>
      let s ← loadTag (some t)
      let x ← loadTagHeader s.header
      storeCell (some tag_header) (.cheader
        { tag := x.identifier, major_version := some x.major_version, minor_version := some x.minor_version,
          flags := some x.flags, tag_size := some (toInt32 x.tag_size),
          extended_header_size := x.extended_header_size.map toInt32 })
      let compat_frames ← new_frame_list
      load_frames (← heapFuel) s.frames compat_frames
      storeCell (some compat_tag) (.ctag (some (some raw)) (some tag_header) (some compat_frames) (some t))
      return compat_tag)
  have e' : ∀ n, n ≤ 34 * m + 10 → 1 + n ≤ 34 * m + 11 := by omega
  refine Nat.le_trans (Nat.le_of_eq e) (e' _ ?_)
  clear e e'
  obtain ⟨hd, h3, r3, e⟩ := acc_malloc (c := .cheader Id3.new_tag.tag_header) r2 (fun tag_header => do
    let b ← readSrc s
    let r ← lift (memcpySrc b n)
    let raw ← malloc (.bytes r)
    match p with
    | none => lift (.ub .nullDeref)
    | some t =>
      let s ← loadTag (some t)
      let x ← loadTagHeader s.header
      storeCell (some tag_header) (.cheader
        { tag := x.identifier, major_version := some x.major_version, minor_version := some x.minor_version,
          flags := some x.flags, tag_size := some (toInt32 x.tag_size),
          extended_header_size := x.extended_header_size.map toInt32 })
      let compat_frames ← new_frame_list
      load_frames (← heapFuel) s.frames compat_frames
      storeCell (some a) (.ctag (some (some raw)) (some tag_header) (some compat_frames) (some t))
      return a)
  have e' : ∀ n, n ≤ 34 * m + 8 + 1 → 1 + n ≤ 34 * m + 10 := by omega
  refine Nat.le_trans (Nat.le_of_eq e) (e' _ ?_)
  clear e e'
  refine bound_src r3 (at_mono hs fun x hx => by simp [hx]) (bound_lift fun raw => ?_)
  obtain ⟨rw', h4, r4, e⟩ := acc_malloc (c := .bytes raw) r3 (fun raw => match p with
    | none => (lift (.ub .nullDeref) : Prog Nat)
    | some t => do
      let s ← loadTag (some t)
      let x ← loadTagHeader s.header
      storeCell (some hd) (.cheader
        { tag := x.identifier, major_version := some x.major_version, minor_version := some x.minor_version,
          flags := some x.flags, tag_size := some (toInt32 x.tag_size),
          extended_header_size := x.extended_header_size.map toInt32 })
      let compat_frames ← new_frame_list
      load_frames (← heapFuel) s.frames compat_frames
      storeCell (some a) (.ctag (some (some raw)) (some hd) (some compat_frames) (some t))
      return a)
  have e' : ∀ n, n ≤ 34 * m + 7 → 1 + n ≤ 34 * m + 8 := by omega
  refine Nat.le_trans (Nat.le_of_eq e) (e' _ ?_)
  clear e e'
  cases t with
  | none =>
    obtain rfl : p = none := hY
    exact Nat.zero_le _
  | some t =>
    obtain ⟨T, rfl, rfl, rfl⟩ := hY
    dsimp only
    have hT : ∀ b ∈ T.blocks, b ∈ (rw', Cell.bytes raw) :: (hd, Cell.cheader Id3.new_tag.tag_header) ::
        (a, .ctag none none none none) :: (T.blocks ++ X) := by
      intro b hb
      simp [hb]
    rw [acc_loadTag r4 (hT _ (mem_tag T)), acc_loadTagHeader r4 (hT _ (mem_tagHeader T))]
    obtain ⟨h5, r5, e⟩ := acc_store (a := hd) (c := .cheader Id3.new_tag.tag_header) (c' := .cheader (hx T))
      (L' := (rw', .bytes raw) :: (a, .ctag none none none none) ::
      (T.blocks ++ X)) r4 (by blocks) (fun _ => do
        let compat_frames ← new_frame_list
        load_frames (← heapFuel) (some T.head) compat_frames
        storeCell (some a) (.ctag (some (some rw')) (some hd) (some compat_frames) (some T.addr))
        return a)
    have e' : ∀ n, n ≤ 34 * m + 4 → 1 + (1 + (1 + n)) ≤ 34 * m + 7 := by omega
    refine Nat.le_trans (Nat.le_of_eq (congrArg (fun n => 1 + (1 + n)) e)) (e' _ ?_)
    clear e e'
    obtain ⟨fr, h6, r6, e⟩ := acc_malloc (c := .cnode none none none none) r5 (fun compat_frames => do
        load_frames (← heapFuel) (some T.head) compat_frames
        storeCell (some a) (.ctag (some (some rw')) (some hd) (some compat_frames) (some T.addr))
        return a)
    have e' : ∀ n, n ≤ 1 + (34 * m + 2) → 1 + n ≤ 34 * m + 4 := by omega
    refine Nat.le_trans (Nat.le_of_eq e) (e' _ ?_)
    clear e e'
    obtain ⟨k, hk, e⟩ := acc_fuel r6 (fun k => do
        load_frames k (some T.head) fr
        storeCell (some a) (.ctag (some (some rw')) (some hd) (some fr) (some T.addr))
        return a)
    refine Nat.le_trans (Nat.le_of_eq e) ?_
    clear e
    have hlen : ((T.head, T.frame) :: T.rest).length < k := by
      have := list_length T X
      have e : T.list.length = ((T.head, T.frame) :: T.rest).length := rfl
      simp only [List.length_cons] at hk e ⊢
      omega
    refine bound_call (load_frames_spec T.head fr k T.head T.frame T.rest r6
      (fun b hb => by have := mem_nodes T b hb; simp [this])
      (fun b hb => by have := mem_frames T b hb; simp [this]) hlen) (Nat.le_trans (bound_load_frames T.head fr k T.head T.frame T.rest r6
      (fun b hb => by have := mem_nodes T b hb; simp [this])
      (fun b hb => by have := mem_frames T b hb; simp [this]) hlen) ?_) ?_
    · have := hm _ rfl
      have e : (framesOf T.value).length = somes ((T.head, T.frame) :: T.rest) := rfl
      omega
    · intro _ _ h7 _
      exact AtMost.bind (m := 0) (.store _ _) (fun _ => .pure _) h7

theorem bound_load_buffer [Platform] {h : Heap} {X : List Block} (r : Rep h X) (s : Src) (b : Bytes) (n : Int)
    (hs : s.At X b) : (load_tag_with_buffer s n).accesses h ≤ loadMost n := by
  have e : load_tag_with_buffer s n = (ID3v2_read_tag_from_buffer s n >>= loadRest s n) := rfl
  rw [e]
  have hb := bound_read r s b n hs
  have e : ∀ k, k ≤ 34 * (n.toNat / 6) + 11 + (readMost n + 1) → k ≤ loadMost n := by
    unfold loadMost
    omega
  refine e _ ?_
  refine bound_ok (read_buffer_spec r s b n hs) hb fun t p h1 ht hp => ?_
  obtain ⟨Y, rY, hY⟩ : ∃ Y, Rep h1 (Y ++ X) ∧ OptTag Y p t := by
    cases t with
    | none => exact ⟨[], hp.2, hp.1⟩
    | some t =>
      obtain ⟨_, rfl, T, rfl, e, r1⟩ := hp
      exact ⟨T.blocks, r1, T, rfl, e, rfl⟩
  refine bound_load_rest rY s b n hs p t hY _ fun x hx => ?_
  subst hx
  obtain ⟨fs, hf, -, -, h3⟩ := acc_read_buffer r b n
  obtain ⟨rfl, -⟩ := h3 x ht
  omega

theorem bound_load_file [Platform] {h : Heap} {X : List Block} (r : Rep h X) (file : File) :
    (load_tag file).accesses h ≤ loadFileMost file := by
  unfold load_tag
  rcases acc_call (x := ID3v2_read_tag_header file) (γ := Nat) (k := fun hd => match hd with
    | none => lift (.ub .nullDeref)
    | some p =>
      match file with
      | none => lift (.ub .nullDeref)
      | some contents => do
        let header ← loadTagHeader (some p)
        let buffer_size := toInt32 (u32 (header.tag_size + 10))
        let buffer ← malloc (.bytes (intoArray buffer_size (contents.take buffer_size.toNat)))
        let tag ← load_tag_with_buffer (.block buffer) buffer_size
        free (some buffer)
        free (some p)
        return tag) (H.read_header_spec r file) with ⟨x, p, h1, hx, q, e⟩ | ⟨hx, e⟩
  · refine Nat.le_trans (Nat.le_of_eq e) ?_
    have h8 := AtMost.readHeaderFile file h
    unfold loadFileMost
    rw [hx]
    cases x with
    | none =>
      obtain ⟨rfl, r1⟩ := q
      exact h8
    | some x =>
      obtain ⟨a, rfl, r1⟩ := q
      cases file with
      | none => exact Nat.le_trans h8 (Nat.le_trans (by decide : 8 ≤ 12) (Nat.le_add_left _ _))
      | some contents =>
        dsimp only
        rw [acc_loadTagHeader r1 List.mem_cons_self]
        generalize toInt32 (u32 (x.tag_size + 10)) = n
        obtain ⟨b, h2, r2, e⟩ := acc_malloc (c := .bytes (intoArray n (contents.take n.toNat))) r1 (fun buffer => do
          let tag ← load_tag_with_buffer (.block buffer) n
          free (some buffer)
          free (some a)
          return tag)
        have e' : ∀ k j, k ≤ 8 → j ≤ 2 + loadMost n → k + (1 + (1 + j)) ≤ loadMost n + 12 := by omega
        refine Nat.le_trans (Nat.le_of_eq (congrArg (fun k => _ + (1 + k)) e)) (e' _ _ h8 ?_)
        refine bound_call (load_buffer_spec r2 (.block b) _ _ List.mem_cons_self)
          (bound_load_buffer r2 (.block b) _ _ List.mem_cons_self) ?_
        intro _ _ h3 _
        exact AtMost.bind (m := 1) (.free _) (fun _ => AtMost.bind (m := 0) (.free _) fun _ => .pure _) h3
  · refine Nat.le_trans (Nat.le_of_eq e) (Nat.le_trans (AtMost.readHeaderFile file h) ?_)
    unfold loadFileMost
    split <;> omega

theorem linked_length {C : HCTag} (hl : C.Linked) : C.tag.list.length = C.list.length := by
  have := congrArg List.length hl.frames
  simpa using this.symm

theorem bound_tagOf {γ : Type} {h : Heap} {C : HCTag} {L : List Block} (r : Rep h L) (hm : ∀ b ∈ C.blocks, b ∈ L)
    {k : Nat → Prog γ} {n : Nat} (hk : (k C.tag.addr).accesses h ≤ n) : (tagOf C.addr >>= k).accesses h ≤ n + 1 := by
  have e : (tagOf C.addr >>= k).accesses h = 1 + (k C.tag.addr).accesses h := by
    unfold tagOf
    rw [bind_assoc, acc_loadCTag r (hm _ (mem_ctag C))]
    rfl
  omega

theorem bound_cget {h : Heap} {C : HCTag} {X : List Block} (r : Rep h (C.blocks ++ X)) (id : Bytes) :
    (tag_get id C.addr).accesses h ≤ 2 * C.list.length + 1 := by
  unfold tag_get
  rw [acc_loadCTag r (List.mem_append_left _ (mem_ctag C))]
  obtain ⟨k, hk, e⟩ := acc_fuel r (fun k => get_from_list k (some C.head) id)
  have := bound_entry r C.head id k C.last C.list (fun b hb => List.mem_append_left _ (mem_cnodes C b hb))
    (fun b hb => List.mem_append_left _ (mem_centries C b hb)) (Nat.lt_trans (clist_length C X) hk)
  have e1 : first (cspine C.list) = some C.head := rfl
  rw [e1] at this
  have e2 : ∀ n, n ≤ 2 * C.list.length → 1 + n ≤ 2 * C.list.length + 1 := by omega
  exact e2 _ (Nat.le_trans (Nat.le_of_eq e) this)

theorem bound_cset_tag [Platform] {h : Heap} {C : HCTag} {X : List Block} (hl : C.Linked) (r : Rep h (C.blocks ++ X))
    (file : File) : (set_tag file C.addr).accesses h ≤ 21 * C.list.length + 24 := by
  unfold set_tag
  refine bound_tagOf r (fun b hb => List.mem_append_left _ hb) ?_
  rw [← linked_length hl]
  exact bound_write (r.perm (H.tag_out C X)) file

theorem bound_cfree {h : Heap} {C : HCTag} {X : List Block} (hl : C.Linked) (r : Rep h (C.blocks ++ X)) :
    (free_tag C.addr).accesses h ≤ 19 * C.list.length + 9 := by
  have hlen := linked_length hl
  unfold free_tag
  rw [acc_loadCTag r (List.mem_append_left _ (mem_ctag C))]
  obtain ⟨a, hdr, raw, header, head, last, entry, rest, T⟩ := C
  cases raw with
  | none => show 1 + 0 ≤ _; omega
  | some p =>
    obtain ⟨rp, rb⟩ := p
    dsimp only [Option.map_some]
    obtain ⟨h1, r1, e⟩ := acc_free (a := rp) (c := .bytes rb) (L' := (hdr, .cheader header) :: (T.blocks ++
      ((a, .ctag (some (some rp)) (some hdr) (some head) (some T.addr)) ::
        (cnodes head last (cspine ((head, entry) :: rest)) ++ (centries ((head, entry) :: rest) ++ X))))) r (by
          unfold HCTag.blocks HCTag.rawBlock HCTag.list
          simp only [Option.map_some]
          blocks) (fun _ => do
        free (some hdr)
        ID3v2_Tag_free (← tagOf a)
        let t ← loadCTag (some a)
        free_list (← heapFuel) t.frames
        free (some a))
    have e' : ∀ n, n ≤ 19 * (rest.length + 1) + 7 → 1 + (1 + n) ≤ 19 * (rest.length + 1) + 9 := by omega
    refine Nat.le_trans (Nat.le_of_eq (congrArg (1 + ·) e)) (e' _ ?_)
    clear e e'
    obtain ⟨h2, r2, e⟩ := acc_free r1 (List.Perm.refl _) (fun _ => do
        ID3v2_Tag_free (← tagOf a)
        let t ← loadCTag (some a)
        free_list (← heapFuel) t.frames
        free (some a))
    have e' : ∀ n, n ≤ 19 * (rest.length + 1) + 6 → 1 + n ≤ 19 * (rest.length + 1) + 7 := by omega
    refine Nat.le_trans (Nat.le_of_eq e) (e' _ ?_)
    clear e e'
    have e : (tagOf a >>= fun t => ID3v2_Tag_free t >>= fun _ => loadCTag (some a) >>= fun t => heapFuel >>= fun k =>
        free_list k t.frames >>= fun _ => free (some a)).accesses h2 = 1 + (ID3v2_Tag_free T.addr >>= fun _ =>
          loadCTag (some a) >>= fun t => heapFuel >>= fun k => free_list k t.frames >>= fun _ => free (some a)).accesses h2 := by
      unfold tagOf
      rw [bind_assoc, acc_loadCTag r2 (List.mem_append_right _ List.mem_cons_self)]
      rfl
    have e' : ∀ n, n ≤ (6 * (rest.length + 1) + 2) + (13 * T.list.length + 3) → 1 + n ≤ 19 * (rest.length + 1) + 6 := by
      have hlen : T.list.length = rest.length + 1 := hlen
      omega
    refine Nat.le_trans (Nat.le_of_eq e) (e' _ ?_)
    clear e e'
    refine bound_call (tag_free_spec r2) (bound_free r2) fun _ _ h3 r3 => ?_
    rw [acc_loadCTag r3 (List.mem_append_right _ List.mem_cons_self)]
    obtain ⟨k, hk, e⟩ := acc_fuel r3 (fun k => free_list k (some head) >>= fun _ => free (some a))
    have e' : ∀ n, n ≤ 1 + 6 * (rest.length + 1) → 1 + n ≤ 6 * (rest.length + 1) + 2 := by omega
    refine e' _ (Nat.le_trans (Nat.le_of_eq e) ?_)
    have hlen : ((head, entry) :: rest).length < k := by
      have : (cnodes head last (cspine ((head, entry) :: rest))).length = ((head, entry) :: rest).length := by
        rw [cnodes_length]
        simp [cspine]
      simp only [List.length_append, List.length_cons, this] at hk ⊢
      omega
    have r4 := r3.perm (L' := cnodes head last (cspine ((head, entry) :: rest)) ++ (centries ((head, entry) :: rest) ++
      ((a, .ctag (some (some rp)) (some hdr) (some head) (some T.addr)) :: (leaks T.list ++ X)))) (by blocks)
    exact bound_call (free_list_spec head k last ((head, entry) :: rest) _ h3 r4 hlen)
      (bound_entries_free head k last ((head, entry) :: rest) _ h3 r4 hlen) fun _ _ h4 _ => AtMost.free _ h4

/-! ## Setters -/

theorem replace_length (f : Frame) : ∀ (l : FrameList) (i : Nat), (Id3.FrameList_replace_frame l i f).length = l.length
  | [], _ => by cases ‹Nat› <;> rfl
  | _ :: _, 0 => rfl
  | _ :: l, i + 1 => congrArg (· + 1) (replace_length f l i)

theorem set_length {t t' : Tag} {id : Bytes} {f : Frame} (h : Id3.Tag_set_frame t id f = .ok t') :
    t'.frames.length ≤ t.frames.length + 1 := by
  unfold Id3.Tag_set_frame at h
  obtain ⟨o, _, h⟩ := Res.bind_eq_ok.mp h
  cases o with
  | none =>
    cases h
    show (Id3.FrameList_add_frame t.frames f).length ≤ _
    unfold Id3.FrameList_add_frame
    split
    · exact Nat.zero_le _
    · next h => rw [h]; simp
    · next h => rw [h]; simp
  | some p =>
    obtain ⟨i, g⟩ := p
    obtain ⟨d, _, h⟩ := Res.bind_eq_ok.mp h
    obtain ⟨_, _, h⟩ := Res.bind_eq_ok.mp h
    cases h
    show (Id3.FrameList_replace_frame t.frames i f).length ≤ _
    rw [replace_length]
    omega

theorem bound_update [Platform] {h : Heap} {C : HCTag} {T : HTag} {X : List Block} {id : Bytes} (ha : T.addr = C.tag.addr)
    (r : Rep h (T.blocks ++ (own C ++ X))) :
    (ID3v2_Tag_get_frame C.tag.addr (.literal id) >>= fun frame => compat_update C.addr frame).accesses h ≤
      3 * C.list.length + 3 * T.list.length + 32 := by
  rw [← ha]
  have e : ∀ n, n ≤ (3 * C.list.length + 5 + 25) + (3 * T.list.length + 2) →
      n ≤ 3 * C.list.length + 3 * T.list.length + 32 := by omega
  refine e _ (bound_call (tag_get_frame_at r (.literal id) id rfl) (bound_tag_get r (.literal id) id rfl) ?_)
  rintro f a _ ⟨rfl, hf⟩
  unfold compat_update
  cases f with
  | none =>
    subst hf
    exact bound_call (x := frame_to_compat_frame none) (Q := fun _ _ _ => False) (compat_frame_null r)
      (Nat.le_trans (AtMost.entry _ _) (by omega)) fun _ _ _ hf => hf.elim
  | some f =>
    obtain ⟨i', n', F', hget, hi', rfl, rfl⟩ := hf
    have hF' : ∀ b ∈ F'.blocks, b ∈ T.blocks ++ (own C ++ X) := fun b hb => List.mem_append_left _ (mem_frames T b (by
      unfold frameBlocks
      exact List.mem_flatMap.mpr ⟨_, List.mem_of_getElem? hi', hb⟩))
    refine bound_call (compat_frame_spec r hF') (AtMost.entry _ _) ?_
    rintro _ _ h1 ⟨c, K, rfl, rfl, hcF, hid, hK, r1⟩
    have hm : ∀ b ∈ own C, b ∈ c.blocks ++ (K ++ (T.blocks ++ (own C ++ X))) := fun b hb => by simp [hb]
    rw [acc_loadCTag r1 (hm _ List.mem_cons_self)]
    obtain ⟨k, hk, e⟩ := acc_fuel r1 (fun k => add_uniq_to_list k (some C.head) c.addr)
    have e' : ∀ n, n ≤ 3 * C.list.length + 4 → 1 + n ≤ 3 * C.list.length + 5 := by omega
    refine e' _ (Nat.le_trans (Nat.le_of_eq e) ?_)
    have hl : C.list.length < k := by
      have : (cnodes C.head C.last (cspine C.list)).length = C.list.length := by
        rw [cnodes_length]
        simp [cspine]
      unfold own at hk
      simp only [List.length_append, List.length_cons, this] at hk
      omega
    exact bound_uniq r1 C.head c (fun b hb => List.mem_append_left _ hb) k C.last C.list
      (fun b hb => hm b (by unfold own; simp [hb])) (fun b hb => hm b (by unfold own; simp [hb])) hl

theorem bound_setter [Platform] {h : Heap} {C : HCTag} {X : List Block} {id : Bytes} (hl : C.Linked) {x : Prog Unit} {y : HeapM Unit}
    [Same x y] {v : Res Tag} {f : Res Frame} {m : Nat}
    (hset : Refines (y h) v (fun t _ h' => SetPost C.tag (own C ++ X) id f t h')) (hx : x.accesses h ≤ 4 * C.tag.list.length + m)
    (hv : ∀ t, v = .ok t → t.frames.length ≤ C.tag.value.frames.length + 1) :
    (x >>= fun _ => ID3v2_Tag_get_frame C.tag.addr (.literal id) >>= fun frame => compat_update C.addr frame).accesses h ≤
      10 * C.list.length + m + 35 := by
  have hlen := linked_length hl
  have e : ∀ n, n ≤ (6 * C.list.length + 35) + (4 * C.tag.list.length + m) → n ≤ 10 * C.list.length + m + 35 := by omega
  refine e _ (bound_ok hset hx ?_)
  rintro t _ h1 ht ⟨K, l', F, ⟨T, ha, rfl, rfl, r1⟩, _, _, hs, rfl⟩
  have := hv _ ht
  have h1 : T.value.frames.length = T.list.length := by show (vals T.list).length = _; simp [vals]
  have h2 : C.tag.value.frames.length = C.tag.list.length := by show (vals C.tag.list).length = _; simp [vals]
  refine Nat.le_trans (bound_update (X := K ++ X) ha (r1.perm (by blocks))) ?_
  omega

theorem bound_cset_text [Platform] {h : Heap} {C : HCTag} {X : List Block} (id : Bytes) (hl : C.Linked) (r : Rep h (C.blocks ++ X))
    (s : Src) (b : Bytes) (hs : s.At (C.blocks ++ X) b) : (tag_set_text id s C.addr).accesses h ≤ 10 * C.list.length + 64 := by
  unfold tag_set_text
  refine bound_tagOf r (fun b hb => List.mem_append_left _ hb) ?_
  refine bound_setter hl (set_text_at (r.perm (H.tag_out C X)) { id := .literal id, flags := .literal NO_FLAGS, text := s }
    { id := id, flags := NO_FLAGS, text := b } rfl rfl
    (at_perm hs (H.tag_out C X))) (bound_set_text (r.perm (H.tag_out C X)) _ { id := id, flags := NO_FLAGS, text := b } rfl rfl
    (at_perm hs (H.tag_out C X))) fun t ht => ?_
  unfold Id3.ID3v2_Tag_set_text_frame at ht
  obtain ⟨_, _, ht⟩ := Res.bind_eq_ok.mp ht
  exact set_length ht

theorem bound_cset_comment [Platform] {h : Heap} {C : HCTag} {X : List Block} (hl : C.Linked) (r : Rep h (C.blocks ++ X))
    (s : Src) (b : Bytes) (hs : s.At (C.blocks ++ X) b) (e : UInt8) :
    (tag_set_comment s e C.addr).accesses h ≤ 10 * C.list.length + 66 := by
  unfold tag_set_comment
  refine bound_tagOf r (fun b hb => List.mem_append_left _ hb) ?_
  refine bound_setter hl (set_comment_at (r.perm (H.tag_out C X))
    { flags := .literal NO_FLAGS, language := .literal (lit [0x65, 0x6E, 0x67]),
      short_description := .literal EMPTY_UNICODE_STR, comment := s }
    { flags := NO_FLAGS, language := lit [0x65, 0x6E, 0x67], short_description := EMPTY_UNICODE_STR, comment := b }
    rfl rfl rfl (at_perm hs (H.tag_out C X))) (bound_set_comment (r.perm (H.tag_out C X)) _
    { flags := NO_FLAGS, language := lit [0x65, 0x6E, 0x67], short_description := EMPTY_UNICODE_STR, comment := b }
    rfl rfl rfl (at_perm hs (H.tag_out C X))) fun t ht => ?_
  unfold Id3.ID3v2_Tag_set_comment_frame at ht
  obtain ⟨_, _, ht⟩ := Res.bind_eq_ok.mp ht
  exact set_length ht

theorem bound_cset_cover [Platform] {h : Heap} {C : HCTag} {X : List Block} (hl : C.Linked)
    (r : Rep h (C.blocks ++ X)) (s : Src) (b : Bytes) (hs : s.At (C.blocks ++ X) b) (m : Src) (mb : Bytes)
    (hm : m.At (C.blocks ++ X) mb) (n : Int) :
    (tag_set_album_cover_from_bytes s m n C.addr).accesses h ≤ 10 * C.list.length + 67 := by
  unfold tag_set_album_cover_from_bytes
  refine bound_tagOf r (fun b hb => List.mem_append_left _ hb) ?_
  refine bound_setter hl (set_apic_at (r.perm (H.tag_out C X))
    { flags := .literal NO_FLAGS, mime_type := m, description := .literal EMPTY_UNICODE_STR,
      picture_size := n, picture_type := 3, data := s }
    { flags := NO_FLAGS, mime_type := mb, description := EMPTY_UNICODE_STR, picture_size := n, picture_type := 3,
      data := b } rfl (at_perm hm (H.tag_out C X)) rfl (at_perm hs (H.tag_out C X)) rfl rfl) (bound_set_apic (r.perm (H.tag_out C X)) _
    { flags := NO_FLAGS, mime_type := mb, description := EMPTY_UNICODE_STR, picture_size := n, picture_type := 3,
      data := b } rfl (at_perm hm (H.tag_out C X)) rfl (at_perm hs (H.tag_out C X)) rfl rfl) fun t ht => ?_
  unfold Id3.ID3v2_Tag_set_apic_frame at ht
  obtain ⟨_, _, ht⟩ := Res.bind_eq_ok.mp ht
  exact set_length ht

theorem bound_cset_cover_file [Platform] {h : Heap} {C : HCTag} {X : List Block} (hl : C.Linked)
    (r : Rep h (C.blocks ++ X)) (name : List UInt8) (image : File) :
    (tag_set_album_cover name image C.addr).accesses h ≤ 10 * C.list.length + 69 := by
  unfold tag_set_album_cover
  cases image with
  | none => exact Nat.zero_le _
  | some bytes =>
    refine bound_lift fun n => ?_
    obtain ⟨p, h1, r1, e⟩ := acc_malloc (c := .bytes bytes) r (fun p => match afterLastDot name with
      | none => (lift (.ub .nullDeref) : Prog Unit)
      | some ext => do
        let mimetype :=
          if ext = [0x70, 0x6E, 0x67] then lit [0x69, 0x6D, 0x61, 0x67, 0x65, 0x2F, 0x70, 0x6E, 0x67]
          else lit [0x69, 0x6D, 0x61, 0x67, 0x65, 0x2F, 0x6A, 0x70, 0x65, 0x67]
        tag_set_album_cover_from_bytes (.block p) (.literal mimetype) n C.addr
        free (some p))
    have e' : ∀ n, n ≤ 1 + (10 * C.list.length + 67) → 1 + n ≤ 10 * C.list.length + 69 := by omega
    refine Nat.le_trans (Nat.le_of_eq e) (e' _ ?_)
    clear e e'
    cases afterLastDot name with
    | none => exact Nat.zero_le _
    | some ext =>
      dsimp only
      have r2 : Rep h1 (C.blocks ++ ((p, .bytes bytes) :: X)) := r1.perm (by blocks)
      exact bound_call (set_cover_cspec hl r2 (.block p) bytes (by show _ ∈ _; simp) (.literal _) _ rfl n)
        (bound_cset_cover hl r2 (.block p) bytes (by show _ ∈ _; simp) (.literal _) _ rfl n) fun _ _ h2 _ => AtMost.free _ h2

end Id3.T
