import Verif.Proof.TimeRead
import Verif.Heap.Write

/-!
# Counting the memory accesses of the other calls
-/

namespace Id3.T

open Id3 Spec Prog H

/-- At most so many accesses, in whatever heap. -/
def AtMost {α : Type} (n : Nat) (x : Prog α) : Prop := ∀ h, x.accesses h ≤ n

variable {α β : Type}

theorem AtMost.mono {m n : Nat} {x : Prog α} (hx : AtMost m x) (h : m ≤ n) : AtMost n x := fun s => Nat.le_trans (hx s) h

theorem AtMost.bind {m n : Nat} {x : Prog α} {k : α → Prog β} (hx : AtMost n x) (hk : ∀ a, AtMost m (k a)) :
    AtMost (m + n) (x >>= k) := by
  intro h
  rw [accesses_bind]
  have := hx h
  split
  · next a h' _ => have := hk a h'; omega
  · omega

theorem AtMost.pure {n : Nat} (a : α) : AtMost n (pure a : Prog α) := fun _ => Nat.zero_le _

theorem AtMost.lift {n : Nat} (r : Res α) : AtMost n (T.lift r) := fun h => by
  cases r <;> exact Nat.zero_le _

theorem AtMost.malloc (c : Cell) : AtMost 1 (T.malloc c) := fun h => by
  show (Prog.malloc c _).accesses h ≤ 1
  simp only [accesses]
  cases Id3.malloc c h <;> exact Nat.le_refl _

theorem AtMost.free (a : Ptr) : AtMost 1 (T.free a) := fun h => by
  cases a with
  | none => exact Nat.zero_le _
  | some a => rw [acc_free_last]; exact Nat.le_refl _

theorem AtMost.load (a : Ptr) : AtMost 1 (T.loadCell a) := fun h => by
  cases a with
  | none => exact Nat.zero_le _
  | some a =>
    show (Prog.load a _).accesses h ≤ 1
    simp only [accesses]
    cases Id3.loadCell (some a) h <;> exact Nat.le_refl _

theorem AtMost.store (a : Ptr) (c : Cell) : AtMost 1 (T.storeCell a c) := fun h => by
  cases a with
  | none => exact Nat.zero_le _
  | some a => rw [acc_store_last]; exact Nat.le_refl _

theorem AtMost.loadNode (a : Ptr) : AtMost 1 (T.loadNode a) := by
  unfold T.loadNode
  exact AtMost.bind (m := 0) (.load a) fun c => by split <;> first | exact .pure _ | exact .lift _

theorem AtMost.loadFrame (a : Ptr) : AtMost 1 (T.loadFrame a) := by
  unfold T.loadFrame
  exact AtMost.bind (m := 0) (.load a) fun c => by split <;> first | exact .pure _ | exact .lift _

theorem AtMost.loadFrameHeader (a : Ptr) : AtMost 1 (T.loadFrameHeader a) := by
  unfold T.loadFrameHeader
  exact AtMost.bind (m := 0) (.load a) fun c => by split <;> first | exact .pure _ | exact .lift _

theorem AtMost.loadTag (a : Ptr) : AtMost 1 (T.loadTag a) := by
  unfold T.loadTag
  exact AtMost.bind (m := 0) (.load a) fun c => by split <;> first | exact .pure _ | exact .lift _

theorem AtMost.loadTagHeader (a : Ptr) : AtMost 1 (T.loadTagHeader a) := by
  unfold T.loadTagHeader
  exact AtMost.bind (m := 0) (.load a) fun c => by split <;> first | exact .pure _ | exact .lift _

theorem AtMost.loadBytes (a : Ptr) : AtMost 1 (T.loadBytes a) := by
  unfold T.loadBytes
  exact AtMost.bind (m := 0) (.load a) fun c => by split <;> first | exact .pure _ | exact .lift _

theorem AtMost.readSrc (s : Src) : AtMost 1 (T.readSrc s) := by
  cases s with
  | literal b => exact .pure _
  | block a => exact .loadBytes _
  | frameId a => exact AtMost.bind (m := 0) (.loadFrameHeader _) fun _ => .pure _

theorem AtMost.idMatches (p : Ptr) (id : Bytes) : AtMost 2 (T.idMatches p id) := by
  unfold T.idMatches
  exact AtMost.bind (m := 1) (.loadFrame _) fun _ => AtMost.bind (m := 0) (.loadFrameHeader _) fun _ => .lift _

theorem AtMost.textFree (a : Nat) : AtMost 6 (TextFrame_free a) := by
  unfold TextFrame_free
  refine AtMost.bind (m := 5) (.loadFrame _) fun f => AtMost.bind (m := 4) (.free _) fun _ =>
    AtMost.bind (m := 3) (.load _) fun c => ?_
  split
  · exact AtMost.bind (m := 2) (.free _) fun _ => AtMost.bind (m := 1) (.free _) fun _ => .free _
  · exact .lift _

theorem AtMost.commentFree (a : Nat) : AtMost 7 (CommentFrame_free a) := by
  unfold CommentFrame_free
  refine AtMost.bind (m := 6) (.loadFrame _) fun f => AtMost.bind (m := 5) (.free _) fun _ =>
    AtMost.bind (m := 4) (.load _) fun c => ?_
  split
  · exact AtMost.bind (m := 3) (.free _) fun _ => AtMost.bind (m := 2) (.free _) fun _ =>
      AtMost.bind (m := 1) (.free _) fun _ => .free _
  · exact .lift _

theorem AtMost.apicFree (a : Nat) : AtMost 8 (ApicFrame_free a) := by
  unfold ApicFrame_free
  refine AtMost.bind (m := 7) (.loadFrame _) fun f => AtMost.bind (m := 6) (.free _) fun _ =>
    AtMost.bind (m := 5) (.load _) fun c => ?_
  split
  · exact AtMost.bind (m := 4) (.free _) fun _ => AtMost.bind (m := 3) (.free _) fun _ =>
      AtMost.bind (m := 2) (.free _) fun _ => AtMost.bind (m := 1) (.free _) fun _ => .free _
  · exact .lift _

theorem AtMost.frameFree (p : Ptr) : AtMost 10 (ID3v2_Frame_free p) := by
  cases p with
  | none => exact .pure _
  | some a =>
    unfold ID3v2_Frame_free
    refine AtMost.bind (m := 9) (.loadFrame _) fun f => AtMost.bind (m := 8) (.loadFrameHeader _) fun x => ?_
    refine AtMost.bind (m := 8) (n := 0) (.lift _) fun b => ?_
    split
    · exact (AtMost.textFree a).mono (by decide)
    refine AtMost.bind (m := 8) (n := 0) (.lift _) fun b => ?_
    split
    · exact (AtMost.commentFree a).mono (by decide)
    refine AtMost.bind (m := 8) (n := 0) (.lift _) fun b => ?_
    split
    · exact AtMost.apicFree a
    · exact AtMost.bind (m := 7) (.free _) fun _ => (AtMost.free _).mono (by decide)

theorem AtMost.setTagSize (p : Ptr) (n : Nat) : AtMost 2 (T.setTagSize p n) := by
  unfold T.setTagSize
  exact AtMost.bind (m := 1) (.loadTagHeader _) fun _ => .store _ _

theorem AtMost.unlinkNode (a : Nat) (p : Ptr) : AtMost 4 (T.unlinkNode a p) := by
  unfold T.unlinkNode
  cases p with
  | none => exact AtMost.bind (m := 3) (n := 1) (.malloc _) fun _ => AtMost.bind (m := 2) (.loadNode _) fun _ =>
      AtMost.bind (m := 1) (.store _ _) fun _ => .free _
  | some b => exact AtMost.bind (m := 3) (n := 1) (.pure _) fun _ => AtMost.bind (m := 2) (.loadNode _) fun _ =>
      AtMost.bind (m := 1) (.store _ _) fun _ => .free _

theorem AtMost.csNew : AtMost 3 T.CharStream_new := by
  unfold T.CharStream_new
  exact AtMost.bind (m := 2) (.malloc _) fun _ => AtMost.bind (m := 1) (.malloc _) fun _ =>
    AtMost.bind (m := 0) (.store _ _) fun _ => .pure _

theorem AtMost.csFree (a : Nat) : AtMost 3 (T.CharStream_free a) := by
  unfold T.CharStream_free
  refine AtMost.bind (m := 2) (.load _) fun c => ?_
  split
  · exact AtMost.bind (m := 1) (.free _) fun _ => .free _
  · exact .lift _

theorem AtMost.itob : AtMost 2 T.itobBlock := by
  unfold T.itobBlock
  exact AtMost.bind (m := 1) (.malloc _) fun _ => .free _

theorem AtMost.fetch (p : Ptr) : AtMost 6 (T.fetchFrame p) := by
  unfold T.fetchFrame
  refine AtMost.bind (m := 5) (.loadFrame _) fun f => AtMost.bind (m := 4) (.loadFrameHeader _) fun x =>
    AtMost.bind (m := 3) (.load _) fun c => ?_
  split
  · exact AtMost.bind (m := 2) (.loadBytes _) fun _ => .pure _
  · exact AtMost.bind (m := 2) (.loadBytes _) fun _ => AtMost.bind (m := 1) (.loadBytes _) fun _ => .pure _
  · exact AtMost.bind (m := 2) (.loadBytes _) fun _ => AtMost.bind (m := 1) (.loadBytes _) fun _ =>
      AtMost.bind (m := 0) (.loadBytes _) fun _ => .pure _
  · exact .pure _
  · exact .lift _

theorem AtMost.frameOut [Platform] (a : Nat) : AtMost 17 (T.Frame_to_char_stream a) := by
  unfold T.Frame_to_char_stream
  refine AtMost.bind (m := 11) (.fetch _) fun f => AtMost.bind (m := 11) (n := 0) (.lift _) fun cs => ?_
  split
  · exact AtMost.bind (m := 8) .csNew fun _ => AtMost.bind (m := 5) .csNew fun _ =>
      AtMost.bind (m := 3) .itob fun _ => .pure _
  · exact AtMost.bind (m := 8) .csNew fun _ => AtMost.bind (m := 6) .itob fun _ => AtMost.bind (m := 3) .csNew fun _ =>
      AtMost.bind (m := 0) (.csFree _) fun _ => .pure _

/-- A call, then another program. -/
theorem bound_call {x : Prog α} {y : HeapM α} [s : Same x y] {k : α → Prog β} {γ : Type} {v : Res γ} {h : Heap}
    {Q : γ → α → Heap → Prop} {m n : Nat} (hx : Refines (y h) v Q) (hc : x.accesses h ≤ m)
    (hk : ∀ b a h', Q b a h' → (k a).accesses h' ≤ n) : (x >>= k).accesses h ≤ n + m := by
  rcases acc_call (x := x) (k := k) hx with ⟨b, a, h', -, q, e⟩ | ⟨-, e⟩
  · have := hk b a h' q
    omega
  · omega

/-! ## Lists -/

theorem bound_get {h : Heap} {L : List Block} (r : Rep h L) (head : Nat) (id : Bytes) :
    ∀ (k : Nat) (l : List (Nat × Option HFrame)), (∀ b ∈ listNodes head (spine l), b ∈ L) →
      (∀ b ∈ frameBlocks l, b ∈ L) → l.length < k →
      (FrameList_get_frame_by_id k (first (spine l)) id).accesses h ≤ 3 * l.length
  | 0, _, _, _, hk => absurd hk (by omega)
  | k + 1, [], _, _, _ => Nat.zero_le _
  | k + 1, (a, none) :: l, hn, _, _ => by
    show (FrameList_get_frame_by_id (k + 1) (some a) id).accesses h ≤ _
    unfold FrameList_get_frame_by_id
    rw [acc_loadNode r (hn _ List.mem_cons_self), List.length_cons]
    show 1 + 0 ≤ _
    omega
  | k + 1, (a, some F) :: l, hn, hf, hk => by
    show (FrameList_get_frame_by_id (k + 1) (some a) id).accesses h ≤ _
    unfold FrameList_get_frame_by_id
    rw [acc_loadNode r (hn _ List.mem_cons_self), List.length_cons]
    have := bound_get r head id k l (fun b hb => hn b (List.mem_cons_of_mem _ hb))
      (fun b hb => hf b (by rw [frameBlocks_some]; exact List.mem_append_right _ hb))
      (by simp only [List.length_cons] at hk; omega)
    have e : ∀ n, n ≤ 3 * l.length + 2 → 1 + n ≤ 3 * (l.length + 1) := by omega
    refine e _ ?_
    dsimp only [Option.map]
    refine bound_call (idMatches_spec r (fun b hb => hf b (by rw [frameBlocks_some]; exact List.mem_append_left _ hb)) id)
      (AtMost.idMatches _ _ h) ?_
    rintro _ b _ ⟨rfl, rfl⟩
    cases b with
    | true => exact Nat.zero_le _
    | false => exact this

theorem bound_replace (head : Nat) : ∀ (k : Nat) (l : List (Nat × Option HFrame)) (p q : Ptr) (L : List Block) (h : Heap),
    Rep h L → (∀ b ∈ listNodes head (spine l), b ∈ L) → l.length < k →
    (FrameList_replace_frame k (first (spine l)) p q).accesses h ≤ l.length + 1
  | 0, _, _, _, _, _, _, _, hk => absurd hk (by omega)
  | k + 1, [], _, _, _, _, _, _, _ => Nat.zero_le _
  | k + 1, (a, f) :: l, p, q, L, h, r, hn, hk => by
    show (FrameList_replace_frame (k + 1) (some a) p q).accesses h ≤ _
    unfold FrameList_replace_frame
    rw [acc_loadNode r (hn _ List.mem_cons_self), List.length_cons]
    dsimp only
    split
    · rw [acc_store_last]; omega
    · have := bound_replace head k l p q L h r (fun b hb => hn b (List.mem_cons_of_mem _ hb))
        (by simp only [List.length_cons] at hk; omega)
      have e : ∀ n, n ≤ l.length + 1 → 1 + n ≤ l.length + 1 + 1 := by omega
      exact e _ this

theorem bound_remove_by_id (head : Nat) (id : Bytes) :
    ∀ (k : Nat) (l : List (Nat × Option HFrame)) (L : List Block) (h : Heap),
      Rep h L → (∀ b ∈ listNodes head (spine l), b ∈ L) → (∀ b ∈ frameBlocks l, b ∈ L) → l.length < k →
      (FrameList_remove_frame_by_id k (first (spine l)) id).accesses h ≤ 3 * l.length + 4
  | 0, _, _, _, _, _, _, hk => absurd hk (by omega)
  | k + 1, [], _, _, _, _, _, _ => Nat.zero_le _
  | k + 1, (a, none) :: l, L, h, r, hn, _, _ => by
    show (FrameList_remove_frame_by_id (k + 1) (some a) id).accesses h ≤ _
    unfold FrameList_remove_frame_by_id
    rw [acc_loadNode r (hn _ List.mem_cons_self), List.length_cons]
    show 1 + 0 ≤ _
    omega
  | k + 1, (a, some F) :: l, L, h, r, hn, hf, hk => by
    show (FrameList_remove_frame_by_id (k + 1) (some a) id).accesses h ≤ _
    unfold FrameList_remove_frame_by_id
    rw [acc_loadNode r (hn _ List.mem_cons_self), List.length_cons]
    have := bound_remove_by_id head id k l L h r (fun b hb => hn b (List.mem_cons_of_mem _ hb))
      (fun b hb => hf b (by rw [frameBlocks_some]; exact List.mem_append_right _ hb))
      (by simp only [List.length_cons] at hk; omega)
    have e : ∀ n, n ≤ 3 * l.length + 4 + 2 → 1 + n ≤ 3 * (l.length + 1) + 4 := by omega
    refine e _ ?_
    dsimp only [Option.map]
    refine bound_call (idMatches_spec r (fun b hb => hf b (by rw [frameBlocks_some]; exact List.mem_append_left _ hb)) id)
      (AtMost.idMatches _ _ h) ?_
    rintro _ b _ ⟨rfl, rfl⟩
    cases b with
    | true =>
      exact Nat.le_trans (AtMost.bind (m := 0) (n := 4) (.unlinkNode _ _) (fun _ => .pure _) _) (by omega)
    | false => exact this

theorem bound_list_free (head : Nat) : ∀ (k : Nat) (l : List (Nat × Option HFrame)) (X : List Block) (h : Heap),
    Rep h (listNodes head (spine l) ++ (frameBlocks l ++ X)) → l.length < k →
    (ID3v2_FrameList_free k (first (spine l))).accesses h ≤ 13 * l.length
  | 0, _, _, _, _, hk => absurd hk (by omega)
  | _ + 1, [], X, h, r, _ => Nat.zero_le _
  | k + 1, (a, none) :: l, X, h, r, hk => by
    show (ID3v2_FrameList_free (k + 1) (some a)).accesses h ≤ _
    unfold ID3v2_FrameList_free
    rw [acc_loadNode r (List.mem_append_left _ List.mem_cons_self), List.length_cons]
    show 1 + (loadNode (some a) >>= fun n => free (some a) >>= fun _ => ID3v2_FrameList_free k n.next).accesses h ≤ _
    rw [acc_loadNode r (List.mem_append_left _ List.mem_cons_self)]
    obtain ⟨h', r', e⟩ := acc_free r (List.Perm.refl _) (fun _ => ID3v2_FrameList_free k (first (spine l)))
    have := bound_list_free head k l X h' r' (by simp only [List.length_cons] at hk; omega)
    show 1 + (1 + (free (some a) >>= fun _ => ID3v2_FrameList_free k (first (spine l))).accesses h) ≤ _
    rw [e]
    omega
  | k + 1, (a, some F) :: l, X, h, r, hk => by
    show (ID3v2_FrameList_free (k + 1) (some a)).accesses h ≤ _
    unfold ID3v2_FrameList_free
    rw [acc_loadNode r (List.mem_append_left _ List.mem_cons_self), List.length_cons]
    have e : ∀ n, n ≤ 13 * l.length + 2 + 10 → 1 + n ≤ 13 * (l.length + 1) := by omega
    refine e _ ?_
    dsimp only [Option.map]
    refine bound_call (frame_free_spec (F := F) (X := listNodes head (spine ((a, some F) :: l)) ++ (frameBlocks l ++ X))
      (r.perm (by rw [frameBlocks_some]; blocks))) (AtMost.frameFree _ _) fun _ _ h1 r1 => ?_
    rw [acc_loadNode r1 (List.mem_append_right _ (List.mem_append_left _ List.mem_cons_self))]
    obtain ⟨h', r', e⟩ := acc_free (a := a) (c := .node (some F.addr) (first (spine l)) (some head))
      (L' := listNodes head (spine l) ++ (frameBlocks l ++ (F.leak ++ X))) r1
      (by rw [spine_cons, listNodes_cons]; simp only [Option.map]; blocks) (fun _ => ID3v2_FrameList_free k (first (spine l)))
    have := bound_list_free head k l _ h' r' (by simp only [List.length_cons] at hk; omega)
    show 1 + (free (some a) >>= fun _ => ID3v2_FrameList_free k (first (spine l))).accesses h1 ≤ _
    rw [e]
    omega

theorem bound_collect (head sub : Nat) (id : Bytes) (R : List Block) :
    ∀ (k : Nat) (l : List (Nat × Option HFrame)) (f : Ptr) (rest : List (Nat × Ptr)) (h : Heap),
      Rep h (listNodes sub ((sub, f) :: rest) ++ R) → (∀ b ∈ listNodes head (spine l), b ∈ R) →
      (∀ b ∈ frameBlocks l, b ∈ R) → l.length < k →
      (collect k (first (spine l)) id sub).accesses h ≤ l.length * (l.length + rest.length + 9)
  | 0, _, _, _, _, _, _, _, hk => absurd hk (by omega)
  | k + 1, [], f, rest, h, r, _, _, _ => Nat.zero_le _
  | k + 1, (a, none) :: l, f, rest, h, r, hn, _, _ => by
    show (collect (k + 1) (some a) id sub).accesses h ≤ _
    unfold collect
    rw [acc_loadNode r (List.mem_append_right _ (hn _ List.mem_cons_self)), List.length_cons]
    show 1 + 0 ≤ (l.length + 1) * _
    rw [Nat.add_mul]
    omega
  | k + 1, (a, some F) :: l, f, rest, h, r, hn, hf, hk => by
    show (collect (k + 1) (some a) id sub).accesses h ≤ _
    unfold collect
    rw [acc_loadNode r (List.mem_append_right _ (hn _ List.mem_cons_self)), List.length_cons]
    have hF : ∀ b ∈ F.blocks, b ∈ R := fun b hb => hf b (by rw [frameBlocks_some]; exact List.mem_append_left _ hb)
    have hn' : ∀ b ∈ listNodes head (spine l), b ∈ R := fun b hb => hn b (List.mem_cons_of_mem _ hb)
    have hf' : ∀ b ∈ frameBlocks l, b ∈ R := fun b hb =>
      hf b (by rw [frameBlocks_some]; exact List.mem_append_right _ hb)
    have hk' : l.length < k := by simp only [List.length_cons] at hk; omega
    have e1 : (l.length + 1) * (l.length + 1 + rest.length + 9) =
        l.length * (l.length + rest.length + 10) + (l.length + rest.length + 10) := by
      rw [Nat.add_mul, Nat.one_mul, show l.length + 1 + rest.length + 9 = l.length + rest.length + 10 from by omega]
    have e2 : l.length * (l.length + rest.length + 9) ≤ l.length * (l.length + rest.length + 10) :=
      Nat.mul_le_mul_left _ (by omega)
    rw [e1]
    have e : ∀ n, n ≤ l.length * (l.length + rest.length + 10) + (rest.length + 6) + 2 →
        1 + n ≤ l.length * (l.length + rest.length + 10) + (l.length + rest.length + 10) := by omega
    refine e _ ?_
    dsimp only [Option.map]
    refine bound_call (idMatches_spec r (fun b hb => List.mem_append_right _ (hF b hb)) id) (AtMost.idMatches _ _ h) ?_
    rintro _ b h2 ⟨rfl, rfl⟩
    cases b with
    | false =>
      have := bound_collect head sub id R k l f rest _ r hn' hf' hk'
      exact Nat.le_trans this (by omega)
    | true =>
      have ha : (FrameList_add_frame sub (some F.addr)).accesses h2 ≤ rest.length + 6 := by
        rw [acc_add r]
        cases f with
        | none => dsimp only; omega
        | some g => exact Nat.le_refl _
      refine bound_call (add_frame_spec r F.addr) ha ?_
      rintro _ _ h1 ⟨sp, r1, hsp⟩
      have : ∃ f1 rest1, sp = (sub, f1) :: rest1 ∧ rest1.length ≤ rest.length + 1 := by
        cases f with
        | none => exact ⟨_, _, hsp, by omega⟩
        | some g => obtain ⟨c, hsp⟩ := hsp; exact ⟨_, _, hsp, by simp⟩
      obtain ⟨f1, rest1, rfl, hl⟩ := this
      refine Nat.le_trans (bound_collect head sub id R k l f1 rest1 h1 r1 hn' hf' hk') ?_
      exact Nat.mul_le_mul_left _ (by omega)

theorem bound_write_frames [Platform] (head : Nat) (X : List Block) :
    ∀ (k : Nat) (l : List (Nat × Option HFrame)) (cs : CharStream) (K0 : List Block) (h : Heap),
      Rep h (K0 ++ X) → (∀ b ∈ listNodes head (spine l), b ∈ X) → (∀ b ∈ frameBlocks l, b ∈ X) → l.length < k →
      (Tag_write_frames k cs (first (spine l))).accesses h ≤ 21 * l.length
  | 0, _, _, _, _, _, _, _, hk => absurd hk (by omega)
  | _ + 1, [], cs, K0, h, r, _, _, _ => Nat.zero_le _
  | k + 1, (a, none) :: l, cs, K0, h, r, hn, _, _ => by
    show (Tag_write_frames (k + 1) cs (some a)).accesses h ≤ _
    unfold Tag_write_frames
    rw [acc_loadNode r (List.mem_append_right _ (hn _ List.mem_cons_self)), List.length_cons]
    show 1 + 0 ≤ _
    omega
  | k + 1, (a, some F) :: l, cs, K0, h, r, hn, hf, hk => by
    show (Tag_write_frames (k + 1) cs (some a)).accesses h ≤ _
    unfold Tag_write_frames
    rw [acc_loadNode r (List.mem_append_right _ (hn _ List.mem_cons_self)), List.length_cons]
    have e : ∀ n, n ≤ 21 * l.length + 3 + 17 → 1 + n ≤ 21 * (l.length + 1) := by omega
    refine e _ ?_
    dsimp only [Option.map]
    refine bound_call (frame_out_spec r fun b hb => List.mem_append_right _ (hf b (List.mem_append_left _ hb)))
      (AtMost.frameOut _ _) ?_
    rintro v ⟨p, c⟩ h1 ⟨e, s, K, hK, r1⟩
    dsimp only at e r1 ⊢
    subst e
    cases hw : CharStream_write cs c.stream c.size with
    | ok cs' =>
      rw [acc_lift_ok rfl]
      refine bound_call (cs_free_spec r1) (AtMost.csFree _ _) fun _ _ h2 r2 => ?_
      exact bound_write_frames head X k l cs' (K ++ K0) h2 (r2.perm (by blocks))
        (fun b hb => hn b (List.mem_cons_of_mem _ hb)) (fun b hb => hf b (List.mem_append_right _ hb))
        (by simp only [List.length_cons] at hk; omega)
    | ub k => rw [acc_lift_fail (by simp)]; exact Nat.zero_le _
    | exit => rw [acc_lift_fail (by simp)]; exact Nat.zero_le _
    | diverge => rw [acc_lift_fail (by simp)]; exact Nat.zero_le _

/-! ## Calls on a tag -/

theorem bound_src {s : Src} {b : Bytes} {k : Bytes → Prog α} {h : Heap} {L : List Block} {n : Nat} (r : Rep h L) (hs : s.At L b)
    (hk : (k b).accesses h ≤ n) : (readSrc s >>= k).accesses h ≤ n + 1 := by
  cases s with
  | literal b' => cases hs; exact Nat.le_trans hk (Nat.le_succ _)
  | block a =>
    have e : (readSrc (.block a) >>= k).accesses h = 1 + (k b).accesses h := by
      show (Prog.load a _).accesses h = _
      simp only [accesses, r.load hs]
      rfl
    omega
  | frameId a =>
    obtain ⟨x, hx, rfl⟩ := hs
    have e : (readSrc (.frameId a) >>= k).accesses h = 1 + (k x.id).accesses h := by
      show (Prog.load a _).accesses h = _
      simp only [accesses, r.load hx]
      rfl
    omega

theorem bound_lift {r : Res β} {k : β → Prog α} {h : Heap} {n : Nat} (hk : ∀ a, (k a).accesses h ≤ n) :
    (lift r >>= k).accesses h ≤ n := by
  cases r with
  | ok a => exact hk a
  | ub k => exact Nat.zero_le _
  | exit => exact Nat.zero_le _
  | diverge => exact Nat.zero_le _

theorem bound_tag_get {h : Heap} {T : HTag} {X : List Block} (r : Rep h (T.blocks ++ X)) (s : Src) (id : Bytes)
    (hs : s.At (T.blocks ++ X) id) : (ID3v2_Tag_get_frame T.addr s).accesses h ≤ 3 * T.list.length + 2 := by
  unfold ID3v2_Tag_get_frame
  refine bound_src (n := 3 * T.list.length + 1) r hs ?_
  rw [acc_loadTag r (List.mem_append_left _ (mem_tag T))]
  obtain ⟨n, hn, e⟩ := acc_fuel r (fun m => FrameList_get_frame_by_id m (some T.head) id)
  have := bound_get r T.head id n T.list (fun b hb => List.mem_append_left _ (mem_nodes T b hb))
    (fun b hb => List.mem_append_left _ (mem_frames T b hb)) (Nat.lt_trans (list_length T _) hn)
  show 1 + (heapFuel >>= fun m => FrameList_get_frame_by_id m (some T.head) id).accesses h ≤ _
  rw [e]
  have e : first (spine T.list) = some T.head := rfl
  rw [e] at this
  omega

theorem bound_tag_get_frames {h : Heap} {T : HTag} {X : List Block} (r : Rep h (T.blocks ++ X)) (s : Src) (id : Bytes)
    (hs : s.At (T.blocks ++ X) id) :
    (ID3v2_Tag_get_frames T.addr s).accesses h ≤ T.list.length * (T.list.length + 9) + 3 := by
  unfold ID3v2_Tag_get_frames
  refine bound_src (n := T.list.length * (T.list.length + 9) + 2) r hs ?_
  rw [acc_loadTag r (List.mem_append_left _ (mem_tag T))]
  show 1 + (malloc (.node none none none) >>= fun sub => heapFuel >>= fun m => collect m (some T.head) id sub >>= fun _ => pure sub).accesses h ≤ _
  obtain ⟨sub, h1, r1, e⟩ := acc_malloc (c := .node none none none) r (fun sub => heapFuel >>= fun m => collect m (some T.head) id sub >>= fun _ => (pure sub : Prog Nat))
  rw [e]
  obtain ⟨m, hm, e⟩ := acc_fuel r1 (fun m => collect m (some T.head) id sub >>= fun _ => (pure sub : Prog Nat))
  rw [e, accesses_bind]
  have hl := list_length T X
  have := bound_collect T.head sub id (T.blocks ++ X) m T.list none [] h1 r1
    (fun b hb => List.mem_append_left _ (mem_nodes T b hb)) (fun b hb => List.mem_append_left _ (mem_frames T b hb))
    (by simp only [List.length_cons] at hm; omega)
  have e : first (spine T.list) = some T.head := rfl
  rw [e, List.length_nil, Nat.add_zero] at this
  split
  · rw [accesses_pure]; omega
  · omega

theorem bound_append {h : Heap} {T : HTag} {F : HFrame} {X : List Block} (r : Rep h (T.blocks ++ (F.blocks ++ X))) :
    (Tag_append T.addr F.addr).accesses h ≤ T.list.length + 11 := by
  unfold Tag_append
  rw [acc_loadTag r (List.mem_append_left _ (mem_tag T))]
  dsimp only
  have r0 : Rep h (listNodes T.head (spine T.list) ++ (frameBlocks T.list ++ (F.blocks ++
      ((T.addr, .tag (some T.hdr) (some T.head) T.padding_size) :: (T.hdr, .tagHeader T.header) :: X)))) :=
    r.perm ((tag_list T _).trans (by blocks))
  have e : ∀ n, n ≤ 5 + (T.list.length + 5) → 1 + n ≤ T.list.length + 11 := by omega
  refine e _ ?_
  have ha : (FrameList_add_frame T.head (some F.addr)).accesses h ≤ T.list.length + 5 := by
    have r1 : Rep h (listNodes T.head ((T.head, T.frame.map HFrame.addr) :: spine T.rest) ++ (frameBlocks T.list ++ (F.blocks ++
      ((T.addr, .tag (some T.hdr) (some T.head) T.padding_size) :: (T.hdr, .tagHeader T.header) :: X)))) := r0
    rw [acc_add r1]
    have : (spine T.rest).length = T.rest.length := by simp [spine]
    have : T.list.length = T.rest.length + 1 := rfl
    split <;> omega
  refine bound_call (add_spec (l := T.list) (F := F) rfl r0) ha ?_
  intro _ _ h1 _
  exact AtMost.bind (m := 4) (.loadFrame _) (fun _ => AtMost.bind (m := 3) (.loadFrameHeader _) fun _ =>
    AtMost.bind (m := 2) (.loadTagHeader _) fun _ => .setTagSize _ _) h1

theorem bound_set_frame {h : Heap} {T : HTag} {F : HFrame} {X : List Block} (id : Bytes)
    (r : Rep h (T.blocks ++ (F.blocks ++ X))) : (Tag_set_frame T.addr id F.addr).accesses h ≤ 4 * T.list.length + 19 := by
  unfold Tag_set_frame
  rw [acc_loadTag r (List.mem_append_left _ (mem_tag T))]
  have e : ∀ n, n ≤ (T.list.length + 18) + 3 * T.list.length → 1 + n ≤ 4 * T.list.length + 19 := by omega
  refine e _ ?_
  obtain ⟨n, hn, e⟩ := acc_fuel r (fun m => FrameList_get_frame_by_id m (some T.head) id >>= fun x => match x with
    | none => Tag_append T.addr F.addr
    | some existing_frame => do
      FrameList_replace_frame (← heapFuel) (some T.head) (some existing_frame) (some F.addr)
      let f ← loadFrame (some F.addr)
      let fh ← loadFrameHeader f.header
      let e ← loadFrame (some existing_frame)
      let eh ← loadFrameHeader e.header
      let diff ← lift (ck (fh.size - eh.size))
      let h ← loadTagHeader (some T.hdr)
      setTagSize (some T.hdr) (u32 (h.tag_size + diff))
      ID3v2_Frame_free (some existing_frame))
  refine Nat.le_trans (Nat.le_of_eq e) ?_
  have hl : T.list.length < n := Nat.lt_trans (list_length T _) hn
  refine bound_call (get_frame_spec r T.head id n T.list (fun b hb => List.mem_append_left _ (mem_nodes T b hb))
    (fun b hb => List.mem_append_left _ (mem_frames T b hb)) hl) (bound_get r T.head id n T.list
      (fun b hb => List.mem_append_left _ (mem_nodes T b hb)) (fun b hb => List.mem_append_left _ (mem_frames T b hb)) hl) ?_
  rintro b a h' ⟨rfl, hb⟩
  cases b with
  | none =>
    subst hb
    exact Nat.le_trans (bound_append r) (by omega)
  | some b =>
    obtain ⟨i, f⟩ := b
    obtain ⟨m, G, hi, rfl, rfl⟩ := hb
    dsimp only
    obtain ⟨n, hn, e⟩ := acc_fuel r (fun m => do
      FrameList_replace_frame m (some T.head) (some G.addr) (some F.addr)
      let f ← loadFrame (some F.addr)
      let fh ← loadFrameHeader f.header
      let e ← loadFrame (some G.addr)
      let eh ← loadFrameHeader e.header
      let diff ← lift (ck (fh.size - eh.size))
      let h ← loadTagHeader (some T.hdr)
      setTagSize (some T.hdr) (u32 (h.tag_size + diff))
      ID3v2_Frame_free (some G.addr))
    refine Nat.le_trans (Nat.le_of_eq e) ?_
    have hl : T.list.length < n := Nat.lt_trans (list_length T _) hn
    have e : ∀ n, n ≤ 17 + (T.list.length + 1) → n ≤ T.list.length + 18 := by omega
    refine e _ ?_
    refine bound_call (replace_frame_spec T.head n T.list i m G F _ _ (r.perm (tag_list T _)) hi hl)
      (bound_replace T.head n T.list _ _ _ _ r (fun b hb => List.mem_append_left _ (mem_nodes T b hb)) hl) ?_
    intro _ _ h1 _
    exact AtMost.bind (m := 16) (.loadFrame _) (fun _ => AtMost.bind (m := 15) (.loadFrameHeader _) fun _ =>
      AtMost.bind (m := 14) (.loadFrame _) fun _ => AtMost.bind (m := 13) (.loadFrameHeader _) fun _ =>
      AtMost.bind (m := 13) (n := 0) (.lift _) fun _ => AtMost.bind (m := 12) (.loadTagHeader _) fun _ =>
      AtMost.bind (m := 10) (.setTagSize _ _) fun _ => .frameFree _) h1

theorem AtMost.headerNew (id flags : Bytes) (n : Int) : AtMost 1 (FrameHeader_new id flags n) := by
  unfold FrameHeader_new
  exact AtMost.bind (m := 1) (n := 0) (.lift _) fun _ => .malloc _

theorem AtMost.textNew [Platform] (id flags text : Bytes) : AtMost 6 (TextFrame_new id flags text) := by
  unfold TextFrame_new
  exact AtMost.bind (m := 5) (.malloc _) fun _ => AtMost.bind (m := 5) (n := 0) (.lift _) fun _ =>
    AtMost.bind (m := 4) (.malloc _) fun _ => AtMost.bind (m := 3) (.malloc _) fun _ =>
    AtMost.bind (m := 2) (.store _ _) fun _ => AtMost.bind (m := 2) (n := 0) (.lift _) fun _ =>
    AtMost.bind (m := 1) (.headerNew _ _ _) fun _ => AtMost.bind (m := 0) (.store _ _) fun _ => .pure _

theorem AtMost.commentNew [Platform] (flags lang sd c : Bytes) : AtMost 7 (CommentFrame_new flags lang sd c) := by
  unfold CommentFrame_new
  exact AtMost.bind (m := 6) (.malloc _) fun _ => AtMost.bind (m := 6) (n := 0) (.lift _) fun _ =>
    AtMost.bind (m := 5) (.malloc _) fun _ => AtMost.bind (m := 4) (.malloc _) fun _ => AtMost.bind (m := 3) (.malloc _) fun _ =>
    AtMost.bind (m := 2) (.store _ _) fun _ => AtMost.bind (m := 2) (n := 0) (.lift _) fun _ =>
    AtMost.bind (m := 2) (n := 0) (.lift _) fun _ =>
    AtMost.bind (m := 1) (.headerNew _ _ _) fun _ => AtMost.bind (m := 0) (.store _ _) fun _ => .pure _

theorem AtMost.apicNew [Platform] (flags desc : Bytes) (pt : UInt8) (mime : Bytes) (n : Int) (pic : Bytes) :
    AtMost 8 (ApicFrame_new flags desc pt mime n pic) := by
  unfold ApicFrame_new
  exact AtMost.bind (m := 7) (.malloc _) fun _ => AtMost.bind (m := 7) (n := 0) (.lift _) fun _ =>
    AtMost.bind (m := 6) (.malloc _) fun _ => AtMost.bind (m := 5) (.malloc _) fun _ => AtMost.bind (m := 4) (.malloc _) fun _ =>
    AtMost.bind (m := 3) (.malloc _) fun _ =>
    AtMost.bind (m := 2) (.store _ _) fun _ => AtMost.bind (m := 2) (n := 0) (.lift _) fun _ =>
    AtMost.bind (m := 2) (n := 0) (.lift _) fun _ => AtMost.bind (m := 2) (n := 0) (.lift _) fun _ =>
    AtMost.bind (m := 1) (.headerNew _ _ _) fun _ => AtMost.bind (m := 0) (.store _ _) fun _ => .pure _

theorem bound_set_text [Platform] {h : Heap} {T : HTag} {X : List Block} (r : Rep h (T.blocks ++ X))
    (i : H.TextFrameInput) (v : Id3.TextFrameInput) (h1 : i.id.At (T.blocks ++ X) v.id)
    (h2 : i.flags.At (T.blocks ++ X) v.flags) (h3 : i.text.At (T.blocks ++ X) v.text) :
    (ID3v2_Tag_set_text_frame T.addr i).accesses h ≤ 4 * T.list.length + 28 := by
  unfold ID3v2_Tag_set_text_frame
  refine bound_src (n := 4 * T.list.length + 27) r h1 (bound_src (n := 4 * T.list.length + 26) r h2
    (bound_src (n := 4 * T.list.length + 19 + 6) r h3 ?_))
  refine bound_call (text_new_spec r v.id v.flags v.text) (AtMost.textNew _ _ _ h) ?_
  rintro f a h' ⟨F, rfl, rfl, r'⟩
  exact bound_set_frame (X := X) v.id (r'.perm (by blocks))

theorem bound_set_comment [Platform] {h : Heap} {T : HTag} {X : List Block} (r : Rep h (T.blocks ++ X))
    (i : H.CommentFrameInput) (v : Id3.CommentFrameInput) (h1 : i.flags.At (T.blocks ++ X) v.flags)
    (h2 : i.language.At (T.blocks ++ X) v.language) (h3 : i.short_description.At (T.blocks ++ X) v.short_description)
    (h4 : i.comment.At (T.blocks ++ X) v.comment) :
    (ID3v2_Tag_set_comment_frame T.addr i).accesses h ≤ 4 * T.list.length + 30 := by
  unfold ID3v2_Tag_set_comment_frame
  refine bound_src (n := 4 * T.list.length + 29) r h1 (bound_src (n := 4 * T.list.length + 28) r h2
    (bound_src (n := 4 * T.list.length + 27) r h3 (bound_src (n := 4 * T.list.length + 19 + 7) r h4 ?_)))
  refine bound_call (comment_new_spec r v.flags v.language v.short_description v.comment) (AtMost.commentNew _ _ _ _ h) ?_
  rintro f a h' ⟨F, rfl, rfl, r'⟩
  exact bound_set_frame (X := X) _ (r'.perm (by blocks))

theorem bound_add_comment [Platform] {h : Heap} {T : HTag} {X : List Block} (r : Rep h (T.blocks ++ X))
    (i : H.CommentFrameInput) (v : Id3.CommentFrameInput) (h1 : i.flags.At (T.blocks ++ X) v.flags)
    (h2 : i.language.At (T.blocks ++ X) v.language) (h3 : i.short_description.At (T.blocks ++ X) v.short_description)
    (h4 : i.comment.At (T.blocks ++ X) v.comment) :
    (ID3v2_Tag_add_comment_frame T.addr i).accesses h ≤ T.list.length + 22 := by
  unfold ID3v2_Tag_add_comment_frame
  refine bound_src (n := T.list.length + 21) r h1 (bound_src (n := T.list.length + 20) r h2
    (bound_src (n := T.list.length + 19) r h3 (bound_src (n := T.list.length + 11 + 7) r h4 ?_)))
  refine bound_call (comment_new_spec r v.flags v.language v.short_description v.comment) (AtMost.commentNew _ _ _ _ h) ?_
  rintro f a h' ⟨F, rfl, rfl, r'⟩
  exact bound_append (X := X) (r'.perm (by blocks))

theorem bound_apic_input [Platform] {h : Heap} {L : List Block} (r : Rep h L) (i : H.ApicFrameInput) (v : Id3.ApicFrameInput)
    (h1 : i.flags.At L v.flags) (h2 : i.mime_type.At L v.mime_type) (h3 : i.description.At L v.description)
    (h4 : i.data.At L v.data) : (ApicFrame_of_input i).accesses h ≤ 12 := by
  unfold ApicFrame_of_input
  exact bound_src (n := 11) r h1 (bound_src (n := 10) r h2 (bound_src (n := 9) r h3 (bound_src (n := 8) r h4
    (AtMost.apicNew _ _ _ _ _ _ h))))

theorem bound_set_apic [Platform] {h : Heap} {T : HTag} {X : List Block} (r : Rep h (T.blocks ++ X))
    (i : H.ApicFrameInput) (v : Id3.ApicFrameInput) (h1 : i.flags.At (T.blocks ++ X) v.flags)
    (h2 : i.mime_type.At (T.blocks ++ X) v.mime_type) (h3 : i.description.At (T.blocks ++ X) v.description)
    (h4 : i.data.At (T.blocks ++ X) v.data) (h5 : i.picture_type = v.picture_type) (h6 : i.picture_size = v.picture_size) :
    (ID3v2_Tag_set_apic_frame T.addr i).accesses h ≤ 4 * T.list.length + 31 := by
  unfold ID3v2_Tag_set_apic_frame
  refine bound_call (n := 4 * T.list.length + 19) (apic_input_spec r i v h1 h2 h3 h4 h5 h6) (bound_apic_input r i v h1 h2 h3 h4) ?_
  rintro f a h' ⟨F, rfl, rfl, r'⟩
  exact bound_set_frame (X := X) _ (r'.perm (by blocks))

theorem bound_add_apic [Platform] {h : Heap} {T : HTag} {X : List Block} (r : Rep h (T.blocks ++ X))
    (i : H.ApicFrameInput) (v : Id3.ApicFrameInput) (h1 : i.flags.At (T.blocks ++ X) v.flags)
    (h2 : i.mime_type.At (T.blocks ++ X) v.mime_type) (h3 : i.description.At (T.blocks ++ X) v.description)
    (h4 : i.data.At (T.blocks ++ X) v.data) (h5 : i.picture_type = v.picture_type) (h6 : i.picture_size = v.picture_size) :
    (ID3v2_Tag_add_apic_frame T.addr i).accesses h ≤ T.list.length + 23 := by
  unfold ID3v2_Tag_add_apic_frame
  refine bound_call (n := T.list.length + 11) (apic_input_spec r i v h1 h2 h3 h4 h5 h6) (bound_apic_input r i v h1 h2 h3 h4) ?_
  rintro f a h' ⟨F, rfl, rfl, r'⟩
  exact bound_append (X := X) (r'.perm (by blocks))

theorem bound_delete {h : Heap} {T : HTag} {X : List Block} (r : Rep h (T.blocks ++ X)) (s : Src) (id : Bytes)
    (hs : s.At (T.blocks ++ X) id) : (ID3v2_Tag_delete_frame T.addr s).accesses h ≤ 3 * T.list.length + 21 := by
  unfold ID3v2_Tag_delete_frame
  refine bound_src (n := 3 * T.list.length + 20) r hs ?_
  rw [acc_loadTag r (List.mem_append_left _ (mem_tag T))]
  have e : ∀ n, n ≤ 15 + (3 * T.list.length + 4) → 1 + n ≤ 3 * T.list.length + 20 := by omega
  refine e _ ?_
  obtain ⟨n, hn, e⟩ := acc_fuel r (fun m => do
    let deleted ← FrameList_remove_frame_by_id m (some T.head) id
    let f ← loadFrame deleted
    let fh ← loadFrameHeader f.header
    let n ← lift (ck (fh.size + 10))
    let h ← loadTagHeader (some T.hdr)
    setTagSize (some T.hdr) (u32 (h.tag_size - n))
    ID3v2_Frame_free deleted)
  refine Nat.le_trans (Nat.le_of_eq e) ?_
  have hl : T.list.length < n := Nat.lt_trans (list_length T _) hn
  refine bound_call (remove_by_id_spec T.head id n T.list _ h (r.perm (tag_list T _))
    (fun b hb => List.mem_append_left _ hb) hl) (bound_remove_by_id T.head id n T.list _ h r
      (fun b hb => List.mem_append_left _ (mem_nodes T b hb)) (fun b hb => List.mem_append_left _ (mem_frames T b hb)) hl) ?_
  intro _ _ h1 _
  exact AtMost.bind (m := 14) (.loadFrame _) (fun _ => AtMost.bind (m := 13) (.loadFrameHeader _) fun _ =>
      AtMost.bind (m := 13) (n := 0) (.lift _) fun _ => AtMost.bind (m := 12) (.loadTagHeader _) fun _ =>
      AtMost.bind (m := 10) (.setTagSize _ _) fun _ => .frameFree _) h1

theorem bound_free {h : Heap} {T : HTag} {X : List Block} (r : Rep h (T.blocks ++ X)) :
    (ID3v2_Tag_free T.addr).accesses h ≤ 13 * T.list.length + 3 := by
  unfold ID3v2_Tag_free
  rw [acc_loadTag r (List.mem_append_left _ (mem_tag T))]
  dsimp only
  obtain ⟨h1, r1, e⟩ := acc_free (a := T.hdr) (c := .tagHeader T.header)
    (L' := listNodes T.head (spine T.list) ++ (frameBlocks T.list ++ ((T.addr, .tag (some T.hdr) (some T.head) T.padding_size) :: X)))
    r (by unfold HTag.blocks; blocks) (fun _ => heapFuel >>= fun m => ID3v2_FrameList_free m (some T.head) >>= fun _ => free (some T.addr))
  refine Nat.le_trans (Nat.le_of_eq (congrArg (1 + ·) e)) ?_
  obtain ⟨m, hm, e⟩ := acc_fuel r1 (fun m => ID3v2_FrameList_free m (some T.head) >>= fun _ => free (some T.addr))
  rw [e]
  have := bound_list_free T.head m T.list _ h1 r1 (by
    simp only [List.length_append, listNodes_length] at hm
    simp only [spine, List.length_map] at hm
    omega)
  have e : first (spine T.list) = some T.head := rfl
  rw [e] at this
  rw [accesses_bind]
  split
  · rw [acc_free_last]; omega
  · omega

theorem bound_tag_out [Platform] {h : Heap} {T : HTag} {X : List Block} (r : Rep h (T.blocks ++ X)) :
    (Tag_to_char_stream T.addr).accesses h ≤ 21 * T.list.length + 8 := by
  unfold Tag_to_char_stream
  rw [acc_loadTag r (List.mem_append_left _ (mem_tag T))]
  dsimp only
  rw [acc_loadTagHeader r (List.mem_append_left _ (mem_tagHeader T))]
  have e : ∀ n, n ≤ 21 * T.list.length + 3 + 3 → 1 + (1 + n) ≤ 21 * T.list.length + 8 := by omega
  refine e _ ?_
  refine bound_call (cs_new_spec r) (AtMost.csNew h) ?_
  rintro _ a h1 ⟨s, r1⟩
  refine bound_lift fun c1 => bound_lift fun c2 => bound_lift fun c3 => bound_lift fun c4 => bound_lift fun sz => ?_
  have e : ∀ n, n ≤ 21 * T.list.length + 1 + 2 → n ≤ 21 * T.list.length + 3 := by omega
  refine e _ ?_
  refine bound_call (itob_spec r1) (AtMost.itob h1) fun _ _ h2 r2 => ?_
  refine bound_lift fun c5 => ?_
  have hm : ∀ b ∈ T.blocks, b ∈ (a, Cell.charStream (some s)) :: (s, Cell.bytes []) :: (T.blocks ++ X) :=
    fun b hb => by simp [hb]
  rw [acc_loadNode r2 (hm _ (mem_nodes T _ List.mem_cons_self))]
  dsimp only
  cases hf : T.frame with
  | none =>
    show 1 + 0 ≤ _
    omega
  | some F =>
    dsimp only [Option.map]
    obtain ⟨m, hn, e⟩ := acc_fuel r2 (fun m => Tag_write_frames m c5 (some T.head) >>= fun cs => pure (a, cs))
    refine Nat.le_trans (Nat.le_of_eq (congrArg (1 + ·) e)) ?_
    have := bound_write_frames T.head (((a, Cell.charStream (some s)) :: (s, Cell.bytes []) :: (T.blocks ++ X)))
      m T.list c5 [] h2 r2 (fun b hb => hm _ (mem_nodes T b hb)) (fun b hb => hm _ (mem_frames T b hb)) (by
        have := list_length T X
        simp only [List.length_cons] at hn
        omega)
    have e : first (spine T.list) = some T.head := rfl
    rw [e] at this
    rw [accesses_bind]
    split
    · rw [accesses_pure]; omega
    · omega

theorem AtMost.readHeader [Platform] (b : Src) : AtMost 8 (ID3v2_read_tag_header_from_buffer b) := by
  unfold ID3v2_read_tag_header_from_buffer
  refine AtMost.bind (m := 7) (.readSrc _) fun _ => AtMost.bind (m := 7) (n := 0) (.lift _) fun _ =>
    AtMost.bind (m := 4) .csNew fun _ => AtMost.bind (m := 4) (n := 0) (.lift _) fun p => ?_
  obtain ⟨x, _⟩ := p
  cases x with
  | none => exact AtMost.bind (m := 4) (n := 0) (.pure _) fun _ => AtMost.bind (m := 1) (.csFree _) fun _ => .pure _
  | some x =>
    exact AtMost.bind (m := 3) (n := 1) (AtMost.bind (m := 0) (.malloc _) fun _ => .pure _) fun _ =>
      AtMost.bind (m := 0) (.csFree _) fun _ => .pure _

theorem AtMost.existing [Platform] (file : File) : AtMost 10 (existingTagSize file) := by
  unfold existingTagSize
  have h : AtMost 8 (ID3v2_read_tag_header file) := by
    unfold ID3v2_read_tag_header
    cases file with
    | none => exact .pure _
    | some c =>
      dsimp only
      split
      · exact .pure _
      · exact .readHeader _
  refine AtMost.bind (m := 2) h fun p => ?_
  cases p with
  | none => exact .pure _
  | some a => exact AtMost.bind (m := 1) (.loadTagHeader _) fun _ => AtMost.bind (m := 0) (.free _) fun _ => .pure _

theorem bound_write [Platform] {h : Heap} {T : HTag} {X : List Block} (r : Rep h (T.blocks ++ X)) (file : File) :
    (ID3v2_write_tag file T.addr).accesses h ≤ 21 * T.list.length + 23 := by
  unfold ID3v2_write_tag
  have e : ∀ n, n ≤ 21 * T.list.length + 13 + 10 → n ≤ 21 * T.list.length + 23 := by omega
  refine e _ ?_
  refine bound_call (existing_spec r file) (AtMost.existing file h) ?_
  rintro _ sz h1 ⟨rfl, r1⟩
  rw [acc_loadTag r1 (List.mem_append_left _ (mem_tag T))]
  dsimp only
  have e : ∀ n, n ≤ 21 * T.list.length + 12 → 1 + n ≤ 21 * T.list.length + 13 := by omega
  refine e _ ?_
  refine bound_lift fun d => bound_lift fun p => ?_
  obtain ⟨a, hdr, x, pad, head, f, rest⟩ := T
  obtain ⟨h2, r2, e⟩ := acc_store (a := a) (c := .tag (some hdr) (some head) pad) (c' := .tag (some hdr) (some head) p)
    (L' := ((hdr, Cell.tagHeader x) ::
    (listNodes head (spine ((head, f) :: rest)) ++ frameBlocks ((head, f) :: rest))) ++ X) r1
    (by unfold HTag.blocks HTag.list; blocks) (fun _ => do
      let (tag_cs, cs) ← Tag_to_char_stream a
      let temp ← lift (memcpySrc cs.stream cs.size)
      match file with
      | none => lift (.ub .nullDeref)
      | some contents =>
        CharStream_free tag_cs
        return some (temp ++ contents.drop sz.toNat))
  refine Nat.le_trans (Nat.le_of_eq e) ?_
  have r3 : Rep h2 ((⟨a, hdr, x, p, head, f, rest⟩ : HTag).blocks ++ X) := r2
  have e : ∀ n, n ≤ 3 + (21 * (rest.length + 1) + 8) → 1 + n ≤ 21 * (rest.length + 1) + 12 := by omega
  refine e _ ?_
  refine bound_call (tag_out_spec r3) (bound_tag_out r3) ?_
  rintro c ⟨q, _⟩ h3 _
  refine bound_lift fun t => ?_
  cases file with
  | none => exact Nat.zero_le _
  | some contents => exact AtMost.bind (m := 0) (.csFree _) (fun _ => .pure _) h3

/-! ## Deleting by index -/

theorem bound_remove (head : Nat) : ∀ (k : Nat) (l : List (Nat × Option HFrame)) (p : Ptr) (L : List Block) (h : Heap),
    Rep h L → (∀ b ∈ listNodes head (spine l), b ∈ L) → l.length < k →
    (FrameList_remove_frame k (first (spine l)) p).accesses h ≤ l.length + 4
  | 0, _, _, _, _, _, _, hk => absurd hk (by omega)
  | k + 1, [], _, _, _, _, _, _ => Nat.zero_le _
  | k + 1, (a, f) :: l, p, L, h, r, hn, hk => by
    show (FrameList_remove_frame (k + 1) (some a) p).accesses h ≤ _
    unfold FrameList_remove_frame
    rw [acc_loadNode r (hn _ List.mem_cons_self), List.length_cons]
    dsimp only
    split
    · have := AtMost.bind (m := 0) (.unlinkNode a (first (spine l))) (fun _ => .pure (n := 0) p) h
      have e : ∀ n, n ≤ 4 → 1 + n ≤ l.length + 1 + 4 := by omega
      exact e _ this
    · have := bound_remove head k l p L h r (fun b hb => hn b (List.mem_cons_of_mem _ hb))
        (by simp only [List.length_cons] at hk; omega)
      have e : ∀ n, n ≤ l.length + 4 → 1 + n ≤ l.length + 1 + 4 := by omega
      exact e _ this

theorem bound_unlink (head : Nat) : ∀ (k : Nat) (sp : List (Nat × Ptr)) (X : List Block) (h : Heap),
    Rep h (listNodes head sp ++ X) → sp.length < k → (ID3v2_FrameList_unlink k (first sp)).accesses h ≤ 2 * sp.length
  | 0, _, _, _, _, hk => absurd hk (by omega)
  | _ + 1, [], X, h, r, _ => Nat.zero_le _
  | k + 1, (a, f) :: sp, X, h, r, hk => by
    show (ID3v2_FrameList_unlink (k + 1) (some a)).accesses h ≤ _
    unfold ID3v2_FrameList_unlink
    rw [acc_loadNode r (List.mem_append_left _ List.mem_cons_self), List.length_cons]
    obtain ⟨h', r', e⟩ := acc_free r (List.Perm.refl _) (fun _ => ID3v2_FrameList_unlink k (first sp))
    have := bound_unlink head k sp X h' r' (by simp only [List.length_cons] at hk; omega)
    show 1 + (free (some a) >>= fun _ => ID3v2_FrameList_unlink k (first sp)).accesses h ≤ _
    rw [e]
    omega

theorem bind_assoc {γ : Type} (x : Prog α) (f : α → Prog β) (g : β → Prog γ) : ((x >>= f) >>= g) = (x >>= fun a => f a >>= g) := by
  show (x.bind f).bind g = x.bind fun a => (f a).bind g
  induction x with
  | ret a => rfl
  | ub k => rfl
  | exit => rfl
  | hang => rfl
  | malloc c k ih => exact congrArg (Prog.malloc c) (funext ih)
  | free a k ih => exact congrArg (Prog.free a) ih
  | load a k ih => exact congrArg (Prog.load a) (funext ih)
  | store a c k ih => exact congrArg (Prog.store a c) ih
  | fuel k ih => exact congrArg Prog.fuel (funext ih)

/-- The loop over the matches, and unlinking what is left of them. -/
theorem bound_delete_loop (T : HTag) (sub : Nat) (index : Int) :
    ∀ (k : Nat) (i : Int) (sp : List (Nat × Ptr)) (X : List Block) (h : Heap),
      Rep h (listNodes sub sp ++ (T.blocks ++ X)) → sp.length < k →
      (∀ q ∈ sp, q.2 = none ∨ ∃ (i n : Nat) (F : HFrame), T.list[i]? = some (n, some F) ∧ q.2 = some F.addr) →
      (delete_loop (some T.head) index k i (first sp) >>= fun rest =>
        heapFuel >>= fun m => ID3v2_FrameList_unlink m rest).accesses h ≤ 2 * sp.length + T.list.length + 15
  | 0, _, _, _, _, _, hk, _ => absurd hk (by omega)
  | k + 1, i, [], X, h, r, _, _ => Nat.zero_le _
  | k + 1, i, (a, p) :: sp, X, h, r, hk, hp => by
    show (delete_loop (some T.head) index (k + 1) i (some a) >>= _).accesses h ≤ _
    unfold delete_loop
    rw [bind_assoc, acc_loadNode r (List.mem_append_left _ List.mem_cons_self), List.length_cons]
    dsimp only
    split
    · have e : ∀ n, n ≤ 2 * (sp.length + 1) + 10 + (T.list.length + 4) → 1 + n ≤ 2 * (sp.length + 1) + T.list.length + 15 := by omega
      refine e _ ?_
      rw [bind_assoc]
      obtain ⟨m, hm, e⟩ := acc_fuel r (fun m => (FrameList_remove_frame m (some T.head) p >>= fun _ =>
        ID3v2_Frame_free p >>= fun _ => pure (some a)) >>= fun rest => heapFuel >>= fun m => ID3v2_FrameList_unlink m rest)
      refine Nat.le_trans (Nat.le_of_eq e) ?_
      rw [bind_assoc]
      have hT : T.list.length < m := by
        have := list_length T X
        simp only [List.length_append] at hm this
        omega
      have hb := bound_remove T.head m T.list p _ h r
        (fun b hb => List.mem_append_right _ (List.mem_append_left _ (mem_nodes T b hb))) hT
      have r2 : Rep h (listNodes T.head (spine T.list) ++ (frameBlocks T.list ++
          ((T.addr, .tag (some T.hdr) (some T.head) T.padding_size) :: (T.hdr, .tagHeader T.header) ::
            (listNodes sub ((a, p) :: sp) ++ X)))) := by
        refine r.perm ?_
        unfold HTag.blocks
        blocks
      have fin : ∀ h' Y, Rep h' (listNodes sub ((a, p) :: sp) ++ Y) →
          (heapFuel >>= fun m => ID3v2_FrameList_unlink m (some a)).accesses h' ≤ 2 * (sp.length + 1) := by
        intro h' Y r'
        obtain ⟨m, hm, e⟩ := acc_fuel r' (fun m => ID3v2_FrameList_unlink m (some a))
        rw [e]
        exact bound_unlink sub m ((a, p) :: sp) Y h' r' (by simp only [List.length_append, listNodes_length] at hm; omega)
      rcases hp (a, p) List.mem_cons_self with rfl | ⟨j, n, F, hj, rfl⟩
      · refine bound_call (remove_null_spec T.head m T.list _ h r2 hT) hb ?_
        intro _ _ h1 r3
        rw [bind_assoc]
        refine bound_call (frame_free_null r3) (AtMost.frameFree _ h1) ?_
        intro _ _ h2 r4
        exact fin h2 _ (r4.perm (L' := listNodes sub ((a, none) :: sp) ++ (listNodes T.head (spine (removeNull T.list)) ++
          (frameBlocks T.list ++ ((T.addr, .tag (some T.hdr) (some T.head) T.padding_size) ::
            (T.hdr, .tagHeader T.header) :: X)))) (by blocks))
      · refine bound_call (remove_frame_spec T.head m T.list j n F _ h r2 hj hT) hb ?_
        intro _ _ h1 r3
        have hp := frameBlocks_removeAt T.list j n (some F) hj
        have r4 : Rep h1 (F.blocks ++ (listNodes T.head (spine (removeAt T.list j)) ++ (frameBlocks (removeAt T.list j) ++
            ((T.addr, .tag (some T.hdr) (some T.head) T.padding_size) ::
            (T.hdr, .tagHeader T.header) :: (listNodes sub ((a, some F.addr) :: sp) ++ X))))) := by
          refine r3.perm ?_
          simp only [nodeBlocks] at hp
          blocks_using hp
        rw [bind_assoc]
        refine bound_call (frame_free_spec r4) (AtMost.frameFree _ h1) ?_
        intro _ _ h2 r5
        exact fin h2 _ (r5.perm (L' := listNodes sub ((a, some F.addr) :: sp) ++ (F.leak ++ (listNodes T.head (spine (removeAt T.list j)) ++
          (frameBlocks (removeAt T.list j) ++ ((T.addr, .tag (some T.hdr) (some T.head) T.padding_size) ::
            (T.hdr, .tagHeader T.header) :: X))))) (by blocks))
    · have := bound_delete_loop T sub index k (i + 1) sp
        ((a, .node p (first sp) (p.map fun _ => sub)) :: X) h (r.perm (by
          rw [listNodes_cons]; blocks)) (by simp only [List.length_cons] at hk; omega)
        (fun q hq => hp q (List.mem_cons_of_mem _ hq))
      have e : ∀ n, n ≤ 2 * sp.length + T.list.length + 15 → 1 + n ≤ 2 * (sp.length + 1) + T.list.length + 15 := by omega
      exact e _ this

theorem matching_length {id : Bytes} : ∀ {l : FrameList} {m : List (Nat × Frame)}, FrameList_matching l id = .ok m → m.length ≤ l.length
  | [], _, h => by cases h; exact Nat.le_refl _
  | none :: l, _, h => by cases h; exact Nat.zero_le _
  | some f :: l, m, h => by
    unfold FrameList_matching at h
    obtain ⟨b, _, h⟩ := Res.bind_eq_ok.mp h
    obtain ⟨r, hr, h⟩ := Res.bind_eq_ok.mp h
    have := matching_length hr
    cases h
    split <;> simp only [List.length_cons, List.length_map] <;> omega

theorem bound_get_frames {h : Heap} {T : HTag} {X : List Block} (r : Rep h (T.blocks ++ X)) (id : Bytes) :
    (FrameList_get_frames_by_id (some T.head) id).accesses h ≤ T.list.length * (T.list.length + 9) + 1 := by
  show (malloc (.node none none none) >>= fun sub => heapFuel >>= fun m => collect m (some T.head) id sub >>= fun _ => pure sub).accesses h ≤ _
  obtain ⟨sub, h1, r1, e⟩ := acc_malloc (c := .node none none none) r (fun sub => heapFuel >>= fun m => collect m (some T.head) id sub >>= fun _ => (pure sub : Prog Nat))
  rw [e]
  obtain ⟨m, hm, e⟩ := acc_fuel r1 (fun m => collect m (some T.head) id sub >>= fun _ => (pure sub : Prog Nat))
  rw [e, accesses_bind]
  have hl := list_length T X
  have := bound_collect T.head sub id (T.blocks ++ X) m T.list none [] h1 r1
    (fun b hb => List.mem_append_left _ (mem_nodes T b hb)) (fun b hb => List.mem_append_left _ (mem_frames T b hb))
    (by simp only [List.length_cons] at hm; omega)
  have e : first (spine T.list) = some T.head := rfl
  rw [e, List.length_nil, Nat.add_zero] at this
  split
  · rw [accesses_pure]; omega
  · omega

theorem bound_delete_at {h : Heap} {T : HTag} {X : List Block} (r : Rep h (T.blocks ++ X)) (id : Bytes) (index : Int) :
    (ID3v2_Tag_delete_frame_at T.addr id index).accesses h ≤ T.list.length * (T.list.length + 12) + 17 := by
  unfold ID3v2_Tag_delete_frame_at
  rw [acc_loadTag r (List.mem_append_left _ (mem_tag T))]
  dsimp only
  have e0 : T.list.length * (T.list.length + 12) = T.list.length * (T.list.length + 9) + 3 * T.list.length := by
    rw [show T.list.length + 12 = (T.list.length + 9) + 3 from rfl, Nat.mul_add, Nat.mul_comm T.list.length 3]
  have e : ∀ n, n ≤ (3 * T.list.length + 15) + (T.list.length * (T.list.length + 9) + 1) →
      1 + n ≤ T.list.length * (T.list.length + 12) + 17 := by omega
  refine e _ ?_
  rcases acc_call (x := FrameList_get_frames_by_id (some T.head) id) (k := fun head => heapFuel >>= fun m =>
      delete_loop (some T.head) index m 0 (some head) >>= fun rest => heapFuel >>= fun m => ID3v2_FrameList_unlink m rest)
    (get_frames_spec r T.head id T.list (tag_list T X)) with ⟨m, sub, h1, hmatch, ⟨ms, f, rest, rfl, hi, r1, hsp⟩, e⟩ | ⟨-, e⟩
  · refine Nat.le_trans (Nat.le_of_eq e) ?_
    have hg := bound_get_frames r id
    obtain ⟨k, hk, e⟩ := acc_fuel r1 (fun m => delete_loop (some T.head) index m 0 (some sub) >>= fun rest =>
      heapFuel >>= fun m => ID3v2_FrameList_unlink m rest)
    rw [e]
    have hcount : ((sub, f) :: rest).length = max 1 ms.length := by
      have := congrArg List.length hsp
      rw [matchPtrs_length, List.length_map] at this
      simpa using this
    have hml := matching_length hmatch
    rw [List.length_map] at hml
    have hv : (vals T.list).length = T.list.length := by simp [vals]
    have hT : T.list.length = T.rest.length + 1 := rfl
    have hd := bound_delete_loop T sub index k 0 ((sub, f) :: rest) X h1 r1
      (by simp only [List.length_append, listNodes_length] at hk; omega) (by
        intro q hq
        obtain ⟨j, hj⟩ := List.getElem?_of_mem hq
        rcases matching_getElem (sp := (sub, f) :: rest) hsp hj with ⟨_, _, e⟩ | ⟨i, F, hms, e⟩
        · exact .inl e
        · obtain ⟨n, hn⟩ := hi _ (List.mem_of_getElem? hms)
          exact .inr ⟨i, n, F, hn, e⟩)
    have hd' : (delete_loop (some T.head) index k 0 (some sub) >>= fun rest =>
      heapFuel >>= fun m => ID3v2_FrameList_unlink m rest).accesses h1 ≤ 2 * ((sub, f) :: rest).length + T.list.length + 15 := hd
    omega
  · refine Nat.le_trans (Nat.le_of_eq e) ?_
    have hg := bound_get_frames r id
    omega

/-! ## Reading -/

theorem framesAccesses_le (fs : List Frame) :
    ∀ n, 2 * framesAccesses n fs ≤ fs.length * (2 * n + fs.length + 33) := by
  induction fs with
  | nil => intro n; exact Nat.zero_le _
  | cons f fs ih =>
    intro n
    have h1 : parseAccesses f ≤ 12 := by unfold parseAccesses; split <;> decide
    have h2 : appendAccesses n ≤ n + 5 := by unfold appendAccesses; split <;> omega
    have h3 := ih (n + 1)
    have e : (fs.length + 1) * (2 * n + (fs.length + 1) + 33) =
        fs.length * (2 * (n + 1) + fs.length + 33) + (2 * n + 34) := by
      simp only [Nat.add_mul, Nat.mul_add]
      omega
    rw [List.length_cons, e]
    show 2 * (parseAccesses f + appendAccesses n + framesAccesses (n + 1) fs) ≤ _
    omega

theorem bound_read_literal [Platform] {h : Heap} {X : List Block} (r : Rep h X) (b : Bytes) (n : Int) :
    (ID3v2_read_tag_from_buffer (.literal b) n).accesses h ≤ readMost n := by
  obtain ⟨fs, hf, hle, -, -⟩ := acc_read_buffer r b n
  have hu := framesAccesses_le fs 0
  rw [Nat.mul_zero, Nat.zero_add] at hu
  have hk : fs.length ≤ n.toNat / 6 := by omega
  have : fs.length * (fs.length + 33) ≤ n.toNat / 6 * (n.toNat / 6 + 33) := Nat.mul_le_mul hk (by omega)
  unfold readMost
  generalize n.toNat / 6 * (n.toNat / 6 + 33) = m at *
  generalize fs.length * (fs.length + 33) = m' at *
  omega

theorem bound_read [Platform] {h : Heap} {X : List Block} (r : Rep h X) (s : Src) (b : Bytes) (n : Int) (hs : s.At X b) :
    (ID3v2_read_tag_from_buffer s n).accesses h ≤ readMost n + 1 :=
  bound_src r hs (bound_read_literal r b n)

theorem AtMost.readHeaderFile [Platform] (file : File) : AtMost 8 (ID3v2_read_tag_header file) := by
  unfold ID3v2_read_tag_header
  cases file with
  | none => exact .pure _
  | some c =>
    dsimp only
    split
    · exact .pure _
    · exact .readHeader _

theorem AtMost.deleteTag [Platform] (file : File) : AtMost 10 (ID3v2_delete_tag file) := by
  unfold ID3v2_delete_tag
  refine AtMost.bind (m := 2) (.readHeaderFile _) fun p => ?_
  cases p with
  | none => exact .pure _
  | some a =>
    cases file with
    | none => exact .lift _
    | some c => exact AtMost.bind (m := 1) (.loadTagHeader _) fun _ => AtMost.bind (m := 0) (.free _) fun _ => .pure _

theorem AtMost.tagNew : AtMost 4 (ID3v2_Tag_new none) := by
  unfold ID3v2_Tag_new
  exact AtMost.bind (m := 3) (.malloc _) fun _ => AtMost.bind (m := 2) (n := 1) (.malloc _) fun _ =>
    AtMost.bind (m := 1) (.malloc _) fun _ => AtMost.bind (m := 0) (.store _ _) fun _ => .pure _

/-! ## Reading a file -/

theorem acc_read_header [Platform] {h : Heap} {X : List Block} (r : Rep h X) (b : Bytes) (x : TagHeader)
    (hx : Id3.ID3v2_read_tag_header_from_buffer b = .ok (some x)) :
    (ID3v2_read_tag_header_from_buffer (.literal b)).accesses h = 7 := by
  unfold Id3.ID3v2_read_tag_header_from_buffer at hx
  obtain ⟨cs, hcs, hx⟩ := Res.bind_eq_ok.mp hx
  obtain ⟨⟨y, cs'⟩, hp, hx⟩ := Res.bind_eq_ok.mp hx
  cases hx
  show (lift (CharStream_from_buffer b 10) >>= fun v => CharStream_new >>= fun cs => lift (TagHeader_parse v) >>= fun p => _).accesses h = _
  rw [hcs, acc_lift_ok rfl]
  refine cost_step (m := 3) (n := 4) (cs_new_spec r) (acc_cs_new r) ?_
  rintro a h1 ⟨st, r1⟩
  rw [hp, acc_lift_ok rfl]
  dsimp only
  show (malloc (.tagHeader x) >>= fun p => CharStream_free a >>= fun _ => (pure (some p) : Prog Ptr)).accesses h1 = _
  refine cost_malloc (n := 3) r1 fun p h2 r2 => ?_
  have r3 : Rep h2 ((a, .charStream (some st)) :: (st, .bytes []) :: (p, .tagHeader x) :: X) := r2.perm (by blocks)
  exact cost_step (m := 3) (n := 0) (cs_free_spec r3) (acc_cs_free r3) fun _ _ _ => rfl

theorem bound_read_file [Platform] {h : Heap} {X : List Block} (r : Rep h X) (file : File) :
    (ID3v2_read_tag file).accesses h ≤ fileMost file := by
  unfold ID3v2_read_tag
  rcases acc_call (x := ID3v2_read_tag_header file) (γ := Ptr) (k := fun hd => match hd with
    | none => pure none
    | some tag_header =>
      match file with
      | none => pure none
      | some contents => do
        let h ← loadTagHeader (some tag_header)
        let buffer_length := toInt32 (u32 (h.tag_size + 10))
        let tag_buffer ← malloc (.bytes (intoArray buffer_length (contents.take buffer_length.toNat)))
        let tag ← ID3v2_read_tag_from_buffer (.block tag_buffer) buffer_length
        free (some tag_buffer)
        free (some tag_header)
        return tag) (H.read_header_spec r file) with ⟨x, p, h1, hx, q, e⟩ | ⟨hx, e⟩
  · refine Nat.le_trans (Nat.le_of_eq e) ?_
    have h8 := AtMost.readHeaderFile file h
    unfold fileMost
    rw [hx]
    cases x with
    | none =>
      obtain ⟨rfl, r1⟩ := q
      exact h8
    | some x =>
      obtain ⟨a, rfl, r1⟩ := q
      cases file with
      | none => cases hx
      | some c =>
        have hc : (ID3v2_read_tag_header (some c)).accesses h = 7 := by
          unfold Id3.ID3v2_read_tag_header at hx
          unfold ID3v2_read_tag_header
          dsimp only at hx ⊢
          split at hx
          · cases hx
          · next hn => rw [if_neg hn]; exact acc_read_header r _ _ hx
        rw [hc]
        dsimp only
        rw [acc_loadTagHeader r1 List.mem_cons_self]
        obtain ⟨b, h2, r2, e⟩ := acc_malloc (c := .bytes (intoArray (toInt32 (u32 (x.tag_size + 10)))
          (c.take (toInt32 (u32 (x.tag_size + 10))).toNat))) r1 (fun tag_buffer => do
            let tag ← ID3v2_read_tag_from_buffer (.block tag_buffer) (toInt32 (u32 (x.tag_size + 10)))
            free (some tag_buffer)
            free (some a)
            return tag)
        rw [e]
        have := bound_call (k := fun tag => (do
            free (some b)
            free (some a)
            return tag : Prog Ptr)) (n := 2) (read_buffer_spec r2 (.block b) _ (toInt32 (u32 (x.tag_size + 10))) List.mem_cons_self)
          (bound_read r2 (.block b) _ (toInt32 (u32 (x.tag_size + 10))) List.mem_cons_self) (fun _ _ h3 _ =>
            AtMost.bind (m := 1) (.free _) (fun _ => AtMost.bind (m := 0) (.free _) fun _ => .pure _) h3)
        omega
  · refine Nat.le_trans (Nat.le_of_eq e) ?_
    refine Nat.le_trans (AtMost.readHeaderFile file h) ?_
    unfold fileMost
    split
    · next h => exact absurd h (hx _)
    · exact Nat.le_refl _

theorem acc_read_file [Platform] {h : Heap} {X : List Block} (r : Rep h X) (file : File) (t : Tag)
    (ht : Id3.ID3v2_read_tag file = .ok (some t)) :
    (ID3v2_read_tag file).accesses h = 24 + framesAccesses 0 (framesOf t) := by
  unfold Id3.ID3v2_read_tag at ht
  obtain ⟨x, hx, ht⟩ := Res.bind_eq_ok.mp ht
  cases x with
  | none => cases ht
  | some x =>
    cases file with
    | none => cases ht
    | some c =>
      dsimp only at ht
      have hc : (ID3v2_read_tag_header (some c)).accesses h = 7 := by
        unfold Id3.ID3v2_read_tag_header at hx
        unfold ID3v2_read_tag_header
        dsimp only at hx ⊢
        split at hx
        · cases hx
        · next hn => rw [if_neg hn]; exact acc_read_header r _ _ hx
      unfold ID3v2_read_tag
      have hs := H.read_header_spec r (some c)
      rw [hx] at hs
      refine (cost_step (m := 7) (n := 17 + framesAccesses 0 (framesOf t)) hs hc ?_).trans (by omega)
      rintro p h1 ⟨a, rfl, r1⟩
      dsimp only
      refine (cost_loadTagHeader (m := 16 + framesAccesses 0 (framesOf t)) r1 List.mem_cons_self ?_).trans (by omega)
      refine (cost_malloc (n := 15 + framesAccesses 0 (framesOf t)) r1 fun b h2 r2 => ?_).trans (by omega)
      have hsp := read_buffer_spec r2 (.block b) _ (toInt32 (u32 (x.tag_size + 10))) List.mem_cons_self
      rw [ht] at hsp
      have hcost : (ID3v2_read_tag_from_buffer (.block b) (toInt32 (u32 (x.tag_size + 10)))).accesses h2 =
          13 + framesAccesses 0 (framesOf t) := by
        obtain ⟨fs, -, -, -, hs⟩ := acc_read_buffer r2 (intoArray (toInt32 (u32 (x.tag_size + 10)))
          (c.take (toInt32 (u32 (x.tag_size + 10))).toNat)) (toInt32 (u32 (x.tag_size + 10)))
        obtain ⟨rfl, e⟩ := hs t ht
        have : (ID3v2_read_tag_from_buffer (.block b) (toInt32 (u32 (x.tag_size + 10)))).accesses h2 =
            1 + (ID3v2_read_tag_from_buffer (.literal (intoArray (toInt32 (u32 (x.tag_size + 10)))
          (c.take (toInt32 (u32 (x.tag_size + 10))).toNat))) (toInt32 (u32 (x.tag_size + 10)))).accesses h2 := by
          show (Prog.load b _).accesses h2 = _
          simp only [accesses, r2.load List.mem_cons_self]
          rfl
        rw [this, e]
        omega
      refine (cost_step (m := 13 + framesAccesses 0 (framesOf t)) (n := 2) hsp hcost ?_).trans (by omega)
      intro p h3 q
      obtain ⟨Z, r3, hz⟩ := TagRep?.out (Y := [(b, _), (a, .tagHeader x)]) q
      refine cost_free (n := 1) r3 (List.Perm.refl _) fun h4 r4 => ?_
      exact cost_free (n := 0) r4 (List.Perm.refl _) fun h5 r5 => rfl

end Id3.T
