import Verif.Heap.Io

/-!
# Proofs about writing and deleting tags on the heap
-/

namespace Id3.H

open Id3

theorem fetch_spec {h : Heap} {L : List Block} (r : Rep h L) {F : HFrame} (hF : ∀ b ∈ F.blocks, b ∈ L) :
    Refines (fetchFrame (some F.addr) h) (.ok F.value) (fun v a h' => a = v ∧ h' = h) := by
  unfold fetchFrame
  refine .loadFrame r (hF _ (mem_frame F)) ?_
  refine .loadFrameHeader r (hF _ (mem_header F)) ?_
  refine .load r (hF _ (mem_data F)) ?_
  obtain ⟨a, hd, d, x, p⟩ := F
  cases p with
  | text d t =>
    refine .loadBytes (b := d.text) r (hF _ (by simp [HFrame.blocks, HPayload.buffers])) ?_
    exact .pure ⟨rfl, rfl⟩
  | comment d s c =>
    refine .loadBytes (b := d.short_description) r (hF _ (by simp [HFrame.blocks, HPayload.buffers])) ?_
    refine .loadBytes (b := d.comment) r (hF _ (by simp [HFrame.blocks, HPayload.buffers])) ?_
    exact .pure ⟨rfl, rfl⟩
  | apic d m de pc =>
    refine .loadBytes (b := d.mime_type) r (hF _ (by simp [HFrame.blocks, HPayload.buffers])) ?_
    refine .loadBytes (b := d.description) r (hF _ (by simp [HFrame.blocks, HPayload.buffers])) ?_
    refine .loadBytes (b := d.data) r (hF _ (by simp [HFrame.blocks, HPayload.buffers])) ?_
    exact .pure ⟨rfl, rfl⟩
  | raw b => exact .pure ⟨rfl, rfl⟩

/-- The blocks are streams: a `CharStream` and its buffer for each of `n` streams. -/
inductive Streams : Nat → List Block → Prop where
  | nil : Streams 0 []
  | cons {n : Nat} {K : List Block} (a s : Nat) : Streams n K →
      Streams (n + 1) ((a, .charStream (some s)) :: (s, .bytes []) :: K)

theorem Streams.append {n m : Nat} {K L : List Block} (h : Streams n K) (g : Streams m L) :
    Streams (n + m) (K ++ L) := by
  induction h with
  | nil => simpa using g
  | cons a s _ ih =>
    rename_i n _ _
    rw [show n + 1 + m = n + m + 1 by omega]
    exact .cons a s ih

theorem Streams.length {n : Nat} {K : List Block} (h : Streams n K) : K.length = 2 * n := by
  induction h with
  | nil => rfl
  | cons _ _ _ ih => simp only [List.length_cons, ih]; omega

/-- The number of streams that writing a frame leaves behind. -/
def frameStreams (f : Frame) : Nat := match f.data with
  | .raw _ => 1
  | _ => 0

/-- The number of streams that writing the frames of a list leaves behind. -/
def listStreams : FrameList → Nat
  | [] => 0
  | none :: l => listStreams l
  | some f :: l => frameStreams f + listStreams l

theorem frame_out_spec [Platform] {h : Heap} {X : List Block} (r : Rep h X) {F : HFrame} (hF : ∀ b ∈ F.blocks, b ∈ X) :
    Refines (Frame_to_char_stream F.addr h) (Id3.Frame_to_char_stream F.value)
      (fun v a h' => a.2 = v ∧ ∃ s K, Streams (frameStreams F.value) K ∧
        Rep h' ((a.1, .charStream (some s)) :: (s, .bytes []) :: (K ++ X))) := by
  unfold Frame_to_char_stream
  refine .step (fetch_spec r hF) ?_
  rintro _ h ⟨rfl, rfl⟩
  refine .lift' fun cs _ => ?_
  obtain ⟨a, hd, d, x, p⟩ := F
  have known : Refines ((do
      let header_cs ← CharStream_new
      itobBlock
      let frame_cs ← CharStream_new
      CharStream_free header_cs
      return (frame_cs, cs) : HeapM (Nat × CharStream)) h) (.ok cs) (fun v a h' => a.2 = v ∧ ∃ s K, Streams 0 K ∧
        Rep h' ((a.1, .charStream (some s)) :: (s, .bytes []) :: (K ++ X))) := by
    refine .step (cs_new_spec r) ?_
    rintro a1 h1 ⟨s1, r1⟩
    refine .step (itob_spec r1) fun _ h2 r2 => ?_
    refine .step (cs_new_spec r2) ?_
    rintro a3 h3 ⟨s3, r3⟩
    refine .step (cs_free_spec (a := a1) (s := s1) (X := (a3, .charStream (some s3)) :: (s3, .bytes []) :: X)
      (r3.perm (by blocks))) fun _ h4 r4 => ?_
    exact .pure ⟨rfl, s3, [], .nil, r4⟩
  cases p with
  | text d t => exact known
  | comment d s c => exact known
  | apic d m de pc => exact known
  | raw b =>
    refine .step (cs_new_spec r) ?_
    rintro a1 h1 ⟨s1, r1⟩
    refine .step (cs_new_spec r1) ?_
    rintro a3 h3 ⟨s3, r3⟩
    refine .step (itob_spec r3) fun _ h2 r2 => ?_
    refine .pure ⟨rfl, s1, _, .cons a3 s3 .nil, r2.perm ?_⟩
    blocks

theorem write_frames_spec [Platform] (head : Nat) (X : List Block) :
    ∀ (k : Nat) (l : List (Nat × Option HFrame)) (cs : CharStream) (K0 : List Block) (h : Heap),
      Rep h (K0 ++ X) → (∀ b ∈ listNodes head (spine l), b ∈ X) → (∀ b ∈ frameBlocks l, b ∈ X) → l.length < k →
      Refines (Tag_write_frames k cs (first (spine l)) h) (Id3.Tag_write_frames cs (vals l))
        (fun v a h' => a = v ∧ ∃ K, Streams (listStreams (vals l)) K ∧ Rep h' (K ++ K0 ++ X))
  | 0, _, _, _, _, _, _, _, hk => absurd hk (by omega)
  | _ + 1, [], cs, K0, h, r, _, _, _ => .pure ⟨rfl, [], .nil, r⟩
  | k + 1, (a, none) :: l, cs, K0, h, r, hn, _, _ => by
    show Refines (Tag_write_frames (k + 1) cs (some a) h) .exit _
    unfold Tag_write_frames
    refine .loadNode r (List.mem_append_right _ (hn _ List.mem_cons_self)) ?_
    rfl
  | k + 1, (a, some F) :: l, cs, K0, h, r, hn, hf, hk => by
    show Refines (Tag_write_frames (k + 1) cs (some a) h) (Id3.Tag_write_frames cs (some F.value :: vals l)) _
    unfold Tag_write_frames Id3.Tag_write_frames
    refine .loadNode r (List.mem_append_right _ (hn _ List.mem_cons_self)) ?_
    dsimp only [Option.map]
    refine .call (frame_out_spec r fun b hb => List.mem_append_right _ (hf b (List.mem_append_left _ hb))) ?_
    rintro v ⟨p, c⟩ h1 _ ⟨e, s, K, hK, r1⟩
    dsimp only at e
    subst e
    dsimp only at r1 ⊢
    refine .lift fun cs _ => ?_
    refine .step (cs_free_spec r1) fun _ h2 r2 => ?_
    have := write_frames_spec head X k l cs (K ++ K0) h2 (r2.perm (by blocks))
      (fun b hb => hn b (List.mem_cons_of_mem _ hb)) (fun b hb => hf b (List.mem_append_right _ hb))
      (by simp only [List.length_cons] at hk; omega)
    refine this.mono ?_
    rintro w b h3 _ ⟨rfl, K', hK', r3⟩
    refine ⟨rfl, K ++ K', hK.append hK', r3.perm ?_⟩
    blocks

theorem tag_out_spec [Platform] {h : Heap} {T : HTag} {X : List Block} (r : Rep h (T.blocks ++ X)) :
    Refines (Tag_to_char_stream T.addr h) (Id3.Tag_to_char_stream T.value)
      (fun v a h' => a.2 = v ∧ ∃ s K n, Streams n K ∧ n ≤ listStreams T.value.frames ∧
        (T.frame ≠ none → n = listStreams T.value.frames) ∧ (T.frame = none → n = 0) ∧
        Rep h' ((a.1, .charStream (some s)) :: (s, .bytes []) :: (K ++ (T.blocks ++ X)))) := by
  unfold Tag_to_char_stream Id3.Tag_to_char_stream
  refine .loadTag r (List.mem_append_left _ (mem_tag T)) ?_
  refine .loadTagHeader r (List.mem_append_left _ (mem_tagHeader T)) ?_
  refine .step (cs_new_spec r) ?_
  rintro a h1 ⟨s, r1⟩
  dsimp only
  refine .lift fun c1 _ => .lift fun c2 _ => .lift fun c3 _ => .lift fun c4 _ => .lift fun sz _ => ?_
  refine .step (itob_spec r1) fun _ h2 r2 => ?_
  refine .lift fun c5 _ => ?_
  have hm : ∀ b ∈ T.blocks, b ∈ (a, Cell.charStream (some s)) :: (s, Cell.bytes []) :: (T.blocks ++ X) :=
    fun b hb => by simp [hb]
  refine .loadNode r2 (hm _ (mem_nodes T _ List.mem_cons_self)) ?_
  have hfr : T.value.frames = T.frame.map HFrame.value :: vals T.rest := rfl
  cases hf : T.frame with
  | none =>
    rw [hfr, hf]
    exact .pure ⟨rfl, s, [], 0, .nil, Nat.zero_le _, fun h => absurd rfl h, fun _ => rfl, r2⟩
  | some F =>
    rw [hfr, hf]
    dsimp only [Option.map]
    refine .fuel r2 fun n hn => ?_
    have hw := write_frames_spec T.head (((a, Cell.charStream (some s)) :: (s, Cell.bytes []) :: (T.blocks ++ X)))
      n T.list c5 [] h2 r2 (fun b hb => hm _ (mem_nodes T b hb)) (fun b hb => hm _ (mem_frames T b hb)) (by
        have := list_length T X
        simp only [List.length_cons] at hn
        omega)
    have e : vals T.list = some F.value :: vals T.rest := by
      show vals ((T.head, T.frame) :: T.rest) = _
      rw [hf]; rfl
    rw [e] at hw
    have e : ∀ v : Res CharStream, v = (v >>= fun x => .ok x) := by intro v; cases v <;> rfl
    rw [e (Id3.Tag_write_frames _ _)]
    refine .call hw ?_
    rintro c _ h3 _ ⟨rfl, K, hK, r3⟩
    refine .pure ⟨rfl, s, K, _, hK, Nat.le_refl _, fun _ => rfl, fun h => (nomatch h), r3.perm ?_⟩
    blocks

theorem existing_spec [Platform] {h : Heap} {X : List Block} (r : Rep h X) (file : File) :
    Refines (existingTagSize file h) (Id3.existingTagSize file) (fun v a h' => a = v ∧ Rep h' X) := by
  unfold existingTagSize Id3.existingTagSize
  refine .call (read_header_spec r file) ?_
  intro x p h1 _ hp
  cases x with
  | none =>
    obtain ⟨rfl, r1⟩ := hp
    exact .pure ⟨rfl, r1⟩
  | some x =>
    obtain ⟨a, rfl, r1⟩ := hp
    dsimp only
    refine .loadTagHeader r1 List.mem_cons_self ?_
    exact .free r1 (List.Perm.refl _) fun h2 r2 => .pure ⟨rfl, r2⟩

theorem write_at [Platform] {h : Heap} {T : HTag} {X : List Block} (r : Rep h (T.blocks ++ X)) (file : File) :
    Refines (ID3v2_write_tag file T.addr h) (Id3.ID3v2_write_tag file T.value)
      (fun v a h' => a = v.1 ∧ ∃ K n, Streams n K ∧ n ≤ listStreams T.value.frames ∧
        (T.frame ≠ none → n = listStreams T.value.frames) ∧ (T.frame = none → n = 0) ∧ TagAt (K ++ X) v.2 T.addr T.list h') := by
  unfold ID3v2_write_tag Id3.ID3v2_write_tag
  refine .call (existing_spec r file) ?_
  rintro sz _ h1 _ ⟨rfl, r1⟩
  refine .loadTag r1 (List.mem_append_left _ (mem_tag T)) ?_
  refine .lift fun d _ => .lift fun p _ => ?_
  obtain ⟨a, hdr, x, pad, head, f, rest⟩ := T
  refine .store (c := .tag (some hdr) (some head) pad) (L' := ((hdr, Cell.tagHeader x) ::
    (listNodes head (spine ((head, f) :: rest)) ++ frameBlocks ((head, f) :: rest))) ++ X) r1
    (by unfold HTag.blocks HTag.list; blocks) fun h2 r2 => ?_
  refine .call (tag_out_spec (T := ⟨a, hdr, x, p, head, f, rest⟩) (X := X) r2) ?_
  rintro c ⟨q, _⟩ h3 _ ⟨rfl, s, K, n, hK, hle, heq, hz, r3⟩
  refine .lift fun t _ => ?_
  cases file with
  | none => rfl
  | some contents =>
    dsimp only
    refine .step (cs_free_spec r3) fun _ h4 r4 => ?_
    refine .pure ⟨rfl, K, n, hK, hle, heq, hz, ⟨a, hdr, x, p, head, f, rest⟩, rfl, rfl, rfl, r4.perm ?_⟩
    blocks

theorem write_spec [Platform] {h : Heap} {T : HTag} {X : List Block} (r : Rep h (T.blocks ++ X)) (file : File) :
    Refines (ID3v2_write_tag file T.addr h) (Id3.ID3v2_write_tag file T.value)
      (fun v a h' => a = v.1 ∧ ∃ K n, Streams n K ∧ n ≤ listStreams T.value.frames ∧
        (T.frame ≠ none → n = listStreams T.value.frames) ∧ (T.frame = none → n = 0) ∧ TagRep (K ++ X) v.2 T.addr h') :=
  (write_at r file).mono fun _ _ _ _ ⟨e, K, n, h1, h2, h3, h4, t⟩ => ⟨e, K, n, h1, h2, h3, h4, t.rep⟩

theorem delete_tag_spec [Platform] {h : Heap} {X : List Block} (r : Rep h X) (file : File) :
    Refines (ID3v2_delete_tag file h) (Id3.ID3v2_delete_tag file) (fun v a h' => a = v ∧ Rep h' X) := by
  unfold ID3v2_delete_tag Id3.ID3v2_delete_tag
  refine .call (read_header_spec r file) ?_
  intro x p h1 hx hp
  cases x with
  | none =>
    obtain ⟨rfl, r1⟩ := hp
    exact .pure ⟨rfl, r1⟩
  | some x =>
    obtain ⟨a, rfl, r1⟩ := hp
    cases file with
    | none => cases hx
    | some c =>
      dsimp only
      refine .loadTagHeader r1 List.mem_cons_self ?_
      exact .free r1 (List.Perm.refl _) fun h2 r2 => .pure ⟨rfl, r2⟩

/-! ### Getting -/

theorem tag_get_frame_at {h : Heap} {T : HTag} {X : List Block} (r : Rep h (T.blocks ++ X)) (s : Src) (id : Bytes)
    (hs : s.At (T.blocks ++ X) id) :
    Refines (ID3v2_Tag_get_frame T.addr s h) (Id3.ID3v2_Tag_get_frame T.value id)
      (fun v a h' => h' = h ∧ match v with
        | none => a = none
        | some f => ∃ i n F, Id3.FrameList_get_frame_by_id (vals T.list) id = .ok (some (i, f)) ∧
          T.list[i]? = some (n, some F) ∧ F.value = f ∧ a = some F.addr) := by
  unfold ID3v2_Tag_get_frame Id3.ID3v2_Tag_get_frame
  refine src_read r hs ?_
  refine .loadTag r (List.mem_append_left _ (mem_tag T)) ?_
  refine .fuel r fun n hn => ?_
  have hl : T.list.length < n := Nat.lt_trans (list_length T _) hn
  refine (get_frame_spec r T.head id n T.list (fun b hb => List.mem_append_left _ (mem_nodes T b hb))
    (fun b hb => List.mem_append_left _ (mem_frames T b hb)) hl).vmap ?_
  rintro b a h' hv ⟨rfl, hb⟩
  cases b with
  | none => exact ⟨none, rfl, rfl, hb⟩
  | some b =>
    obtain ⟨n, F, h1, h2, h3⟩ := hb
    exact ⟨some b.2, rfl, rfl, b.1, n, F, hv, h1, h2, h3⟩

theorem tag_get_frame_spec {h : Heap} {T : HTag} {X : List Block} (r : Rep h (T.blocks ++ X)) (s : Src) (id : Bytes)
    (hs : s.At (T.blocks ++ X) id) :
    Refines (ID3v2_Tag_get_frame T.addr s h) (Id3.ID3v2_Tag_get_frame T.value id)
      (fun v a h' => h' = h ∧ match v with
        | none => a = none
        | some f => ∃ n F, (n, some F) ∈ T.list ∧ F.value = f ∧ a = some F.addr) := by
  refine (tag_get_frame_at r s id hs).mono ?_
  rintro v a h' _ ⟨e, hv⟩
  refine ⟨e, ?_⟩
  cases v with
  | none => exact hv
  | some f =>
    obtain ⟨i, n, F, _, h1, h2, h3⟩ := hv
    exact ⟨n, F, List.mem_of_getElem? h1, h2, h3⟩

theorem foldl_add_from : ∀ (m : List (Nat × Frame)) (l : FrameList) (f : Frame),
    m.foldl (fun l p => Id3.FrameList_add_frame l p.2) (some f :: l) = some f :: l ++ m.map (fun p => some p.2)
  | [], l, f => by simp
  | p :: m, l, f => by
    rw [List.foldl_cons]
    show m.foldl _ (some f :: (l ++ [some p.2])) = _
    rw [foldl_add_from m]
    simp

/-- The list of matches, with its nodes. -/
theorem sublist_nodes : ∀ (sp : List (Nat × Ptr)) (ms : List (Nat × HFrame)),
    sp.map (·.2) = (ms.map (·.2.addr)).map some → ∃ l : List (Nat × Option HFrame), spine l = sp ∧
      l.map (·.2) = ms.map fun p => some p.2
  | [], [], _ => ⟨[], rfl, rfl⟩
  | [], _ :: _, h => by simp at h
  | _ :: _, [], h => by simp at h
  | (a, p) :: sp, m :: ms, h => by
    simp only [List.map_cons, List.cons.injEq] at h
    obtain ⟨l, h1, h2⟩ := sublist_nodes sp ms (by simpa using h.2)
    refine ⟨(a, some m.2) :: l, ?_, ?_⟩
    · rw [spine_cons, h1, h.1]; rfl
    · rw [List.map_cons, h2, List.map_cons]

theorem tag_get_frames_spec {h : Heap} {T : HTag} {X : List Block} (r : Rep h (T.blocks ++ X)) (s : Src) (id : Bytes)
    (hs : s.At (T.blocks ++ X) id) :
    Refines (ID3v2_Tag_get_frames T.addr s h) (Id3.ID3v2_Tag_get_frames T.value id)
      (fun v a h' => ∃ l : List (Nat × Option HFrame), l.head?.map (·.1) = some a ∧ vals l = v ∧
        (∀ p ∈ l, ∀ F, p.2 = some F → ∃ n, (n, some F) ∈ T.list) ∧
        Rep h' (listNodes a (spine l) ++ (T.blocks ++ X))) := by
  unfold ID3v2_Tag_get_frames Id3.ID3v2_Tag_get_frames Id3.FrameList_get_frames_by_id
  refine src_read r hs ?_
  refine .loadTag r (List.mem_append_left _ (mem_tag T)) ?_
  refine (get_frames_spec r T.head id T.list (tag_list T X)).vmap ?_
  rintro m sub h1 _ ⟨ms, f, rest, rfl, hi, r1, hsp⟩
  cases ms with
  | nil =>
    simp only [List.map_nil, matchPtrs, List.cons.injEq, List.map_eq_nil_iff] at hsp
    obtain ⟨rfl, rfl⟩ := hsp
    exact ⟨_, rfl, [(sub, none)], rfl, rfl, by simp, r1⟩
  | cons x ms =>
    obtain ⟨l, hl, hl'⟩ := sublist_nodes ((sub, f) :: rest) (x :: ms) hsp
    refine ⟨_, rfl, l, ?_, ?_, ?_, ?_⟩
    · cases l with
      | nil => cases hl
      | cons y l =>
        obtain ⟨y, g⟩ := y
        rw [spine_cons] at hl
        cases hl
        rfl
    · have : vals l = (l.map (·.2)).map (Option.map HFrame.value) := by simp [vals]
      rw [this, hl']
      show _ = List.foldl _ (some x.2.value :: []) (ms.map _)
      rw [foldl_add_from]
      simp
    · intro p hp F hF
      have h1 : p.2 ∈ l.map (·.2) := List.mem_map.mpr ⟨p, hp, rfl⟩
      rw [hl', hF] at h1
      obtain ⟨q, hq, e⟩ := List.mem_map.mp h1
      cases e
      obtain ⟨n, hn⟩ := hi q hq
      exact ⟨n, List.mem_of_getElem? hn⟩
    · rw [hl]; exact r1

end Id3.H
