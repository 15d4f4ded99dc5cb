import Verif.Proof.Time
import Verif.Props.Robust
import Verif.Spec.Amount

/-!
# Counting the memory accesses of reading
-/

namespace Id3.T

open Id3 Spec Prog H

theorem acc_lastNode {h : Heap} {L : List Block} (r : Rep h L) (head : Nat) :
    ∀ (k a : Nat) (f : Ptr) (rest : List (Nat × Ptr)), (∀ b ∈ listNodes head ((a, f) :: rest), b ∈ L) → rest.length < k →
      (lastNode k a).accesses h = rest.length + 1
  | 0, _, _, _, _, hk => absurd hk (by omega)
  | k + 1, a, f, [], hm, _ => by
    unfold lastNode
    rw [acc_loadNode r (hm _ List.mem_cons_self)]
    rfl
  | k + 1, a, f, (b, g) :: rest, hm, hk => by
    unfold lastNode
    rw [acc_loadNode r (hm _ List.mem_cons_self)]
    show 1 + (lastNode k b).accesses h = _
    rw [acc_lastNode r head k b g rest (fun x hx => hm x (List.mem_cons_of_mem _ hx))
      (by simp only [List.length_cons] at hk; omega), List.length_cons]
    omega

theorem acc_add {h : Heap} {head : Nat} {f : Ptr} {rest : List (Nat × Ptr)} {R : List Block}
    (r : Rep h (listNodes head ((head, f) :: rest) ++ R)) (p : Nat) :
    (FrameList_add_frame head (some p)).accesses h = match f with | none => 2 | some _ => rest.length + 6 := by
  unfold FrameList_add_frame
  rw [acc_loadNode r (by rw [listNodes_cons]; exact List.mem_cons_self)]
  cases f with
  | none => dsimp only [Option.map]; rw [acc_store_last]
  | some g =>
    dsimp only [Option.map]
    unfold FrameList_new
    obtain ⟨c, h1, r1, e1⟩ := acc_malloc (c := .node none none none) r (γ := Unit) (fun current => do
      storeCell (some current) (.node (some p) none (some head))
      let last ← lastNode (← heapFuel) head
      let n ← loadNode (some last)
      storeCell (some last) (.node n.frame (some current) n.start))
    rw [e1]
    obtain ⟨h2, r2, e2⟩ := acc_store (c' := .node (some p) none (some head)) r1 (List.Perm.refl _) (γ := Unit) (fun _ => do
      let last ← lastNode (← heapFuel) head
      let n ← loadNode (some last)
      storeCell (some last) (.node n.frame (some c) n.start))
    rw [e2]
    obtain ⟨n, hn, e3⟩ := acc_fuel r2 (γ := Unit) (fun n => do
      let last ← lastNode n head
      let n ← loadNode (some last)
      storeCell (some last) (.node n.frame (some c) n.start))
    rw [e3]
    have hm : ∀ b ∈ listNodes head ((head, some g) :: rest), b ∈ (c, Cell.node (some p) none (some head)) ::
        (listNodes head ((head, some g) :: rest) ++ R) := fun b hb => List.mem_cons_of_mem _ (List.mem_append_left _ hb)
    have hl : rest.length < n := by
      rw [List.length_cons, List.length_append, listNodes_length, List.length_cons] at hn
      omega
    obtain ⟨q, h3, ⟨rfl, init, g', hi⟩, e4⟩ := acc_step (x := lastNode n head) (γ := Unit) (k := fun last => do
      let n ← loadNode (some last)
      storeCell (some last) (.node n.frame (some c) n.start)) (lastNode_spec r2 head n head (some g) rest hm hl)
    rw [e4, acc_lastNode r2 head n head (some g) rest hm hl]
    have hq : (q, Cell.node g' none (g'.map fun _ => head)) ∈ (c, Cell.node (some p) none (some head)) ::
        (listNodes head ((head, some g) :: rest) ++ R) := by
      apply hm
      rw [hi, listNodes_append]
      apply List.mem_append_right
      exact List.mem_cons_self
    rw [acc_loadNode r2 hq]
    dsimp only
    rw [acc_store_last]
    omega

/-- Accesses to make the blocks of a frame. -/
def allocAccesses (f : Frame) : Nat :=
  match f.data with
  | .text _ => 6
  | .comment _ => 7
  | .apic _ => 8
  | .raw _ => 4

theorem acc_alloc {h : Heap} {X : List Block} (r : Rep h X) (f : Frame) : (allocFrame f).accesses h = allocAccesses f := by
  obtain ⟨x, d⟩ := f
  unfold allocFrame allocAccesses
  cases d with
  | text d =>
    refine cost_malloc r fun fp h1 r1 => ?_
    refine cost_malloc r1 fun dp h2 r2 => ?_
    refine cost_malloc r2 fun tp h3 r3 => ?_
    refine cost_store (c := .textData 0 0 none) (L' := (tp, .bytes d.text) :: (fp, .frame none none) :: X) r3
      (List.Perm.swap _ _ _) fun h4 r4 => ?_
    refine cost_malloc r4 fun hp h5 r5 => ?_
    refine cost_store (c := .frame none none) (L' := (hp, .frameHeader x) :: (dp, .textData d.size d.encoding (some tp)) ::
      (tp, .bytes d.text) :: X) r5 (by blocks) fun h6 r6 => ?_
    rfl
  | comment d =>
    refine cost_malloc r fun fp h1 r1 => ?_
    refine cost_malloc r1 fun dp h2 r2 => ?_
    refine cost_malloc r2 fun cp h3 r3 => ?_
    refine cost_malloc r3 fun sp h3' r3' => ?_
    refine cost_store (c := .commentData 0 0 [] none none) (L' := (sp, .bytes d.short_description) ::
      (cp, .bytes d.comment) :: (fp, .frame none none) :: X) r3' (by blocks) fun h4 r4 => ?_
    refine cost_malloc r4 fun hp h5 r5 => ?_
    refine cost_store (c := .frame none none) (L' := (hp, .frameHeader x) ::
      (dp, .commentData d.size d.encoding d.language (some sp) (some cp)) ::
      (sp, .bytes d.short_description) :: (cp, .bytes d.comment) :: X) r5 (by blocks) fun h6 r6 => ?_
    rfl
  | apic d =>
    refine cost_malloc r fun fp h1 r1 => ?_
    refine cost_malloc r1 fun dp h2 r2 => ?_
    refine cost_malloc r2 fun de h3 r3 => ?_
    refine cost_malloc r3 fun mp h3' r3' => ?_
    refine cost_malloc r3' fun pp h3'' r3'' => ?_
    refine cost_store (c := .apicData 0 none 0 none none 0) (L' := (mp, .bytes d.mime_type) ::
      (de, .bytes d.description) :: (pp, .bytes d.data) :: (fp, .frame none none) :: X) r3'' (by blocks) fun h4 r4 => ?_
    refine cost_malloc r4 fun hp h5 r5 => ?_
    refine cost_store (c := .frame none none) (L' := (hp, .frameHeader x) ::
      (dp, .apicData d.encoding (some mp) d.picture_type (some de) (some pp) d.picture_size) ::
      (mp, .bytes d.mime_type) :: (de, .bytes d.description) ::
      (pp, .bytes d.data) :: X) r5 (by blocks) fun h6 r6 => ?_
    rfl
  | raw d =>
    refine cost_malloc r fun hp h1 r1 => ?_
    refine cost_malloc r1 fun fp h2 r2 => ?_
    refine cost_malloc r2 fun dp h3 r3 => ?_
    refine cost_store (c := .frame (some hp) none) (L' := (hp, .frameHeader x) :: (dp, .bytes d) :: X) r3 (by blocks)
      fun h4 r4 => ?_
    rfl

theorem acc_frame_parse [Platform] {h : Heap} {X : List Block} (r : Rep h X) (cs : CharStream) (v : UInt8) :
    (Frame_parse cs v).accesses h = match Id3.Frame_parse cs v with
      | .ok (some f, _) => parseAccesses f
      | _ => 0 := by
  unfold Frame_parse
  cases hp : Id3.Frame_parse cs v with
  | ub k => rfl
  | exit => rfl
  | diverge => rfl
  | ok p =>
    obtain ⟨f, cs'⟩ := p
    cases f with
    | none => rfl
    | some f =>
      dsimp only
      rw [acc_lift_ok rfl]
      dsimp only
      have known : (do
          let header ← malloc (.frameHeader f.header)
          free (some header)
          let header ← malloc (.frameHeader f.header)
          let frame ← allocFrame f
          free (some header)
          return (some frame, cs') : Prog (Option Nat × CharStream)).accesses h = 1 + allocAccesses f + 1 + 1 + 1 := by
        refine cost_malloc r fun hp h1 r1 => ?_
        refine cost_free r1 (List.Perm.refl _) fun h2 r2 => ?_
        refine cost_malloc r2 fun hp' h3 r3 => ?_
        refine cost_step (alloc_spec r3 f) (acc_alloc r3 f) ?_
        rintro a h4 ⟨F, rfl, hv, r4⟩
        refine cost_free (c := .frameHeader f.header) (L' := F.blocks ++ X) (n := 0) r4 (by blocks) fun h5 r5 => ?_
        rfl
      cases hd : f.data with
      | raw b =>
        unfold parseAccesses
        simp only [hd]
        have e := acc_alloc r f
        unfold allocAccesses at e
        rw [hd] at e
        exact (cost_step (n := 0) (alloc_spec r f) e fun a h1 _ => rfl)
      | text d => unfold parseAccesses; simp only [hd]; rw [known]; unfold allocAccesses; rw [hd]; rfl
      | comment d => unfold parseAccesses; simp only [hd]; rw [known]; unfold allocAccesses; rw [hd]; rfl
      | apic d => unfold parseAccesses; simp only [hd]; rw [known]; unfold allocAccesses; rw [hd]; rfl

/-- The frames that the loop of `Tag_parse` (tag.c:58-63) makes before it ends, in whatever way. -/
def loopFrames [Platform] : Nat → CharStream → Nat → UInt8 → List Frame
  | 0, _, _, _ => []
  | k + 1, cs, ts, v =>
    if u32 cs.cursor < ts then
      match Id3.Frame_parse cs v with
      | .ok (some f, cs') => f :: loopFrames k cs' ts v
      | _ => []
    else []

/-- A list with `n` frames, as the loop makes it: an empty head, or a frame in its head and `n - 1` other nodes. -/
def Count (n : Nat) (f : Option HFrame) (rest : List (Nat × Option HFrame)) : Prop :=
  match f with
  | none => n = 0 ∧ rest = []
  | some _ => n = rest.length + 1

theorem acc_loop [Platform] (ts : Nat) (v : UInt8) (head : Nat) (X : List Block) :
    ∀ (k n : Nat) (cs : CharStream) (f : Option HFrame) (rest : List (Nat × Option HFrame)) (h : Heap), Count n f rest →
      Rep h (listNodes head (spine ((head, f) :: rest)) ++ (frameBlocks ((head, f) :: rest) ++ X)) →
      (Tag_parse_loop k cs ts v head).accesses h = framesAccesses n (loopFrames k cs ts v)
  | 0, n, cs, f, rest, h, hn, r => rfl
  | k + 1, n, cs, f, rest, h, hn, r => by
    unfold Tag_parse_loop loopFrames
    by_cases hc : u32 cs.cursor < ts
    · rw [if_pos hc, if_pos hc]
      rcases acc_call (x := Frame_parse cs v) (γ := CharStream) (k := fun p => match p with
          | (f, cs) => match f with
            | none => return cs
            | some f => do
              FrameList_add_frame head (some f)
              Tag_parse_loop k cs ts v head) (frame_parse_spec r cs v) with ⟨b, a, h1, hv, ⟨hs, hq⟩, e⟩ | ⟨hv, e⟩
      · refine e.trans ?_
        rw [acc_frame_parse r, hv]
        obtain ⟨b1, b2⟩ := b
        obtain ⟨a1, a2⟩ := a
        dsimp only at hs hq ⊢
        subst hs
        cases b1 with
        | none => obtain ⟨rfl, -⟩ := hq; rfl
        | some g =>
          obtain ⟨F, rfl, rfl, r1⟩ := hq
          dsimp only [framesAccesses]
          have r1' : Rep h1 (listNodes head (spine ((head, f) :: rest)) ++ (frameBlocks ((head, f) :: rest) ++ (F.blocks ++ X))) :=
            r1.perm (by blocks)
          obtain ⟨_, h2, ⟨f', rest', hv', -, r2⟩, e2⟩ := acc_step (x := FrameList_add_frame head (some F.addr)) (γ := CharStream)
            (k := fun _ => Tag_parse_loop k a2 ts v head) (add_spec rfl r1')
          refine (congrArg (parseAccesses F.value + ·) e2).trans ?_
          have hn' : Count (n + 1) f' rest' := by
            unfold Count at hn ⊢
            cases f with
            | none =>
              obtain ⟨rfl, rfl⟩ := hn
              cases f' with
              | none => simp [vals, Id3.FrameList_add_frame] at hv'
              | some _ => simp [vals, Id3.FrameList_add_frame] at hv'; simp [hv'.2]
            | some G =>
              have := congrArg List.length hv'
              simp [vals, Id3.FrameList_add_frame] at this
              cases f' with
              | none => simp [vals, Id3.FrameList_add_frame] at hv'
              | some _ => dsimp only at hn ⊢; omega
          rw [acc_loop ts v head X k (n + 1) a2 f' rest' h2 hn' r2]
          have e3 : (FrameList_add_frame head (some F.addr)).accesses h1 = appendAccesses n := by
            rw [spine_cons] at r1'
            rw [acc_add r1']
            unfold Count at hn
            cases f with
            | none => obtain ⟨rfl, rfl⟩ := hn; rfl
            | some G => subst hn; simp [appendAccesses, spine]
          rw [e3]
          omega
      · refine e.trans ?_
        rw [acc_frame_parse r]
        cases hp : Id3.Frame_parse cs v with
        | ok b => exact absurd hp (hv b)
        | ub k => rfl
        | exit => rfl
        | diverge => rfl
    · rw [if_neg hc, if_neg hc]
      rfl

theorem loopFrames_iterations [Platform] (ts : Nat) (v : UInt8) (c0 : CharStream) :
    ∀ (k j : Nat) (cs : CharStream), Props.Iterations v j c0 cs →
      ∃ cs', Props.Iterations v (j + (loopFrames k cs ts v).length) c0 cs'
  | 0, j, cs, h => ⟨cs, h⟩
  | k + 1, j, cs, h => by
    unfold loopFrames
    split
    · split
      · next f cs' hp =>
        obtain ⟨c, hc⟩ := loopFrames_iterations ts v c0 k (j + 1) cs' (.step h hp)
        refine ⟨c, ?_⟩
        rw [List.length_cons, show j + ((loopFrames k cs' ts v).length + 1) = j + 1 + (loopFrames k cs' ts v).length from by omega]
        exact hc
      · exact ⟨cs, h⟩
    · exact ⟨cs, h⟩

theorem loopFrames_frames [Platform] (ts : Nat) (v : UInt8) :
    ∀ (k : Nat) (cs : CharStream) (fs fs' : FrameList) (cs' : CharStream), (fs = [none] ∨ fs ≠ [] ∧ none ∉ fs) →
      Id3.Tag_parse_loop k cs ts v fs = .ok (fs', cs') → fs'.filterMap id = fs.filterMap id ++ loopFrames k cs ts v
  | 0, _, _, _, _, _, h => by cases h
  | k + 1, cs, fs, fs', cs', hfs, h => by
    unfold Id3.Tag_parse_loop at h
    unfold loopFrames
    split at h
    · next hc =>
      rw [if_pos hc]
      cases hp : Id3.Frame_parse cs v with
      | ok b =>
        obtain ⟨b1, b2⟩ := b
        rw [hp] at h
        rw [Res.bind_ok] at h
        cases b1 with
        | none =>
          dsimp only at h ⊢
          cases h
          simp
        | some f =>
          dsimp only at h ⊢
          have hadd : (Id3.FrameList_add_frame fs f ≠ [] ∧ none ∉ Id3.FrameList_add_frame fs f) ∧
              (Id3.FrameList_add_frame fs f).filterMap id = fs.filterMap id ++ [f] := by
            rcases hfs with rfl | ⟨h1, h2⟩
            · simp [Id3.FrameList_add_frame]
            · cases fs with
              | nil => exact absurd rfl h1
              | cons a rest =>
                cases a with
                | none => simp at h2
                | some g => simp at h2; simp [Id3.FrameList_add_frame, h2]
          rw [loopFrames_frames ts v k b2 _ fs' cs' (.inr hadd.1) h, hadd.2]
          simp
      | ub k => rw [hp] at h; cases h
      | exit => rw [hp] at h; cases h
      | diverge => rw [hp] at h; cases h
    · next hc =>
      rw [if_neg hc]
      cases h
      simp

theorem acc_tag_new {h : Heap} {X : List Block} {b : Nat} {x : TagHeader} (r : Rep h ((b, .tagHeader x) :: X)) :
    (ID3v2_Tag_new (some b)).accesses h = 3 := by
  unfold ID3v2_Tag_new FrameList_new
  refine cost_malloc r fun a h1 r1 => ?_
  show (malloc (.node none none none) >>= fun frames => do
    storeCell (some a) (.tag (some b) (some frames) 0)
    return a).accesses h1 = 2
  refine cost_malloc r1 fun c h3 r3 => ?_
  refine cost_store (c := .tag none none 0) (L' := (c, .node none none none) :: (b, .tagHeader x) :: X) r3
    (by blocks) fun h4 r4 => ?_
  rfl

/-- One more access if a call returns. -/
def last {α : Type} : Res α → Nat
  | .ok _ => 1
  | _ => 0

theorem acc_tail [Platform] {h : Heap} {X : List Block} {a b c : Nat} {x : TagHeader}
    (r : Rep h (HTag.blocks ⟨a, b, x, 0, c, none, []⟩ ++ X)) (cs : CharStream) :
    (do
      let t ← loadTag (some a)
      match t.frames with
      | none => lift (.ub .nullDeref)
      | some frames =>
        let cs ← Tag_parse_loop (cs.stream.length + 1) cs x.tag_size x.major_version frames
        let padding ← lift (ck (cs.size - cs.cursor))
        storeCell (some a) (.tag t.header t.frames padding)
        return some a : Prog Ptr).accesses h =
      framesAccesses 0 (loopFrames (cs.stream.length + 1) cs x.tag_size x.major_version) +
        last (Id3.Tag_parse_loop (cs.stream.length + 1) cs x.tag_size x.major_version Id3.FrameList_new >>= fun p =>
          ck (p.2.size - p.2.cursor)) + 1 := by
  refine cost_loadTag r (List.mem_append_left _ List.mem_cons_self) ?_
  dsimp only
  have r' : Rep h (listNodes c (spine [(c, none)]) ++ (frameBlocks [(c, none)] ++
      ((a, .tag (some b) (some c) 0) :: (b, .tagHeader x) :: X))) := r.perm (by
    unfold HTag.blocks HTag.list
    blocks)
  have hl := acc_loop x.tag_size x.major_version c ((a, .tag (some b) (some c) 0) :: (b, .tagHeader x) :: X)
    (cs.stream.length + 1) 0 cs none [] h ⟨rfl, rfl⟩ r'
  rcases acc_call (γ := Ptr) (x := Tag_parse_loop (cs.stream.length + 1) cs x.tag_size x.major_version c)
    (k := fun cs => do
      let padding ← lift (ck (cs.size - cs.cursor))
      storeCell (some a) (.tag (some b) (some c) padding)
      return some a)
    (parse_loop_spec x.tag_size x.major_version c ((a, .tag (some b) (some c) 0) :: (b, .tagHeader x) :: X)
      (cs.stream.length + 1) cs none [] h r') with ⟨p, q, h1, hv, ⟨rfl, f', rest', hf, r1⟩, e⟩ | ⟨hv, e⟩
  · refine e.trans ?_
    rw [hl]
    refine congrArg (_ + ·) ?_
    change Id3.Tag_parse_loop _ _ _ _ Id3.FrameList_new = _ at hv
    rw [hv, Res.bind_ok]
    cases hk : ck (p.2.size - p.2.cursor) with
    | ok pad =>
      rw [acc_lift_ok rfl]
      exact cost_store (c := .tag (some b) (some c) 0) (L' := (b, .tagHeader x) :: (listNodes c (spine ((c, f') :: rest')) ++
        (frameBlocks ((c, f') :: rest') ++ X))) r1 (by blocks) fun h4 r4 => rfl
    | ub k => rw [acc_lift_fail (by simp)]; rfl
    | exit => rw [acc_lift_fail (by simp)]; rfl
    | diverge => rw [acc_lift_fail (by simp)]; rfl
  · refine e.trans ?_
    rw [hl]
    change ∀ b, Id3.Tag_parse_loop _ _ _ _ Id3.FrameList_new ≠ _ at hv
    cases hk : Id3.Tag_parse_loop (cs.stream.length + 1) cs x.tag_size x.major_version Id3.FrameList_new with
    | ok p => exact absurd hk (hv p)
    | ub k => rfl
    | exit => rfl
    | diverge => rfl

theorem acc_tag_parse [Platform] {h : Heap} {X : List Block} (r : Rep h X) (s : Bytes) (cs : CharStream) (hg : Good s cs) :
    ∃ fs : List Frame, 6 * fs.length ≤ s.length ∧ (Tag_parse cs).accesses h ≤ 6 + framesAccesses 0 fs ∧
      (Id3.Tag_parse cs = .ok none → (Tag_parse cs).accesses h = 0) ∧
      ∀ t, Id3.Tag_parse cs = .ok (some t) → framesOf t = fs ∧ (Tag_parse cs).accesses h = 6 + framesAccesses 0 fs := by
  have hh := sat_tagHeader_parse s cs hg
  unfold Tag_parse Id3.Tag_parse
  cases hp : TagHeader_parse cs with
  | ub k => exact ⟨[], by simp, Nat.zero_le _, fun e => (by cases e), fun t e => (by cases e)⟩
  | exit => exact ⟨[], by simp, Nat.zero_le _, fun e => (by cases e), fun t e => (by cases e)⟩
  | diverge => exact ⟨[], by simp, Nat.zero_le _, fun e => (by cases e), fun t e => (by cases e)⟩
  | ok p =>
    obtain ⟨x, cs1⟩ := p
    rw [acc_lift_ok rfl, Res.bind_ok]
    rw [hp] at hh
    obtain ⟨hg1, -⟩ := hh
    cases x with
    | none => exact ⟨[], by simp, Nat.zero_le _, fun _ => rfl, fun t ht => by cases ht⟩
    | some x =>
      dsimp only at hg1 ⊢
      cases hx : x.extended_header_size with
      | none =>
        refine ⟨[], by simp, ?_, fun e => (by cases e), fun t e => (by cases e)⟩
        refine Nat.le_trans (Nat.le_of_eq (n := _) (m := 0 + 3 + 1) ?_) (by decide)
        refine cost_malloc r fun b h1 r1 => ?_
        refine cost_step (tag_new_spec r1) (acc_tag_new r1) fun a h2 _ => ?_
        rfl
      | some ext =>
        dsimp only
        obtain ⟨cs2, hv, hs, hz⟩ : ∃ cs2 : CharStream, (if ext > 0 then CharStream_seek cs1 (toInt32 ext) .set else .ok cs1) =
            .ok cs2 ∧ cs2.stream = s ∧ cs2.size = s.length := by
          split
          · exact ⟨_, rfl, hg1.stream, hg1.size⟩
          · exact ⟨_, rfl, hg1.stream, hg1.size⟩
        have val : ∀ K : CharStream → Res (Option Tag),
            (if ext > 0 then CharStream_seek cs1 (toInt32 ext) .set >>= K else K cs1) = K cs2 := by
          intro K
          split at hv
          · next he => rw [if_pos he, hv]; rfl
          · next he => rw [if_neg he]; cases hv; rfl
        rw [hv]
        have key : (do
            let hp ← malloc (.tagHeader x)
            let tag ← ID3v2_Tag_new (some hp)
            let cs ← lift (.ok cs2)
            let t ← loadTag (some tag)
            match t.frames with
            | none => lift (.ub .nullDeref)
            | some frames =>
              let cs ← Tag_parse_loop (cs.stream.length + 1) cs x.tag_size x.major_version frames
              let padding ← lift (ck (cs.size - cs.cursor))
              storeCell (some tag) (.tag t.header t.frames padding)
              return some tag : Prog Ptr).accesses h =
            framesAccesses 0 (loopFrames (cs2.stream.length + 1) cs2 x.tag_size x.major_version) +
              last (Id3.Tag_parse_loop (cs2.stream.length + 1) cs2 x.tag_size x.major_version Id3.FrameList_new >>= fun p =>
                ck (p.2.size - p.2.cursor)) + 1 + 3 + 1 := by
          refine cost_malloc (n := framesAccesses 0 (loopFrames (cs2.stream.length + 1) cs2 x.tag_size x.major_version) +
              last (Id3.Tag_parse_loop (cs2.stream.length + 1) cs2 x.tag_size x.major_version Id3.FrameList_new >>= fun p =>
                ck (p.2.size - p.2.cursor)) + 1 + 3) r fun b h1 r1 => ?_
          refine cost_step (m := 3) (tag_new_spec r1) (acc_tag_new r1) ?_
          rintro a h2 ⟨c, r2⟩
          exact acc_tail r2 cs2
        refine ⟨loopFrames (cs2.stream.length + 1) cs2 x.tag_size x.major_version, ?_, ?_, ?_, ?_⟩
        · obtain ⟨c, hc⟩ := loopFrames_iterations x.tag_size x.major_version cs2 (cs2.stream.length + 1) 0 cs2 (.start cs2)
          have := Props.iterations_bounded _ _ _ _ (by rw [hz, hs]) hc
          rw [hs] at this ⊢
          omega
        · refine Nat.le_trans (Nat.le_of_eq key) ?_
          have : ∀ v : Res Int, last v ≤ 1 := fun v => by cases v <;> simp [last]
          have := this (Id3.Tag_parse_loop (cs2.stream.length + 1) cs2 x.tag_size x.major_version Id3.FrameList_new >>= fun p =>
            ck (p.2.size - p.2.cursor))
          omega
        · intro e
          exfalso
          replace e := (val _).symm.trans e
          cases hl : Id3.Tag_parse_loop (cs2.stream.length + 1) cs2 x.tag_size x.major_version
              (Id3.ID3v2_Tag_new (some x) 0).frames with
          | ok p =>
            rw [hl, Res.bind_ok] at e
            cases hk : ck (p.2.size - p.2.cursor) with
            | ok z => rw [hk] at e; cases e
            | ub k => rw [hk] at e; cases e
            | exit => rw [hk] at e; cases e
            | diverge => rw [hk] at e; cases e
          | ub k => rw [hl] at e; cases e
          | exit => rw [hl] at e; cases e
          | diverge => rw [hl] at e; cases e
        · intro t e
          replace e := (val _).symm.trans e
          cases hl : Id3.Tag_parse_loop (cs2.stream.length + 1) cs2 x.tag_size x.major_version
              (Id3.ID3v2_Tag_new (some x) 0).frames with
          | ok p =>
            rw [hl, Res.bind_ok] at e
            have hl' : Id3.Tag_parse_loop (cs2.stream.length + 1) cs2 x.tag_size x.major_version Id3.FrameList_new = .ok p := hl
            cases hk : ck (p.2.size - p.2.cursor) with
            | ok z =>
              rw [hk] at e
              cases e
              refine ⟨?_, ?_⟩
              · have := loopFrames_frames x.tag_size x.major_version _ cs2 [none] p.1 p.2 (.inl rfl) hl'
                exact this.trans (by simp)
              · refine key.trans ?_
                rw [hl', Res.bind_ok, hk]
                dsimp only [last]
                omega
            | ub k => rw [hk] at e; cases e
            | exit => rw [hk] at e; cases e
            | diverge => rw [hk] at e; cases e
          | ub k => rw [hl] at e; cases e
          | exit => rw [hl] at e; cases e
          | diverge => rw [hl] at e; cases e

theorem acc_cs_new {h : Heap} {X : List Block} (r : Rep h X) : CharStream_new.accesses h = 3 := by
  unfold CharStream_new
  refine cost_malloc r fun a h1 r1 => ?_
  refine cost_malloc r1 fun s h2 r2 => ?_
  exact cost_store r2 (List.Perm.swap _ _ _) fun h3 r3 => rfl

theorem acc_cs_free {h : Heap} {X : List Block} {a s : Nat}
    (r : Rep h ((a, .charStream (some s)) :: (s, .bytes []) :: X)) : (CharStream_free a).accesses h = 3 := by
  unfold CharStream_free
  refine cost_load r List.mem_cons_self ?_
  refine cost_free r (List.Perm.swap _ _ _) fun h1 r1 => ?_
  exact acc_free_last

/-- Reading from a buffer: a bound in any case, and the exact number if a tag is returned. -/
theorem acc_read_buffer [Platform] {h : Heap} {X : List Block} (r : Rep h X) (b : Bytes) (n : Int) :
    ∃ fs : List Frame, 6 * (fs.length : Int) ≤ max n 0 ∧
      (ID3v2_read_tag_from_buffer (.literal b) n).accesses h ≤ 12 + framesAccesses 0 fs ∧
      (Id3.ID3v2_read_tag_from_buffer b n = .ok none → (ID3v2_read_tag_from_buffer (.literal b) n).accesses h = 6) ∧
      ∀ t, Id3.ID3v2_read_tag_from_buffer b n = .ok (some t) →
        framesOf t = fs ∧ (ID3v2_read_tag_from_buffer (.literal b) n).accesses h = 12 + framesAccesses 0 fs := by
  have hx : (ID3v2_read_tag_from_buffer (.literal b) n).accesses h = (do
      let cs ← lift (CharStream_from_buffer b n)
      let tag_cs ← CharStream_new
      let tag ← Tag_parse cs
      CharStream_free tag_cs
      return tag : Prog Ptr).accesses h := rfl
  rw [hx]
  clear hx
  have hv : Id3.ID3v2_read_tag_from_buffer b n = (CharStream_from_buffer b n >>= Id3.Tag_parse) := rfl
  rw [hv]
  clear hv
  cases hb : CharStream_from_buffer b n with
  | ub k => exact ⟨[], by simp; omega, Nat.zero_le _, fun e => (by cases e), fun t e => (by cases e)⟩
  | exit => exact ⟨[], by simp; omega, Nat.zero_le _, fun e => (by cases e), fun t e => (by cases e)⟩
  | diverge => exact ⟨[], by simp; omega, Nat.zero_le _, fun e => (by cases e), fun t e => (by cases e)⟩
  | ok cs =>
    rw [acc_lift_ok rfl, Res.bind_ok]
    have hn : 0 ≤ n := by
      by_cases hn : 0 ≤ n
      · exact hn
      · unfold CharStream_from_buffer memcpySrc at hb
        rw [if_pos (by omega)] at hb
        cases hb
    have hg : Good (b.take n.toNat) cs := by
      have : Sat (Good (b.take n.toNat)) (memcpySrc b n >>= fun data =>
          pure { stream := data, cursor := 0, size := n }) := by
        refine (sat_memcpySrc _ _ hn).bind fun d hd => ?_
        obtain ⟨rfl, hd⟩ := hd
        refine ⟨rfl, ?_, Int.le_refl _, ?_⟩
        · dsimp only; rw [List.length_take]; omega
        · dsimp only; omega
      exact this.of_ok hb
    obtain ⟨tc, h1, ⟨st, r1⟩, e1⟩ := acc_step (x := CharStream_new) (γ := Ptr) (k := fun tag_cs => do
      let tag ← Tag_parse cs
      CharStream_free tag_cs
      return tag) (cs_new_spec r)
    rw [e1, acc_cs_new r]
    clear e1
    obtain ⟨fs, hf, hle, h0, hs⟩ := acc_tag_parse r1 _ cs hg
    refine ⟨fs, ?_, ?_⟩
    · have := List.length_take_le n.toNat b
      omega
    rcases acc_call (x := Tag_parse cs) (γ := Ptr) (k := fun tag => do
      CharStream_free tc
      return tag) (tag_parse_spec r1 cs) with ⟨v, p, h2, hv, q, e⟩ | ⟨hv, e⟩
    · rw [e]
      obtain ⟨Z, r2, hz⟩ := TagRep?.out (Y := [(tc, .charStream (some st)), (st, .bytes [])]) q
      have e3 : (CharStream_free tc >>= fun _ => (pure p : Prog Ptr)).accesses h2 = 0 + 3 :=
        cost_step (m := 3) (cs_free_spec r2) (acc_cs_free r2) fun _ _ _ => rfl
      rw [e3]
      refine ⟨by omega, fun e => by rw [h0 e], fun t ht => ?_⟩
      obtain ⟨h3, h4⟩ := hs t ht
      exact ⟨h3, by omega⟩
    · rw [e]
      exact ⟨by omega, fun e => absurd e (hv _), fun t e => absurd e (hv _)⟩

end Id3.T
