import Verif.Heap.CompatOps

/-!
# Proofs about the setters of the compatibility API, and about the contents of frames, on the heap
-/

namespace Id3.H

open Id3 Spec

/-! ### Replacing -/

theorem cput_link {c : HCFrame} : ∀ (l : List (Nat × Option HCFrame)) (m : List (Nat × Option HFrame)) (i : Nat),
    l.map (fun n => n.2.map (·.frame)) = m.map (·.2) →
    (cput l i c).map (fun n => n.2.map (·.frame)) = (replaceAt m i c.frame).map (·.2)
  | [], [], _, _ => rfl
  | [], _ :: _, _, h => by simp at h
  | _ :: _, [], _, h => by simp at h
  | (a, f) :: l, (b, g) :: m, 0, h => by
    simp only [List.map_cons, List.cons.injEq] at h
    simp only [cput, replaceAt, List.map_cons, Option.map_some, h.2]
  | (a, f) :: l, (b, g) :: m, i + 1, h => by
    simp only [List.map_cons, List.cons.injEq] at h
    simp only [cput, replaceAt, List.map_cons, h.1, cput_link l m i h.2]

theorem mem_cput {c : HCFrame} {x : Nat × Option HCFrame} : ∀ (l : List (Nat × Option HCFrame)) (i : Nat),
    x ∈ cput l i c → x ∈ l ∨ ∃ n, x = (n, some c)
  | [], _, h => by cases h
  | (a, f) :: l, 0, h => by
    rcases List.mem_cons.mp h with rfl | h
    · exact .inr ⟨a, rfl⟩
    · exact .inl (List.mem_cons_of_mem _ h)
  | y :: l, i + 1, h => by
    rcases List.mem_cons.mp h with rfl | h
    · exact .inl List.mem_cons_self
    · rcases mem_cput l i h with h | h
      · exact .inl (List.mem_cons_of_mem _ h)
      · exact .inr h

/-- The other entries stay. -/
theorem cput_other {c : HCFrame} {x y : Nat × Option HCFrame} : ∀ (l : List (Nat × Option HCFrame)) (i : Nat),
    l[i]? = some y → x ∈ l → x ≠ y → x ∈ cput l i c
  | [], _, h, _, _ => by simp at h
  | (a, f) :: l, 0, h, hx, hn => by
    have : (a, f) = y := by simpa using h
    rcases List.mem_cons.mp hx with rfl | hx
    · exact absurd this hn
    · exact List.mem_cons_of_mem _ hx
  | z :: l, i + 1, h, hx, hn => by
    rcases List.mem_cons.mp hx with rfl | hx
    · exact List.mem_cons_self
    · exact List.mem_cons_of_mem _ (cput_other l i (by simpa using h) hx hn)

theorem of_cfirst {l' : List (Nat × Option HCFrame)} {head : Nat} {f : Option HCFrame}
    {rest : List (Nat × Option HCFrame)} (h : first (cspine l') = first (cspine ((head, f) :: rest))) :
    ∃ f' rest', l' = (head, f') :: rest' := by
  cases l' with
  | nil => cases h
  | cons x xs =>
    obtain ⟨a, g⟩ := x
    cases h
    exact ⟨_, _, rfl⟩

theorem replaceAt_same {n : Nat} {F : HFrame} {f : Option HFrame} : ∀ (l : List (Nat × Option HFrame)) (i : Nat),
    l[i]? = some (n, f) → (replaceAt l i F)[i]? = some (n, some F)
  | [], _, h => by simp at h
  | (a, g) :: l, 0, h => by
    have : a = n ∧ g = f := by simpa using h
    rw [← this.1]
    rfl
  | x :: l, i + 1, h => by simpa [replaceAt] using replaceAt_same l i (by simpa using h)

theorem replaceAt_before {F : HFrame} : ∀ (l : List (Nat × Option HFrame)) (i j : Nat), j < i →
    (replaceAt l i F)[j]? = l[j]?
  | [], _, _, _ => rfl
  | (a, g) :: l, 0, _, h => absurd h (by omega)
  | x :: l, i + 1, 0, _ => rfl
  | x :: l, i + 1, j + 1, h => by simpa [replaceAt] using replaceAt_before l i j (by omega)

theorem vals_get {l : List (Nat × Option HFrame)} {i n : Nat} {F : HFrame} (h : l[i]? = some (n, some F)) :
    (vals l)[i]? = some (some F.value) := by
  unfold vals
  rw [List.getElem?_map, h]
  rfl

theorem of_vals_get {l : List (Nat × Option HFrame)} {i : Nat} {f : Frame} (h : (vals l)[i]? = some (some f)) :
    ∃ n F, l[i]? = some (n, some F) ∧ F.value = f := by
  unfold vals at h
  rw [List.getElem?_map] at h
  cases hl : l[i]? with
  | none => rw [hl] at h; cases h
  | some x =>
    obtain ⟨n, F⟩ := x
    rw [hl] at h
    cases F with
    | none => cases h
    | some F =>
      simp only [Option.map_some, Option.some.injEq] at h
      exact ⟨n, F, rfl, h⟩

/-! ### The entry that a setter replaces -/

/-- The id of the frame of an entry. -/
theorem linked_entry {C : HCTag} (hl : C.Linked) {i n : Nat} {d : HCFrame} (h : C.list[i]? = some (n, some d)) :
    ∃ m, C.tag.list[i]? = some (m, some d.frame) ∧ memcpySrc d.frame.header.id 4 = .ok d.frame_id := by
  have h1 : (C.list.map (fun n => n.2.map (·.frame)))[i]? = some (some d.frame) := by
    rw [List.getElem?_map, h]
    rfl
  rw [hl.frames, List.getElem?_map] at h1
  cases ht : C.tag.list[i]? with
  | none => rw [ht] at h1; cases h1
  | some x =>
    obtain ⟨m, F⟩ := x
    rw [ht] at h1
    simp only [Option.map_some, Option.some.injEq] at h1
    subst h1
    exact ⟨m, rfl, hl.ids n d (List.mem_of_getElem? h)⟩

/-- The entry that `add_uniq_to_list` replaces is that of the first frame with the id. -/
theorem linked_found {C : HCTag} (hl : C.Linked) {k : List UInt8} (hk : ValidId k) {i n : Nat} {d : HCFrame}
    (hi : C.list[i]? = some (n, some d)) (hd : idEq d.frame_id (ofB k) = .ok true)
    (hj : ∀ j, j < i → ∃ m e, C.list[j]? = some (m, some e) ∧ idEq e.frame_id (ofB k) = .ok false) :
    Id3.FrameList_get_frame_by_id (vals C.tag.list) (lit k) = .ok (some (i, d.frame.value)) := by
  obtain ⟨m, ht, hid⟩ := linked_entry hl hi
  rw [lit_eq]
  refine get_of_first (vals_get ht) (ids_agree _ hk hid hd) ?_
  intro j hji
  obtain ⟨m, e, he, hn⟩ := hj j hji
  obtain ⟨m', ht, hid⟩ := linked_entry hl he
  exact ⟨e.frame.value, vals_get ht, ids_agree _ hk hid hn⟩

/-- A setter changed the compat tag: the first entry with the id was replaced, and freed. -/
def CSetPost (C : HCTag) (k : List UInt8) (X : List Block) (v : CTag) (h' : Heap) : Prop :=
  ∃ (C' : HCTag) (c : HCFrame) (i n : Nat) (d : HCFrame), C'.addr = C.addr ∧ C'.value = v ∧ C'.Linked ∧
    Rep h' (C'.blocks ++ X) ∧ C.list[i]? = some (n, some d) ∧ d.frame_id = ofB k ∧ C'.list = cput C.list i c ∧
    (∀ j, j < i → ∃ m e, C.list[j]? = some (m, some e) ∧ idEq e.frame_id (ofB k) = .ok false) ∧
    d.addr ∉ (C'.blocks ++ X).map (·.1)

theorem id_of_idEq {a : Bytes} {k : List UInt8} (hk : k.length = 4) (ha : a.length = 4)
    (h : idEq a (ofB k) = .ok true) : a = ofB k := by
  unfold idEq at h
  obtain ⟨b, h1, h⟩ := Res.bind_eq_ok.mp h
  obtain ⟨c, h2, h⟩ := Res.bind_eq_ok.mp h
  obtain ⟨x, h3, h⟩ := Res.bind_eq_ok.mp h
  obtain ⟨y, h4, h⟩ := Res.bind_eq_ok.mp h
  have e1 := (memcpySrc_take h1).1
  have e2 := (memcpySrc_take h2).1
  rw [List.take_of_length_le (by rw [ha]; decide)] at e1
  rw [List.take_of_length_le (by simp [hk])] at e2
  have e3 := loadAll_eq h3
  have e4 := loadAll_eq h4
  have : x = y := by simpa using Res.ok.inj h
  rw [← e1, e3, this, ← e4, e2]

theorem entry_id_length {C : HCTag} (hl : C.Linked) {n : Nat} {d : HCFrame} (h : (n, some d) ∈ C.list) :
    d.frame_id.length = 4 := by
  obtain ⟨e, hn⟩ := memcpySrc_take (hl.ids n d h)
  rw [e, List.length_take]
  have : (4 : Int).toNat = 4 := rfl
  omega

theorem update_spec [Platform] {h : Heap} {C : HCTag} {T : HTag} {F : HFrame} {X : List Block} {k : List UInt8}
    (hk : ValidId k) (hl : C.Linked) (ha : T.addr = C.tag.addr) {K' : List Block}
    (hs : SetAt C.tag.list (lit k) F T.list K')
    (hF : F.header.id = ofB k) (hr : frameStreams F.value = 0)
    (r : Rep h (T.blocks ++ (own C ++ X))) :
    Refines ((ID3v2_Tag_get_frame C.tag.addr (.literal (lit k)) >>= fun frame => compat_update C.addr frame) h)
      (Id3.ID3v2_Tag_get_frame T.value (lit k) >>= fun frame => Id3.compat_update C.value T.value frame)
      (fun v _ h' => CSetPost C k X v h' ∧ Id3.FrameList_get_frame_by_id (vals C.tag.list) (lit k) ≠ .ok none) := by
  rw [← ha]
  refine .call (tag_get_frame_at r (.literal (lit k)) (lit k) rfl) ?_
  rintro f a _ _ ⟨rfl, hf⟩
  unfold compat_update Id3.compat_update
  cases f with
  | none =>
    subst hf
    exact .call (Q := fun _ _ _ => False) (compat_frame_null r) fun _ _ _ _ hf => hf.elim
  | some f =>
    obtain ⟨i', n', F', hget, hi', rfl, rfl⟩ := hf
    have hF' : ∀ b ∈ F'.blocks, b ∈ T.blocks ++ (own C ++ X) := fun b hb => List.mem_append_left _ (mem_frames T b (by
      unfold frameBlocks
      exact List.mem_flatMap.mpr ⟨_, List.mem_of_getElem? hi', hb⟩))
    refine .call (compat_frame_spec r hF') ?_
    rintro _ _ h1 _ ⟨c, K, rfl, rfl, hcF, hid, hK, r1⟩
    have hm : ∀ b ∈ own C, b ∈ c.blocks ++ (K ++ (T.blocks ++ (own C ++ X))) := fun b hb => by simp [hb]
    refine .loadCTag r1 (hm _ List.mem_cons_self) ?_
    refine .fuel r1 fun n hn => ?_
    have r2 : Rep h1 (cnodes C.head C.last (cspine C.list) ++ (centries C.list ++ (c.blocks ++
        ((C.addr, .ctag (C.raw.map fun p => some p.1) (some C.hdr) (some C.head) (some C.tag.addr)) ::
          (C.hdr, .cheader C.header) :: (C.rawBlock ++ (K ++ (T.blocks ++ X))))))) := by
      refine r1.perm ?_
      unfold own
      blocks
    have hlen : C.list.length < n := by
      have : (cnodes C.head C.last (cspine C.list)).length = C.list.length := by
        rw [cnodes_length]
        simp [cspine]
      unfold own at hn
      simp only [List.length_append, List.length_cons, this] at hn
      omega
    refine (add_uniq_spec C.head c n C.last C.list _ h1 r2 hlen).vmap ?_
    rintro v _ h2 _ ⟨i, m, d, hi, hd, hj, rfl, hno, r3⟩
    -- the frame that was found has the id
    have hidF : Id3.idMatches F'.value (lit k) = .ok true := (get_first hget).2.1
    have htake : F'.header.id.take 4 = ofB k := by
      have := hk.1
      rw [← this]
      rw [lit_eq] at hidF
      refine strncmp_true k _ (ofB [0]) hk.2 ?_
      rw [this]
      exact hidF
    have hcid : c.frame_id = ofB k := by
      rw [(memcpySrc_take hid).1]
      exact htake
    rw [hcid] at hd hj
    have hfound := linked_found hl hk hi hd hj
    rcases hs with hs | ⟨i2, n2, G, hg, hG, hl', _⟩
    · rw [hs] at hfound
      cases hfound
    · rw [hg] at hfound
      have e := Option.some.inj (Res.ok.inj hfound)
      obtain rfl : i2 = i := congrArg Prod.fst e
      -- the getter finds the new frame
      have hF2 : Id3.FrameList_get_frame_by_id (vals T.list) (lit k) = .ok (some (i2, F.value)) := by
        rw [hl']
        refine get_of_first (vals_get (replaceAt_same _ _ hG)) ?_ ?_
        · show strncmpEq 4 F.header.id (lit k) = .ok true
          rw [hF, lit_eq, strncmp_ofB 4 k k _ hk.1 hk.1 hk.2]
          simp
        · intro j hji
          obtain ⟨g, hg1, hg2⟩ := (get_first hg).2.2 j hji
          refine ⟨g, ?_, hg2⟩
          obtain ⟨n3, G3, h3, rfl⟩ := of_vals_get hg1
          exact vals_get (by rw [replaceAt_before _ _ _ hji]; exact h3)
      rw [hget] at hF2
      have e := Option.some.inj (Res.ok.inj hF2)
      obtain rfl : i' = i2 := congrArg Prod.fst e
      have hF3 : T.list[i']? = some (n2, some F) := by rw [hl']; exact replaceAt_same _ _ hG
      rw [hi'] at hF3
      obtain ⟨_, rfl⟩ : n' = n2 ∧ F' = F := by simpa using hF3
      rw [hr] at hK
      cases hK
      obtain ⟨e', rest', hput⟩ := of_cfirst (first_cput C.list i' c)
      have hp : (cnodes C.head C.last (cspine (cput C.list i' c)) ++ (centries (cput C.list i' c) ++
          ((C.addr, Cell.ctag (C.raw.map fun p => some p.1) (some C.hdr) (some C.head) (some C.tag.addr)) ::
            (C.hdr, Cell.cheader C.header) :: (C.rawBlock ++ ([] ++ (T.blocks ++ X)))))).Perm
          (({ C with entry := e', rest := rest', tag := T } : HCTag).blocks ++ X) := by
        have hlist : ({ C with entry := e', rest := rest', tag := T } : HCTag).list = cput C.list i' c := hput.symm
        unfold HCTag.blocks
        rw [hlist]
        unfold HCTag.rawBlock
        dsimp only
        rw [ha]
        blocks
      refine ⟨_, rfl, ⟨{ C with entry := e', rest := rest', tag := T }, c, i', m, d, rfl, ?_, ⟨?_, ?_⟩, r3.perm hp, hi,
        id_of_idEq hk.1 (entry_id_length hl (List.mem_of_getElem? hi)) hd, hput.symm, hj,
        fun hm => hno ((hp.map _).mem_iff.mpr hm)⟩, by rw [hg]; intro e; cases e⟩
      · show ({ raw := _, tag_header := _, frames := cvals ((C.head, e') :: rest'), tag := _ } : CTag) = _
        rw [← hput]
        rfl
      · show ((C.head, e') :: rest').map _ = T.list.map _
        rw [← hput, hl', ← hcF]
        exact cput_link _ _ _ hl.frames
      · intro n e he
        have he : (n, some e) ∈ (C.head, e') :: rest' := he
        rw [← hput] at he
        rcases mem_cput _ _ he with he | ⟨_, he⟩
        · exact hl.ids n e he
        · obtain ⟨_, rfl⟩ : n = _ ∧ e = c := by simpa using he
          rw [hcF]
          exact hid

/-! ### The setters -/

/-- The ids that the setters of the compatibility API use begin with one of these bytes, so `Frame_free` frees all of
such a frame. -/
def KnownId (k : List UInt8) : Prop := k[0]? = some 0x54 ∨ k[0]? = some 0x43 ∨ k[0]? = some 0x41

/-- What is left of a frame with a known id. -/
theorem leak_nil {F : HFrame} {k : List UInt8} (hk : ValidId k) (hx : KnownId k)
    (hid : Id3.idMatches F.value (lit k) = .ok true) : F.leak = [] := by
  have htake : F.header.id.take 4 = ofB k := by
    have := hk.1
    rw [← this]
    rw [lit_eq] at hid
    refine strncmp_true k _ (ofB [0]) hk.2 ?_
    rw [this]
    exact hid
  have h0 : F.header.id.head? = (ofB k).head? := by
    rw [← htake]
    cases F.header.id <;> rfl
  unfold HFrame.leak
  rw [h0]
  apply if_pos
  have h1 : (ofB k).head? = k[0]?.map some := by
    cases k <;> rfl
  rw [h1]
  rcases hx with h | h | h <;> rw [h]
  · exact .inl rfl
  · exact .inr (.inl rfl)
  · exact .inr (.inr rfl)

theorem setter_spec [Platform] {h : Heap} {C : HCTag} {X : List Block} {k : List UInt8} (hk : ValidId k)
    (hx : KnownId k) (hl : C.Linked) {x : HeapM Unit} {v : Res Tag} {f : Res Frame}
    (hset : Refines (x h) v (fun t _ h' => SetPost C.tag (own C ++ X) (lit k) f t h'))
    (hf : ∀ g, f = .ok g → g.header.id = ofB k ∧ frameStreams g = 0) :
    Refines ((x >>= fun _ => ID3v2_Tag_get_frame C.tag.addr (.literal (lit k)) >>= fun frame =>
        compat_update C.addr frame) h)
      (v >>= fun t => Id3.ID3v2_Tag_get_frame t (lit k) >>= fun frame => Id3.compat_update C.value t frame)
      (fun v _ h' => CSetPost C k X v h') := by
  refine .call hset ?_
  rintro t _ h1 _ ⟨K, l', F, ⟨T, ha, rfl, rfl, r1⟩, _, _, hs, rfl⟩
  obtain ⟨hid, hst⟩ := hf _ rfl
  refine (update_spec (X := K ++ X) hk hl ha hs hid hst (r1.perm (by blocks))).mono ?_
  rintro v _ h2 _ ⟨⟨C', c, i, n, d, e1, e2, e3, r2, e4, e5, e6, e7, e8⟩, hn⟩
  rcases hs with hs | ⟨_, _, G, hg, _, _, rfl⟩
  · exact absurd hs hn
  · rw [leak_nil hk hx (get_first hg).2.1] at r2 e8
    exact ⟨C', c, i, n, d, e1, e2, e3, r2, e4, e5, e6, e7, e8⟩

theorem text_new_facts [Platform] {k : List UInt8} {flags text : Bytes} {g : Frame} (hk : k.length = 4)
    (h : Id3.TextFrame_new (lit k) flags text = .ok g) : g.header.id = ofB k ∧ frameStreams g = 0 := by
  unfold Id3.TextFrame_new at h
  obtain ⟨d, _, h⟩ := Res.bind_eq_ok.mp h
  obtain ⟨n, _, h⟩ := Res.bind_eq_ok.mp h
  obtain ⟨x, hx, h⟩ := Res.bind_eq_ok.mp h
  obtain rfl := Res.ok.inj h
  unfold Id3.FrameHeader_new at hx
  obtain ⟨i, hi, hx⟩ := Res.bind_eq_ok.mp hx
  obtain ⟨f, hf, hx⟩ := Res.bind_eq_ok.mp hx
  obtain rfl := Res.ok.inj hx
  refine ⟨?_, rfl⟩
  show i = ofB k
  rw [(memcpySrc_take hi).1, lit_eq]
  exact List.take_left' (by simp [hk])

theorem comment_new_facts [Platform] {flags lang d c : Bytes} {g : Frame}
    (h : Id3.CommentFrame_new flags lang d c = .ok g) :
    g.header.id = ofB [0x43, 0x4F, 0x4D, 0x4D] ∧ frameStreams g = 0 := by
  unfold Id3.CommentFrame_new at h
  obtain ⟨_, _, h⟩ := Res.bind_eq_ok.mp h
  obtain ⟨_, _, h⟩ := Res.bind_eq_ok.mp h
  obtain ⟨_, _, h⟩ := Res.bind_eq_ok.mp h
  obtain ⟨x, hx, h⟩ := Res.bind_eq_ok.mp h
  obtain rfl := Res.ok.inj h
  unfold Id3.FrameHeader_new at hx
  obtain ⟨i, hi, hx⟩ := Res.bind_eq_ok.mp hx
  obtain ⟨f, hf, hx⟩ := Res.bind_eq_ok.mp hx
  obtain rfl := Res.ok.inj hx
  exact ⟨(memcpySrc_take hi).1, rfl⟩

theorem apic_new_facts [Platform] {i : Id3.ApicFrameInput} {g : Frame} (h : Id3.ApicFrame_of_input i = .ok g) :
    g.header.id = ofB [0x41, 0x50, 0x49, 0x43] ∧ frameStreams g = 0 := by
  unfold Id3.ApicFrame_of_input Id3.ApicFrame_new at h
  obtain ⟨_, _, h⟩ := Res.bind_eq_ok.mp h
  obtain ⟨_, _, h⟩ := Res.bind_eq_ok.mp h
  obtain ⟨_, _, h⟩ := Res.bind_eq_ok.mp h
  obtain ⟨_, _, h⟩ := Res.bind_eq_ok.mp h
  obtain ⟨x, hx, h⟩ := Res.bind_eq_ok.mp h
  obtain rfl := Res.ok.inj h
  unfold Id3.FrameHeader_new at hx
  obtain ⟨i, hi, hx⟩ := Res.bind_eq_ok.mp hx
  obtain ⟨f, hf, hx⟩ := Res.bind_eq_ok.mp hx
  obtain rfl := Res.ok.inj hx
  exact ⟨(memcpySrc_take hi).1, rfl⟩

theorem at_perm {s : Src} {b : Bytes} {L L' : List Block} (h : s.At L b) (p : L.Perm L') : s.At L' b := by
  cases s with
  | literal b' => exact h
  | block a => exact p.mem_iff.mp h
  | frameId a =>
    obtain ⟨x, hx, e⟩ := h
    exact ⟨x, p.mem_iff.mp hx, e⟩

theorem set_text_cspec [Platform] {h : Heap} {C : HCTag} {X : List Block} {k : List UInt8} (hk : ValidId k)
    (hx : KnownId k) (hl : C.Linked) (r : Rep h (C.blocks ++ X)) (s : Src) (b : Bytes) (hs : s.At (C.blocks ++ X) b) :
    Refines (tag_set_text (lit k) s C.addr h)
      (Id3.ID3v2_Tag_set_text_frame C.value.tag { id := lit k, flags := NO_FLAGS, text := b } >>= fun t =>
        Id3.ID3v2_Tag_get_frame t (lit k) >>= fun frame => Id3.compat_update C.value t frame)
      (fun v _ h' => CSetPost C k X v h') := by
  unfold tag_set_text
  refine tagOf_spec r (fun b hb => List.mem_append_left _ hb) ?_
  exact setter_spec hk hx hl (set_text_at (r.perm (tag_out C X)) _ { id := lit k, flags := NO_FLAGS, text := b } rfl rfl
    (at_perm hs (tag_out C X))) fun g hg => text_new_facts hk.1 hg

theorem set_comment_cspec [Platform] {h : Heap} {C : HCTag} {X : List Block} (hl : C.Linked)
    (r : Rep h (C.blocks ++ X)) (s : Src) (b : Bytes) (hs : s.At (C.blocks ++ X) b) (e : UInt8) :
    Refines (tag_set_comment s e C.addr h) (Id3.tag_set_comment b e C.value)
      (fun v _ h' => CSetPost C [0x43, 0x4F, 0x4D, 0x4D] X v h') := by
  unfold tag_set_comment
  refine tagOf_spec r (fun b hb => List.mem_append_left _ hb) ?_
  exact setter_spec (by decide) (.inr (.inl rfl)) hl (set_comment_at (r.perm (tag_out C X)) _
    { flags := NO_FLAGS, language := lit [0x65, 0x6E, 0x67], short_description := EMPTY_UNICODE_STR, comment := b }
    rfl rfl rfl (at_perm hs (tag_out C X))) fun g hg => comment_new_facts hg

theorem set_cover_cspec [Platform] {h : Heap} {C : HCTag} {X : List Block} (hl : C.Linked)
    (r : Rep h (C.blocks ++ X)) (s : Src) (b : Bytes) (hs : s.At (C.blocks ++ X) b) (m : Src) (mb : Bytes)
    (hm : m.At (C.blocks ++ X) mb) (n : Int) :
    Refines (tag_set_album_cover_from_bytes s m n C.addr h) (Id3.tag_set_album_cover_from_bytes b mb n C.value)
      (fun v _ h' => CSetPost C [0x41, 0x50, 0x49, 0x43] X v h') := by
  unfold tag_set_album_cover_from_bytes
  refine tagOf_spec r (fun b hb => List.mem_append_left _ hb) ?_
  exact setter_spec (by decide) (.inr (.inr rfl)) hl (set_apic_at (r.perm (tag_out C X)) _
    { flags := NO_FLAGS, mime_type := mb, description := EMPTY_UNICODE_STR, picture_size := n, picture_type := 3,
      data := b } rfl (at_perm hm (tag_out C X)) rfl (at_perm hs (tag_out C X)) rfl rfl) fun g hg => apic_new_facts hg

theorem set_cover_file_spec [Platform] {h : Heap} {C : HCTag} {X : List Block} (hl : C.Linked)
    (r : Rep h (C.blocks ++ X)) (name : List UInt8) (image : File) :
    Refines (tag_set_album_cover name image C.addr h) (Id3.tag_set_album_cover name image C.value)
      (fun v _ h' => CSetPost C [0x41, 0x50, 0x49, 0x43] X v h') := by
  unfold tag_set_album_cover Id3.tag_set_album_cover
  cases image with
  | none => rfl
  | some bytes =>
    dsimp only
    refine .lift fun n _ => ?_
    refine .malloc r fun p h1 r1 => ?_
    cases afterLastDot name with
    | none => rfl
    | some ext =>
      dsimp only
      have r2 : Rep h1 (C.blocks ++ ((p, .bytes bytes) :: X)) := r1.perm (by blocks)
      have e : ∀ v : Res CTag, v = (v >>= fun x => .ok x) := by intro v; cases v <;> rfl
      rw [e (Id3.tag_set_album_cover_from_bytes _ _ _ _)]
      refine .call (set_cover_cspec hl r2 (.block p) bytes (by show _ ∈ _; simp) (.literal _) _ rfl n) ?_
      rintro v _ h2 _ ⟨C', c, i, m, d, e1, e2, e3, r3, e4, e5, e6, e7, e8⟩
      refine .last ?_
      refine .free (c := .bytes bytes) (L' := C'.blocks ++ X) r3 (by blocks) fun h3 r4 => ?_
      refine .pure ⟨C', c, i, m, d, e1, e2, e3, r4, e4, e5, e6, e7, fun hm => e8 ?_⟩
      simp only [List.map_append, List.map_cons, List.mem_append, List.mem_cons] at hm ⊢
      rcases hm with hm | hm
      · exact .inl hm
      · exact .inr (.inr hm)

end Id3.H
