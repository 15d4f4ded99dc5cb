import Verif.Props.ReadExact

/-!
# C63: what is in the file determines the frames

The layout written by the library is unambiguous: different frames never give the same bytes.
-/

namespace Id3.Props

open Id3 Spec

theorem units_inj (u u' : List (UInt8 × UInt8)) (r r' : List UInt8) (hu : (0, 0) ∉ u) (hu' : (0, 0) ∉ u')
    (h : u.flatMap (fun p => [p.1, p.2]) ++ 0 :: 0 :: r = u'.flatMap (fun p => [p.1, p.2]) ++ 0 :: 0 :: r') :
    u = u' ∧ r = r' := by
  induction u generalizing u' with
  | nil =>
    cases u' with
    | nil => simpa using h
    | cons p u' =>
      simp only [List.flatMap_nil, List.nil_append, List.flatMap_cons, List.cons_append, List.cons.injEq] at h
      exact absurd (List.mem_cons.mpr (Or.inl (Prod.ext h.1 h.2.1))) hu'
  | cons p u ih =>
    cases u' with
    | nil =>
      simp only [List.flatMap_nil, List.nil_append, List.flatMap_cons, List.cons_append, List.cons.injEq] at h
      exact absurd (List.mem_cons.mpr (Or.inl (Prod.ext h.1.symm h.2.1.symm))) hu
    | cons p' u' =>
      simp only [List.nil_append, List.flatMap_cons, List.cons_append, List.cons.injEq] at h
      obtain ⟨h1, h2, h3⟩ := h
      obtain ⟨h4, h5⟩ := ih u' (fun h => hu (List.mem_cons_of_mem _ h)) (fun h => hu' (List.mem_cons_of_mem _ h)) h3
      exact ⟨by rw [h4, Prod.ext h1 h2], h5⟩

theorem chars_inj (c c' r r' : List UInt8) (hc : 0 ∉ c) (hc' : 0 ∉ c') (h : c ++ 0 :: r = c' ++ 0 :: r') :
    c = c' ∧ r = r' := by
  induction c generalizing c' with
  | nil =>
    cases c' with
    | nil => simpa using h
    | cons p c' =>
      simp only [List.nil_append, List.cons_append, List.cons.injEq] at h
      exact absurd (List.mem_cons.mpr (Or.inl h.1)) hc'
  | cons p c ih =>
    cases c' with
    | nil =>
      simp only [List.nil_append, List.cons_append, List.cons.injEq] at h
      exact absurd (List.mem_cons.mpr (Or.inl h.1.symm)) hc
    | cons p' c' =>
      simp only [List.cons_append, List.cons.injEq] at h
      obtain ⟨h4, h5⟩ := ih c' (fun h => hc (List.mem_cons_of_mem _ h)) (fun h => hc' (List.mem_cons_of_mem _ h)) h.2
      exact ⟨by rw [h4, h.1], h5⟩

theorem latin_not_bom (c : List UInt8) (r : List UInt8) (le : Bool) (r' : List UInt8) (hc : (Str.latin c).WF) :
    c ++ 0 :: r ≠ Str.bom le ++ r' := by
  obtain ⟨h0, h1, h2⟩ := hc
  intro h
  match c, h1, h2, h with
  | [], _, _, h => cases le <;> simp [Str.bom] at h
  | [a], _, _, h => cases le <;> simp [Str.bom] at h
  | a :: b :: c, h1, h2, h => cases le <;> simp [Str.bom] at h h1 h2 <;> simp_all

/-- Strings end with their first terminator and show their encoding. -/
theorem str_inj (s s' : Str) (r r' : List UInt8) (hs : s.WF) (hs' : s'.WF) (h : s.bytes ++ r = s'.bytes ++ r') :
    s = s' ∧ r = r' := by
  cases s with
  | latin c =>
    cases s' with
    | latin c' =>
      obtain ⟨h1, h2⟩ := chars_inj c c' r r' hs.1 hs'.1 (by simpa [Str.bytes, Str.content, Str.terminator] using h)
      exact ⟨by rw [h1], h2⟩
    | utf16 le u =>
      refine absurd ?_ (latin_not_bom c r le (u.flatMap (fun p => [p.1, p.2]) ++ 0 :: 0 :: r') hs)
      simpa [Str.bytes, Str.content, Str.terminator] using h
  | utf16 le u =>
    cases s' with
    | latin c =>
      refine absurd ?_ (latin_not_bom c r' le (u.flatMap (fun p => [p.1, p.2]) ++ 0 :: 0 :: r) hs')
      simpa [Str.bytes, Str.content, Str.terminator] using h.symm
    | utf16 le' u' =>
      have h1 : Str.bom le ++ (u.flatMap (fun p => [p.1, p.2]) ++ 0 :: 0 :: r) =
          Str.bom le' ++ (u'.flatMap (fun p => [p.1, p.2]) ++ 0 :: 0 :: r') := by
        simpa [Str.bytes, Str.content, Str.terminator] using h
      obtain ⟨h2, h3⟩ := List.append_inj h1 (by cases le <;> cases le' <;> rfl)
      obtain ⟨h4, h5⟩ := units_inj u u' r r' hs hs' h3
      have : le = le' := by
        cases le <;> cases le' <;> simp [Str.bom] at h2 <;> rfl
      exact ⟨by rw [this, h4], h5⟩

theorem be32_inj (n m : Nat) (hn : n < 2 ^ 32) (hm : m < 2 ^ 32) (h : be32 n = be32 m) : n = m := by
  simp only [be32, List.cons.injEq, ← UInt8.toNat_inj, UInt8.toNat_ofNat'] at h
  omega

theorem sframe_id_length (f : SFrame) (hf : f.WF) : f.id.length = 4 := by
  cases f with
  | text => exact hf.1
  | comment => rfl
  | apic => rfl
  | other => exact hf.1

theorem sframe_flags_length (f : SFrame) (hf : f.WF) : f.flags.length = 2 := by
  cases f with
  | text => exact hf.2.2.1
  | comment => exact hf.1
  | apic => exact hf.1
  | other => exact hf.2.2.2.2.2

/-- A frame is determined by its id, flags and body. -/
theorem frame_parts_inj (f g : SFrame) (hf : f.WF) (hg : g.WF) (hid : f.id = g.id) (hfl : f.flags = g.flags)
    (hb : f.body = g.body) : f = g := by
  have hcomm : commId.head? = some 0x43 := rfl
  have hapic : apicId.head? = some 0x41 := rfl
  cases f with
  | text i l s =>
    cases g with
    | text i' l' s' =>
      simp only [SFrame.id] at hid
      simp only [SFrame.flags] at hfl
      simp only [SFrame.body, List.cons.injEq] at hb
      obtain ⟨h1, -⟩ := str_inj s s' [] [] hf.2.2.2 hg.2.2.2 (by rw [hb.2])
      rw [hid, hfl, h1]
    | comment => simp only [SFrame.id] at hid; have := hf.2.1; rw [hid, hcomm] at this; simp at this
    | apic => simp only [SFrame.id] at hid; have := hf.2.1; rw [hid, hapic] at this; simp at this
    | other => simp only [SFrame.id] at hid; exact absurd (hid ▸ hf.2.1) hg.2.1
  | comment l lang d t =>
    cases g with
    | text => simp only [SFrame.id] at hid; have := hg.2.1; rw [← hid, hcomm] at this; simp at this
    | comment l' lang' d' t' =>
      simp only [SFrame.flags] at hfl
      simp only [SFrame.body, List.cons_append, List.cons.injEq, List.append_assoc] at hb
      obtain ⟨h1, h2⟩ := List.append_inj hb.2 (by rw [hf.2.1, hg.2.1])
      obtain ⟨h3, h4⟩ := str_inj d d' _ _ hf.2.2.1 hg.2.2.1 h2
      obtain ⟨h5, -⟩ := str_inj t t' [] [] hf.2.2.2 hg.2.2.2 (by rw [h4])
      rw [hfl, h1, h3, h5]
    | apic => simp only [SFrame.id] at hid; have := congrArg List.head? hid; rw [hcomm, hapic] at this; simp at this
    | other => simp only [SFrame.id] at hid; exact absurd (hid ▸ hcomm) hg.2.2.1
  | apic l m p d x =>
    cases g with
    | text => simp only [SFrame.id] at hid; have := hg.2.1; rw [← hid, hapic] at this; simp at this
    | comment => simp only [SFrame.id] at hid; have := congrArg List.head? hid; rw [hcomm, hapic] at this; simp at this
    | apic l' m' p' d' x' =>
      simp only [SFrame.flags] at hfl
      simp only [SFrame.body, List.cons_append, List.cons.injEq, List.append_assoc] at hb
      obtain ⟨h1, h2⟩ := str_inj m m' _ _ hf.2.1 hg.2.1 hb.2
      simp only [List.cons.injEq] at h2
      obtain ⟨h3, h4⟩ := str_inj d d' _ _ hf.2.2 hg.2.2 h2.2
      rw [hfl, h1, h2.1, h3, h4]
    | other => simp only [SFrame.id] at hid; exact absurd (hid ▸ hapic) hg.2.2.2.1
  | other i l x =>
    cases g with
    | text => simp only [SFrame.id] at hid; exact absurd (hid ▸ hg.2.1) hf.2.1
    | comment => simp only [SFrame.id] at hid; exact absurd (hid ▸ hcomm) hf.2.2.1
    | apic => simp only [SFrame.id] at hid; exact absurd (hid ▸ hapic) hf.2.2.2.1
    | other i' l' x' =>
      simp only [SFrame.id] at hid
      simp only [SFrame.flags] at hfl
      simp only [SFrame.body] at hb
      rw [hid, hfl, hb]

theorem frame_bytes_inj [Platform] (f g : SFrame) (r r' : List UInt8) (hf : f.Usable) (hg : g.Usable)
    (h : f.bytes ++ r = g.bytes ++ r') : f = g ∧ r = r' := by
  simp only [SFrame.bytes, List.append_assoc] at h
  have hlf := hf.2.1
  have hlg := hg.2.1
  rw [SFrame.bytes_length _ hf.1] at hlf
  rw [SFrame.bytes_length _ hg.1] at hlg
  obtain ⟨h1, h2⟩ := List.append_inj h (by rw [sframe_id_length f hf.1, sframe_id_length g hg.1])
  obtain ⟨h3, h4⟩ := List.append_inj h2 rfl
  obtain ⟨h5, h6⟩ := List.append_inj h4 (by rw [sframe_flags_length f hf.1, sframe_flags_length g hg.1])
  obtain ⟨h7, h8⟩ := List.append_inj h6 (be32_inj _ _ (by omega) (by omega) h3)
  exact ⟨frame_parts_inj f g hf.1 hg.1 h1 h5 h7, h8⟩

/-- The id of a frame is not four zero bytes. -/
theorem sframe_id_ne [Platform] (f : SFrame) (hf : f.WF) : f.id ≠ [0, 0, 0, 0] := by
  cases f with
  | text => intro h; have := hf.2.1; simp only [SFrame.id] at h; rw [h] at this; simp at this
  | comment => simp [SFrame.id, commId]
  | apic => simp [SFrame.id, apicId]
  | other => exact hf.2.2.2.2.1

theorem frames_inj [Platform] (fs gs : List SFrame) (p q : Nat) (hf : ∀ f ∈ fs, f.Usable) (hg : ∀ g ∈ gs, g.Usable)
    (h : fs.flatMap SFrame.bytes ++ List.replicate p 0 = gs.flatMap SFrame.bytes ++ List.replicate q 0) :
    fs = gs ∧ p = q := by
  have key : ∀ (f : SFrame) (r : List UInt8) (n : Nat), f.Usable → f.bytes ++ r ≠ List.replicate n (0 : UInt8) := by
    intro f r n hu he
    refine sframe_id_ne f hu.1 ?_
    simp only [SFrame.bytes, List.append_assoc] at he
    have hl := sframe_id_length f hu.1
    have h1 := congrArg (List.take 4) he
    rw [List.take_left' hl, List.take_replicate] at h1
    have h2 := congrArg List.length h1
    rw [hl, List.length_replicate] at h2
    rw [h1, ← h2]
    rfl
  induction fs generalizing gs with
  | nil =>
    cases gs with
    | nil => exact ⟨rfl, by simpa using congrArg List.length h⟩
    | cons g gs =>
      rw [List.flatMap_nil, List.nil_append, List.flatMap_cons, List.append_assoc] at h
      exact absurd h.symm (key g _ p (hg g (by simp)))
  | cons f fs ih =>
    cases gs with
    | nil =>
      rw [List.flatMap_nil, List.nil_append, List.flatMap_cons, List.append_assoc] at h
      exact absurd h (key f _ q (hf f (by simp)))
    | cons g gs =>
      rw [List.flatMap_cons, List.flatMap_cons, List.append_assoc, List.append_assoc] at h
      obtain ⟨h1, h2⟩ := frame_bytes_inj f g _ _ (hf f (by simp)) (hg g (by simp)) h
      obtain ⟨h3, h4⟩ := ih gs (fun x hx => hf x (by simp [hx])) (fun x hx => hg x (by simp [hx])) h2
      exact ⟨by rw [h1, h3], h4⟩

theorem synchsafe_inj (n m : Nat) (hn : n < 2 ^ 28) (hm : m < 2 ^ 28) (h : synchsafe n = synchsafe m) : n = m := by
  simp only [synchsafe, List.cons.injEq, ← UInt8.toNat_inj, UInt8.toNat_ofNat'] at h
  omega

/-- **C63**, bytes: two tags with the same bytes (whatever follows them) have the same version and flags, the same frames in
the same order, and the same padding. -/
theorem out_inj [Platform] (v v' minor minor' flags flags' : UInt8) (fs gs : List SFrame) (p q : Nat)
    (rest rest' : List UInt8) (hf : ∀ f ∈ fs, f.Usable) (hg : ∀ g ∈ gs, g.Usable) (hs : framesSize fs + p < 2 ^ 28)
    (hs' : framesSize gs + q < 2 ^ 28)
    (h : outBytes v minor flags fs p ++ rest = outBytes v' minor' flags' gs q ++ rest') :
    v = v' ∧ minor = minor' ∧ flags = flags' ∧ fs = gs ∧ p = q ∧ rest = rest' := by
  simp only [outBytes, tagHeaderBytes, List.append_assoc, List.cons_append, List.nil_append, List.cons.injEq, true_and] at h
  obtain ⟨h1, h2, h3, h4⟩ := h
  obtain ⟨h5, h6⟩ := List.append_inj h4 rfl
  have h7 := synchsafe_inj _ _ hs hs' h5
  rw [← List.append_assoc, ← List.append_assoc] at h6
  obtain ⟨h8, h9⟩ := List.append_inj h6 (by
    rw [List.length_append, List.length_append, flatMap_bytes_length, flatMap_bytes_length, List.length_replicate,
      List.length_replicate]
    exact h7)
  obtain ⟨h10, h11⟩ := frames_inj fs gs p q hf hg h8
  exact ⟨h1, h2, h3, h10, h11, h9⟩

/-- **C63**: if two programs leave the same bytes in a file, their tags had the same frames, whatever the calls were and
whatever the files contained before. -/
theorem sessions_injective [Platform] (contents contents' : List UInt8) (tag tag' : Tag) (st st' : State)
    (ops ops' : List Op) (rest rest' : Bytes) (end_ end' : Full) (b b' : List UInt8) (t t' u u' : Tag) (file : Option Bytes)
    (hstart : Start tag st) (hstart' : Start tag' st') (hv : ∀ op ∈ ops, op.Valid) (hv' : ∀ op ∈ ops', op.Valid)
    (he : effectAll ops st.full = some end_) (he' : effectAll ops' st'.full = some end')
    (hser : Full.serialise end_ = .bytes b) (hser' : Full.serialise end' = .bytes b')
    (hsz : end_.size < 2 ^ 28) (hsz' : end'.size < 2 ^ 28)
    (hr : runAll rest ops tag = .ok t) (hr' : runAll rest' ops' tag' = .ok t')
    (hw : ID3v2_write_tag (some (ofB contents)) t = .ok (file, u))
    (hw' : ID3v2_write_tag (some (ofB contents')) t' = .ok (file, u')) :
    tag.header.major_version = tag'.header.major_version ∧ tag.header.minor_version = tag'.header.minor_version ∧
      tag.header.flags = tag'.header.flags ∧ end_.seen = end'.seen ∧ end_.size = end'.size ∧
      audio contents = audio contents' := by
  obtain ⟨a, c, d, h1, h2, h3, h4, h5, -, h7⟩ := session_file contents tag st ops rest end_ b hstart hv he hser hsz
  obtain ⟨a', c', d', h1', h2', h3', h4', h5', -, h7'⟩ :=
    session_file contents' tag' st' ops' rest' end' b' hstart' hv' he' hser' hsz'
  rw [hr] at h1
  rw [hr'] at h1'
  cases h1
  cases h1'
  rw [hw] at h2
  rw [hw'] at h2'
  cases h2
  cases h2'
  rw [h3] at h3'
  have hb := ofB_injective (Option.some.inj h3')
  obtain ⟨g1, g2, g3, g4, g5, g6⟩ := out_inj _ _ _ _ _ _ _ _ _ _ _ _ h4 h4' h7 h7' hb
  refine ⟨g1, g2, g3, g4, ?_, g6⟩
  have hge : ∀ (e : Full) (b : List UInt8), Full.serialise e = .bytes b → (framesSize e.seen : Int) ≤ e.size := by
    intro e b hs
    unfold Full.serialise at hs
    split at hs
    · simp at hs
    · split at hs
      · simp at hs
      · omega
  have k1 := hge _ _ hser
  have k2 := hge _ _ hser'
  rw [g4] at g5 k1
  omega

/-- Two programs that read a tag with a title and padding, one of which sets the title twice. -/
example : ∃ tag st, @Start strict tag st ∧
    (∃ e b, effectAll [.setText [0x54, 0x49, 0x54, 0x32] [0, 0] (.latin [0x48])] st.full = some e ∧
      Full.serialise e = .bytes b ∧ e.size < 2 ^ 28) ∧
    (∃ e b, effectAll [.setText [0x54, 0x49, 0x54, 0x32] [0, 0] (.latin [0x48, 0x69, 0x69]),
        .setText [0x54, 0x49, 0x54, 0x32] [0, 0] (.latin [0x48])] st.full = some e ∧
      Full.serialise e = .bytes b ∧ e.size < 2 ^ 28) :=
  ⟨_, _, @start_read strict 3 0 0 [.text [0x54, 0x49, 0x54, 0x32] [0, 0] 0 (.latin [0x48, 0x69]) []] 20 (Or.inl rfl)
    (by decide) (by decide) (by decide) (by decide), ⟨_, _, rfl, rfl, by decide⟩, ⟨_, _, rfl, rfl, by decide⟩⟩

end Id3.Props
