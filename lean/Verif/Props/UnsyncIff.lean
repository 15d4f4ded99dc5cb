import Verif.Props.Unsync
import Verif.Props.Any
import Verif.Props.Again

/-!
# C52: exactly which unsynchronised tags are read right
-/

namespace Id3

open Spec

theorem ofB_split {y a : List UInt8} {m : Bytes} (h : ofB y = ofB a ++ m) : ∃ z, y = a ++ z ∧ m = ofB z := by
  obtain ⟨l₁, l₂, rfl, h1, h2⟩ := List.map_eq_append_iff.mp h
  have : l₁ = a := ofB_injective h1
  exact ⟨l₂, by rw [this], h2.symm⟩

theorem ofB_split_cons {y : List UInt8} {a : UInt8} {m : Bytes} (h : ofB y = some a :: m) : ∃ z, y = a :: z ∧ m = ofB z := by
  obtain ⟨z, h1, h2⟩ := ofB_split (a := [a]) (m := m) h
  exact ⟨z, h1, h2⟩

theorem padTo_ofB {n : Nat} {y d : List UInt8} (h : padTo n (ofB y) = ofB d) (hd : d.length = n) :
    ∃ z, y = d ++ z ∧ (ofB y).drop n = ofB z := by
  subst hd
  unfold padTo at h
  have hl : d.length ≤ y.length := by
    refine Nat.le_of_not_lt fun hlt => ?_
    have : (none : Option UInt8) ∈ ofB d := by
      rw [← h]
      refine List.mem_append_right _ ?_
      rw [List.mem_replicate, ofB_length]
      exact ⟨by omega, rfl⟩
    simp [ofB] at this
  rw [ofB_length, show d.length - y.length = 0 from by omega, List.replicate_zero, List.append_nil] at h
  have h : (y.take d.length).map some = d.map some := by rw [List.map_take]; exact h
  have h : y.take d.length = d := ofB_injective h
  refine ⟨y.drop d.length, ?_, ?_⟩
  · rw [← List.take_append_drop d.length y, h]
    simp
  · simp [ofB, List.map_drop]

theorem frameSize_be32 (n : Nat) (h : n ≤ 2147483647) : frameSize 3 (be32 n) = n := by
  unfold frameSize
  rw [if_neg (by decide)]
  unfold be32 plainSize
  simp only [UInt8.toNat_ofNat']
  rw [if_pos (by omega)]
  omega

/-- If the header of a frame is there, and the byte after it, then the frame is only found where all its bytes are. -/
theorem item_same [Platform] {f : SFrame} {y : List UInt8} {r' : Bytes} (hw : f.WF) (hl : f.bytes.length ≤ 2147483647)
    (hy : f.body ≠ [] → y.head? = f.body.head?)
    (hi : Item 3 (ofB (f.id ++ be32 f.body.length ++ f.flags ++ y)) f.toFrame r') : ∃ z, y = f.body ++ z ∧ r' = ofB z := by
  have hb := hl
  rw [SFrame.bytes_length _ hw] at hb
  generalize hX : ofB (f.id ++ be32 f.body.length ++ f.flags ++ y) = X at hi
  generalize hF : f.toFrame = F at hi
  have head : ∀ (id size flags : List UInt8) (m : Bytes), id.length = 4 → size.length = 4 → flags.length = 2 →
      f.id.length = 4 → f.flags.length = 2 → ofB (f.id ++ be32 f.body.length ++ f.flags ++ y) = ofB (id ++ size ++ flags) ++ m →
      id = f.id ∧ size = be32 f.body.length ∧ flags = f.flags ∧ ofB y = m := by
    intro id size flags m h1 h2 h3 h4 h5 h
    obtain ⟨z, hz, rfl⟩ := ofB_split h
    have h6 : (be32 f.body.length).length = 4 := rfl
    obtain ⟨h7, h8⟩ := List.append_inj hz (by simp only [List.length_append, h1, h2, h3, h4, h5, h6])
    obtain ⟨h9, h10⟩ := List.append_inj h7 (by simp only [List.length_append, h1, h2, h4, h6])
    obtain ⟨h11, h12⟩ := List.append_inj h9 (by rw [h1, h4])
    exact ⟨h11.symm, h12.symm, h10.symm, by rw [h8]⟩
  cases hi with
  | text id size flags enc s more n hid hz hf hn hst hs hfit hcmp =>
    cases f with
    | text id0 flags0 s0 =>
      obtain ⟨rfl, rfl, rfl, hm⟩ := head id size flags _ hid.1 hz hf hw.1 hw.2.2.1 hX
      simp only [SFrame.toFrame, Frame.mk.injEq, Payload.text.injEq, TextFrameData.mk.injEq, ofB_inj] at hF
      obtain ⟨y, rfl, hm1⟩ := ofB_split_cons hm
      obtain ⟨z, rfl, rfl⟩ := ofB_split hm1.symm
      have he : some enc = some s0.encoding := hy (by simp [SFrame.body])
      cases he
      have hs0 : s0.bytes = s.bytes := hF.2.2.2
      rw [frameSize_be32 _ (by omega)] at hn
      have hn : n = s.bytes.length := by
        simp only [SFrame.body, List.length_cons, hs0] at hn
        omega
      refine ⟨z, ?_, ?_⟩
      · simp only [SFrame.body, hs0, List.cons_append]
      · rw [hn, List.drop_left' (by simp)]
    | _ => simp [SFrame.toFrame] at hF
  | comment id size flags enc lang desc txt more hid hz hf hlang hd ht hst =>
    cases f with
    | comment flags0 lang0 desc0 txt0 =>
      obtain ⟨rfl, rfl, rfl, hm⟩ := head id size flags _ hid.1 hz hf rfl hw.1 hX
      simp only [SFrame.toFrame, Frame.mk.injEq, Payload.comment.injEq, CommentFrameData.mk.injEq, ofB_inj] at hF
      obtain ⟨-, -, -, rfl, h1, h2⟩ := hF
      obtain ⟨y, rfl, hm1⟩ := ofB_split_cons hm
      obtain ⟨y, rfl, hm2⟩ := ofB_split hm1.symm
      obtain ⟨y, rfl, hm3⟩ := ofB_split hm2.symm
      obtain ⟨z, rfl, rfl⟩ := ofB_split hm3.symm
      have he : some enc = some txt0.encoding := hy (by simp [SFrame.body])
      cases he
      exact ⟨z, by simp [SFrame.body, h1, h2], rfl⟩
    | _ => simp [SFrame.toFrame] at hF
  | apic id size flags enc mime pt desc more n hid hz hf hm hd hst hn hn' =>
    cases f with
    | apic flags0 mime0 pt0 desc0 pic0 =>
      obtain ⟨rfl, rfl, rfl, hm⟩ := head id size flags _ hid.1 hz hf rfl hw.1 hX
      simp only [SFrame.toFrame, Frame.mk.injEq, Payload.apic.injEq, ApicFrameData.mk.injEq, ofB_inj] at hF
      obtain ⟨-, -, h1, rfl, h2, h3, h4⟩ := hF
      obtain ⟨y, rfl, hm1⟩ := ofB_split_cons hm
      obtain ⟨y, rfl, hm2⟩ := ofB_split hm1.symm
      obtain ⟨y, rfl, hm3⟩ := ofB_split_cons hm2.symm
      obtain ⟨y, rfl, rfl⟩ := ofB_split hm3.symm
      have he : some enc = some desc0.encoding := hy (by simp [SFrame.body])
      cases he
      obtain ⟨z, rfl, hz'⟩ := padTo_ofB h3.symm (by omega)
      exact ⟨z, by simp [SFrame.body, h1, h2], hz'⟩
    | _ => simp [SFrame.toFrame] at hF
  | other id size more hid hz hT hC hA h0 =>
    cases f with
    | other id0 flags0 data0 =>
      obtain ⟨w, hw1, rfl⟩ := ofB_split hX
      simp only [SFrame.toFrame, Frame.mk.injEq, Payload.raw.injEq, FrameHeader.mk.injEq, ofB_inj] at hF
      obtain ⟨⟨h1, h2, h3⟩, h4⟩ := hF
      rw [List.append_assoc] at hw1
      obtain ⟨h5, h6⟩ := List.append_inj hw1 (by
        have : (be32 (SFrame.other id0 flags0 data0).body.length).length = 4 := rfl
        simp only [List.length_append, this, hid, hz]
        have := hw.1
        simp only [SFrame.id]
        omega)
      subst h6
      have hfl : flags0.length = 2 := hw.2.2.2.2.2
      have e : (ofB ((SFrame.other id0 flags0 data0).flags ++ y)).drop 2 = ofB y := by
        simp only [SFrame.flags]
        rw [ofB_append, List.drop_left' (by simp [hfl])]
      rw [e] at h4 ⊢
      rw [← h2, Int.toNat_natCast] at h4 ⊢
      exact padTo_ofB h4.symm rfl
    | _ => simp [SFrame.toFrame] at hF

/-! ## What unsynchronisation does to a prefix -/

theorem unsync_head (x : List UInt8) : (unsync x).head? = x.head? := by
  unfold unsync
  split
  · rfl
  · rfl
  · split <;> rfl

theorem unsync_plain (a : List UInt8) (b : List UInt8) (h : 0xFF ∉ a) : unsync (a ++ b) = a ++ unsync b := by
  induction a with
  | nil => rfl
  | cons x a ih =>
    simp only [List.mem_cons, not_or] at h
    have ih := ih h.2
    rw [List.cons_append]
    cases hab : a ++ b with
    | nil =>
      rw [hab] at ih
      obtain ⟨rfl, rfl⟩ := List.append_eq_nil_iff.mp hab
      rfl
    | cons y t =>
      rw [unsync, if_neg (fun e => h.1 e.1.symm), ← hab, ih, List.cons_append]

theorem unsync_zero (t : List UInt8) : unsync (0 :: t) = 0 :: unsync t := unsync_plain [0] t (by decide)

theorem unsync_zeros (n : Nat) : unsync (List.replicate n 0) = List.replicate n 0 := by
  induction n with
  | zero => rfl
  | succ n ih => rw [List.replicate_succ, unsync_zero, ih]

theorem zeros_prefix (g t : List UInt8) (h : ∃ z, 0 :: unsync (g ++ t) = g ++ z) :
    0 :: unsync (g ++ t) = g ++ 0 :: unsync t := by
  induction g with
  | nil => rfl
  | cons x g ih =>
    obtain ⟨z, hz⟩ := h
    simp only [List.cons_append, List.cons.injEq] at hz ⊢
    obtain ⟨rfl, hz⟩ := hz
    rw [unsync_zero] at hz ⊢
    exact ⟨rfl, ih ⟨z, hz⟩⟩

/-- If what is unsynchronised still starts with `g`, then at most one zero was inserted, and that can be seen as behind `g`. -/
theorem unsync_prefix (g t : List UInt8) (h : ∃ z, unsync (g ++ t) = g ++ z) :
    unsync (g ++ t) = g ++ unsync t ∨ unsync (g ++ t) = g ++ 0 :: unsync t := by
  induction g with
  | nil => exact .inl rfl
  | cons a g ih =>
    obtain ⟨z, hz⟩ := h
    cases g with
    | nil =>
      cases t with
      | nil => exact .inl rfl
      | cons c t =>
        show unsync (a :: c :: t) = _ ∨ unsync (a :: c :: t) = _
        rw [unsync]
        split
        · exact .inr rfl
        · exact .inl rfl
    | cons b g =>
      simp only [List.cons_append] at hz ih ⊢
      rw [unsync] at hz ⊢
      split at hz
      · next hc =>
        rw [if_pos hc]
        simp only [List.cons.injEq, true_and] at hz
        obtain ⟨rfl, hz⟩ := hz
        refine .inr ?_
        rw [unsync_zero] at hz ⊢
        rw [zeros_prefix g t ⟨z, hz⟩]
      · next hc =>
        rw [if_neg hc]
        simp only [List.cons.injEq, true_and] at hz
        rcases ih ⟨z, hz⟩ with e | e
        · exact .inl (by rw [e])
        · exact .inr (by rw [e])

/-- The frames are only found if they are there. -/
theorem items_same [Platform] (Z : List UInt8) {size : Nat} :
    ∀ (fs : List SFrame) (c c' : Nat), (∀ f ∈ fs, f.WF ∧ f.bytes.length ≤ 2147483647) → (∀ f ∈ fs, 0xFF ∉ f.bytes.take 10) →
      Items 3 size c (ofB (unsync (fs.flatMap SFrame.bytes ++ Z))) (fs.map SFrame.toFrame) c' →
      unsync (fs.flatMap SFrame.bytes ++ Z) = fs.flatMap SFrame.bytes ++ unsync Z ∨
        unsync (fs.flatMap SFrame.bytes ++ Z) = fs.flatMap SFrame.bytes ++ 0 :: unsync Z
  | [], _, _, _, _, _ => .inl rfl
  | f :: fs, c, c', hw, hh, h => by
    have split : ∀ g : SFrame, g.WF → 0xFF ∉ g.bytes.take 10 → ∀ t, 0xFF ∉ g.id ++ be32 g.body.length ++ g.flags ∧
        unsync (g.bytes ++ t) = g.id ++ be32 g.body.length ++ g.flags ++ unsync (g.body ++ t) := by
      intro g hg hff t
      have e : g.bytes.take 10 = g.id ++ be32 g.body.length ++ g.flags := by
        unfold SFrame.bytes
        rw [List.take_left']
        have : (be32 g.body.length).length = 4 := rfl
        simp only [List.length_append, this]
        cases g with
        | text => have := hg.1; have := hg.2.2.1; simp only [SFrame.id, SFrame.flags]; omega
        | comment => have := hg.1; simp only [SFrame.id, SFrame.flags, commId, List.length_cons, List.length_nil]; omega
        | apic => have := hg.1; simp only [SFrame.id, SFrame.flags, apicId, List.length_cons, List.length_nil]; omega
        | other => have := hg.1; have := hg.2.2.2.2.2; simp only [SFrame.id, SFrame.flags]; omega
      rw [e] at hff
      refine ⟨hff, ?_⟩
      rw [← unsync_plain _ _ hff]
      simp [SFrame.bytes]
    have hf := split f (hw f List.mem_cons_self).1 (hh f List.mem_cons_self) (fs.flatMap SFrame.bytes ++ Z)
    have e : (f :: fs).flatMap SFrame.bytes ++ Z = f.bytes ++ (fs.flatMap SFrame.bytes ++ Z) := by simp
    rw [e, hf.2] at h ⊢
    generalize hX : ofB (f.id ++ be32 f.body.length ++ f.flags ++ unsync (f.body ++ (fs.flatMap SFrame.bytes ++ Z))) = X at h
    generalize hL : (f :: fs).map SFrame.toFrame = L at h
    cases h with
    | stop => cases hL
    | padding => cases hL
    | frame _ _ g r' gs _ hlt hi hs =>
      subst hX
      simp only [List.map_cons, List.cons.injEq] at hL
      obtain ⟨rfl, rfl⟩ := hL
      obtain ⟨z, hz, rfl⟩ := item_same (hw f List.mem_cons_self).1 (hw f List.mem_cons_self).2 (by
        intro hne
        rw [unsync_head]
        cases hb : f.body with
        | nil => exact absurd hb hne
        | cons => rfl) hi
      have fin : ∀ u, unsync (f.body ++ (fs.flatMap SFrame.bytes ++ Z)) = f.body ++ (fs.flatMap SFrame.bytes ++ u) →
          f.id ++ be32 f.body.length ++ f.flags ++ unsync (f.body ++ (fs.flatMap SFrame.bytes ++ Z)) =
            (f :: fs).flatMap SFrame.bytes ++ u := by
        intro u hu
        rw [hu]
        simp [SFrame.bytes]
      rcases unsync_prefix _ _ ⟨z, hz⟩ with e1 | e1
      · rw [e1] at hz
        have hz := List.append_cancel_left hz
        subst hz
        rcases items_same Z fs _ _ (fun g hg => hw g (List.mem_cons_of_mem _ hg))
          (fun g hg => hh g (List.mem_cons_of_mem _ hg)) hs with e2 | e2
        · exact .inl (fin _ (by rw [e1, e2]))
        · exact .inr (fin _ (by rw [e1, e2]))
      · cases fs with
        | nil => exact .inr (fin _ (by rw [e1]; rfl))
        | cons g fs =>
          exfalso
          rw [e1] at hz
          have hz := List.append_cancel_left hz
          subst hz
          have hgw := (hw g (by simp)).1
          have hg := split g hgw (hh g (by simp)) (fs.flatMap SFrame.bytes ++ Z)
          have e3 : (g :: fs).flatMap SFrame.bytes ++ Z = g.bytes ++ (fs.flatMap SFrame.bytes ++ Z) := by simp
          rw [e3, hg.2] at hs
          generalize unsync (g.body ++ (fs.flatMap SFrame.bytes ++ Z)) = y at hs
          generalize hX : ofB (0 :: (g.id ++ be32 g.body.length ++ g.flags ++ y)) = X at hs
          generalize hL : (g :: fs).map SFrame.toFrame = L at hs
          have first : ∀ (id : List UInt8) (m : Bytes), id.length = 4 → X = ofB id ++ m → id = 0 :: g.id.take 3 := by
            intro id m hid h
            rw [← hX] at h
            obtain ⟨z, hz, -⟩ := ofB_split h
            have : id = (0 :: (g.id ++ be32 g.body.length ++ g.flags ++ y)).take 4 := by
              rw [hz, List.take_left' hid]
            rw [this, List.take_succ_cons, List.append_assoc, List.append_assoc, List.take_append_of_le_length]
            cases g with
            | text => rw [SFrame.id, hgw.1]; decide
            | comment => simp only [SFrame.id]; decide
            | apic => simp only [SFrame.id]; decide
            | other => rw [SFrame.id, hgw.1]; decide
          cases hs with
          | stop => cases hL
          | padding => cases hL
          | frame _ _ g' r' gs _ hlt hi hs =>
            simp only [List.map_cons, List.cons.injEq] at hL
            obtain ⟨hL, -⟩ := hL
            cases hi with
            | text id size flags enc s more n hid =>
              have := first id _ hid.1 (by rw [ofB_append, ofB_append, List.append_assoc, List.append_assoc])
              have h2 := hid.2
              rw [this] at h2
              cases h2
            | comment id size flags enc lang desc txt more hid =>
              have := first id _ hid.1 (by rw [ofB_append, ofB_append, List.append_assoc, List.append_assoc])
              have h2 := hid.2
              rw [this] at h2
              cases h2
            | apic id size flags enc mime pt desc more n hid =>
              have := first id _ hid.1 (by rw [ofB_append, ofB_append, List.append_assoc, List.append_assoc])
              have h2 := hid.2
              rw [this] at h2
              cases h2
            | other id size more hid hz hT hC hA h0 =>
              have h1 := first id _ hid (by rw [ofB_append, List.append_assoc])
              have h2 : g.id = id := by
                have := congrArg (fun f : Frame => f.header.id) hL
                exact ofB_injective this
              rw [← h2] at h1 hid h0
              match hgi : g.id, hid with
              | [a, b, c, d], _ =>
                rw [hgi] at h1 h0
                simp only [List.take_succ_cons, List.take_zero, List.cons.injEq, and_true] at h1
                obtain ⟨rfl, rfl, rfl, rfl⟩ := h1
                exact h0 rfl

theorem nodes_inj {a b : List Frame} (h : Spec.nodes a = Spec.nodes b) : a = b := by
  have inj : ∀ a b : List Frame, a.map some = b.map some → a = b := fun a b h => List.map_inj_right (by simp) |>.mp h
  cases a with
  | nil =>
    cases b with
    | nil => rfl
    | cons y b => simp [Spec.nodes] at h
  | cons x a =>
    cases b with
    | nil => simp [Spec.nodes] at h
    | cons y b => exact inj _ _ h

theorem unsync_length_le (a : List UInt8) : (unsync a).length ≤ 2 * a.length := by
  induction a with
  | nil => simp [unsync]
  | cons c a ih =>
    cases a with
    | nil => simp [unsync]
    | cons d a =>
      simp only [unsync]
      split <;> simp only [List.length_cons] at ih ⊢ <;> omega

namespace Props

/-- **C52**, exactly (for frames without 0xFF in the ten bytes of their headers): the frames of an unsynchronised tag are read
right if and only if unsynchronisation did not change the tag, or did nothing but to append a zero. The latter happens if the
last frame ends with 0xFF and zeros, as a text in ISO-8859-1 that ends with 0xFF does. -/
theorem unsync_exact [Platform] (minor flags : UInt8) (fs : List SFrame) (padding : Nat)
    (hflag : (flags ||| unsyncFlag) &&& 0x40 = 0) (hR : ∀ f ∈ fs, f.Readable) (hs : framesSize fs + padding + 1 < 2 ^ 28)
    (hlast : 0 < padding ∨ ∀ f, fs.getLast? = some f → f.body ≠ []) (hh : ∀ f ∈ fs, 0xFF ∉ f.bytes.take 10) :
    (∃ t, ID3v2_read_tag_from_buffer (ofB (unsyncTagBytes minor flags fs padding))
        ((unsyncTagBytes minor flags fs padding).length : Nat) = .ok (some t) ∧ t.frames = toFrameList fs) ↔
      unsync (fs.flatMap SFrame.bytes ++ List.replicate padding 0) = fs.flatMap SFrame.bytes ++ List.replicate padding 0 ∨
      unsync (fs.flatMap SFrame.bytes ++ List.replicate padding 0) =
        fs.flatMap SFrame.bytes ++ List.replicate padding 0 ++ [0] := by
  have hlen : (fs.flatMap SFrame.bytes).length = framesSize fs := flatMap_bytes_length fs
  constructor
  · rintro ⟨t, ht, hf⟩
    have hle := unsync_length_le (fs.flatMap SFrame.bytes ++ List.replicate padding 0)
    rw [List.length_append, List.length_replicate, hlen] at hle
    have h10 : ∀ v m f n, (tagHeaderBytes v m f n).length = 10 := fun _ _ _ _ => rfl
    have hL : (unsyncTagBytes minor flags fs padding).length ≤ 2147483647 := by
      unfold unsyncTagBytes
      simp only [List.length_append, h10]
      omega
    rw [C67_buffer _ _ (Nat.le_refl _) hL, List.take_length] at ht
    obtain ⟨version, minor', flags', size, rest, ext, start, gs, stop, hv, hz, hb, he, hi, rfl⟩ := ht
    unfold unsyncTagBytes at hb hi
    dsimp only at hb hi
    rw [ofB_append] at hb
    obtain ⟨h1, rfl⟩ := List.append_inj hb (by rw [ofB_length, ofB_length, h10]; simp [hz])
    have h1 := ofB_injective h1
    unfold tagHeaderBytes at h1
    simp only [List.cons_append, List.nil_append, List.cons.injEq, true_and] at h1
    obtain ⟨rfl, rfl, rfl, rfl⟩ := h1
    rw [if_neg (by rw [hflag]; decide)] at he
    obtain ⟨-, rfl⟩ := he
    rw [ofB_append, List.drop_left' (by rw [ofB_length, h10])] at hi
    have hg : gs = fs.map SFrame.toFrame := nodes_inj (by rw [nodes_toFrame]; exact hf)
    subst hg
    have := items_same _ fs 10 stop (fun f hf => ⟨(hR f hf).1.1, (hR f hf).1.2.1⟩) hh hi
    rw [unsync_zeros] at this
    rcases this with e | e
    · exact .inl e
    · refine .inr ?_
      rw [e, ← List.replicate_succ, List.replicate_succ', List.append_assoc]
  · rintro (e | e)
    · have := unsync_partial minor flags fs padding [] hflag hR (by omega) hlast e
      rw [List.append_nil] at this
      exact ⟨_, this, rfl⟩
    · have e2 : unsyncTagBytes minor flags fs padding = tagBytes minor (flags ||| unsyncFlag) fs (padding + 1) := by
        unfold unsyncTagBytes tagBytes
        dsimp only
        rw [e, List.replicate_succ', List.length_append, List.length_append, List.length_replicate, hlen]
        simp [Nat.add_assoc]
      have hl : (tagBytes minor (flags ||| unsyncFlag) fs (padding + 1)).length = 10 + framesSize fs + (padding + 1) := by
        unfold tagBytes
        simp only [List.length_append, flatMap_bytes_length, List.length_replicate]; rfl
      have := read_tag_bytes_partial minor (flags ||| unsyncFlag) fs (padding + 1) [] hflag hR (by omega) (.inl (by omega))
      rw [e2, hl, ← List.append_nil (ofB _)]
      exact ⟨_, this, rfl⟩

/-- A title that ends with 0xFF is read right, also without padding. -/
example : let fs := [SFrame.text [0x54, 0x49, 0x54, 0x32] [0, 0] (.latin [0x48, 0xFF])]
    (∀ f ∈ fs, @SFrame.Readable strict f) ∧ (∀ f ∈ fs, 0xFF ∉ f.bytes.take 10) ∧
    unsync (fs.flatMap SFrame.bytes ++ List.replicate 0 0) = fs.flatMap SFrame.bytes ++ List.replicate 0 0 ++ [0] := by
  decide

/-- If another frame follows, it is lost. -/
example : let fs := [SFrame.text [0x54, 0x49, 0x54, 0x32] [0, 0] (.latin [0x48, 0xFF]),
      .text [0x54, 0x50, 0x45, 0x31] [0, 0] (.latin [0x48])]
    (∀ f ∈ fs, @SFrame.Readable strict f) ∧ (∀ f ∈ fs, 0xFF ∉ f.bytes.take 10) ∧
    ¬ ∃ t, @ID3v2_read_tag_from_buffer strict (ofB (unsyncTagBytes 0 0 fs 5)) ((unsyncTagBytes 0 0 fs 5).length : Nat) =
      .ok (some t) ∧ t.frames = toFrameList fs := by
  intro fs
  have h1 : ∀ f ∈ fs, @SFrame.Readable strict f := by decide
  have h2 : ∀ f ∈ fs, 0xFF ∉ f.bytes.take 10 := by decide
  refine ⟨h1, h2, ?_⟩
  rw [@unsync_exact strict 0 0 fs 5 (by decide) h1 (by decide) (.inl (by decide)) h2]
  decide

end Props
end Id3
