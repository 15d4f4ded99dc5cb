import Verif.Model.Tests
import Verif.Spec.Effects
import Verif.Proof.NewFrames
import Verif.Props.Injective

/-!
# What the assertions of the tests establish
-/

namespace Id3

open Spec Props

@[simp] theorem c_assert_true : c_assert true = .ok () := rfl
@[simp] theorem c_assert_false : c_assert false = .exit := rfl

theorem c_assert_beq {α : Type} [BEq α] [LawfulBEq α] [DecidableEq α] (a b : α) :
    c_assert (a == b) = if a = b then .ok () else .exit := by
  by_cases h : a = b
  · rw [if_pos h, h, beq_self_eq_true]; rfl
  · rw [if_neg h, beq_false_of_ne h]; rfl

theorem exit_then {α : Type} (P : Prop) [Decidable P] (f : Unit → Res α) :
    ((if P then .ok () else .exit : Res Unit) >>= f) = if P then f () else .exit := by
  split <;> rfl

theorem has_bom_eq [Platform] (s : Bytes) : has_bom s = string_has_bom s := by
  unfold has_bom string_has_bom
  cases memcmpEq s [0xFF, 0xFE] with
  | ok b =>
    cases b
    · simp only [Res.bind_ok]
      cases memcmpEq s [0xFE, 0xFF] with
      | ok b => cases b <;> rfl
      | _ => rfl
    · rfl
  | _ => rfl

theorem not_none_ofB (x : List UInt8) : none ∉ ofB x := by simp [ofB]

theorem ofB_beq (x y : List UInt8) : (ofB x == ofB y) = (x == y) := by
  by_cases h : x = y
  · subst h; simp
  · have : ofB x ≠ ofB y := fun e => h (ofB_injective e)
    rw [beq_false_of_ne this, beq_false_of_ne h]

/-- Comparing two objects of known bytes. -/
theorem memcmpBufs_eq (x y : List UInt8) (r r' : Bytes) (n : Int) (hx : n = x.length) (hy : n = y.length) :
    memcmpBufs (ofB x ++ r) (ofB y ++ r') n = .ok (x == y) := by
  have e1 : (ofB x ++ r).take n.toNat = ofB x := by
    rw [hx, Int.toNat_natCast, List.take_left' (by simp)]
  have e2 : (ofB y ++ r').take n.toNat = ofB y := by
    rw [hy, Int.toNat_natCast, List.take_left' (by simp)]
  unfold memcmpBufs
  rw [if_neg (by omega), if_neg (by simp only [List.length_append, ofB_length]; omega), e1, e2,
    if_neg (by simp [ofB]), ofB_beq]

theorem memcmpBufs_eq' (x y : List UInt8) (r' : Bytes) (n : Int) (hx : n = x.length) (hy : n = y.length) :
    memcmpBufs (ofB x) (ofB y ++ r') n = .ok (x == y) := by
  have := memcmpBufs_eq x y [] r' n hx hy
  rwa [List.append_nil] at this

/-- Comparing a prefix of an object. -/
theorem memcmpBufs_ok (x y : List UInt8) (r' : Bytes) (n : Int) (hy : n = y.length)
    (h : memcmpBufs (ofB x) (ofB y ++ r') n = .ok true) : ∃ z, x = y ++ z := by
  unfold memcmpBufs at h
  rw [if_neg (by omega)] at h
  split at h
  · simp at h
  next hl =>
  split at h
  · simp at h
  simp only [Res.ok.injEq, beq_iff_eq] at h
  have e2 : (ofB y ++ r').take n.toNat = ofB y := by
    rw [hy, Int.toNat_natCast, List.take_left' (by simp)]
  rw [e2, show n.toNat = y.length by omega] at h
  refine ⟨x.drop y.length, ?_⟩
  have h' : x.take y.length = y := by
    apply ofB_injective
    rw [← h]
    simp [ofB, List.map_take]
  conv => lhs; rw [← List.take_append_drop y.length x, h']

theorem header_assert (g : SFrame) (hg : g.WF) (k fl : List UInt8) (r1 r2 : Bytes) (n : Int) (hk : k.length = 4)
    (hf : fl.length = 2) :
    assert_frame_header (some g.toFrame) (ofB k ++ r1) n (ofB fl ++ r2) =
      if g.id = k ∧ (g.body.length : Int) = n ∧ g.flags = fl then .ok () else .exit := by
  unfold assert_frame_header
  have e1 : g.toFrame.header.id = ofB g.id := rfl
  have e2 : g.toFrame.header.size = g.body.length := rfl
  have e3 : g.toFrame.header.flags = ofB g.flags := rfl
  dsimp only
  rw [e1, e2, e3, memcmpBufs_eq' _ _ _ _ (by rw [sframe_id_length g hg]; rfl) (by rw [hk]; rfl),
    memcmpBufs_eq' _ _ _ _ (by rw [sframe_flags_length g hg]; rfl) (by rw [hf]; rfl)]
  simp only [Res.bind_ok]
  simp only [c_assert_beq, exit_then]
  by_cases h1 : g.id = k <;> by_cases h2 : (g.body.length : Int) = n <;> by_cases h3 : g.flags = fl <;> simp [h1, h2, h3]

/-- The encoding and the size of a string, as the assertions compute them. -/
theorem term_size (s : Str) : ((s.content.length : Int) + if s.encoding = 0 then 1 else 2) = ((s.bytes.length : Nat) : Int) := by
  rw [Str.bytes_length]
  rcases Str.encoding_cases s with h | h <;> rw [h.1, h.2] <;> simp

theorem term_size' (s : Str) :
    ((s.content.length : Int) + if decide (s.encoding = 1) = true then 2 else 1) = ((s.bytes.length : Nat) : Int) := by
  rw [Str.bytes_length]
  rcases Str.encoding_cases s with h | h <;> simp [h.1, h.2]

theorem str_bytes_inj {s s' : Str} (h : s.WF) (h' : s'.WF) (e : s.bytes = s'.bytes) : s = s' :=
  (str_inj s s' [] [] h h' (by rw [e])).1

/-- The assertion holds exactly for the text frame with the id, the flags and the text. -/
theorem assert_text_exact [Platform] (g : SFrame) (hg : g.WF) (k fl : List UInt8) (s : Str) (r1 r2 r3 : Bytes)
    (h : (SFrame.text k fl s).Usable) :
    assert_text_frame (some g.toFrame) (textInput k fl s r1 r2 r3) = if g = .text k fl s then .ok () else .exit := by
  obtain ⟨hwf, hsz, hu⟩ := h
  obtain ⟨hi, h0, hf, hs⟩ := _root_.id hwf
  have hb : (SFrame.text k fl s).body.length = 1 + s.bytes.length := by simp [SFrame.body]; omega
  have hlen : 10 + (1 + s.bytes.length) ≤ 2147483647 := by
    rw [SFrame.bytes_length _ hwf, hb] at hsz; exact hsz
  unfold assert_text_frame textInput Str.inMemory
  dsimp only
  rw [has_bom_eq, has_bom_usable hu, strlen_usable hu]
  simp only [Res.bind_ok, Str.encoding_ite, term_size]
  rw [ck_ok (by omega) (by omega)]
  simp only [Res.bind_ok]
  rw [ck_ok (by omega) (by omega)]
  simp only [Res.bind_ok]
  rw [header_assert g hg k fl r1 r2 _ hi hf]
  by_cases hc : g.id = k ∧ (g.body.length : Int) = s.bytes.length + 1 ∧ g.flags = fl
  · rw [if_pos hc]
    obtain ⟨c1, c2, c3⟩ := hc
    simp only [Res.bind_ok]
    cases g with
    | text k' fl' s' =>
      simp only [SFrame.id, SFrame.flags] at c1 c3
      subst c1; subst c3
      have hl : s'.bytes.length = s.bytes.length := by simp [SFrame.body] at c2; omega
      simp only [SFrame.toFrame]
      rw [memcmpBufs_eq' _ _ _ _ rfl (by rw [hl])]
      simp only [Res.bind_ok]
      simp only [c_assert_beq, exit_then]
      by_cases e : s' = s
      · subst e; simp
      · have e1 : s'.bytes ≠ s.bytes := fun e' => e (str_bytes_inj hg.2.2.2 hs e')
        simp [e, e1]
    | comment a b c d => simp only [SFrame.id] at c1; rw [← c1] at h0; simp [commId] at h0
    | apic a b c d e => simp only [SFrame.id] at c1; rw [← c1] at h0; simp [apicId] at h0
    | other a b c => simp only [SFrame.id] at c1; rw [← c1] at h0; exact absurd h0 hg.2.1
  · rw [if_neg hc]
    have : g ≠ .text k fl s := by
      rintro rfl
      exact hc ⟨rfl, by rw [hb]; omega, rfl⟩
    rw [if_neg this]
    rfl

/-- The assertion holds exactly for the comment with the flags, the language, the description and the text. -/
theorem assert_comment_exact [Platform] (g : SFrame) (hg : g.WF) (fl lang : List UInt8) (desc txt : Str)
    (r1 r2 r3 r4 : Bytes) (h : (SFrame.comment fl lang desc txt).Usable) :
    assert_comment_frame (some g.toFrame) (commentInput fl lang desc txt r1 r2 r3 r4) =
      if g = .comment fl lang desc txt then .ok () else .exit := by
  obtain ⟨hwf, hsz, hu⟩ := h
  obtain ⟨hf, hl, hd, ht⟩ := _root_.id hwf
  have hb : (SFrame.comment fl lang desc txt).body.length = txt.bytes.length + desc.bytes.length + 1 + 3 := by
    simp [SFrame.body, hl]; omega
  have hlen : 10 + (txt.bytes.length + desc.bytes.length + 1 + 3) ≤ 2147483647 := by
    rw [SFrame.bytes_length _ hwf, hb] at hsz; exact hsz
  unfold assert_comment_frame commentInput Str.inMemory
  dsimp only
  rw [has_bom_eq, has_bom_usable hu.2, has_bom_eq, has_bom_usable hu.1, strlen_usable hu.1, strlen_usable hu.2]
  simp only [Res.bind_ok, Str.encoding_ite, term_size, term_size']
  rw [ck_ok (by omega) (by omega)]
  simp only [Res.bind_ok]
  rw [ck_ok (by omega) (by omega)]
  simp only [Res.bind_ok]
  rw [ck_ok (by omega) (by omega)]
  simp only [Res.bind_ok]
  have hh := header_assert g hg commId fl (ofB [0]) r1 (↑txt.bytes.length + ↑desc.bytes.length + 1 + 3) rfl hf
  rw [show ofB commId ++ ofB [0] = COMMENT_ID from rfl] at hh
  rw [hh]
  by_cases hc : g.id = commId ∧ (g.body.length : Int) = ↑txt.bytes.length + ↑desc.bytes.length + 1 + 3 ∧ g.flags = fl
  · rw [if_pos hc]
    obtain ⟨c1, c2, c3⟩ := hc
    simp only [Res.bind_ok]
    cases g with
    | comment fl' lang' desc' txt' =>
      simp only [SFrame.flags] at c3
      subst c3
      have hl' : lang'.length = 3 := hg.2.1
      have hsum : txt'.bytes.length + desc'.bytes.length = txt.bytes.length + desc.bytes.length := by
        simp [SFrame.body, hl'] at c2; omega
      simp only [SFrame.toFrame]
      simp only [c_assert_beq, exit_then]
      by_cases e0 : (txt'.bytes.length : Int) = txt.bytes.length
      · rw [if_pos e0, memcmpBufs_eq' lang' lang _ _ (by rw [hl']; rfl) (by rw [hl]; rfl),
          memcmpBufs_eq' desc'.bytes desc.bytes _ _ (by omega) rfl,
          memcmpBufs_eq' txt'.bytes txt.bytes _ _ rfl e0]
        simp only [Res.bind_ok, c_assert_beq, exit_then]
        by_cases e1 : lang' = lang
        · by_cases e2 : desc' = desc
          · by_cases e3 : txt' = txt
            · subst e1; subst e2; subst e3; simp
            · have : txt'.bytes ≠ txt.bytes := fun e' => e3 (str_bytes_inj hg.2.2.2 ht e')
              simp [this, e3]
          · have : desc'.bytes ≠ desc.bytes := fun e' => e2 (str_bytes_inj hg.2.2.1 hd e')
            simp [this, e2]
        · simp [e1]
      · rw [if_neg e0, if_neg]
        intro e
        injection e with _ _ _ e4
        exact e0 (by rw [e4])
    | text a b c => simp only [SFrame.id] at c1; have := hg.2.1; rw [c1] at this; simp [commId] at this
    | apic a b c d e => simp [SFrame.id, commId, apicId] at c1
    | other a b c => simp only [SFrame.id] at c1; have := hg.2.2.1; rw [c1] at this; simp [commId] at this
  · rw [if_neg hc]
    have : g ≠ .comment fl lang desc txt := by
      rintro rfl
      exact hc ⟨rfl, by rw [hb]; omega, rfl⟩
    rw [if_neg this]
    rfl

/-- The assertion holds exactly for the picture with the flags, the MIME type, the description and the data, whatever its
type. -/
theorem assert_apic_exact [Platform] (g : SFrame) (hg : g.WF) (fl : List UInt8) (mime : Str) (pt : UInt8) (desc : Str)
    (pic : List UInt8) (r1 r2 r3 r4 : Bytes) (h : (SFrame.apic fl mime pt desc pic).Usable) :
    assert_apic_frame (some g.toFrame) (apicInput fl mime pt desc pic r1 r2 r3 r4) = .ok () ↔
      ∃ pt', g = .apic fl mime pt' desc pic := by
  obtain ⟨hwf, hsz, hu⟩ := h
  obtain ⟨hf, hm, hd⟩ := _root_.id hwf
  have hb : ∀ pt, (SFrame.apic fl mime pt desc pic).body.length =
      1 + mime.bytes.length + 1 + desc.bytes.length + pic.length := by
    intro pt; simp [SFrame.body]; omega
  have hlen : 10 + (1 + mime.bytes.length + 1 + desc.bytes.length + pic.length) ≤ 2147483647 := by
    rw [SFrame.bytes_length _ hwf, hb] at hsz; exact hsz
  unfold assert_apic_frame apicInput Str.inMemory
  dsimp only
  rw [has_bom_eq, has_bom_usable hu.2, strlent_usable hu.1, strlent_usable hu.2]
  simp only [Res.bind_ok, Str.encoding_ite]
  rw [ck_ok (by omega) (by omega)]
  simp only [Res.bind_ok]
  have hh := header_assert g hg apicId fl (ofB [0]) r1
    (1 + ↑mime.bytes.length + 1 + ↑desc.bytes.length + ↑pic.length) rfl hf
  rw [show ofB apicId ++ ofB [0] = ALBUM_COVER_ID from rfl] at hh
  rw [hh]
  by_cases hc : g.id = apicId ∧
      (g.body.length : Int) = 1 + ↑mime.bytes.length + 1 + ↑desc.bytes.length + ↑pic.length ∧ g.flags = fl
  · rw [if_pos hc]
    obtain ⟨c1, c2, c3⟩ := hc
    simp only [Res.bind_ok]
    cases g with
    | apic fl' mime' pt' desc' pic' =>
      simp only [SFrame.flags] at c3
      subst c3
      have hsum : mime'.bytes.length + desc'.bytes.length + pic'.length =
          mime.bytes.length + desc.bytes.length + pic.length := by
        simp [SFrame.body] at c2; omega
      simp only [SFrame.toFrame]
      simp only [c_assert_beq, exit_then]
      constructor
      · intro h
        split at h
        next h1 =>
          split at h
          next h2 =>
            have h2' : pic'.length = pic.length := by omega
            rw [memcmpBufs_eq' pic' pic _ _ (by rw [h2']) rfl] at h
            simp only [Res.bind_ok, c_assert_beq, exit_then] at h
            split at h
            next h3 =>
              obtain ⟨b, h4, h5⟩ := Res.bind_eq_ok.1 h
              cases b with
              | false => simp at h5
              | true =>
                obtain ⟨z, hz⟩ := memcmpBufs_ok _ _ _ _ rfl h4
                obtain ⟨e1, -⟩ := str_inj mime' mime [] z hg.2.1 hm (by rw [List.append_nil, hz])
                subst e1; subst h3
                simp only [c_assert_true, Res.bind_ok] at h5
                rw [memcmpBufs_eq' desc'.bytes desc.bytes _ _ (by omega) rfl] at h5
                simp only [Res.bind_ok, c_assert_beq] at h5
                split at h5
                next h6 => rw [str_bytes_inj hg.2.2 hd h6]; exact ⟨_, rfl⟩
                · simp at h5
            · simp at h
          · simp at h
        · simp at h
      · rintro ⟨pt'', e⟩
        injection e with _ e2 e3 e4 e5
        subst e2; subst e4; subst e5
        rw [memcmpBufs_eq' pic' pic' _ _ rfl rfl, memcmpBufs_eq' mime'.bytes mime'.bytes _ _ rfl rfl,
          memcmpBufs_eq' desc'.bytes desc'.bytes _ _ rfl rfl]
        simp
    | text a b c => simp only [SFrame.id] at c1; have := hg.2.1; rw [c1] at this; simp [apicId] at this
    | comment a b c d => simp [SFrame.id, commId, apicId] at c1
    | other a b c => simp only [SFrame.id] at c1; have := hg.2.2.2.1; rw [c1] at this; simp [apicId] at this
  · rw [if_neg hc]
    simp only [Res.bind_exit]
    constructor
    · intro h; simp at h
    · rintro ⟨pt', rfl⟩
      exact absurd ⟨rfl, by rw [hb]; omega, rfl⟩ hc

end Id3
