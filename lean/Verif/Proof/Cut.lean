import Verif.Spec.Cut
import Verif.Proof.AnyTag
import Verif.Proof.Defect

/-!
# Parsing bytes of which the end is missing
-/

namespace Id3

open Spec

/-- Known bytes at the start of bytes that are cut off. -/
theorem cut_prefix {x y : List UInt8} {m k : Nat} {more : Bytes} (h : ofB x ++ more = ofB (y.take m) ++ List.replicate k none) :
    x.length ≤ m ∧ x.length ≤ y.length ∧ ∃ z, y = x ++ z := by
  induction x generalizing y m with
  | nil => exact ⟨by simp, by simp, y, rfl⟩
  | cons b x ih =>
    cases m with
    | zero => cases k <;> simp [ofB, List.replicate_succ] at h
    | succ m =>
      cases y with
      | nil => cases k <;> simp [ofB, List.replicate_succ] at h
      | cons c y =>
        simp only [List.take_succ_cons, ofB, List.map_cons, List.cons_append, List.cons.injEq, Option.some.injEq] at h
        obtain ⟨rfl, h⟩ := h
        obtain ⟨h1, h2, z, rfl⟩ := ih h
        exact ⟨by simp; omega, by simp, z, rfl⟩

theorem cut_drop {x y : List UInt8} {m k : Nat} {more : Bytes} (h : ofB x ++ more = ofB ((x ++ y).take m) ++ List.replicate k none)
    (hm : x.length ≤ m) : more = ofB (y.take (m - x.length)) ++ List.replicate k none := by
  rw [List.take_append, List.take_of_length_le hm, ofB_append, List.append_assoc] at h
  exact List.append_cancel_left h

/-- A terminated string is found in one way only. -/
theorem str_prefix_length {s s' : Str} {a b : List UInt8} (hs : s.WF) (hs' : s'.WF) (hl : s.bytes.length ≤ 2147483647)
    (hl' : s'.bytes.length ≤ 2147483647) (h : s.bytes ++ a = s'.bytes ++ b) : s.bytes = s'.bytes ∧ a = b := by
  have e1 := @strlent_usable lenient s ⟨hs, hl, .inl rfl⟩ (ofB a)
  have e2 := @strlent_usable lenient s' ⟨hs', hl', .inl rfl⟩ (ofB b)
  rw [← ofB_append] at e1 e2
  rw [h, e2] at e1
  have : s'.bytes.length = s.bytes.length := by have := Res.ok.inj e1; omega
  exact List.append_inj h this.symm

/-- The bytes of a frame of which the first `m` are there. -/
abbrev cutBytes (x : List UInt8) (m k : Nat) : Bytes := ofB (x.take m) ++ List.replicate k none

theorem cut_tail (x : List UInt8) (m k : Nat) : Tail (cutBytes x m k) := ⟨_, _, rfl⟩

theorem append_four {a b c d : List UInt8} (h : a ++ b = c ++ d) (hl : a.length = c.length) : a = c ∧ b = d :=
  List.append_inj h hl

/-- Where the bytes of a frame are cut off too early, no frame is found. -/
theorem item_cut_none [Platform] {version : UInt8} {enc : Wire → List UInt8} {w : Wire} {m k : Nat} (hw : w.Coded version enc)
    (hm : m < (encBytes enc w).length) (hl : (encBytes enc w).length ≤ 2147483647) (h : w.readCut m = none) {f : Frame}
    {r' : Bytes} (hi : Item version (cutBytes (encBytes enc w) m k) f r') : False := by
  obtain ⟨hwf, hu, hz, hsz⟩ := hw
  rw [decSize_frameSize _ _ hz] at hsz
  generalize hr : cutBytes (encBytes enc w) m k = r at hi
  have kind : ∀ (id sz fl : List UInt8) (c : UInt8) (rest : Bytes), id.length = 4 → id.head? = some c →
      r = ofB (id ++ sz ++ fl) ++ rest → w.id.length = 4 → w.id.head? = some c := by
    intro id sz fl c rest h4 hc e h4'
    have e2 : ofB id ++ (ofB sz ++ (ofB fl ++ rest)) = cutBytes (encBytes enc w) m k := by rw [hr, e]; simp
    obtain ⟨-, -, z, hz⟩ := cut_prefix e2
    unfold encBytes Wire.bytesWith at hz
    rw [List.append_assoc, List.append_assoc] at hz
    rw [(append_four hz (by omega)).1]; exact hc
  cases hi with
  | text id szb flags e s more n hid hz' hf hn hst hs hfit hcmp =>
    have hk := kind id szb flags 0x54 _ hid.1 hid.2 rfl
    cases w with
    | text id0 flags0 e0 s0 junk =>
      obtain ⟨w1, w2, w3, w4⟩ := hwf
      have e2 : ofB (id ++ szb ++ flags ++ [e] ++ s.bytes) ++ more =
          cutBytes (encBytes enc (.text id0 flags0 e0 s0 junk)) m k := by rw [hr]; simp
      obtain ⟨c1, c2, z, hzz⟩ := cut_prefix e2
      have hzz' : id0 ++ (enc (.text id0 flags0 e0 s0 junk) ++ (flags0 ++ ([e0] ++ (s0.bytes ++ junk)))) =
          id ++ (szb ++ (flags ++ ([e] ++ (s.bytes ++ z)))) := by
        simpa [encBytes, Wire.bytesWith, Wire.id, Wire.flags, Wire.body] using hzz
      obtain ⟨rfl, a1⟩ := append_four hzz' (by rw [w1, hid.1])
      obtain ⟨rfl, a2⟩ := append_four a1 (by rw [hz, hz'])
      obtain ⟨rfl, a3⟩ := append_four a2 (by rw [w3, hf])
      obtain ⟨-, a4⟩ := append_four a3 rfl
      have hb := c2
      simp only [List.length_append] at c1 c2
      obtain ⟨hsb, -⟩ := str_prefix_length w4 hs hu.2.2.2.1 (by omega) a4
      simp only [Wire.sizeField, Wire.body] at hsz
      rw [hn] at hsz
      simp only [List.length_cons, List.length_append, List.cons_append] at hsz
      simp only [Wire.readCut, hsb] at h
      rw [if_pos ⟨by simp only [List.length_cons, List.length_nil] at c1; omega, by rw [hsb] at hsz; omega⟩] at h
      cases h
    | comment => exact absurd ((hk hwf.1).symm.trans hwf.2.1) (by decide)
    | apic => exact absurd ((hk hwf.1).symm.trans hwf.2.1) (by decide)
    | other => exact hwf.2.1 (hk hwf.1)
  | comment id szb flags e lang desc txt more hid hz' hf hlang hd ht hst =>
    have hk := kind id szb flags 0x43 _ hid.1 hid.2 rfl
    cases w with
    | text => exact absurd ((hk hwf.1).symm.trans hwf.2.1) (by decide)
    | comment id0 flags0 sz0 e0 lang0 desc0 txt0 =>
      obtain ⟨w1, w2, w3, w4, w5, w6⟩ := hwf
      have e2 : ofB (id ++ szb ++ flags ++ [e] ++ lang ++ desc.bytes ++ txt.bytes) ++ r' =
          cutBytes (encBytes enc (.comment id0 flags0 sz0 e0 lang0 desc0 txt0)) m k := by rw [hr]; simp
      obtain ⟨c1, c2, z, hzz⟩ := cut_prefix e2
      have hzz' : id0 ++ (enc (.comment id0 flags0 sz0 e0 lang0 desc0 txt0) ++
          (flags0 ++ ([e0] ++ (lang0 ++ (desc0.bytes ++ (txt0.bytes ++ [])))))) =
          id ++ (szb ++ (flags ++ ([e] ++ (lang ++ (desc.bytes ++ (txt.bytes ++ z)))))) := by
        simpa [encBytes, Wire.bytesWith, Wire.id, Wire.flags, Wire.body] using hzz
      obtain ⟨rfl, a1⟩ := append_four hzz' (by rw [w1, hid.1])
      obtain ⟨rfl, a2⟩ := append_four a1 (by rw [hz, hz'])
      obtain ⟨rfl, a3⟩ := append_four a2 (by rw [w3, hf])
      obtain ⟨-, a4⟩ := append_four a3 rfl
      obtain ⟨rfl, a5⟩ := append_four a4 (by rw [w4, hlang])
      obtain ⟨b1, a6⟩ := str_prefix_length w5 hd.1 hu.2.2.1.2.1 hd.2.1 a5
      obtain ⟨b2, -⟩ := str_prefix_length w6 ht.1 hu.2.2.2.2.1 ht.2.1 a6
      simp [encBytes, Wire.bytesWith, Wire.id, Wire.flags, Wire.body, b1, b2] at hm
      simp at c1
      omega
    | apic => exact absurd ((hk hwf.1).symm.trans hwf.2.1) (by decide)
    | other => exact hwf.2.2.1 (hk hwf.1)
  | apic id szb flags e mime pt desc more n hid hz' hf hm' hd hst hn hn' =>
    have hk := kind id szb flags 0x41 _ hid.1 hid.2 rfl
    cases w with
    | text => exact absurd ((hk hwf.1).symm.trans hwf.2.1) (by decide)
    | comment => exact absurd ((hk hwf.1).symm.trans hwf.2.1) (by decide)
    | apic id0 flags0 e0 mime0 pt0 desc0 pic =>
      obtain ⟨w1, w2, w3, w4, w5⟩ := hwf
      have e2 : ofB (id ++ szb ++ flags ++ [e] ++ mime.bytes ++ [pt] ++ desc.bytes) ++ more =
          cutBytes (encBytes enc (.apic id0 flags0 e0 mime0 pt0 desc0 pic)) m k := by rw [hr]; simp
      obtain ⟨c1, c2, z, hzz⟩ := cut_prefix e2
      have hzz' : id0 ++ (enc (.apic id0 flags0 e0 mime0 pt0 desc0 pic) ++
          (flags0 ++ ([e0] ++ (mime0.bytes ++ ([pt0] ++ (desc0.bytes ++ pic)))))) =
          id ++ (szb ++ (flags ++ ([e] ++ (mime.bytes ++ ([pt] ++ (desc.bytes ++ z)))))) := by
        simpa [encBytes, Wire.bytesWith, Wire.id, Wire.flags, Wire.body] using hzz
      obtain ⟨rfl, a1⟩ := append_four hzz' (by rw [w1, hid.1])
      obtain ⟨rfl, a2⟩ := append_four a1 (by rw [hz, hz'])
      obtain ⟨rfl, a3⟩ := append_four a2 (by rw [w3, hf])
      obtain ⟨-, a4⟩ := append_four a3 rfl
      obtain ⟨b1, a5⟩ := str_prefix_length w4 hm'.1 hu.2.2.1.2.1 hm'.2.1 a4
      obtain ⟨-, a6⟩ := append_four a5 rfl
      obtain ⟨b2, -⟩ := str_prefix_length w5 hd.1 hu.2.2.2.2.1 hd.2.1 a6
      simp only [Wire.sizeField, Wire.body] at hsz
      rw [hn] at hsz
      simp only [List.length_cons, List.length_append, List.cons_append, b1, b2] at hsz
      simp only [List.length_append, List.length_cons, List.length_nil] at c1
      simp only [Wire.readCut, b1, b2] at h
      rw [if_pos ⟨by omega, hst.1, hst.2, by omega⟩] at h
      cases h
    | other => exact hwf.2.2.2.1 (hk hwf.1)
  | other id szb more hid hz' hT hC hA h0 =>
    have e2 : ofB (id ++ szb) ++ more = cutBytes (encBytes enc w) m k := by rw [hr]
    obtain ⟨c1, c2, z, hzz⟩ := cut_prefix e2
    have hid' : w.id.length = 4 → w.id = id := by
      intro h4
      unfold encBytes Wire.bytesWith at hzz
      rw [List.append_assoc, List.append_assoc, List.append_assoc] at hzz
      exact (append_four hzz (by omega)).1
    cases w with
    | text => exact hT (hid' hwf.1 ▸ hwf.2.1)
    | comment => exact hC (hid' hwf.1 ▸ hwf.2.1)
    | apic => exact hA (hid' hwf.1 ▸ hwf.2.1)
    | other =>
      simp only [Wire.readCut] at h
      rw [if_pos (by simp only [List.length_append] at c1; omega)] at h
      cases h

theorem cut_split (p q : List UInt8) (m k : Nat) (h : p.length ≤ m) :
    cutBytes (p ++ q) m k = ofB p ++ cutBytes q (m - p.length) k := by
  unfold cutBytes
  rw [List.take_append, List.take_of_length_le h, ofB_append, List.append_assoc]

theorem cut_drop_all (q : List UInt8) (m k n : Nat) (h : m ≤ n) :
    (cutBytes q m k).drop n = List.replicate (k - (n - (q.take m).length)) none := by
  unfold cutBytes
  rw [List.drop_append, List.drop_of_length_le (by simp; omega), List.nil_append, List.drop_replicate, ofB_length]

theorem padTo_cut (q : List UInt8) (m k n : Nat) (h : (q.take m).length ≤ n) (hk : n ≤ (q.take m).length + k) :
    padTo n (cutBytes q m k) = padTo n (ofB (q.take m)) := by
  unfold padTo cutBytes
  rw [List.take_append, List.take_of_length_le (by simpa using h), List.take_replicate]
  simp only [List.length_append, ofB_length, List.length_replicate, List.append_assoc]
  rw [List.replicate_append_replicate]
  congr 2
  omega

/-- What is made of a frame whose last bytes are missing. -/
theorem item_cut_some [Platform] {version : UInt8} {enc : Wire → List UInt8} {w : Wire} {m k : Nat} (hw : w.Coded version enc)
    (hm : m < (encBytes enc w).length) (hk : (encBytes enc w).length ≤ m + k) {f : Frame} (h : w.readCut m = some f) :
    Item version (cutBytes (encBytes enc w) m k) f (List.replicate (m + k - (encBytes enc w).length) none) := by
  have hlen := encBytes_length version enc w hw
  obtain ⟨hwf, hu, hz, hsz⟩ := hw
  rw [decSize_frameSize _ _ hz] at hsz
  cases w with
  | text id flags e s junk =>
    simp only [Wire.readCut] at h
    split at h
    · next hc =>
      cases h
      obtain ⟨w1, w2, w3, w4⟩ := hwf
      generalize hszb : enc (.text id flags e s junk) = szb at *
      have e1 : cutBytes (encBytes enc (.text id flags e s junk)) m k =
          ofB (id ++ szb ++ flags) ++ some e :: (ofB s.bytes ++ cutBytes junk (m - (11 + s.bytes.length)) k) := by
        have : encBytes enc (.text id flags e s junk) = (id ++ szb ++ flags ++ [e] ++ s.bytes) ++ junk := by
          simp [encBytes, Wire.bytesWith, Wire.id, Wire.flags, Wire.body, hszb]
        have hl : (id ++ szb ++ flags ++ [e] ++ s.bytes).length = 11 + s.bytes.length := by
          simp [w1, hz, w3]; omega
        rw [this, cut_split _ _ _ _ (by omega), hl]
        simp
      simp only [Wire.body, List.length_cons, List.length_append, List.cons_append, Wire.sizeField] at hlen hsz
      have hit := Item.text (version := version) id szb flags e s (cutBytes junk (m - (11 + s.bytes.length)) k)
        (s.bytes.length + junk.length) ⟨w1, w2⟩ hz w3 (by rw [hsz]; omega) hc.2 w4 (by omega)
        (by rcases hu.2.2.2.2 with h | h
            · exact .inl h
            · exact .inr (.inl h))
      rw [← e1] at hit
      have e3 : (ofB s.bytes ++ cutBytes junk (m - (11 + s.bytes.length)) k).drop (s.bytes.length + junk.length) =
          List.replicate (m + k - (encBytes enc (.text id flags e s junk)).length) none := by
        rw [List.drop_append, List.drop_of_length_le (by simp), List.nil_append, ofB_length, Nat.add_sub_cancel_left,
          cut_drop_all _ _ _ _ (by omega), List.length_take]
        congr 1
        omega
      rw [e3] at hit
      exact hit
    · cases h
  | comment => cases h
  | apic id flags e mime pt desc pic =>
    simp only [Wire.readCut] at h
    split at h
    · next hc =>
      cases h
      obtain ⟨w1, w2, w3, w4, w5⟩ := hwf
      generalize hszb : enc (.apic id flags e mime pt desc pic) = szb at *
      have e1 : cutBytes (encBytes enc (.apic id flags e mime pt desc pic)) m k =
          ofB (id ++ szb ++ flags) ++ some e :: (ofB mime.bytes ++ (some pt :: (ofB desc.bytes ++
            cutBytes pic (m - (12 + mime.bytes.length + desc.bytes.length)) k))) := by
        have : encBytes enc (.apic id flags e mime pt desc pic) =
            (id ++ szb ++ flags ++ [e] ++ mime.bytes ++ [pt] ++ desc.bytes) ++ pic := by
          simp [encBytes, Wire.bytesWith, Wire.id, Wire.flags, Wire.body, hszb]
        have hl : (id ++ szb ++ flags ++ [e] ++ mime.bytes ++ [pt] ++ desc.bytes).length =
            12 + mime.bytes.length + desc.bytes.length := by
          simp [w1, hz, w3]; omega
        rw [this, cut_split _ _ _ _ (by omega), hl]
        simp
      simp only [Wire.body, List.length_cons, List.length_append, List.cons_append, Wire.sizeField] at hlen hsz
      have hit := Item.apic (version := version) id szb flags e mime pt desc
        (cutBytes pic (m - (12 + mime.bytes.length + desc.bytes.length)) k) pic.length ⟨w1, w2⟩ hz w3 hu.2.2.1 hu.2.2.2
        ⟨hc.2.1, hc.2.2.1⟩ (by rw [hsz]; omega) ⟨by omega, hc.2.2.2⟩
      rw [← e1] at hit
      have e3 : (cutBytes pic (m - (12 + mime.bytes.length + desc.bytes.length)) k).drop pic.length =
          List.replicate (m + k - (encBytes enc (.apic id flags e mime pt desc pic)).length) none := by
        rw [cut_drop_all _ _ _ _ (by omega), List.length_take]
        congr 1
        omega
      rw [e3, padTo_cut _ _ _ _ (by rw [List.length_take]; omega) (by rw [List.length_take]; omega), hsz] at hit
      have e4 : ((mime.bytes.length + (desc.bytes.length + 1) + pic.length + 1 : Nat) : Int) =
          ((SFrame.apic flags mime pt desc pic).body.length : Nat) := by simp [SFrame.body]; omega
      simp only [SFrame.toFrame, SFrame.id, SFrame.flags]
      rw [← e4]
      exact hit
    · cases h
  | other id flags data =>
    simp only [Wire.readCut] at h
    split at h
    · next hc =>
      cases h
      obtain ⟨w1, w2, w3, w4, w5, w6⟩ := hwf
      generalize hszb : enc (.other id flags data) = szb at *
      have e1 : cutBytes (encBytes enc (.other id flags data)) m k =
          ofB (id ++ szb) ++ cutBytes (flags ++ data) (m - 8) k := by
        have : encBytes enc (.other id flags data) = (id ++ szb) ++ (flags ++ data) := by
          simp [encBytes, Wire.bytesWith, Wire.id, Wire.flags, Wire.body, hszb]
        have hl : (id ++ szb).length = 8 := by simp [w1, hz]
        rw [this, cut_split _ _ _ _ (by omega), hl]
      simp only [Wire.body, Wire.sizeField] at hlen hsz
      have hit := Item.other (version := version) id szb (cutBytes (flags ++ data) (m - 8) k) w1 hz w2 w3 w4 w5
      rw [← e1, hsz, Int.toNat_natCast] at hit
      have e2 : padTo 2 (cutBytes (flags ++ data) (m - 8) k) = padTo 2 (ofB (flags.take (m - 8))) ∧
          padTo data.length ((cutBytes (flags ++ data) (m - 8) k).drop 2) = padTo data.length (ofB (data.take (m - 10))) ∧
          ((cutBytes (flags ++ data) (m - 8) k).drop 2).drop data.length =
            List.replicate (m + k - (encBytes enc (.other id flags data)).length) none := by
        by_cases h10 : 10 ≤ m
        · rw [cut_split _ _ _ _ (by omega), w6, show m - 8 - 2 = m - 10 from by omega, List.take_of_length_le (by omega)]
          have hd : (ofB flags ++ cutBytes data (m - 10) k).drop 2 = cutBytes data (m - 10) k :=
            List.drop_left' (by simp [w6])
          rw [hd]
          refine ⟨?_, padTo_cut _ _ _ _ (by rw [List.length_take]; omega) (by rw [List.length_take]; omega), ?_⟩
          · unfold padTo
            rw [List.take_append_of_le_length (by simp [w6])]
            simp [w6]
          · rw [cut_drop_all _ _ _ _ (by omega), List.length_take]
            congr 1
            omega
        · have ht : (flags ++ data).take (m - 8) = flags.take (m - 8) := by
            rw [List.take_append_of_le_length (by omega)]
          have hl : (flags.take (m - 8)).length = m - 8 := by rw [List.length_take]; omega
          have hd : (cutBytes (flags ++ data) (m - 8) k).drop 2 = List.replicate (k - (10 - m)) none := by
            rw [cut_drop_all _ _ _ _ (by omega), ht, hl]
            congr 1
            omega
          rw [hd]
          refine ⟨?_, ?_, ?_⟩
          · rw [padTo_cut _ _ _ _ (by rw [ht, hl]; omega) (by rw [ht, hl]; omega), ht]
          · rw [show m - 10 = 0 from by omega]
            unfold padTo
            simp only [List.take_zero, ofB, List.map_nil, List.take_nil, List.nil_append, List.length_nil,
              List.take_replicate, List.length_replicate, List.replicate_append_replicate]
            congr 1
            omega
          · rw [List.drop_replicate]
            congr 1
            omega
      rw [e2.1, e2.2.1, e2.2.2] at hit
      exact hit
    · cases h

/-! ## The loop -/

/-- Complete frames, and then anything. -/
theorem loop_init [Platform] (version : UInt8) (enc : Wire → List UInt8) (ws : List Wire) (pre post : Bytes) (tagSize : Nat)
    (acc : FrameList) (fuel : Nat) (hR : ∀ w ∈ ws, w.Coded version enc)
    (hlen : pre.length + (ws.flatMap (encBytes enc)).length ≤ 2147483647)
    (hpos : ∀ a w b, ws = a ++ w :: b → pre.length + (a.flatMap (encBytes enc)).length < tagSize) :
    Tag_parse_loop (fuel + ws.length) (csAt pre (ofB (ws.flatMap (encBytes enc)) ++ post)) tagSize version acc =
      match ws.findSome? Wire.defect with
      | some k => .ub k
      | none => Tag_parse_loop fuel (csAt (pre ++ ofB (ws.flatMap (encBytes enc))) post) tagSize version
          ((ws.map (fun w => w.kept.toFrame)).foldl FrameList_add_frame acc) := by
  induction ws generalizing pre acc with
  | nil => simp
  | cons w ws ih =>
    simp only [List.flatMap_cons, ofB_append, List.length_append, List.append_assoc, List.length_cons] at *
    rw [← Nat.add_assoc]
    conv => lhs; unfold Tag_parse_loop
    have hc : u32 (csAt pre (ofB (encBytes enc w) ++ (ofB (ws.flatMap (encBytes enc)) ++ post))).cursor = pre.length :=
      u32_cursor (by omega)
    have h0 := hpos [] w ws rfl
    simp only [List.flatMap_nil, List.length_nil, Nat.add_zero] at h0
    rw [hc, if_pos h0]
    cases hd : w.defect with
    | some k =>
      rw [frame_parse_defect version enc w _ _ (hR w (by simp)) (by omega) k hd]
      simp only [List.findSome?_cons, hd]
      rfl
    | none =>
      rw [frame_parse_coded version enc w _ _ (hR w (by simp)) hd (by omega)]
      simp only [Res.bind_ok, List.findSome?_cons, hd]
      rw [ih (pre := pre ++ ofB (encBytes enc w)) _ (fun x hx => hR x (by simp [hx]))
        (by simp only [List.length_append, ofB_length]; omega)]
      · simp
      · intro a x b hx
        have := hpos (w :: a) x b (by rw [hx]; rfl)
        simp at this ⊢; omega

/-- The parser looks for a frame where there are not even four bytes that are not zero, and not four zero bytes. -/
theorem loop_nothing [Platform] {version : UInt8} {size : Nat} (fuel : Nat) {pre : Bytes} {x : List UInt8} {k : Nat}
    {l : FrameList} (ht : Tail (pre ++ cutBytes x x.length k)) (hx : x.length < 4)
    (h10 : 10 ≤ pre.length) (hb : pre.length + (x.length + k) ≤ 2147483647) (hs : pre.length < size)
    (r : FrameList × CharStream) : Tag_parse_loop fuel (csAt pre (cutBytes x x.length k)) size version l ≠ .ok r := by
  intro e
  have hlen : (cutBytes x x.length k).length = x.length + k := by simp [cutBytes]
  obtain ⟨fs, c', hi, -⟩ := loop_inv fuel (l' := r.1) (cs' := r.2) ht (by omega) (by omega) e
  generalize hr : cutBytes x x.length k = y at hi
  cases hi with
  | stop _ _ h => omega
  | padding _ r h =>
    have := (cut_prefix (x := [0, 0, 0, 0]) hr.symm).1
    simp at this; omega
  | frame _ _ f r' fs _ h hi hs =>
    have key : ∀ (id szb : List UInt8) (more : Bytes), id.length = 4 → y = ofB (id ++ szb) ++ more → False := by
      intro id szb more h4 e
      have := (cut_prefix (x := id ++ szb) (more := more) (by rw [← e, ← hr])).1
      simp [h4] at this; omega
    cases hi with
    | text id szb flags e s more n hid => exact key id szb (ofB flags ++ some e :: (ofB s.bytes ++ more)) hid.1 (by simp)
    | comment id szb flags e lang desc txt more hid =>
      exact key id szb (ofB flags ++ some e :: (ofB lang ++ (ofB desc.bytes ++ (ofB txt.bytes ++ r')))) hid.1 (by simp)
    | apic id szb flags e mime pt desc more n hid =>
      exact key id szb (ofB flags ++ some e :: (ofB mime.bytes ++ (some pt :: (ofB desc.bytes ++ more)))) hid.1 (by simp)
    | other id szb more hid => exact key id szb _ hid rfl

theorem tail_known (pre x : List UInt8) (m k : Nat) : Tail (ofB pre ++ cutBytes x m k) :=
  ⟨pre ++ x.take m, k, by simp⟩

theorem wire_id_ne [Platform] {w : Wire} (h : w.WF) : w.id.length = 4 ∧ w.id ≠ [0, 0, 0, 0] := by
  cases w with
  | text => exact ⟨h.1, ne_zeros_of_head h.2.1 (by decide)⟩
  | comment => exact ⟨h.1, ne_zeros_of_head h.2.1 (by decide)⟩
  | apic => exact ⟨h.1, ne_zeros_of_head h.2.1 (by decide)⟩
  | other => exact ⟨h.1, h.2.2.2.2.1⟩

/-- A frame whose last bytes are missing: either the behaviour is undefined … -/
theorem loop_cut_none [Platform] {version : UInt8} {enc : Wire → List UInt8} {w : Wire} {m k size fuel : Nat}
    {pre : List UInt8} {l : FrameList} (hw : w.Coded version enc) (hm : m < (encBytes enc w).length)
    (h10 : 10 ≤ pre.length) (hb : pre.length + (m + k) ≤ 2147483647) (hbw : (encBytes enc w).length ≤ 2147483647)
    (hs : pre.length < size) (h : w.readCut m = none) (r : FrameList × CharStream) :
    Tag_parse_loop fuel (csAt (ofB pre) (cutBytes (encBytes enc w) m k)) size version l ≠ .ok r := by
  intro e
  have hlen : (cutBytes (encBytes enc w) m k).length = m + k := by simp [cutBytes]; omega
  obtain ⟨fs, c', hi, -⟩ := loop_inv fuel (l' := r.1) (cs' := r.2) (tail_known _ _ _ _) (by simp; omega)
    (by rw [hlen]; simpa using hb) e
  generalize hr : cutBytes (encBytes enc w) m k = y at hi
  cases hi with
  | stop _ _ h => simp at h; omega
  | padding _ r h =>
    obtain ⟨-, -, z, hz⟩ := cut_prefix (x := [0, 0, 0, 0]) hr.symm
    have := wire_id_ne hw.1
    unfold encBytes Wire.bytesWith at hz
    rw [List.append_assoc, List.append_assoc] at hz
    exact this.2 (append_four hz (by simp [this.1])).1
  | frame _ _ f r' fs _ h' hi hs =>
    subst hr
    exact item_cut_none hw hm hbw h hi

/-- … or the parser goes on after it. -/
theorem loop_cut_some [Platform] {version : UInt8} {enc : Wire → List UInt8} {w : Wire} {m k size fuel : Nat}
    {pre : List UInt8} {l : FrameList} (hw : w.Coded version enc) (hm : m < (encBytes enc w).length)
    (hk : (encBytes enc w).length ≤ m + k) (hb : pre.length + (m + k) ≤ 2147483647)
    (hs : pre.length < size) {f : Frame} (h : w.readCut m = some f) :
    ∃ p : Bytes, p.length = pre.length + (encBytes enc w).length ∧ Tail (p ++ List.replicate (m + k - (encBytes enc w).length) none) ∧
      Tag_parse_loop (fuel + 1) (csAt (ofB pre) (cutBytes (encBytes enc w) m k)) size version l =
        Tag_parse_loop fuel (csAt p (List.replicate (m + k - (encBytes enc w).length) none)) size version
          (FrameList_add_frame l f) := by
  have hlen : (cutBytes (encBytes enc w) m k).length = m + k := by simp [cutBytes]; omega
  have hit := item_cut_some hw hm hk h
  have hf := frame_parse_fwd (pre := ofB pre) hit (by rw [hlen]; simpa using hb)
  rw [List.length_replicate, hlen, show m + k - (m + k - (encBytes enc w).length) = (encBytes enc w).length from by omega] at hf
  refine ⟨ofB pre ++ List.take (encBytes enc w).length (cutBytes (encBytes enc w) m k), ?_, ?_, ?_⟩
  rotate_left 2
  · conv => lhs; unfold Tag_parse_loop
    have hc : u32 (csAt (ofB pre) (cutBytes (encBytes enc w) m k)).cursor = (ofB pre).length := u32_cursor (by simp; omega)
    rw [hc, ofB_length, if_pos hs, hf]
    rfl
  · rw [List.length_append, List.length_take, hlen]; simp; omega
  · have hsuf := item_suffix hit
    rw [List.length_replicate, hlen, show m + k - (m + k - (encBytes enc w).length) = (encBytes enc w).length from by omega] at hsuf
    rw [← hsuf, List.append_assoc, List.take_append_drop]
    exact tail_known _ _ _ _

/-- After a frame whose last bytes are missing no other frame is found. -/
theorem loop_cut [Platform] {version : UInt8} {enc : Wire → List UInt8} {w : Wire} {m k size fuel : Nat}
    {pre : List UInt8} {l : FrameList} (hw : w.Coded version enc) (hm : m < (encBytes enc w).length)
    (hk : (encBytes enc w).length ≤ m + k) (h10 : 10 ≤ pre.length) (hb : pre.length + (m + k) ≤ 2147483647)
    (hs : pre.length + (encBytes enc w).length < size) (r : FrameList × CharStream) :
    Tag_parse_loop fuel (csAt (ofB pre) (cutBytes (encBytes enc w) m k)) size version l ≠ .ok r := by
  cases h : w.readCut m with
  | none => exact loop_cut_none hw hm h10 hb (by omega) (by omega) h r
  | some f =>
    cases fuel with
    | zero => intro e; cases e
    | succ fuel =>
      obtain ⟨p, hp, ht, e⟩ := loop_cut_some (fuel := fuel) (l := l) (pre := pre) (size := size) hw hm hk hb (by omega) h
      rw [e]
      have := loop_nothing (version := version) (size := size) fuel (pre := p) (x := []) (k := m + k - (encBytes enc w).length)
        (l := FrameList_add_frame l f) (by simpa [cutBytes] using ht) (by simp) (by omega) (by simp; omega) (by omega) r
      simpa [cutBytes] using this

/-! ## The tag -/

/-- The frame in which the bytes end. -/
theorem flat_cut (enc : Wire → List UInt8) (ws : List Wire) (tail : List UInt8) (m : Nat)
    (h : m < (ws.flatMap (encBytes enc)).length) :
    ∃ a w b, ws = a ++ w :: b ∧ (a.flatMap (encBytes enc)).length ≤ m ∧
      m - (a.flatMap (encBytes enc)).length < (encBytes enc w).length ∧
      ∀ k, cutBytes (ws.flatMap (encBytes enc) ++ tail) m k = ofB (a.flatMap (encBytes enc)) ++
        cutBytes (encBytes enc w) (m - (a.flatMap (encBytes enc)).length) k := by
  induction ws generalizing m with
  | nil => simp at h
  | cons w ws ih =>
    by_cases hm : m < (encBytes enc w).length
    · refine ⟨[], w, ws, rfl, by simp, by simpa using hm, fun k => ?_⟩
      unfold cutBytes
      rw [List.flatMap_cons, List.append_assoc, List.take_append_of_le_length (by omega)]
      simp
    · rw [List.flatMap_cons, List.length_append] at h
      obtain ⟨a, x, b, rfl, h1, h2, h3⟩ := ih (m - (encBytes enc w).length) (by omega)
      refine ⟨w :: a, x, b, rfl, by rw [List.flatMap_cons, List.length_append]; omega,
        by rw [List.flatMap_cons, List.length_append]; omega, fun k => ?_⟩
      rw [List.flatMap_cons, List.append_assoc, cut_split _ _ _ _ (by omega), h3, List.flatMap_cons, ofB_append,
        List.append_assoc, List.length_append, Nat.sub_sub]

/-- The parser looks for all frames but one at the very end. -/
theorem seen_pos [Platform] {version : UInt8} {enc : Wire → List UInt8} {ws : List Wire} {padding : Nat}
    (hR : ∀ w ∈ ws, w.Coded version enc) (a : List Wire) (w : Wire) (b : List Wire)
    (hw : seenFrames ws padding = a ++ w :: b) :
    10 + (a.flatMap (encBytes enc)).length < (ws.flatMap (encBytes enc)).length + padding := by
  have hsl := seen_lost ws padding
  have hlen : (ws.flatMap (encBytes enc)).length =
      ((seenFrames ws padding).flatMap (encBytes enc)).length +
        ((lostFrames ws padding).flatMap (encBytes enc)).length := by
    conv => lhs; rw [hsl, List.flatMap_append, List.length_append]
  have hR' : ∀ w ∈ seenFrames ws padding, w.Coded version enc := fun w hw => hR w (by rw [hsl]; simp [hw])
  have h10 : ∀ l : List Wire, (∀ w ∈ l, w.Coded version enc) → 10 * l.length ≤ (l.flatMap (encBytes enc)).length := by
    intro l hl
    induction l with
    | nil => simp
    | cons w l ih =>
      have h1 := encBytes_length version enc w (hl w (by simp))
      have h2 := ih (fun x hx => hl x (by simp [hx]))
      simp only [List.flatMap_cons, List.length_append, List.length_cons]
      omega
  have hl : ((seenFrames ws padding).flatMap (encBytes enc)).length =
      (a.flatMap (encBytes enc)).length + (encBytes enc w).length + (b.flatMap (encBytes enc)).length := by
    rw [hw]; simp; omega
  have hw1 := encBytes_length version enc w (hR' w (by rw [hw]; simp))
  have hb := h10 b (fun x hx => hR' x (by rw [hw]; simp [hx]))
  by_cases hp : 0 < padding
  · omega
  · by_cases hl0 : lostFrames ws padding = []
    · rw [hl0, List.append_nil] at hsl
      cases b with
      | cons x xs => simp only [List.length_cons] at hb; omega
      | nil =>
        have hlast : ws.getLast? = some w := by rw [hsl, hw]; simp
        have hbody : w.body ≠ [] := by
          intro hbd
          unfold lostFrames at hl0
          rw [hlast] at hl0
          simp [hbd] at hl0
          omega
        have := List.length_pos_iff.mpr hbody
        omega
    · have : 1 ≤ (lostFrames ws padding).length := List.length_pos_iff.mpr hl0
      have h2 := h10 (lostFrames ws padding) (fun x hx => hR x (by rw [hsl]; simp [hx]))
      omega

/-- Parsing a tag without an extended header: the frames are looked for right after the tag header. -/
theorem tag_parse_start [Platform] (version minor flags : UInt8) (size : Nat) (post : Bytes)
    (hv : version = 3 ∨ version = 4) (hflag : flags &&& 0x40 = 0) (hs : size < 2 ^ 28) :
    Tag_parse (csAt [] (ofB (tagHeaderBytes version minor flags size) ++ post)) =
      (do
        let (frames, cs) ← Tag_parse_loop (11 + post.length) (csAt (ofB (tagHeaderBytes version minor flags size)) post) size version
          FrameList_new
        return some { toTag version minor flags size [] 0 with frames := frames, padding_size := ← ck (cs.size - cs.cursor) }) := by
  unfold Tag_parse
  rw [tag_header_parse _ _ _ _ _ hv hflag hs]
  simp only [Res.bind_ok, ID3v2_Tag_new]
  rw [if_neg (by simp)]
  have hl : (csAt (ofB (tagHeaderBytes version minor flags size)) post).stream.length + 1 = 11 + post.length := by
    simp [csAt, tagHeaderBytes, synchsafe]; omega
  rw [hl]
  rfl

end Id3
