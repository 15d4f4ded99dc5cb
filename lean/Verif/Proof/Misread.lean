import Verif.Spec.Misread
import Verif.Proof.V24All
import Verif.Proof.AnyTag

/-!
# Reading large version 2.4 frames
-/

namespace Id3

open Spec

/-- A frame at the front that is known to be read. -/
theorem items_known [Platform] {version : UInt8} {size : Nat} {pre x post : Bytes} {g : Frame}
    (ht : Tail (pre ++ (x ++ post))) (h10 : 10 ≤ pre.length + (x ++ post).length)
    (hb : pre.length + (x ++ post).length ≤ 2147483647) (hlt : pre.length < size)
    (hp : Frame_parse (csAt pre (x ++ post)) version = .ok (some g, csAt (pre ++ x) post)) (fs : List Frame) (stop : Nat) :
    Items version size pre.length (x ++ post) fs stop ↔
      ∃ gs, fs = g :: gs ∧ Items version size (pre ++ x).length post gs stop := by
  have same : ∀ r' : Bytes, Item version (x ++ post) g r' →
      csAt (pre ++ x) post = csAt (pre ++ (x ++ post).take ((x ++ post).length - r'.length)) r' → r' = post := by
    intro r' hi e
    have h1 := congrArg CharStream.cursor e
    have h2 := item_suffix hi
    simp only [csAt, List.length_append, List.length_take] at h1
    have hl := item_length hi
    rw [List.length_append] at hl h2
    rw [show x.length + post.length - r'.length = x.length from by omega, List.drop_left] at h2
    exact h2.symm
  constructor
  · intro h
    generalize hr : x ++ post = r at h
    generalize hc : pre.length = c at h
    cases h with
    | stop _ _ h => omega
    | padding _ r h =>
      rw [hr, frame_parse_zero _ _ _ (by rw [hr, List.length_append, ofB_length] at hb; simp at hb; omega)] at hp
      cases hp
    | frame _ _ f r' fs _ h hi hs =>
      rw [hr, frame_parse_fwd hi (by rw [← hr]; exact hb)] at hp
      injection hp with hp
      injection hp with h1 h2
      injection h1 with h1
      subst h1 hr
      have := same r' hi h2.symm
      subst this
      refine ⟨fs, rfl, ?_⟩
      rw [List.length_append, Nat.add_sub_cancel] at hs
      rw [List.length_append, hc]
      exact hs
  · rintro ⟨gs, rfl, h⟩
    obtain ⟨r', hi, e⟩ := frame_parse_inv ht h10 hb hp
    have := same r' hi e
    subst this
    refine .frame _ _ _ _ _ _ hlt hi ?_
    rw [List.length_append, Nat.add_sub_cancel]
    rw [List.length_append] at h
    exact h

/-- A frame at the front that is known not to be read. -/
theorem items_undefined [Platform] {version : UInt8} {size : Nat} {pre r : Bytes} {k : UB}
    (hb : pre.length + r.length ≤ 2147483647) (hlt : pre.length < size)
    (hp : Frame_parse (csAt pre r) version = .ub k) (fs : List Frame) (stop : Nat) :
    ¬ Items version size pre.length r fs stop := by
  intro h
  generalize hc : pre.length = c at h
  cases h with
  | stop _ _ h => omega
  | padding _ r h =>
    rw [frame_parse_zero _ _ _ (by rw [List.length_append, ofB_length] at hb; simp at hb; omega)] at hp
    cases hp
  | frame _ _ f r' fs _ h hi hs =>
    rw [frame_parse_fwd hi hb] at hp
    cases hp

theorem decSize_misread (n : Nat) : decSize 4 (be32 n) = (misreadSize n : Int) := by
  rw [decSize_frameSize 4 (be32 n) rfl]
  rfl

/-- The size that is read is smaller, but not small. -/
theorem misreadSize_lt (n : Nat) (h : 256 ≤ n) (h' : n < 2 ^ 32) : 128 ≤ misreadSize n ∧ misreadSize n < n := by
  obtain ⟨m, hm, h1, h2⟩ := decSize_be32_large n h h'
  rw [decSize_misread, Int.ofNat_inj] at hm
  omega

/-- What happens at a large frame. -/
theorem parse_misread [Platform] (f : SFrame) (pre post : Bytes) (hu : f.Usable) (hbig : f.Big)
    (hb : pre.length + f.bytes.length ≤ 2147483647) :
    (∃ g left x, Misread f g left ∧ f.bytes = x ++ left ∧ x.length = g.bytes.length ∧
      Frame_parse (csAt pre (ofB f.bytes ++ post)) 4 = .ok (some g.toFrame, csAt (pre ++ ofB x) (ofB left ++ post))) ∨
    ((∀ g left, ¬ Misread f g left) ∧ ∃ k, Frame_parse (csAt pre (ofB f.bytes ++ post)) 4 = .ub k) := by
  obtain ⟨hc, hbig'⟩ := hbig
  have hlen := hu.2.1
  have hbl := SFrame.bytes_length _ hu.1
  rw [hbl] at hlen hb
  have hm := decSize_misread f.body.length
  obtain ⟨hm1, hm2⟩ := misreadSize_lt f.body.length hbig' (by omega)
  generalize hM : misreadSize f.body.length = m at *
  have hwf := ofSFrame_WF f hu.1
  have key : ∀ (w : Wire) (tl : List UInt8), w.WF → w.kept.Usable → w.sizeField = m → w.body.length ≤ m →
      f.bytes = w.bytesWith (be32 f.body.length) ++ tl →
      (w.bytesWith (be32 f.body.length)).length = w.kept.bytes.length →
      (∀ k, w.defect = some k → Frame_parse (csAt pre (ofB f.bytes ++ post)) 4 = .ub k) ∧
      (w.defect = none → Frame_parse (csAt pre (ofB f.bytes ++ post)) 4 =
        .ok (some w.kept.toFrame, csAt (pre ++ ofB (w.bytesWith (be32 f.body.length))) (ofB tl ++ post))) := by
    intro w tl hw hku hsf hbl' hbytes hkl
    have hcd : w.Coded 4 (fun _ => be32 f.body.length) := ⟨hw, hku, rfl, by rw [hm, hsf]⟩
    have hl := encBytes_length 4 (fun _ => be32 f.body.length) w hcd
    have e : ofB f.bytes ++ post = ofB (encBytes (fun _ => be32 f.body.length) w) ++ (ofB tl ++ post) := by
      rw [hbytes]; simp [encBytes]
    rw [e]
    constructor
    · intro k hd
      exact frame_parse_defect 4 _ w _ _ hcd (by omega) k hd
    · intro hd
      exact frame_parse_coded 4 _ w _ _ hcd hd (by omega)
  cases f with
  | comment a b c d => exact absurd rfl (hc a b c d)
  | text id fl s =>
    right
    refine ⟨fun g left h => (nomatch h), ?_⟩
    obtain ⟨hi, hT, hf, hs⟩ := hu.1
    have hbody : (SFrame.text id fl s).body = s.encoding :: s.bytes := rfl
    have ebytes : (SFrame.text id fl s).bytes = id ++ be32 (SFrame.text id fl s).body.length ++ fl ++ s.encoding :: s.bytes :=
      rfl
    rw [hbody] at hlen hm2 hbig'
    simp only [List.length_cons] at hlen hm2 hbig'
    rw [hbody, List.length_cons] at hb
    by_cases hst : m - 1 ≤ Platform.stack
    · rw [ebytes, parse_text_cut 4 id fl s.encoding s pre post _ m hi hT hf hs rfl hm (by omega) (by omega) hst (by omega)]
      exact ⟨_, rfl⟩
    · have e1 : ofB (SFrame.text id fl s).bytes ++ post =
          ofB (id ++ be32 (SFrame.text id fl s).body.length ++ fl ++ [s.encoding]) ++ (ofB s.bytes ++ post) := by
        rw [ebytes]; simp
      rw [e1, parse_text_over 4 id fl s.encoding pre _ _ m hi hT hf rfl hm (by omega) (by omega) (by omega)]
      exact ⟨_, rfl⟩
  | apic fl mime pt desc pic =>
    obtain ⟨hf, hmw, hdw⟩ := hu.1
    have hbody : (SFrame.apic fl mime pt desc pic).body = desc.encoding :: mime.bytes ++ pt :: desc.bytes ++ pic := by
      simp [SFrame.body]
    have hbl : (SFrame.apic fl mime pt desc pic).body.length = 2 + mime.bytes.length + desc.bytes.length + pic.length := by
      rw [hbody]; simp; omega
    by_cases hL : m ≤ 2 + mime.bytes.length + desc.bytes.length
    · right
      refine ⟨fun g left h => ?_, ?_⟩
      · cases h with
        | apic _ _ _ _ _ k _ hk _ hk' => rw [hM] at hk; omega
      have e1 : ofB (SFrame.apic fl mime pt desc pic).bytes ++ post =
          ofB (apicId ++ be32 (SFrame.apic fl mime pt desc pic).body.length ++ fl ++
            (desc.encoding :: mime.bytes ++ pt :: desc.bytes)) ++ (ofB pic ++ post) := by
        simp [SFrame.bytes, SFrame.id, SFrame.flags, SFrame.body]
      rw [e1]
      rcases parse_apic_cut 4 apicId fl desc.encoding mime pt desc pre (ofB pic ++ post) rfl rfl hf hu.2.2.1 hu.2.2.2 _ m rfl
        hm hL (by omega) with h' | h' <;> exact ⟨_, h'⟩
    · obtain ⟨k, hk⟩ : ∃ k, m = 2 + mime.bytes.length + desc.bytes.length + k := ⟨m - (2 + mime.bytes.length + desc.bytes.length), by omega⟩
      have hkl : (pic.take k).length = k := by rw [List.length_take]; omega
      have hub : (SFrame.apic fl mime pt desc (pic.take k)).Usable := by
        refine ⟨hu.1, ?_, hu.2.2⟩
        rw [SFrame.bytes_length _ (by exact hu.1)]
        simp only [SFrame.body, List.length_append, List.length_cons, hkl]
        omega
      obtain ⟨k1, k2⟩ := key (.apic apicId fl desc.encoding mime pt desc (pic.take k)) (pic.drop k) hwf hub
        (by simp only [Wire.sizeField, Wire.body, List.length_append, List.length_cons, hkl]; omega)
        (by simp only [Wire.body, List.length_append, List.length_cons, hkl]; omega)
        (by simp [SFrame.bytes, SFrame.id, SFrame.flags, SFrame.body, Wire.bytesWith, Wire.id, Wire.flags, Wire.body])
        (by
          rw [Wire.kept, SFrame.bytes_length _ (by exact hu.1)]
          simp [SFrame.body, Wire.bytesWith, Wire.id, Wire.flags, Wire.body, apicId, be32, hf]
          omega)
      cases hd : Wire.defect (.apic apicId fl desc.encoding mime pt desc (pic.take k)) with
      | some d =>
        right
        refine ⟨fun g left h => ?_, d, k1 d hd⟩
        cases h with
        | apic _ _ _ _ _ k' _ hk2 hst hk' =>
          have : k' = k := by rw [hM] at hk2; omega
          subst this
          simp only [Wire.defect] at hd
          rw [if_neg (by omega), if_neg (by intro e; rw [e] at hkl; simp at hkl; omega), if_neg (by omega)] at hd
          cases hd
      | none =>
        left
        have hst : (mime.bytes.length ≤ Platform.stack ∧ desc.bytes.length ≤ Platform.stack) ∧ k ≤ Platform.stack := by
          simp only [Wire.defect] at hd
          split at hd
          · cases hd
          · split at hd
            · cases hd
            · split at hd
              · cases hd
              · omega
        refine ⟨_, _, _, .apic fl mime pt desc pic k ⟨hc, hbig'⟩ (by rw [hM]; omega) hst.1 ⟨by omega, hst.2⟩, ?_, ?_, k2 hd⟩
        · simp [SFrame.bytes, SFrame.id, SFrame.flags, SFrame.body, Wire.bytesWith, Wire.id, Wire.flags, Wire.body]
        · rw [SFrame.bytes_length _ (by exact hu.1)]
          simp [SFrame.body, Wire.bytesWith, Wire.id, Wire.flags, Wire.body, apicId, be32, hf]
          omega
  | other id fl data =>
    left
    have hbl : (SFrame.other id fl data).body.length = data.length := rfl
    have hk : (data.take m).length = m := by rw [List.length_take]; omega
    have hub : (SFrame.other id fl (data.take m)).Usable := by
      refine ⟨hu.1, ?_, trivial⟩
      rw [SFrame.bytes_length _ (by exact hu.1)]
      simp only [SFrame.body, hk]; omega
    have hlx : ((Wire.other id fl (data.take m)).bytesWith (be32 (SFrame.other id fl data).body.length)).length =
        (SFrame.other id fl (data.take m)).bytes.length := by
      rw [SFrame.bytes_length _ (by exact hu.1)]
      simp [SFrame.body, Wire.bytesWith, Wire.id, Wire.flags, Wire.body, be32, hu.1.1, hu.1.2.2]
      omega
    obtain ⟨-, k2⟩ := key (.other id fl (data.take m)) (data.drop m) hwf hub
      (by simp only [Wire.sizeField, Wire.body, hk]) (by simp only [Wire.body, hk]; omega)
      (by simp [SFrame.bytes, SFrame.id, SFrame.flags, SFrame.body, Wire.bytesWith, Wire.id, Wire.flags, Wire.body]) hlx
    have hM' : misreadSize data.length = m := hM
    have hmis := Misread.other id fl data ⟨hc, hbig'⟩
    rw [hM'] at hmis
    refine ⟨_, _, _, hmis, ?_, hlx, k2 rfl⟩
    simp [SFrame.bytes, SFrame.id, SFrame.flags, SFrame.body, Wire.bytesWith, Wire.id, Wire.flags, Wire.body]

/-- At most one frame is read instead of a large one. -/
theorem misread_unique [Platform] {f g g' : SFrame} {l l' : List UInt8} (h : Misread f g l) (h' : Misread f g' l') :
    g = g' ∧ l = l' := by
  cases h with
  | apic fl mime pt desc pic k _ hk =>
    cases h' with
    | apic _ _ _ _ _ k' _ hk' =>
      have : k = k' := by omega
      subst this
      exact ⟨rfl, rfl⟩
  | other => cases h'; exact ⟨rfl, rfl⟩

end Id3
