import Verif.Props.V24
import Verif.Props.AnyCompat
import Verif.Props.Copy
import Verif.Spec.Standard

/-!
# C100: what the library writes, as other programs see it
-/

namespace Id3.Props

open Spec

theorem stdLatin_bytes (closed : Bool) (cs t : List UInt8) (h : 0 ∉ cs) : stdLatin closed (cs ++ 0 :: t) = some (cs, t) := by
  induction cs with
  | nil => simp [stdLatin]
  | cons c cs ih =>
    have h1 : ¬ c = 0 := fun e => h (by simp [e])
    have h2 := ih (fun hm => h (List.mem_cons_of_mem _ hm))
    simp [stdLatin, h1, h2]

theorem stdUnits_bytes (closed : Bool) (us : List (UInt8 × UInt8)) (t : List UInt8) (h : (0, 0) ∉ us) :
    stdUnits closed (us.flatMap (fun u => [u.1, u.2]) ++ 0 :: 0 :: t) = some (us, t) := by
  induction us with
  | nil => simp [stdUnits]
  | cons u us ih =>
    obtain ⟨a, b⟩ := u
    have h1 : ¬ (a = 0 ∧ b = 0) := fun e => h (by simp [e.1, e.2])
    have h2 := ih (fun hm => h (List.mem_cons_of_mem _ hm))
    rw [List.flatMap_cons, List.append_assoc]
    show stdUnits closed (a :: b :: (us.flatMap (fun u => [u.1, u.2]) ++ 0 :: 0 :: t)) = _
    rw [stdUnits, if_neg h1, h2]
    rfl

theorem stdString_bytes (closed : Bool) (s : Str) (t : List UInt8) (h : s.WF) : stdString closed s.encoding (s.bytes ++ t) = some (s, t) := by
  cases s with
  | latin cs =>
    have e : (Str.latin cs).bytes ++ t = cs ++ 0 :: t := by simp [Str.bytes, Str.content, Str.terminator]
    rw [e]
    simp [stdString, Str.encoding, stdLatin_bytes closed cs t h.1]
  | utf16 le us =>
    have h2 := stdUnits_bytes closed us t h
    cases le with
    | true =>
      have e : (Str.utf16 true us).bytes ++ t = 0xFF :: 0xFE :: (us.flatMap (fun u => [u.1, u.2]) ++ 0 :: 0 :: t) := by
        simp [Str.bytes, Str.content, Str.terminator, Str.bom]
      rw [e]
      simp [stdString, Str.encoding, h2]
    | false =>
      have e : (Str.utf16 false us).bytes ++ t = 0xFE :: 0xFF :: (us.flatMap (fun u => [u.1, u.2]) ++ 0 :: 0 :: t) := by
        simp [Str.bytes, Str.content, Str.terminator, Str.bom]
      rw [e]
      simp [stdString, Str.encoding, h2]

theorem stdString_encoding (closed : Bool) (e : UInt8) (bs : List UInt8) (s : Str) (t : List UInt8) (h : stdString closed e bs = some (s, t)) :
    s.encoding = e := by
  unfold stdString at h
  split at h
  · rename_i he
    obtain ⟨r, -, h⟩ := Option.map_eq_some_iff.mp h
    cases h
    exact he.symm
  · split at h
    · rename_i he
      split at h
      · obtain ⟨r, -, h⟩ := Option.map_eq_some_iff.mp h
        cases h
        exact he.symm
      · obtain ⟨r, -, h⟩ := Option.map_eq_some_iff.mp h
        cases h
        exact he.symm
      · cases h
    · cases h

/-- The contents of a frame. -/
theorem stdFrame_iff (closed : Bool) (f : SFrame) (h : f.WF) :
    stdFrame closed f.id f.flags f.body = some f ↔
      match f with
      | .text id _ _ => id ≠ txxxId
      | .comment _ _ desc txt => desc.encoding = txt.encoding
      | .apic _ mime _ _ _ => mime.encoding = 0
      | .other _ _ _ => True := by
  cases f with
  | text id flags s =>
    obtain ⟨h1, h2, h3, h4⟩ := h
    have n1 : id ≠ commId := by rintro rfl; cases h2
    have n2 : id ≠ apicId := by rintro rfl; cases h2
    have h5 := stdString_bytes closed s [] h4
    rw [List.append_nil] at h5
    show stdFrame closed id flags (s.encoding :: s.bytes) = _ ↔ id ≠ txxxId
    unfold stdFrame
    rw [if_neg n1, if_neg n2]
    by_cases hx : id = txxxId
    · simp [hx]
    · simp [h2, hx, h5]
  | comment flags lang desc txt =>
    obtain ⟨h1, h2, h3, h4⟩ := h
    obtain ⟨a, b, c, rfl⟩ : ∃ a b c, lang = [a, b, c] := by
      match lang, h2 with
      | [a, b, c], _ => exact ⟨a, b, c, rfl⟩
    show stdFrame closed commId flags (txt.encoding :: a :: b :: c :: (desc.bytes ++ txt.bytes)) = _ ↔ desc.encoding = txt.encoding
    unfold stdFrame
    rw [if_pos rfl]
    dsimp only
    constructor
    · intro h
      split at h
      · rename_i d t he
        split at h
        · split at h
          · cases h
          · cases h
            exact stdString_encoding _ _ _ _ _ he
        · cases h
      · cases h
    · intro h
      have h5 := stdString_bytes closed desc txt.bytes h3
      have h6 := stdString_bytes closed txt [] h4
      rw [List.append_nil] at h6
      rw [h] at h5
      rw [h5]
      dsimp only
      rw [h6]
      dsimp only
      rw [if_neg (fun h => h.2 rfl)]
  | apic flags mime picType desc pic =>
    obtain ⟨h1, h2, h3⟩ := h
    have e : (SFrame.apic flags mime picType desc pic).body =
        desc.encoding :: (mime.bytes ++ picType :: (desc.bytes ++ pic)) := by simp [SFrame.body]
    rw [e]
    show stdFrame closed apicId flags _ = _ ↔ mime.encoding = 0
    unfold stdFrame
    rw [if_neg (by decide), if_pos rfl]
    dsimp only
    constructor
    · intro h
      split at h
      · rename_i d t he
        obtain ⟨r, -, h⟩ := Option.map_eq_some_iff.mp h
        cases h
        exact stdString_encoding _ _ _ _ _ he
      · cases h
    · intro h
      have h5 := stdString_bytes closed mime (picType :: (desc.bytes ++ pic)) h2
      rw [h] at h5
      rw [h5]
      dsimp only
      rw [stdString_bytes closed desc pic h3]
      rfl
  | other id flags data =>
    obtain ⟨h1, h2, h3, h4, h5, h6⟩ := h
    have n1 : id ≠ commId := by rintro rfl; exact h3 rfl
    have n2 : id ≠ apicId := by rintro rfl; exact h4 rfl
    show stdFrame closed id flags data = _ ↔ True
    unfold stdFrame
    rw [if_neg n1, if_neg n2, if_neg (fun h => h2 h.1)]
    simp

theorem stdPlain_be32 (n : Nat) (h : n < 2 ^ 32) : stdPlain (be32 n) = some n := by
  simp only [be32, stdPlain, UInt8.toNat_ofNat']
  congr 1
  omega

theorem stdSynchsafe_synchsafe (n : Nat) (h : n < 2 ^ 28) : stdSynchsafe (synchsafe n) = some n := by
  simp only [synchsafe, stdSynchsafe, UInt8.lt_iff_toNat_lt, UInt8.toNat_ofNat']
  rw [if_pos ⟨by simp; omega, by simp; omega, by simp; omega, by simp; omega⟩]
  congr 1
  omega

theorem digits (m : Nat) (h : m < 2 ^ 32) :
    ((m / 2 ^ 24 % 2 ^ 8 * 256 + m / 2 ^ 16 % 2 ^ 8) * 256 + m / 2 ^ 8 % 2 ^ 8) * 256 + m % 2 ^ 8 = m := by omega

theorem stdSynchsafe_be32 (m n : Nat) (h : m < 2 ^ 32) (h2 : stdSynchsafe (be32 m) = some n) : m = n ∧ m < 128 ∨ n + 128 ≤ m := by
  have e : (128 : UInt8).toNat = 128 := rfl
  simp only [be32, stdSynchsafe, UInt8.lt_iff_toNat_lt, UInt8.toNat_ofNat', e] at h2
  split at h2
  · rename_i h3
    have h2 := Option.some.inj h2
    have hm : ((m / 2 ^ 24 % 2 ^ 8 * 256 + m / 2 ^ 16 % 2 ^ 8) * 256 + m / 2 ^ 8 % 2 ^ 8) * 256 + m % 2 ^ 8 = m := digits m h
    generalize m / 2 ^ 24 % 2 ^ 8 = a at h2 h3 hm
    generalize m / 2 ^ 16 % 2 ^ 8 = b at h2 h3 hm
    generalize m / 2 ^ 8 % 2 ^ 8 = c at h2 h3 hm
    generalize m % 2 ^ 8 = d at h2 h3 hm
    omega
  · cases h2

theorem stdSize_small (version : UInt8) (n : Nat) (h : n < 2 ^ 32) (hn : version = 4 → n < 128) :
    stdSize version (be32 n) = some n := by
  unfold stdSize
  split
  · rename_i hv
    have h2 := hn hv
    have e : (128 : UInt8).toNat = 128 := rfl
    simp only [be32, stdSynchsafe, UInt8.lt_iff_toNat_lt, UInt8.toNat_ofNat', e]
    rw [if_pos (by omega)]
    congr 1
    omega
  · exact stdPlain_be32 n h

theorem stdSize_be32 (version : UInt8) (m n : Nat) (h : m < 2 ^ 32) (h2 : stdSize version (be32 m) = some n) :
    m = n ∧ (version = 4 → m < 128) ∨ n + 128 ≤ m := by
  unfold stdSize at h2
  split at h2
  · rename_i hv
    rcases stdSynchsafe_be32 m n h h2 with ⟨a, b⟩ | a
    · exact Or.inl ⟨a, fun _ => b⟩
    · exact Or.inr a
  · rename_i hv
    rw [stdPlain_be32 m h] at h2
    exact Or.inl ⟨Option.some.inj h2, fun h => absurd h hv⟩

theorem stdLatin_length (closed : Bool) (bs cs t : List UInt8) (h : stdLatin closed bs = some (cs, t)) :
    cs.length + t.length ≤ bs.length := by
  induction bs generalizing cs t with
  | nil =>
    unfold stdLatin at h
    split at h
    · cases h
    · cases h; simp
  | cons b bs ih =>
    unfold stdLatin at h
    split at h
    · cases h; simp
    · obtain ⟨⟨cs', t'⟩, h1, h2⟩ := Option.map_eq_some_iff.mp h
      cases h2
      have := ih _ _ h1
      simp
      omega

theorem stdUnits_length (closed : Bool) (bs : List UInt8) (us : List (UInt8 × UInt8)) (t : List UInt8) (h : stdUnits closed bs = some (us, t)) :
    2 * us.length + t.length ≤ bs.length := by
  fun_induction stdUnits closed bs generalizing us t with
  | case1 => cases h
  | case2 => cases h; simp
  | case3 => cases h
  | case4 a b t' _ => cases h; simp; omega
  | case5 a b t' _ ih =>
    obtain ⟨⟨us', t''⟩, h1, h2⟩ := Option.map_eq_some_iff.mp h
    cases h2
    have := ih _ _ h1
    simp
    omega

theorem two_each (us : List (UInt8 × UInt8)) : (us.map (fun _ => 2)).sum = 2 * us.length := by
  induction us with
  | nil => rfl
  | cons u us ih => rw [List.map_cons, List.sum_cons, ih, List.length_cons]; omega

/-- A string that ends where the data end is taken as if it had a terminator, of at most two bytes. -/
theorem stdString_length (closed : Bool) (e : UInt8) (bs : List UInt8) (s : Str) (t : List UInt8) (h : stdString closed e bs = some (s, t)) :
    s.bytes.length + t.length ≤ bs.length + 2 := by
  unfold stdString at h
  split at h
  · obtain ⟨⟨cs, t'⟩, h1, h⟩ := Option.map_eq_some_iff.mp h
    cases h
    have := stdLatin_length _ _ _ _ h1
    simp [Str.bytes, Str.content, Str.terminator]
    omega
  · split at h
    · split at h
      · obtain ⟨⟨us, t'⟩, h1, h⟩ := Option.map_eq_some_iff.mp h
        cases h
        have := stdUnits_length _ _ _ _ h1
        have := two_each us
        simp [Str.bytes, Str.content, Str.terminator, Str.bom]
        omega
      · obtain ⟨⟨us, t'⟩, h1, h⟩ := Option.map_eq_some_iff.mp h
        cases h
        have := stdUnits_length _ _ _ _ h1
        have := two_each us
        simp [Str.bytes, Str.content, Str.terminator, Str.bom]
        omega
      · cases h
    · cases h

theorem stdFrame_length (closed : Bool) (id flags body : List UInt8) (f : SFrame) (h : stdFrame closed id flags body = some f) :
    f.body.length ≤ body.length + 4 := by
  unfold stdFrame at h
  split at h
  · split at h
    · split at h
      · rename_i hd
        split at h
        · rename_i h1
          split at h
          · cases h
          · cases h
            have := stdString_length _ _ _ _ _ hd
            have := stdString_length _ _ _ _ _ h1
            simp [SFrame.body]
            omega
        · cases h
      · cases h
    · cases h
  · split at h
    · split at h
      · split at h
        · rename_i hd
          obtain ⟨⟨desc, t'⟩, h1, h⟩ := Option.map_eq_some_iff.mp h
          cases h
          have := stdString_length _ _ _ _ _ hd
          have := stdString_length _ _ _ _ _ h1
          simp [SFrame.body] at *
          omega
        · cases h
      · cases h
    · split at h
      · split at h
        · obtain ⟨⟨txt, t'⟩, h1, h⟩ := Option.map_eq_some_iff.mp h
          cases h
          have := stdString_length _ _ _ _ _ h1
          simp [SFrame.body]
          omega
        · cases h
      · cases h
        simp [SFrame.body]

/-- The frames of a tag and its padding. -/
theorem stdFrames_iff (closed : Bool) (version : UInt8) (fs : List SFrame) (padding : Nat) (h : ∀ f ∈ fs, f.WF)
    (hs : framesSize fs < 2 ^ 32) :
    stdFrames closed version (fs.flatMap SFrame.bytes ++ List.replicate padding 0) = some fs ↔ ∀ f ∈ fs, f.Standard version := by
  induction fs with
  | nil =>
    rw [stdFrames]
    cases padding with
    | zero => simp
    | succ n => simp [List.replicate_succ]
  | cons f fs ih =>
    have hf := h f (List.mem_cons_self ..)
    obtain ⟨h1, h2⟩ := SFrame.wf_lengths f hf
    rw [framesSize_cons, SFrame.bytes_length f hf] at hs
    have ih := ih (fun g hg => h g (List.mem_cons_of_mem _ hg)) (by omega)
    obtain ⟨i, hi⟩ : ∃ i, f.id = i := ⟨_, rfl⟩
    obtain ⟨g, hg⟩ : ∃ g, f.flags = g := ⟨_, rfl⟩
    obtain ⟨b, hb⟩ : ∃ b, f.body = b := ⟨_, rfl⟩
    obtain ⟨t, ht⟩ : ∃ t, fs.flatMap SFrame.bytes ++ List.replicate padding 0 = t := ⟨_, rfl⟩
    have e : (f :: fs).flatMap SFrame.bytes ++ List.replicate padding 0 = i ++ (be32 b.length ++ (g ++ (b ++ t))) := by
      simp [SFrame.bytes, hi, hg, hb, ← ht]
    have hfr := stdFrame_iff closed f hf
    rw [ht] at ih
    rw [hi] at h1 hfr
    rw [hg] at h2 hfr
    rw [hb] at hs hfr
    rw [e]
    have e1 : (i ++ (be32 b.length ++ (g ++ (b ++ t)))).take 4 = i := by
      rw [← h1, List.take_left]
    have e2 : (i ++ (be32 b.length ++ (g ++ (b ++ t)))).drop 4 = be32 b.length ++ (g ++ (b ++ t)) := by
      rw [← h1, List.drop_left]
    have e3 : (be32 b.length ++ (g ++ (b ++ t))).take 4 = be32 b.length := rfl
    have e4 : (i ++ (be32 b.length ++ (g ++ (b ++ t)))).drop 8 = g ++ (b ++ t) := by
      rw [show 8 = 4 + 4 from rfl, ← List.drop_drop, e2]; rfl
    have e5 : (g ++ (b ++ t)).take 2 = g := by rw [← h2, List.take_left]
    have e6 : (i ++ (be32 b.length ++ (g ++ (b ++ t)))).drop 10 = b ++ t := by
      rw [show 10 = 8 + 2 from rfl, ← List.drop_drop, e4, ← h2, List.drop_left]
    have e7 : (i ++ (be32 b.length ++ (g ++ (b ++ t)))).drop (10 + b.length) = t := by
      rw [← List.drop_drop, e6, List.drop_left]
    have hl : (i ++ (be32 b.length ++ (g ++ (b ++ t)))).length = 10 + b.length + t.length := by
      simp [h1, h2, be32]; omega
    have hne : i ++ (be32 b.length ++ (g ++ (b ++ t))) ≠ [] := by
      intro h0
      rw [h0] at hl
      simp at hl
      omega
    have hst : f.Standard version ↔ (∀ c ∈ i, stdLetter c = true) ∧ b ≠ [] ∧ (version = 4 → b.length < 128) ∧
        stdFrame closed i g b = some f := by
      rw [hfr]
      unfold SFrame.Standard
      rw [hi, hb]
      cases f <;> exact Iff.rfl
    simp only [List.mem_cons, forall_eq_or_imp]
    rw [hst, ← ih, stdFrames, dif_neg hne]
    by_cases hz : (i ++ (be32 b.length ++ (g ++ (b ++ t)))).head? = some 0
    · rw [if_pos hz]
      have hi0 : 0 ∈ i := by
        cases i with
        | nil => cases h1
        | cons x i =>
          simp only [List.cons_append, List.head?_cons, Option.some.injEq] at hz
          simp [hz]
      constructor
      · intro h0
        split at h0
        · cases h0
        · cases h0
      · intro h0
        exact absurd (h0.1.1 0 hi0) (by decide)
    · rw [if_neg hz, e2, e3]
      constructor
      · intro h0
        split at h0
        · cases h0
        · rename_i n hn
          split at h0
          · rename_i hc
            split at h0
            · rename_i f' fs' hf' hfs'
              cases h0
              rw [e1, e4, e5, e6] at hf'
              rcases stdSize_be32 version b.length n (by omega) hn with ⟨rfl, hv⟩ | hlt
              · rw [List.take_left] at hf'
                rw [e7] at hfs'
                rw [e1, List.all_eq_true] at hc
                exact ⟨⟨hc.1, List.length_pos_iff.mp hc.2.1, hv, hf'⟩, hfs'⟩
              · have := stdFrame_length _ _ _ _ _ hf'
                rw [hb, List.length_take, List.length_append] at this
                omega
            · cases h0
          · cases h0
      · rintro ⟨⟨a1, a2, a3, a4⟩, a5⟩
        rw [stdSize_small version b.length (by omega) a3]
        dsimp only
        rw [if_pos ⟨by rw [e1, List.all_eq_true]; exact a1, List.length_pos_iff.mpr a2, by omega⟩, e1, e4, e5, e6,
          List.take_left, e7, a4, a5]

/-- **C100**, the tag: a program that keeps to the documents reads the frames that the library wrote, and the audio behind them,
if and only if the tag has none of the flags and all the frames are standard. -/
theorem std_reads_iff (closed : Bool) (version minor flags : UInt8) (fs : List SFrame) (padding : Nat) (rest : List UInt8)
    (hv : version = 3 ∨ version = 4) (h : ∀ f ∈ fs, f.WF) (hs : framesSize fs + padding < 2 ^ 28) :
    stdTag closed (outBytes version minor flags fs padding ++ rest) = some (fs, rest) ↔
      minor ≠ 0xFF ∧ flags = 0 ∧ ∀ f ∈ fs, f.Standard version := by
  obtain ⟨b, hb⟩ : ∃ b, fs.flatMap SFrame.bytes ++ List.replicate padding 0 = b := ⟨_, rfl⟩
  have hl : b.length = framesSize fs + padding := by
    rw [← hb, List.length_append, flatMap_bytes_length, List.length_replicate]
  have hss := stdSynchsafe_synchsafe (framesSize fs + padding) hs
  have hi := stdFrames_iff closed version fs padding h (by omega)
  rw [hb] at hi
  have e : outBytes version minor flags fs padding ++ rest =
      0x49 :: 0x44 :: 0x33 :: version :: minor :: flags :: (synchsafe (framesSize fs + padding) ++ (b ++ rest)) := by
    simp [outBytes, tagHeaderBytes, ← hb]
  rw [e]
  simp only [synchsafe] at hss
  simp only [synchsafe, List.cons_append, List.nil_append, stdTag]
  rw [hss]
  dsimp only
  rw [← hi, if_pos (show framesSize fs + padding ≤ (b ++ rest).length by rw [List.length_append]; omega), ← hl, List.take_left,
    List.drop_left]
  by_cases hm : minor ≠ 0xFF ∧ flags = 0
  · rw [if_pos ⟨hv, hm⟩]
    simp [hm.1, hm.2]
  · rw [if_neg (fun h => hm h.2)]
    constructor
    · intro h; cases h
    · intro h; exact absurd ⟨h.1, h.2.1⟩ hm

/-- **C100**: any calls of the API on a new tag or one that was read, then `ID3v2_write_tag` to any file. -/
theorem others_read_session [Platform] (closed : Bool) (contents : List UInt8) (tag : Tag) (st : State) (ops : List Op) (rest : Bytes)
    (st' : Full) (b : List UInt8) (hstart : Start tag st) (hvalid : ∀ op ∈ ops, op.Valid)
    (he : effectAll ops st.full = some st') (hser : Full.serialise st' = .bytes b) (hsz : st'.size < 2 ^ 28) :
    ∃ tag' tag'' file, runAll rest ops tag = .ok tag' ∧
      ID3v2_write_tag (some (ofB contents)) tag' = .ok (some (ofB file), tag'') ∧
      (stdTag closed file = some (st'.seen, audio contents) ↔
        tag.header.minor_version ≠ 0xFF ∧ tag.header.flags = 0 ∧ ∀ f ∈ st'.seen, f.Standard tag.header.major_version) := by
  obtain ⟨tag', tag'', file, h1, h2, rfl, h4, h5, -, h7⟩ :=
    session_file contents tag st ops rest st' b hstart hvalid he hser hsz
  exact ⟨tag', tag'', _, h1, h2, std_reads_iff closed _ _ _ _ _ _ h5 (fun f hf => (h4 f hf).1) h7⟩

/-- **C100**, the compatibility API: any setters for frames that the loaded tag has, then `set_tag` to any file. -/
theorem others_read_compat [Platform] (closed : Bool) (ct : CTag) (st : State) (ops : List COp) (rest : Bytes)
    (contents : List UInt8) (hstart : CStart ct st) (hops : ∀ o ∈ ops, o.Valid ∧ st.has o.frame.id = true)
    (hsz : (capplyAll ops st).size < 2 ^ 28) :
    ∃ ct' ct'' file, crunAll rest ops ct = .ok ct' ∧ set_tag (some (ofB contents)) ct' = .ok (some (ofB file), ct'') ∧
      (stdTag closed file = some ((capplyAll ops st).frames, audio contents) ↔
        ct.tag.header.minor_version ≠ 0xFF ∧ ct.tag.header.flags = 0 ∧
          ∀ f ∈ (capplyAll ops st).frames, f.Standard ct.tag.header.major_version) := by
  obtain ⟨ct', ct'', file, h1, h2, rfl, -, -⟩ := compat_session_exact ct st ops rest contents hstart hops hsz
  obtain ⟨major, minor, flags, hi, hv, -, hroom, -, -⟩ := cstart_inStep ct st hstart
  obtain ⟨_, -, i1, e2, -⟩ := history_present rest ops ct st major minor flags _ hi hops
  have hh : ct.tag.header.major_version = major := by rw [hi.tag]; rfl
  have hs : framesSize (capplyAll ops st).frames + st.room.toNat < 2 ^ 28 := by
    have : (capplyAll ops st).size = framesSize (capplyAll ops st).frames + st.room := by
      unfold State.size; rw [e2]
    omega
  exact ⟨ct', ct'', _, h1, h2, std_reads_iff closed _ _ _ _ _ _ (by rw [hh]; exact hv) (fun f hf => (i1.usable f hf).1) hs⟩

/-- One frame and what follows it. -/
theorem stdFrames_step (closed : Bool) (version : UInt8) (i z g b t : List UInt8) (f : SFrame) (fs : List SFrame) (h1 : i.length = 4)
    (hz : z.length = 4) (h2 : g.length = 2) (a1 : ∀ c ∈ i, stdLetter c = true) (a2 : b ≠ [])
    (a3 : stdSize version z = some b.length) (a4 : stdFrame closed i g b = some f) (a5 : stdFrames closed version t = some fs) :
    stdFrames closed version (i ++ (z ++ (g ++ (b ++ t)))) = some (f :: fs) := by
  have e1 : (i ++ (z ++ (g ++ (b ++ t)))).take 4 = i := by rw [← h1, List.take_left]
  have e2 : (i ++ (z ++ (g ++ (b ++ t)))).drop 4 = z ++ (g ++ (b ++ t)) := by rw [← h1, List.drop_left]
  have e3 : (z ++ (g ++ (b ++ t))).take 4 = z := by rw [← hz, List.take_left]
  have e4 : (i ++ (z ++ (g ++ (b ++ t)))).drop 8 = g ++ (b ++ t) := by
    rw [show 8 = 4 + 4 from rfl, ← List.drop_drop, e2, ← hz, List.drop_left]
  have e5 : (g ++ (b ++ t)).take 2 = g := by rw [← h2, List.take_left]
  have e6 : (i ++ (z ++ (g ++ (b ++ t)))).drop 10 = b ++ t := by
    rw [show 10 = 8 + 2 from rfl, ← List.drop_drop, e4, ← h2, List.drop_left]
  have e7 : (i ++ (z ++ (g ++ (b ++ t)))).drop (10 + b.length) = t := by
    rw [← List.drop_drop, e6, List.drop_left]
  have hl : (i ++ (z ++ (g ++ (b ++ t)))).length = 10 + b.length + t.length := by
    simp [h1, h2, hz]; omega
  have hne : i ++ (z ++ (g ++ (b ++ t))) ≠ [] := by
    intro h0
    rw [h0] at hl
    simp at hl
    omega
  have hh : (i ++ (z ++ (g ++ (b ++ t)))).head? ≠ some 0 := by
    cases i with
    | nil => cases h1
    | cons x i =>
      intro h0
      simp only [List.cons_append, List.head?_cons, Option.some.injEq] at h0
      exact absurd (a1 x (List.mem_cons_self ..)) (by rw [h0]; decide)
  rw [stdFrames, dif_neg hne, if_neg hh, e2, e3, a3]
  dsimp only
  rw [if_pos ⟨by rw [e1, List.all_eq_true]; exact a1, List.length_pos_iff.mpr a2, by omega⟩, e1, e4, e5, e6,
    List.take_left, e7, a4, a5]

theorem stdSize_sizeBytes (version : UInt8) (n : Nat) (h : n < 2 ^ 28) : stdSize version (sizeBytes version n) = some n := by
  unfold stdSize sizeBytes
  split
  · exact stdSynchsafe_synchsafe n h
  · exact stdPlain_be32 n (by omega)

theorem sizeBytes_length (version : UInt8) (n : Nat) : (sizeBytes version n).length = 4 := by
  unfold sizeBytes; split <;> rfl

theorem std_reads_others (closed : Bool) (version minor : UInt8) (fs : List SFrame) (padding : Nat) (rest : List UInt8)
    (hv : version = 3 ∨ version = 4) (hm : minor ≠ 0xFF) (h : ∀ f ∈ fs, f.WF) (hst : ∀ f ∈ fs, f.Standard 3)
    (hs : ((fs.map Wire.ofSFrame).flatMap (Wire.bytes version)).length + padding < 2 ^ 28) :
    stdTag closed (wireTagBytes version minor 0 (fs.map Wire.ofSFrame) padding ++ rest) = some (fs, rest) := by
  have key : ∀ fs : List SFrame, (∀ f ∈ fs, f.WF) → (∀ f ∈ fs, f.Standard 3) →
      ((fs.map Wire.ofSFrame).flatMap (Wire.bytes version)).length < 2 ^ 28 →
      stdFrames closed version ((fs.map Wire.ofSFrame).flatMap (Wire.bytes version) ++ List.replicate padding 0) = some fs := by
    intro fs
    induction fs with
    | nil =>
      intros
      rw [stdFrames]
      cases padding with
      | zero => simp
      | succ n => simp [List.replicate_succ]
    | cons f fs ih =>
      intro h hst hs
      have hf := h f (List.mem_cons_self ..)
      obtain ⟨b1, b2, -, b4⟩ := hst f (List.mem_cons_self ..)
      obtain ⟨l1, l2⟩ := SFrame.wf_lengths f hf
      have e : ((f :: fs).map Wire.ofSFrame).flatMap (Wire.bytes version) =
          f.id ++ (sizeBytes version f.body.length ++ (f.flags ++ (f.body ++
            (fs.map Wire.ofSFrame).flatMap (Wire.bytes version)))) := by
        simp [Wire.bytes, Wire.bytesWith]
      rw [e] at hs ⊢
      simp only [List.length_append] at hs
      simp only [List.append_assoc]
      exact stdFrames_step closed version _ _ _ _ _ f fs l1 (sizeBytes_length _ _) l2 b1 b2
        (stdSize_sizeBytes version _ (by omega)) ((stdFrame_iff closed f hf).mpr (by cases f <;> exact b4))
        (ih (fun g hg => h g (List.mem_cons_of_mem _ hg)) (fun g hg => hst g (List.mem_cons_of_mem _ hg)) (by omega))
  have hk := key fs h hst (by omega)
  have hl : ((fs.map Wire.ofSFrame).flatMap (Wire.bytes version) ++ List.replicate padding 0).length =
      ((fs.map Wire.ofSFrame).flatMap (Wire.bytes version)).length + padding := by
    rw [List.length_append, List.length_replicate]
  have hss := stdSynchsafe_synchsafe _ hs
  rw [← hl] at hss
  have e : wireTagBytes version minor 0 (fs.map Wire.ofSFrame) padding ++ rest =
      0x49 :: 0x44 :: 0x33 :: version :: minor :: 0 ::
        (synchsafe ((fs.map Wire.ofSFrame).flatMap (Wire.bytes version) ++ List.replicate padding 0).length ++
          (((fs.map Wire.ofSFrame).flatMap (Wire.bytes version) ++ List.replicate padding 0) ++ rest)) := by
    rw [hl]
    simp only [wireTagBytes, tagHeaderBytes, List.append_assoc, List.cons_append, List.nil_append]
  rw [e]
  generalize (fs.map Wire.ofSFrame).flatMap (Wire.bytes version) ++ List.replicate padding 0 = b at *
  simp only [synchsafe] at hss
  simp only [synchsafe, List.cons_append, List.nil_append, stdTag]
  rw [hss]
  dsimp only
  rw [if_pos ⟨hv, hm, trivial⟩, if_pos (by rw [List.length_append]; omega), List.take_left, List.drop_left, hk]
  rfl

/-- **C100**: a file with a tag that another program has written after the documents. After it was read and written back with
this library, other programs read the same frames if and only if the version is 2.3 or no frame has 128 bytes or more. -/
theorem rewritten_for_others [Platform] (closed : Bool) (version minor : UInt8) (fs : List SFrame) (padding : Nat) (rest : List UInt8)
    (hv : version = 3 ∨ version = 4) (hm : minor ≠ 0xFF) (hst : ∀ f ∈ fs, f.Standard 3)
    (hR : ∀ f ∈ fs, (Wire.ofSFrame f).Sane version) (hd : ∀ f ∈ fs, f.defect = none)
    (hs : ((fs.map Wire.ofSFrame).flatMap (Wire.bytes version)).length + padding < 2 ^ 28) :
    stdTag closed (wireTagBytes version minor 0 (fs.map Wire.ofSFrame) padding ++ rest) = some (fs, rest) ∧
    ∃ file, readWrite (some (ofB (wireTagBytes version minor 0 (fs.map Wire.ofSFrame) padding ++ rest))) =
        .ok (some (ofB file)) ∧
      (stdTag closed file = some (fs, rest) ↔ version = 4 → ∀ f ∈ fs, f.body.length < 128) := by
  have hu : ∀ f ∈ fs, f.Usable := by
    intro f hf
    have := (hR f hf).2.1
    rwa [ofSFrame_kept] at this
  have hwf : ∀ f ∈ fs, f.WF := fun f hf => (hu f hf).1
  refine ⟨std_reads_others closed version minor fs padding rest hv hm hwf hst hs, ?_⟩
  have hseen : seenFrames (fs.map Wire.ofSFrame) padding = fs.map Wire.ofSFrame := by
    unfold seenFrames
    split
    · rename_i w hw
      rw [if_neg]
      rintro ⟨-, h0⟩
      obtain ⟨f, hf, rfl⟩ := List.mem_map.mp (List.mem_of_getLast? hw)
      rw [ofSFrame_body] at h0
      exact (hst f hf).2.1 h0
    · rfl
  have hc := copy_exact version minor 0 (fs.map Wire.ofSFrame) padding rest hv (by decide)
    (by intro w hw; obtain ⟨f, hf, rfl⟩ := List.mem_map.mp hw; exact hR f hf) hs
    (by
      rw [hseen]
      intro w hw
      obtain ⟨f, hf, rfl⟩ := List.mem_map.mp hw
      rw [defect_ofSFrame]
      exact hd f hf)
  dsimp only at hc
  rw [hseen, List.map_map, show Wire.kept ∘ Wire.ofSFrame = fun f => f from funext ofSFrame_kept, List.map_id'] at hc
  obtain ⟨padding', hp, hc⟩ := hc
  have h1 := (hc (wireTagBytes version minor 0 (fs.map Wire.ofSFrame) padding ++ rest)).1
  have ha : audio (wireTagBytes version minor 0 (fs.map Wire.ofSFrame) padding ++ rest) = rest := by
    have := audio_behind version minor 0 (((fs.map Wire.ofSFrame).flatMap (Wire.bytes version)).length + padding)
      ((fs.map Wire.ofSFrame).flatMap (Wire.bytes version) ++ List.replicate padding 0) rest hv hs
      (by rw [List.length_append, List.length_replicate])
    simpa only [wireTagBytes, List.append_assoc] using this
  rw [ha] at h1
  refine ⟨_, h1, ?_⟩
  rw [std_reads_iff closed version minor 0 fs padding' rest hv hwf (by omega)]
  constructor
  · rintro ⟨-, -, h2⟩ hv4 f hf
    exact (h2 f hf).2.2.1 hv4
  · intro h2
    refine ⟨hm, rfl, fun f hf => ?_⟩
    obtain ⟨b1, b2, -, b4⟩ := hst f hf
    exact ⟨b1, b2, fun hv4 => h2 hv4 f hf, b4⟩

/-- A title in a version 2.4 tag meets the hypotheses, a short one as well as a long one, which other programs lose. -/
example : ∀ n, 2 ≤ n → n ≤ 1000 →
    let f : SFrame := .text [0x54, 0x49, 0x54, 0x32] [0, 0] (.latin (List.replicate n 0x41))
    f.Standard 3 ∧ @Wire.Sane strict 4 (Wire.ofSFrame f) ∧ @SFrame.defect strict f = none ∧ f.body.length = n + 2 := by
  intro n h1 h2 f
  have hb : f.body.length = n + 2 := by
    simp [f, SFrame.body, Str.bytes, Str.content, Str.terminator]
  have hr := longTitle_readable n h1 h2
  refine ⟨⟨by show ∀ c ∈ [0x54, 0x49, 0x54, 0x32], stdLetter c = true; decide, ?_, fun h => absurd h (by decide), ?_⟩,
    ⟨hr.1.1, hr.1.2.1, hr.2⟩, ?_, hb⟩
  · intro h0
    rw [h0] at hb
    cases hb
  · show ([0x54, 0x49, 0x54, 0x32] : List UInt8) ≠ txxxId
    decide
  · rw [← @defect_ofSFrame strict]
    exact (@defect_none strict _).mpr hr.1.2.2

/-- A tag that was read, with room for a comment and a picture. -/
example : ∃ tag st, @Start strict tag st ∧ tag.header.major_version = 3 ∧ ∃ st' b,
    effectAll [.addComment [0, 0] [0x65, 0x6E, 0x67] (.latin [0x61]) (.latin [0x62]),
      .addApic [0, 0] (.latin [0x69]) 3 (.utf16 true [(0x61, 0)]) [0, 1, 2]] st.full = some st' ∧
    Full.serialise st' = .bytes b ∧ st'.size < 2 ^ 28 ∧ st'.seen.length = 3 ∧ ∀ f ∈ st'.seen, f.Standard 3 :=
  ⟨_, _, @start_read strict 3 0 0 [.text [0x54, 0x50, 0x45, 0x31] [0, 0] 0 (.latin [0x48, 0x69]) []] 100 (Or.inl rfl)
    (by decide) (by decide) (by decide) (by decide), rfl, _, _, rfl, rfl, by decide, by decide, by decide⟩

/-- Not standard: a comment with two encodings, a MIME type in UTF-16. -/
example : (SFrame.comment [0, 0] [0x65, 0x6E, 0x67] (.latin [0x61]) (.latin [0x62])).Standard 3 ∧
    ¬ (SFrame.comment [0, 0] [0x65, 0x6E, 0x67] (.utf16 true []) (.latin [0x62])).Standard 3 ∧
    (SFrame.apic [0, 0] (.latin [0x69]) 3 (.utf16 true [(0x61, 0)]) [0, 1, 2]).Standard 3 ∧
    ¬ (SFrame.apic [0, 0] (.utf16 true [(0x69, 0)]) 3 (.latin [0x61]) [0, 1, 2]).Standard 3 := by decide

end Id3.Props
