import Verif.Proof.Misread
import Verif.Props.Any
import Verif.Props.Stable

/-!
# C12, C20: what is read from every tag that the library has written
-/

namespace Id3.Props

open Id3 Spec

theorem looseSize_synchsafe (n : Nat) (h : n < 2 ^ 28) : looseSize (synchsafe n) = n := by
  have h1 := decSize_frameSize 4 (synchsafe n) rfl
  rw [decSize_four, decode_synchsafe n h] at h1
  have h2 : frameSize 4 (synchsafe n) = (looseSize (synchsafe n) : Int) := rfl
  omega

/-- The tags that a buffer holds which starts with a tag header. -/
theorem tagIn_header [Platform] (version minor flags : UInt8) (n : Nat) (r : Bytes) (hv : version = 3 ∨ version = 4)
    (hflag : flags &&& 0x40 = 0) (hn : n < 2 ^ 28) (t : Tag) :
    TagIn (ofB (tagHeaderBytes version minor flags n) ++ r) t ↔
      ∃ gs stop, Items version n 10 r gs stop ∧
        t = { toTag version minor flags n [] ((10 + r.length : Nat) - (stop : Int)) with frames := nodes gs } := by
  have hl := looseSize_synchsafe n hn
  have hf : flags &&& 0x40 ≠ 0x40 := by rw [hflag]; decide
  have hlen : (ofB (tagHeaderBytes version minor flags n)).length = 10 := by simp [tagHeaderBytes]
  have hdrop : (ofB (tagHeaderBytes version minor flags n) ++ r).drop 10 = r := by
    rw [← hlen, List.drop_left]
  constructor
  · rintro ⟨v, mi, fl, size, rest, ext, start, gs, stop, -, hsz, e, hx, hi, rfl⟩
    have e2 := List.append_inj e (by simp [tagHeaderBytes, hsz])
    have e3 := ofB_inj.mp e2.1
    have e4 := List.append_inj e3 (by simp)
    obtain ⟨h1, h2⟩ := e4
    simp only [List.cons.injEq, and_true, true_and] at h1
    obtain ⟨rfl, rfl, rfl⟩ := h1
    subst h2
    rw [if_neg hf] at hx
    obtain ⟨rfl, rfl⟩ := hx
    rw [hdrop, hl] at hi
    refine ⟨gs, stop, hi, ?_⟩
    rw [hl, List.length_append, hlen]
    rfl
  · rintro ⟨gs, stop, hi, rfl⟩
    refine ⟨version, minor, flags, synchsafe n, r, 0, 10, gs, stop, hv, rfl, rfl, by rw [if_neg hf]; exact ⟨rfl, rfl⟩, ?_, ?_⟩
    · rw [hdrop, hl]; exact hi
    · rw [hl, List.length_append, hlen]; rfl

/-- The frames before the first large one. -/
theorem items_before [Platform] (before : List SFrame) (size : Nat) (pre post : Bytes) (ht : Tail (pre ++ (ofB (before.flatMap SFrame.bytes) ++ post)))
    (h10 : 10 ≤ pre.length) (hb : pre.length + (ofB (before.flatMap SFrame.bytes) ++ post).length ≤ 2147483647)
    (hlt : pre.length + framesSize before ≤ size) (hu : ∀ f ∈ before, f.Usable) (hsm : ∀ f ∈ before, ¬ f.Big)
    (fs : List Frame) (stop : Nat) :
    Items 4 size pre.length (ofB (before.flatMap SFrame.bytes) ++ post) fs stop ↔
      (∀ f ∈ before, f.defect = none) ∧ ∃ gs, fs = before.map SFrame.toFrame ++ gs ∧
        Items 4 size (pre.length + framesSize before) post gs stop := by
  induction before generalizing pre fs with
  | nil => simp [framesSize]
  | cons f before ih =>
    have hsplit : framesSize (f :: before) = f.bytes.length + framesSize before := by simp [framesSize]
    have hfl := SFrame.bytes_length f (hu f (by simp)).1
    have e : ofB ((f :: before).flatMap SFrame.bytes) ++ post = ofB f.bytes ++ (ofB (before.flatMap SFrame.bytes) ++ post) := by
      simp
    rw [e] at ht hb ⊢
    have hcd := asWritten_coded 4 f (Or.inr rfl) (hu f (by simp)) (by
      intro _
      apply Classical.byContradiction
      intro h
      refine hsm f (by simp) ⟨fun a b c d e => h (Or.inl ⟨a, b, c, d, e⟩), ?_⟩
      apply Nat.le_of_not_lt
      intro h'
      exact h (Or.inr h'))
    have hlb : pre.length + f.bytes.length ≤ 2147483647 := by
      rw [List.length_append, ofB_length] at hb; omega
    cases hd : f.defect with
    | some k =>
      have h1 := frame_parse_defect 4 _ (asWritten 4 f) pre (ofB (before.flatMap SFrame.bytes) ++ post) hcd
        (by rw [asWritten_bytes]; exact hlb) k (by rw [asWritten_defect]; exact hd)
      rw [asWritten_bytes] at h1
      constructor
      · intro h
        exact absurd h (items_undefined hb (by omega) h1 _ _)
      · rintro ⟨h, -⟩
        have := h f (by simp)
        rw [hd] at this
        cases this
    | none =>
      have h1 := frame_parse_coded 4 _ (asWritten 4 f) pre (ofB (before.flatMap SFrame.bytes) ++ post) hcd
        (by rw [asWritten_defect]; exact hd) (by rw [asWritten_bytes]; exact hlb)
      rw [asWritten_bytes, asWritten_kept] at h1
      rw [items_known ht (by omega) hb (by omega) h1]
      have hpl : (pre ++ ofB f.bytes).length = pre.length + f.bytes.length := by simp
      have ih' := fun fs => ih (pre ++ ofB f.bytes) (by rw [List.append_assoc]; exact ht) (by omega)
        (by rw [hpl]; rw [List.length_append, ofB_length] at hb; omega) (by omega) (fun x hx => hu x (by simp [hx]))
        (fun x hx => hsm x (by simp [hx])) fs
      constructor
      · rintro ⟨gs, rfl, h⟩
        obtain ⟨h2, gs', rfl, h3⟩ := (ih' gs).mp h
        refine ⟨?_, gs', rfl, ?_⟩
        · intro x hx
          rcases List.mem_cons.mp hx with rfl | hx
          · exact hd
          · exact h2 x hx
        · rw [hsplit, ← Nat.add_assoc, ← hpl]; exact h3
      · rintro ⟨h2, gs', rfl, h3⟩
        refine ⟨before.map SFrame.toFrame ++ gs', rfl, (ih' _).mpr ⟨fun x hx => h2 x (by simp [hx]), gs', rfl, ?_⟩⟩
        rw [hpl, Nat.add_assoc, ← hsplit]; exact h3

theorem not_big_small (f : SFrame) : ¬ f.Big ↔ SmallIn 4 f := by
  constructor
  · intro hsm _
    apply Classical.byContradiction
    intro h
    refine hsm ⟨fun a b c d e => h (Or.inl ⟨a, b, c, d, e⟩), ?_⟩
    apply Nat.le_of_not_lt
    intro h'
    exact h (Or.inr h')
  · rintro h ⟨h1, h2⟩
    rcases h rfl with ⟨a, b, c, d, e⟩ | h
    · exact h1 a b c d e
    · omega

/-- The frames up to the first large one, if there is one. -/
theorem first_big (fs : List SFrame) (h : ¬ ∀ f ∈ fs, ¬ f.Big) :
    ∃ a f b, fs = a ++ f :: b ∧ (∀ x ∈ a, ¬ x.Big) ∧ f.Big := by
  induction fs with
  | nil => exact absurd (by simp) h
  | cons x xs ih =>
    by_cases hx : x.Big
    · exact ⟨[], x, xs, rfl, by simp, hx⟩
    · obtain ⟨a, f, b, h1, h2, h3⟩ := ih (fun h' => h (by
        intro y hy
        rcases List.mem_cons.mp hy with rfl | hy
        · exact hx
        · exact h' y hy))
      refine ⟨x :: a, f, b, by rw [h1]; rfl, ?_, h3⟩
      intro y hy
      rcases List.mem_cons.mp hy with rfl | hy
      · exact hx
      · exact h2 y hy

theorem misread_big [Platform] {f g : SFrame} {l : List UInt8} (h : Misread f g l) : f.Big := by
  cases h <;> assumption

/-- There is only one first large frame. -/
theorem first_big_unique {a a' : List SFrame} {f f' : SFrame} {b b' : List SFrame} (e : a ++ f :: b = a' ++ f' :: b')
    (ha : ∀ x ∈ a, ¬ x.Big) (ha' : ∀ x ∈ a', ¬ x.Big) (hf : f.Big) (hf' : f'.Big) : a = a' ∧ f = f' ∧ b = b' := by
  induction a generalizing a' with
  | nil =>
    cases a' with
    | nil => simp only [List.nil_append, List.cons.injEq] at e; exact ⟨rfl, e⟩
    | cons y ys =>
      simp only [List.nil_append, List.cons_append, List.cons.injEq] at e
      exact absurd hf (e.1 ▸ ha' y (by simp))
  | cons x xs ih =>
    cases a' with
    | nil =>
      simp only [List.nil_append, List.cons_append, List.cons.injEq] at e
      exact absurd hf' (e.1 ▸ ha x (by simp))
    | cons y ys =>
      simp only [List.cons_append, List.cons.injEq] at e
      obtain ⟨h1, h2⟩ := ih e.2 (fun z hz => ha z (by simp [hz])) (fun z hz => ha' z (by simp [hz]))
      exact ⟨by rw [e.1, h1], h2⟩

/-- **C11, C12**: what is read from a buffer that starts with a tag that the library has written, for all frames and both
versions, exactly. -/
theorem read_back_all [Platform] (version minor flags : UInt8) (fs : List SFrame) (padding : Nat) (after : List UInt8)
    (hv : version = 3 ∨ version = 4) (hflag : flags &&& 0x40 = 0) (hu : ∀ f ∈ fs, f.Usable)
    (hs : framesSize fs + padding < 2 ^ 28) (t : Tag) :
    ID3v2_read_tag_from_buffer (ofB (outBytes version minor flags fs padding ++ after))
        (10 + framesSize fs + padding : Nat) = .ok (some t) ↔
      ReadsAs version minor flags fs padding t := by
  by_cases hsm : version = 4 → ∀ f ∈ fs, ¬ f.Big
  · have hsm' : ∀ f ∈ fs, SmallIn version f := fun f hf h4 => (not_big_small f).mp (hsm h4 f hf) rfl
    have h1 := read_back_exact version minor flags fs padding (ofB after) hv hflag hu hsm' hs
    rw [ofB_append, h1]
    constructor
    · exact fun h => .same hsm t h
    · intro h
      cases h with
      | same _ _ h => exact h
      | misread before f after g left gs stop h4 hfs hb hf =>
        exact absurd (misread_big hf) (hsm h4 f (by rw [hfs]; simp))
  · obtain ⟨rfl, hsm2⟩ : version = 4 ∧ ¬ ∀ f ∈ fs, ¬ f.Big := by
      constructor
      · apply Classical.byContradiction
        intro h; exact hsm (fun h4 => absurd h4 h)
      · intro h; exact hsm (fun _ => h)
    obtain ⟨a, f, b, rfl, ha, hf⟩ := first_big fs hsm2
    have hl := flatMap_bytes_length (a ++ f :: b)
    have hla := flatMap_bytes_length a
    have hsplit : framesSize (a ++ f :: b) = framesSize a + f.bytes.length + framesSize b := by
      rw [← hl, List.flatMap_append, List.length_append, hla, List.flatMap_cons, List.length_append, flatMap_bytes_length b]
      omega
    have huf := hu f (by simp)
    have hfl := SFrame.bytes_length f huf.1
    have hbl := hf.2
    have hol : (outBytes 4 minor flags (a ++ f :: b) padding).length = 10 + framesSize (a ++ f :: b) + padding := by
      rw [outBytes, List.length_append, List.length_append, hl, List.length_replicate]
      simp [tagHeaderBytes, synchsafe]
    rw [C67_buffer _ _ (by rw [List.length_append, hol]; omega) (by omega), ← hol, List.take_left]
    -- the parts of the tag
    have eparts : ofB (outBytes 4 minor flags (a ++ f :: b) padding) =
        ofB (tagHeaderBytes 4 minor flags (framesSize (a ++ f :: b) + padding)) ++
          (ofB (a.flatMap SFrame.bytes) ++ (ofB f.bytes ++ ofB (b.flatMap SFrame.bytes ++ List.replicate padding 0))) := by
      simp [outBytes]
    have htail : Tail (ofB (outBytes 4 minor flags (a ++ f :: b) padding)) := tail_ofB _
    have hol' : (ofB (outBytes 4 minor flags (a ++ f :: b) padding)).length ≤ 2147483647 := by rw [ofB_length, hol]; omega
    rw [eparts] at htail hol' ⊢
    generalize hH : ofB (tagHeaderBytes 4 minor flags (framesSize (a ++ f :: b) + padding)) = H at *
    have hHl : H.length = 10 := by rw [← hH]; simp [tagHeaderBytes]
    have hrest : (ofB (b.flatMap SFrame.bytes ++ List.replicate padding 0)).length = framesSize b + padding := by
      rw [ofB_length, List.length_append, flatMap_bytes_length, List.length_replicate]
    generalize hR : ofB (b.flatMap SFrame.bytes ++ List.replicate padding 0) = R at *
    rw [← hH, tagIn_header 4 minor flags _ _ (Or.inr rfl) hflag hs]
    have hrl : (ofB (a.flatMap SFrame.bytes) ++ (ofB f.bytes ++ R)).length = framesSize (a ++ f :: b) + padding := by
      simp only [List.length_append, ofB_length, hla, hrest]; omega
    have hbefore := fun fs stop => items_before a (framesSize (a ++ f :: b) + padding) H (ofB f.bytes ++ R) htail (by omega)
      (by rw [← List.length_append]; exact hol') (by omega) (fun x hx => hu x (by simp [hx])) ha fs stop
    rw [hHl] at hbefore
    have hP : (H ++ ofB (a.flatMap SFrame.bytes)).length = 10 + framesSize a := by
      rw [List.length_append, hHl, ofB_length, hla]
    have htail' : Tail ((H ++ ofB (a.flatMap SFrame.bytes)) ++ (ofB f.bytes ++ R)) := by rw [List.append_assoc]; exact htail
    have hlen' : (H ++ ofB (a.flatMap SFrame.bytes)).length + (ofB f.bytes ++ R).length ≤ 2147483647 := by
      rw [← List.length_append, List.append_assoc]; exact hol'
    have hpf := parse_misread f (H ++ ofB (a.flatMap SFrame.bytes)) R huf hf (by rw [hP]; omega)
    rcases hpf with ⟨g, left, x, hmis, hxe, hxl, hp⟩ | ⟨hno, k, hp⟩
    · have e2 : ofB f.bytes ++ R = ofB x ++ (ofB left ++ R) := by rw [hxe, ofB_append, List.append_assoc]
      rw [e2] at htail' hlen' hp
      have hkn := fun fs stop => items_known (size := framesSize (a ++ f :: b) + padding) htail' (by omega) hlen' (by omega) hp fs stop
      have hpx : ((H ++ ofB (a.flatMap SFrame.bytes)) ++ ofB x).length = 10 + framesSize a + g.bytes.length := by
        rw [List.length_append, hP, ofB_length, hxl]
      rw [hP, hpx] at hkn
      have hR2 : ofB left ++ R = ofB (left ++ b.flatMap SFrame.bytes ++ List.replicate padding 0) := by
        rw [← hR]; simp
      constructor
      · rintro ⟨gs, stop, hi, rfl⟩
        obtain ⟨h1, gs', rfl, h3⟩ := (hbefore _ _).mp hi
        rw [e2] at h3
        obtain ⟨gs'', rfl, h4⟩ := (hkn _ _).mp h3
        rw [hR2] at h4
        have := ReadsAs.misread (version := 4) (minor := minor) (flags := flags) (fs := a ++ f :: b) (padding := padding)
          a f b g left gs'' stop rfl rfl (fun x hx => ⟨ha x hx, h1 x hx⟩) hmis h4
        rw [hrl]
        have e3 : nodes (a.map SFrame.toFrame ++ g.toFrame :: gs'') = (a.map SFrame.toFrame ++ g.toFrame :: gs'').map some := by
          cases a <;> rfl
        rw [e3]
        rw [Nat.add_assoc] at this
        exact this
      · intro h
        cases h with
        | same h => exact absurd hf (h rfl f (by simp))
        | misread before f' after' g' left' gs stop _ hfs hb hm hi =>
          obtain ⟨rfl, rfl, rfl⟩ := first_big_unique hfs ha (fun x hx => (hb x hx).1) hf (misread_big hm)
          obtain ⟨rfl, rfl⟩ := misread_unique hmis hm
          refine ⟨a.map SFrame.toFrame ++ g.toFrame :: gs, stop, ?_, ?_⟩
          · refine (hbefore _ _).mpr ⟨fun x hx => (hb x hx).2, _, rfl, ?_⟩
            rw [e2]
            refine (hkn _ _).mpr ⟨gs, rfl, ?_⟩
            rw [hR2]
            exact hi
          · have e3 : nodes (a.map SFrame.toFrame ++ g.toFrame :: gs) = (a.map SFrame.toFrame ++ g.toFrame :: gs).map some := by
              cases a <;> rfl
            rw [e3, hrl, Nat.add_assoc]
    · constructor
      · rintro ⟨gs, stop, hi, rfl⟩
        obtain ⟨-, gs', rfl, h3⟩ := (hbefore _ _).mp hi
        rw [← hP] at h3
        exact absurd h3 (items_undefined hlen' (by omega) hp _ _)
      · intro h
        cases h with
        | same h => exact absurd hf (h rfl f (by simp))
        | misread before f' after' g' left' gs stop _ hfs hb hm hi =>
          obtain ⟨rfl, rfl, rfl⟩ := first_big_unique hfs ha (fun x hx => (hb x hx).1) hf (misread_big hm)
          exact absurd hm (hno _ _)

/-- **C11, C12**: in all other cases the behaviour is undefined. -/
theorem read_back_undefined [Platform] (version minor flags : UInt8) (fs : List SFrame) (padding : Nat) (after : List UInt8)
    (hv : version = 3 ∨ version = 4) (hflag : flags &&& 0x40 = 0) (hu : ∀ f ∈ fs, f.Usable)
    (hs : framesSize fs + padding < 2 ^ 28) :
    (∃ k, ID3v2_read_tag_from_buffer (ofB (outBytes version minor flags fs padding ++ after))
        (10 + framesSize fs + padding : Nat) = .ub k) ↔
      ∀ t, ¬ ReadsAs version minor flags fs padding t := by
  have hol : (outBytes version minor flags fs padding).length = 10 + framesSize fs + padding := by
    rw [outBytes, List.length_append, List.length_append, flatMap_bytes_length, List.length_replicate]
    simp [tagHeaderBytes, synchsafe]
  have h1 := C67_buffer_undefined (outBytes version minor flags fs padding ++ after) (10 + framesSize fs + padding)
    (by rw [List.length_append, hol]; omega) (by omega) (by omega)
  have h2 := fun t => read_back_all version minor flags fs padding after hv hflag hu hs t
  have h3 := fun t => C67_buffer (outBytes version minor flags fs padding ++ after) (10 + framesSize fs + padding)
    (by rw [List.length_append, hol]; omega) (by omega) t
  rw [h1]
  constructor
  · rintro ⟨-, h⟩ t ht
    exact h t ((h3 t).mp ((h2 t).mpr ht))
  · intro h
    refine ⟨?_, fun t ht => h t ((h2 t).mp ((h3 t).mpr ht))⟩
    rw [← hol, List.take_left, outBytes, List.append_assoc, tagLength_header _ _ _ _ _ hv hs]
    omega

/-- **C20**: what is read from a file that starts with a tag that the library has written, exactly. -/
theorem read_file_all [Platform] (version minor flags : UInt8) (fs : List SFrame) (padding : Nat) (rest : List UInt8)
    (hv : version = 3 ∨ version = 4) (hflag : flags &&& 0x40 = 0) (hu : ∀ f ∈ fs, f.Usable)
    (hs : framesSize fs + padding < 2 ^ 28) :
    (∀ t, ID3v2_read_tag (some (ofB (outBytes version minor flags fs padding ++ rest))) = .ok (some t) ↔
      ReadsAs version minor flags fs padding t) ∧
    ((∃ k, ID3v2_read_tag (some (ofB (outBytes version minor flags fs padding ++ rest))) = .ub k) ↔
      ∀ t, ¬ ReadsAs version minor flags fs padding t) := by
  have e : ofB (outBytes version minor flags fs padding ++ rest) =
      ofB (tagHeaderBytes version minor flags (framesSize fs + padding)) ++
        ofB (fs.flatMap SFrame.bytes ++ List.replicate padding 0) ++ ofB rest := by
    simp [outBytes]
  have e2 : ofB (tagHeaderBytes version minor flags (framesSize fs + padding)) ++
        ofB (fs.flatMap SFrame.bytes ++ List.replicate padding 0) = ofB (outBytes version minor flags fs padding ++ []) := by
    simp [outBytes]
  rw [e, read_tag_prefix version minor flags _ _ _ hv hs
    (by rw [ofB_length, List.length_append, flatMap_bytes_length, List.length_replicate]), e2]
  have h1 := fun t => read_back_all version minor flags fs padding [] hv hflag hu hs t
  have h2 := read_back_undefined version minor flags fs padding [] hv hflag hu hs
  rw [Nat.add_assoc] at h1 h2
  exact ⟨h1, h2⟩

/-- **C20** for every session and both versions, with large frames, exactly: make any calls on a new tag or one read from a
file, write the tag to any file and read the file. If writing returns (`Full.serialise` says when, `session_fails_exact` what
happens otherwise), then reading gives what `ReadsAs` says, and if there is no such tag, the behaviour is undefined. -/
theorem session_exact [Platform] (contents : List UInt8) (tag : Tag) (st : State) (ops : List Op) (rest : Bytes)
    (st' : Full) (b : List UInt8) (hstart : Start tag st) (hvalid : ∀ op ∈ ops, op.Valid)
    (he : effectAll ops st.full = some st') (hser : Full.serialise st' = .bytes b) (hsz : st'.size < 2 ^ 28) :
    ∃ tag' tag'' file, runAll rest ops tag = .ok tag' ∧
      ID3v2_write_tag (some (ofB contents)) tag' = .ok (file, tag'') ∧
      file = some (ofB (outBytes tag.header.major_version tag.header.minor_version tag.header.flags st'.seen
        (st'.size - framesSize st'.seen).toNat ++ audio contents)) ∧
      (∀ t, ID3v2_read_tag file = .ok (some t) ↔
        ReadsAs tag.header.major_version tag.header.minor_version tag.header.flags st'.seen
          (st'.size - framesSize st'.seen).toNat t) ∧
      ((∃ k, ID3v2_read_tag file = .ub k) ↔
        ∀ t, ¬ ReadsAs tag.header.major_version tag.header.minor_version tag.header.flags st'.seen
          (st'.size - framesSize st'.seen).toNat t) := by
  obtain ⟨tag', tag'', file, h1, h2, h3, h4, h5, h6, h7⟩ :=
    session_file contents tag st ops rest st' b hstart hvalid he hser hsz
  refine ⟨tag', tag'', file, h1, h2, h3, ?_⟩
  rw [h3]
  exact read_file_all _ _ _ _ _ _ h5 h6 h4 h7

/-- **C12**: a version 2.4 tag whose first large frame is a text cannot be read, whatever else it has. -/
theorem long_text_undefined [Platform] (minor flags : UInt8) (before : List SFrame) (id fl : List UInt8) (s : Str)
    (after : List SFrame) (padding : Nat) (rest : List UInt8) (hflag : flags &&& 0x40 = 0)
    (hu : ∀ f ∈ before ++ .text id fl s :: after, f.Usable)
    (hs : framesSize (before ++ .text id fl s :: after) + padding < 2 ^ 28) (hb : ∀ f ∈ before, ¬ f.Big)
    (hbig : (SFrame.text id fl s).Big) :
    ∃ k, ID3v2_read_tag (some (ofB (outBytes 4 minor flags (before ++ .text id fl s :: after) padding ++ rest))) = .ub k := by
  refine (read_file_all 4 minor flags _ padding rest (Or.inr rfl) hflag hu hs).2.mpr fun t h => ?_
  cases h with
  | same h => exact h rfl _ (by simp) hbig
  | misread before' f after' g left gs stop _ hfs hb' hm =>
    obtain ⟨-, rfl, -⟩ := first_big_unique hfs hb (fun x hx => (hb' x hx).1) hbig (misread_big hm)
    cases hm

/-- **C12**: if the first large frame of a version 2.4 tag is of another kind, then of its body only the first bytes are
read, as many as the size in its header means to a version 2.4 reader, and the frames after it are not looked at: the search
goes on in the rest of its body. -/
theorem long_frame_truncated [Platform] (minor flags : UInt8) (before : List SFrame) (f : SFrame) (after : List SFrame)
    (padding : Nat) (rest : List UInt8) (hflag : flags &&& 0x40 = 0) (hu : ∀ x ∈ before ++ f :: after, x.Usable)
    (hs : framesSize (before ++ f :: after) + padding < 2 ^ 28) (hb : ∀ x ∈ before, ¬ x.Big) (hbig : f.Big) (t : Tag)
    (ht : ID3v2_read_tag (some (ofB (outBytes 4 minor flags (before ++ f :: after) padding ++ rest))) = .ok (some t)) :
    ∃ (g : Frame) (gs : List Frame), t.frames = (before.map SFrame.toFrame ++ g :: gs).map some ∧
      g.header.size = (misreadSize f.body.length : Int) ∧ g.header.id = f.toFrame.header.id ∧
      128 ≤ misreadSize f.body.length ∧ misreadSize f.body.length < f.body.length := by
  have huf := hu f (by simp)
  have hlen := huf.2.1
  rw [SFrame.bytes_length _ huf.1] at hlen
  have hm := misreadSize_lt f.body.length hbig.2 (by omega)
  have h := ((read_file_all 4 minor flags _ padding rest (Or.inr rfl) hflag hu hs).1 t).mp ht
  cases h with
  | same h => exact absurd hbig (h rfl _ (by simp))
  | misread before' f' after' g left gs stop _ hfs hb' hmis =>
    obtain ⟨rfl, rfl, rfl⟩ := first_big_unique hfs hb (fun x hx => (hb' x hx).1) hbig (misread_big hmis)
    refine ⟨g.toFrame, gs, rfl, ?_, ?_, hm⟩
    · cases hmis with
      | apic fl mime pt desc pic k _ hk =>
        have hbl : (SFrame.apic fl mime pt desc pic).body.length = 2 + mime.bytes.length + desc.bytes.length + pic.length := by
          simp [SFrame.body]; omega
        have : (pic.take k).length = k := by rw [List.length_take]; omega
        rw [hk]
        simp only [SFrame.toFrame, SFrame.body, List.length_append, List.length_cons, this]
        omega
      | other id fl data =>
        have hbl : (SFrame.other id fl data).body.length = data.length := rfl
        rw [hbl] at hm ⊢
        have : (data.take (misreadSize data.length)).length = misreadSize data.length := by rw [List.length_take]; omega
        simp only [SFrame.toFrame, SFrame.body, this]
    · cases hmis <;> rfl

/-- An unknown frame of 256 zero bytes in a version 2.4 tag: half of it is read, and the rest is taken for padding. -/
example (data : List UInt8) (hd : data = List.replicate 256 0) :
    ∃ t, @ReadsAs strict 4 0 0 [.other [0x58, 0x59, 0x5A, 0x57] [0, 0] data] 0 t ∧
      t.frames = [some (SFrame.other [0x58, 0x59, 0x5A, 0x57] [0, 0] (data.take 128)).toFrame] ∧ t.padding_size = 128 ∧
      @SFrame.Usable strict (.other [0x58, 0x59, 0x5A, 0x57] [0, 0] data) := by
  have hl : data.length = 256 := by rw [hd, List.length_replicate]
  have hu : ∀ d, (SFrame.other [0x58, 0x59, 0x5A, 0x57] [0, 0] d).WF :=
    fun d => ⟨rfl, by decide, by decide, by decide, by decide, rfl⟩
  have hbl := SFrame.bytes_length _ (hu data)
  have hbody : (SFrame.other [0x58, 0x59, 0x5A, 0x57] [0, 0] data).body = data := rfl
  rw [hbody, hl] at hbl
  have hm := @Misread.other strict [0x58, 0x59, 0x5A, 0x57] [0, 0] data ⟨fun _ _ _ _ h => (nomatch h), by rw [hbody, hl]; decide⟩
  rw [hl, show misreadSize 256 = 128 from by decide] at hm
  have hfs : framesSize [.other [0x58, 0x59, 0x5A, 0x57] [0, 0] data] = 266 := by
    simp only [framesSize, List.map_cons, List.map_nil, List.sum_cons, List.sum_nil, hbl]
    rfl
  have hg : (SFrame.other [0x58, 0x59, 0x5A, 0x57] [0, 0] (data.take 128)).bytes.length = 138 := by
    rw [SFrame.bytes_length _ (hu _)]
    show 10 + (data.take 128).length = 138
    rw [List.length_take, hl]
    rfl
  have hleft : data.drop 128 ++ [].flatMap SFrame.bytes ++ List.replicate 0 0 = [0, 0, 0, 0] ++ List.replicate 124 0 := by
    rw [hd, List.drop_replicate]; rfl
  refine ⟨_, @ReadsAs.misread strict 4 0 0 _ 0 [] _ [] _ _ [] 148 rfl rfl (by simp) hm ?_, rfl, ?_, hu _, ?_, trivial⟩
  · rw [hleft, hfs, hg, ofB_append]
    exact @Items.padding strict 4 _ _ _ (by decide)
  · show ((10 + framesSize [.other [0x58, 0x59, 0x5A, 0x57] [0, 0] data] + 0 : Nat) : Int) - ((148 : Nat) : Int) = 128
    rw [hfs]; rfl
  · rw [hbl]; decide

/-- A title of 300 letters in a version 2.4 tag. -/
example (s : List UInt8) (hl : s.length = 300) (hs : ∀ c ∈ s, c = 0x41) :
    (SFrame.text [0x54, 0x49, 0x54, 0x32] [0, 0] (.latin s)).Big ∧ (SFrame.text [0x54, 0x49, 0x54, 0x32] [0, 0] (.latin s)).WF := by
  refine ⟨⟨fun _ _ _ _ h => (nomatch h), ?_⟩, rfl, rfl, rfl, ?_⟩
  · simp [SFrame.body, Str.bytes, Str.content, hl]; omega
  · refine ⟨fun h => absurd (hs 0 h) (by decide), ?_⟩
    cases s with
    | nil => simp at hl
    | cons c s =>
      have := hs c (by simp)
      subst this
      simp [Str.bom]

end Id3.Props
