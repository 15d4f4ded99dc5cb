import Verif.Spec.Again
import Verif.Props.Amount
import Verif.Props.Truthful
import Verif.Props.V24
import Verif.Props.Misread

/-!
# Reading again what any program has written (C90)
-/

namespace Id3.Props

open Id3 Id3.Spec

variable [p : Platform]

/-! ## The header of a tag -/

theorem tag_parse_version (cs : CharStream) (t : Tag) (h : Tag_parse cs = .ok (some t)) :
    t.header.major_version = 3 ∨ t.header.major_version = 4 := by
  unfold Tag_parse at h
  obtain ⟨⟨hd, c⟩, h1, h⟩ := Res.bind_eq_ok.mp h
  cases hd with
  | none => cases h
  | some hd =>
    dsimp only at h
    obtain ⟨fr, pad, rfl⟩ : ∃ fr pad, t = { ID3v2_Tag_new (some hd) 0 with frames := fr, padding_size := pad } := by
      split at h
      · cases h
      · split at h <;>
        · obtain ⟨c1, -, h⟩ := Res.bind_eq_ok.mp h
          obtain ⟨⟨fr, c2⟩, h2, h⟩ := Res.bind_eq_ok.mp h
          obtain ⟨pad, -, h⟩ := Res.bind_eq_ok.mp h
          cases h
          exact ⟨fr, pad, rfl⟩
    show hd.major_version = 3 ∨ hd.major_version = 4
    unfold TagHeader_parse at h1
    obtain ⟨b, -, h1⟩ := Res.bind_eq_ok.mp h1
    split at h1
    · cases h1
    · obtain ⟨_, -, h1⟩ := Res.bind_eq_ok.mp h1
      obtain ⟨⟨mj, c3⟩, -, h1⟩ := Res.bind_eq_ok.mp h1
      obtain ⟨⟨mi, c4⟩, -, h1⟩ := Res.bind_eq_ok.mp h1
      dsimp only at h1
      split at h1
      · cases h1
      next hn =>
        obtain ⟨⟨fl, c5⟩, -, h1⟩ := Res.bind_eq_ok.mp h1
        obtain ⟨⟨d, c6⟩, -, h1⟩ := Res.bind_eq_ok.mp h1
        obtain ⟨_, -, h1⟩ := Res.bind_eq_ok.mp h1
        have hv : mj = 3 ∨ mj = 4 := by
          by_cases h3 : mj = 3
          · exact .inl h3
          · exact .inr (Decidable.not_not.mp fun h4 => hn ⟨h3, h4⟩)
        split at h1
        · obtain ⟨_, -, h1⟩ := Res.bind_eq_ok.mp h1
          cases h1
          rcases hv with rfl | rfl
          · exact .inl rfl
          · exact .inr rfl
        · cases h1
          rcases hv with rfl | rfl
          · exact .inl rfl
          · exact .inr rfl

omit p in
theorem set_version (t t' : Tag) (id : Bytes) (f : Frame) (h : Tag_set_frame t id f = .ok t') :
    t'.header.major_version = t.header.major_version := by
  unfold Tag_set_frame at h
  obtain ⟨r, -, h⟩ := Res.bind_eq_ok.mp h
  cases r with
  | none => cases h; rfl
  | some p =>
    obtain ⟨i, e⟩ := p
    obtain ⟨d, -, h⟩ := Res.bind_eq_ok.mp h
    obtain ⟨_, -, h⟩ := Res.bind_eq_ok.mp h
    cases h
    rfl

/-- The version of a tag is one that the library knows. -/
theorem reached_version (t : Tag) (h : Reached UsualStart t) :
    t.header.major_version = 3 ∨ t.header.major_version = 4 := by
  induction h with
  | start h =>
    cases h with
    | new => exact .inl rfl
    | read h =>
      unfold ID3v2_read_tag_from_buffer at h
      obtain ⟨cs, -, h⟩ := Res.bind_eq_ok.mp h
      exact tag_parse_version _ _ h
    | @readFile file _ h =>
      unfold ID3v2_read_tag at h
      obtain ⟨hd, -, h⟩ := Res.bind_eq_ok.mp h
      cases hd with
      | none => cases h
      | some hd =>
        cases file with
        | none => cases h
        | some c =>
          unfold ID3v2_read_tag_from_buffer at h
          obtain ⟨cs, -, h⟩ := Res.bind_eq_ok.mp h
          exact tag_parse_version _ _ h
  | setText _ h ih =>
    obtain ⟨f, h1, h⟩ := Res.bind_eq_ok.mp h
    rw [set_version _ _ _ _ h]; exact ih
  | setComment _ h ih =>
    obtain ⟨f, h1, h⟩ := Res.bind_eq_ok.mp h
    rw [set_version _ _ _ _ h]; exact ih
  | addComment _ h ih =>
    obtain ⟨f, h1, h⟩ := Res.bind_eq_ok.mp h
    cases h
    exact ih
  | setApic _ h ih =>
    obtain ⟨f, h1, h⟩ := Res.bind_eq_ok.mp h
    rw [set_version _ _ _ _ h]; exact ih
  | addApic _ h ih =>
    obtain ⟨f, h1, h⟩ := Res.bind_eq_ok.mp h
    cases h
    exact ih
  | delete _ h ih =>
    obtain ⟨⟨r, l⟩, h1, h⟩ := Res.bind_eq_ok.mp h
    cases r with
    | none => cases h
    | some d =>
      obtain ⟨n, -, h⟩ := Res.bind_eq_ok.mp h
      obtain ⟨_, -, h⟩ := Res.bind_eq_ok.mp h
      cases h
      exact ih
  | @deleteAt t t' id n _ h ih =>
    obtain ⟨m, -, h⟩ := Res.bind_eq_ok.mp h
    cases m with
    | nil =>
      dsimp only at h
      split at h <;> (cases h; exact ih)
    | cons x xs =>
      dsimp only at h
      split at h
      · cases h; exact ih
      · split at h
        · cases h; exact ih
        · obtain ⟨_, -, h⟩ := Res.bind_eq_ok.mp h
          cases h
          exact ih
  | @write t t' file file' _ h ih =>
    unfold ID3v2_write_tag at h
    obtain ⟨_, -, h⟩ := Res.bind_eq_ok.mp h
    obtain ⟨_, -, h⟩ := Res.bind_eq_ok.mp h
    obtain ⟨_, h1, h⟩ := Res.bind_eq_ok.mp h
    obtain ⟨_, -, h⟩ := Res.bind_eq_ok.mp h
    obtain ⟨_, -, h⟩ := Res.bind_eq_ok.mp h
    cases file with
    | none => cases h
    | some c => cases h; exact ih

/-! ## The frames of a tag -/

/-- A string that the library has measured and copied. -/
theorem copied_str {s d : Bytes} {n : Int} (h1 : ID3v2_strlent s = .ok n) (h2 : memcpySrc s n = .ok d) :
    ∃ str : Str, d = ofB str.bytes ∧ str.WF ∧ n = str.bytes.length ∧ string_has_bom s = .ok (decide (str.encoding = 1)) := by
  unfold ID3v2_strlent at h1
  obtain ⟨b, hb, h1⟩ := Res.bind_eq_ok.mp h1
  obtain ⟨m, hm, h1⟩ := Res.bind_eq_ok.mp h1
  obtain ⟨str, rest, e, hwf, hn, hbom⟩ := strlen_inv s m hm
  obtain ⟨e1, -⟩ := ck_inv h1
  have hb' := hb
  rw [hbom] at hb'
  cases hb'
  have hlen : n = str.bytes.length := by
    rw [Str.bytes_length]
    cases str <;> simp [Str.encoding, Str.terminator] at e1 ⊢ <;> omega
  refine ⟨str, ?_, hwf, hlen, hbom⟩
  rw [(memcpySrc_inv h2).2.1, e, hlen]
  simp

omit p in
theorem known_bytes (l : Bytes) (h : none ∉ l) : ∃ b : List UInt8, l = ofB b := by
  induction l with
  | nil => exact ⟨[], rfl⟩
  | cons x l ih =>
    simp only [List.mem_cons, not_or] at h
    obtain ⟨b, rfl⟩ := ih h.2
    cases x with
    | none => exact absurd rfl h.1
    | some x => exact ⟨x :: b, rfl⟩

theorem usable_of {str : Str} (hw : str.WF) (hl : str.bytes.length ≤ 2147483647)
    (h : Platform.memcmpLenient = true ∨ ofB str.bytes ≠ ofB [0]) : str.Usable := by
  refine ⟨hw, hl, ?_⟩
  rcases h with h | h
  · exact .inl h
  · right
    rintro rfl
    exact h rfl

omit p in
theorem encoding_if (str : Str) : (if decide (str.encoding = 1) = true then (1 : UInt8) else 0) = str.encoding := by
  cases str <;> simp [Str.encoding]

/-- A frame that the library made and can write is one that the specification knows. -/
theorem made_sframe {f : Frame} (h : Made f) (ht : Typed f) (hw : WritableFrame f) (hk : Determined f)
    (hb : Platform.memcmpLenient = true ∨ ¬ BareText f) : ∃ g : SFrame, g.Usable ∧ g.toFrame = f := by
  obtain ⟨hw0, hw1, hw2⟩ := hw
  unfold Determined frameBytes at hk
  simp only [List.mem_append, not_or] at hk
  obtain ⟨⟨⟨hk1, -⟩, hk2⟩, hk3⟩ := hk
  cases h with
  | @text id flags text f h =>
    unfold TextFrame_new at h
    obtain ⟨d, hd, h⟩ := Res.bind_eq_ok.mp h
    obtain ⟨n, hn, h⟩ := Res.bind_eq_ok.mp h
    obtain ⟨hh, e, h⟩ := Res.bind_eq_ok.mp h
    cases h
    unfold TextFrameData_new at hd
    obtain ⟨b, hbom, hd⟩ := Res.bind_eq_ok.mp hd
    obtain ⟨m, hm, hd⟩ := Res.bind_eq_ok.mp hd
    obtain ⟨k, hk, hd⟩ := Res.bind_eq_ok.mp hd
    obtain ⟨t, htx, hd⟩ := Res.bind_eq_ok.mp hd
    cases hd
    obtain ⟨h1, h2, h3⟩ := frameHeader_new_inv e
    obtain ⟨str, rest, es, hwf, hm', hbom'⟩ := strlen_inv text m hm
    rw [hbom] at hbom'
    cases hbom'
    have hk' : k = str.bytes.length := by
      rw [(ck_inv hk).1, hm', Str.bytes_length]
      cases str <;> simp [Str.encoding, Str.terminator]
    have ht' : t = ofB str.bytes := by
      rw [(memcpySrc_inv htx).2.1, es, hk']
      simp
    obtain ⟨i, ei⟩ := known_bytes _ hk1
    obtain ⟨fl, efl⟩ := known_bytes _ hk2
    dsimp only at ei efl hw0 hw1
    have hs4 := (ck_inv hn).1
    dsimp only at hs4
    refine ⟨.text i fl str, ⟨⟨?_, ?_, ?_, hwf⟩, ?_, usable_of hwf (by omega) ?_⟩, ?_⟩
    · rw [ei] at h1; simpa using h1
    · have : hh.id.head? = some (some 0x54) := ht
      rw [ei] at this
      cases i with
      | nil => cases this
      | cons x i => simpa [ofB] using this
    · rw [efl] at h2; simpa using h2
    · simp [SFrame.bytes, SFrame.id, SFrame.flags, SFrame.body, be32]
      rw [ei] at h1
      rw [efl] at h2
      simp at h1 h2
      omega
    · rcases hb with hb | hb
      · exact .inl hb
      · refine .inr fun e => hb ?_
        show t = _
        rw [ht', e]
    · obtain ⟨hid, hsz, hfl⟩ := hh
      dsimp only at ei efl h3
      subst ei efl h3 ht' hk'
      simp only [SFrame.toFrame, SFrame.id, SFrame.flags, SFrame.body, encoding_if]
      rw [hs4]
      simp
      omega
  | @comment flags lang desc text f h =>
    unfold CommentFrame_new at h
    obtain ⟨d, hd, h⟩ := Res.bind_eq_ok.mp h
    obtain ⟨k, hk, h⟩ := Res.bind_eq_ok.mp h
    obtain ⟨n, hn, h⟩ := Res.bind_eq_ok.mp h
    obtain ⟨hh, e, h⟩ := Res.bind_eq_ok.mp h
    cases h
    unfold CommentFrameData_new at hd
    obtain ⟨b, hbom, hd⟩ := Res.bind_eq_ok.mp hd
    obtain ⟨m, hm, hd⟩ := Res.bind_eq_ok.mp hd
    obtain ⟨k', hk', hd⟩ := Res.bind_eq_ok.mp hd
    obtain ⟨l, hl, hd⟩ := Res.bind_eq_ok.mp hd
    obtain ⟨c, hc, hd⟩ := Res.bind_eq_ok.mp hd
    obtain ⟨s, hs, hd⟩ := Res.bind_eq_ok.mp hd
    cases hd
    rw [hk] at hk'
    cases hk'
    obtain ⟨h1, h2, h3⟩ := frameHeader_new_inv e
    have h4 := (ck_inv hn).1
    have h5 := (memcpySrc_inv hl).2.2
    obtain ⟨txt, rfl, hwt, rfl, hbt⟩ := copied_str hm hc
    obtain ⟨dsc, rfl, hwd, rfl, -⟩ := copied_str hk hs
    rw [hbom] at hbt
    cases hbt
    simp only [bodyOf, List.mem_cons, List.mem_append, not_or] at hk3
    obtain ⟨lng, el⟩ := known_bytes _ hk3.1.1.2
    obtain ⟨fl, efl⟩ := known_bytes _ hk2
    dsimp only at el efl hw0 hw1 h4
    subst el
    have hl3 : lng.length = 3 := by simp at h5; omega
    have hf2 : fl.length = 2 := by rw [efl] at h2; simpa using h2
    have hid : hh.id = ofB commId := by
      unfold FrameHeader_new at e
      obtain ⟨i, hi, e⟩ := Res.bind_eq_ok.mp e
      obtain ⟨_, -, e⟩ := Res.bind_eq_ok.mp e
      cases e
      exact (memcpySrc_inv hi).2.1
    refine ⟨.comment fl lng dsc txt, ⟨⟨hf2, hl3, hwd, hwt⟩, ?_, usable_of hwd (by omega) ?_, usable_of hwt (by omega) ?_⟩, ?_⟩
    · simp [SFrame.bytes, SFrame.id, SFrame.flags, SFrame.body, be32, commId]
      omega
    · rcases hw2 with hb | hb
      · exact .inl hb
      · exact .inr hb
    · rcases hb with hb | hb
      · exact .inl hb
      · exact .inr hb
    · obtain ⟨i, sz, f⟩ := hh
      dsimp only at hid efl h3
      subst hid efl h3 h4
      simp only [SFrame.toFrame, SFrame.id, SFrame.flags, SFrame.body, encoding_if]
      simp
      omega
  | @apic flags desc mime data pt n f h =>
    unfold ApicFrame_new at h
    obtain ⟨d, hd, h⟩ := Res.bind_eq_ok.mp h
    obtain ⟨k, hk, h⟩ := Res.bind_eq_ok.mp h
    obtain ⟨m, hm, h⟩ := Res.bind_eq_ok.mp h
    obtain ⟨n', hn, h⟩ := Res.bind_eq_ok.mp h
    obtain ⟨hh, e, h⟩ := Res.bind_eq_ok.mp h
    cases h
    unfold ApicFrameData_new at hd
    obtain ⟨b, hbom, hd⟩ := Res.bind_eq_ok.mp hd
    obtain ⟨k', hk', hd⟩ := Res.bind_eq_ok.mp hd
    obtain ⟨s, hs, hd⟩ := Res.bind_eq_ok.mp hd
    obtain ⟨m', hm', hd⟩ := Res.bind_eq_ok.mp hd
    obtain ⟨c, hc, hd⟩ := Res.bind_eq_ok.mp hd
    obtain ⟨q, hq, hd⟩ := Res.bind_eq_ok.mp hd
    cases hd
    rw [hk] at hk'
    cases hk'
    rw [hm] at hm'
    cases hm'
    obtain ⟨h1, h2, h3⟩ := frameHeader_new_inv e
    have h4 := (ck_inv hn).1
    have h5 := (memcpySrc_inv hq).2.2
    obtain ⟨mim, rfl, hwm, rfl, -⟩ := copied_str hm hc
    obtain ⟨dsc, rfl, hwd, rfl, hbt⟩ := copied_str hk hs
    rw [hbom] at hbt
    cases hbt
    simp only [bodyOf, List.mem_cons, List.mem_append, not_or] at hk3
    obtain ⟨pic, el⟩ := known_bytes _ hk3.2
    obtain ⟨fl, efl⟩ := known_bytes _ hk2
    dsimp only at el efl hw0 hw1 h4
    subst el
    have hf2 : fl.length = 2 := by rw [efl] at h2; simpa using h2
    have hid : hh.id = ofB apicId := by
      unfold FrameHeader_new at e
      obtain ⟨i, hi, e⟩ := Res.bind_eq_ok.mp e
      obtain ⟨_, -, e⟩ := Res.bind_eq_ok.mp e
      cases e
      exact (memcpySrc_inv hi).2.1
    have hpl : (pic.length : Int) = n := by simpa using h5
    have hus : (Platform.memcmpLenient = true ∨ ofB mim.bytes ≠ ofB [0]) ∧
        (Platform.memcmpLenient = true ∨ ofB dsc.bytes ≠ ofB [0]) := by
      rcases hw2 with hb | hb
      · exact ⟨.inl hb, .inl hb⟩
      · exact ⟨.inr fun e => hb (.inl e), .inr fun e => hb (.inr e)⟩
    refine ⟨.apic fl mim pt dsc pic, ⟨⟨hf2, hwm, hwd⟩, ?_, usable_of hwm (by omega) hus.1, usable_of hwd (by omega) hus.2⟩, ?_⟩
    · simp [SFrame.bytes, SFrame.id, SFrame.flags, SFrame.body, be32, apicId]
      omega
    · obtain ⟨i, sz, f⟩ := hh
      dsimp only at hid efl h3
      subst hid efl h3 h4 hpl
      simp only [SFrame.toFrame, SFrame.id, SFrame.flags, SFrame.body, encoding_if]
      simp
      omega
  | @raw h d h1 h2 h3 h4 h5 h6 h7 =>
    obtain ⟨i, ei⟩ := known_bytes _ hk1
    obtain ⟨fl, efl⟩ := known_bytes _ hk2
    obtain ⟨dat, ed⟩ := known_bytes _ hk3
    dsimp only [bodyOf] at ei efl ed hw0 hw1
    have hlen : dat.length = h.size.toNat := by
      have := congrArg List.length ed
      unfold intoArray at this
      simp at this
      omega
    obtain ⟨hT, hC, hA⟩ := ht
    dsimp only at hT hC hA
    rw [ei] at h1 hT hC hA h7
    rw [efl] at h2
    simp only [ofB_length] at h1 h2
    have hd : ∀ x : UInt8, (ofB i).head? ≠ some (some x) → i.head? ≠ some x := by
      intro x hx e
      cases i with
      | nil => cases e
      | cons y i => cases e; exact hx rfl
    refine ⟨.other i fl dat, ⟨⟨h1, hd _ hT, hd _ hC, hd _ hA, fun e => h7 (by rw [e]), h2⟩, ?_, trivial⟩, ?_⟩
    · simp [SFrame.bytes, SFrame.id, SFrame.flags, SFrame.body, be32]
      omega
    · obtain ⟨a, sz, f⟩ := h
      dsimp only at ei efl ed hlen hw0
      subst ei efl
      simp only [SFrame.toFrame, SFrame.id, SFrame.flags, SFrame.body, ed]
      simp
      omega

omit p in
theorem toFrame_bytes (g : SFrame) : frameBytes g.toFrame = ofB g.bytes := by
  have hb : bodyOf g.toFrame.data = ofB g.body := by
    cases g <;> simp [SFrame.toFrame, SFrame.body, bodyOf]
  unfold frameBytes
  rw [hb]
  show ofB g.id ++ ofB (be32 (g.body.length : Int).toNat) ++ ofB g.flags ++ ofB g.body = _
  rw [Int.toNat_natCast]
  simp [SFrame.bytes]

theorem reads_again_iff (v : UInt8) (g : SFrame) : ReadsAgain v g.toFrame ↔
    g.defect = none ∧ (v = 4 → (∃ fl lang desc txt, g = .comment fl lang desc txt) ∨ g.body.length < 256) := by
  cases g with
  | text i fl s =>
    simp only [ReadsAgain, SFrame.toFrame, SFrame.defect, ofB_length]
    constructor
    · rintro ⟨h1, h2⟩
      exact ⟨by rw [if_neg (by omega)], fun h => .inr (by have := h2 h; omega)⟩
    · rintro ⟨h1, h2⟩
      refine ⟨?_, fun h => ?_⟩
      · split at h1
        · cases h1
        · omega
      · rcases h2 h with ⟨_, _, _, _, h⟩ | h
        · cases h
        · omega
  | comment fl l d t =>
    simp only [ReadsAgain, SFrame.toFrame, SFrame.defect, ofB_length]
    constructor
    · rintro ⟨h1, h2⟩
      exact ⟨by rw [if_neg (by omega)], fun _ => .inl ⟨_, _, _, _, rfl⟩⟩
    · rintro ⟨h1, -⟩
      split at h1
      · cases h1
      · omega
  | apic fl m pt d pic =>
    simp only [ReadsAgain, SFrame.toFrame, SFrame.defect, ofB_length]
    have hne : ofB pic ≠ [] ↔ pic ≠ [] := by cases pic <;> simp [ofB]
    rw [hne]
    constructor
    · rintro ⟨h1, h2, h3, h4, h5⟩
      exact ⟨by rw [if_neg (by omega), if_neg h3, if_neg (by omega)], fun h => .inr (by have := h5 h; omega)⟩
    · rintro ⟨h1, h2⟩
      split at h1
      · cases h1
      · split at h1
        · cases h1
        next h3 =>
          split at h1
          · cases h1
          · refine ⟨by omega, by omega, h3, by omega, fun h => ?_⟩
            rcases h2 h with ⟨_, _, _, _, h⟩ | h
            · cases h
            · omega
  | other i fl d =>
    simp only [ReadsAgain, SFrame.toFrame, SFrame.defect]
    constructor
    · intro h2
      exact ⟨trivial, fun h => .inr (by have := h2 h; omega)⟩
    · rintro ⟨-, h2⟩ h
      rcases h2 h with ⟨_, _, _, _, h⟩ | h
      · cases h
      · omega

omit p in
theorem nodes_toFrame (gs : List SFrame) : Spec.nodes (gs.map SFrame.toFrame) = toFrameList gs := by
  cases gs with
  | nil => rfl
  | cons g gs => simp [Spec.nodes, toFrameList]

/-- The list of a tag that was read consists of its frames. -/
theorem read_nodes (c : List UInt8) (u : Tag) (h : ID3v2_read_tag (some (ofB c)) = .ok (some u)) :
    u.frames = Spec.nodes (framesOf u) := by
  obtain ⟨_, _, _, _, _, _, _, fs, _, -, -, -, -, -, rfl⟩ := (C67_file c u).mp h
  simp only [framesOf, framesOf_nodes]

theorem all_sframes (fs : List Frame) (h : ∀ f ∈ fs, ∃ g : SFrame, g.Usable ∧ g.toFrame = f) :
    ∃ gs : List SFrame, (∀ g ∈ gs, g.Usable) ∧ gs.map SFrame.toFrame = fs := by
  induction fs with
  | nil => exact ⟨[], by simp, rfl⟩
  | cons f fs ih =>
    obtain ⟨g, h1, h2⟩ := h f List.mem_cons_self
    obtain ⟨gs, h3, h4⟩ := ih fun x hx => h x (List.mem_cons_of_mem _ hx)
    refine ⟨g :: gs, ?_, by rw [List.map_cons, h2, h4]⟩
    intro x hx
    rcases List.mem_cons.mp hx with rfl | hx
    · exact h1
    · exact h3 x hx

/-- What any program has written, in the terms of the specification. -/
theorem written_sframes (t : Tag) (h : Reached UsualStart t) (contents : List UInt8) (file : File) (t' : Tag)
    (hw : ID3v2_write_tag (some (ofB contents)) t = .ok (file, t')) (hs : t.header.tag_size < 2 ^ 28)
    (hk : ∀ f ∈ writtenFrames t.frames, Determined f)
    (hb : Platform.memcmpLenient = true ∨ ∀ f ∈ writtenFrames t.frames, ¬ BareText f) :
    ∃ (gs : List SFrame) (zeros : Nat), (∀ g ∈ gs, g.Usable) ∧ gs.map SFrame.toFrame = writtenFrames t.frames ∧
      framesSize gs = frameBytesTotal (writtenFrames t.frames) ∧ framesSize gs + zeros = t.header.tag_size ∧
      file = some (ofB (outBytes t.header.major_version t.header.minor_version t.header.flags gs zeros ++ audio contents)) := by
  obtain ⟨header, zeros, e1, e2, e3, e4⟩ := written_exactly t h contents file t' hw
  obtain ⟨⟨-, hf⟩, -⟩ := (written_iff_fits t h contents).mp ⟨_, hw⟩
  have hm := reached_made UsualStart usual_any t h
  obtain ⟨gs, g1, g2⟩ := all_sframes (writtenFrames t.frames) fun f hfm => by
    rcases hf with hf | ⟨fs, -, hfs, hf, -⟩
    · exfalso
      revert hfm
      unfold writtenFrames
      split
      · simp
      next hn =>
        cases hl : t.frames with
        | nil => simp
        | cons x l =>
          rw [hl] at hf
          cases hf
          exact absurd hl (hn l)
    · have hmem : f ∈ fs := by
        have : writtenFrames t.frames = fs := by
          rw [hfs]
          cases fs with
          | nil => rfl
          | cons f fs => show (List.map some (f :: fs)).filterMap id = _; simp
        rwa [this] at hfm
      have hmf : some f ∈ t.frames := by rw [hfs]; exact List.mem_map_of_mem hmem
      refine made_sframe (hm f hmf) (hf f hmem).1 (hf f hmem).2 (hk f hfm) ?_
      rcases hb with hb | hb
      · exact .inl hb
      · exact .inr (hb f hfm)
  have hfl : (writtenFrames t.frames).flatMap frameBytes = ofB (gs.flatMap SFrame.bytes) := by
    rw [← g2]
    clear g1 g2
    induction gs with
    | nil => rfl
    | cons g gs ih => simp only [List.map_cons, List.flatMap_cons, ih, toFrame_bytes, ofB_append]
  have hsz : framesSize gs = frameBytesTotal (writtenFrames t.frames) := by
    rw [← flatMap_frameBytes_length, hfl, ofB_length, flatMap_bytes_length]
  refine ⟨gs, zeros, g1, g2, hsz, by omega, ?_⟩
  rw [e1, hfl, e3 hs]
  unfold outBytes headerBytes
  rw [show framesSize gs + zeros = t.header.tag_size by omega]
  simp [ofB]

/-- **C90**: whatever a program has done with a tag (new or read from any bytes, any calls with any arguments), if it can be
written, to any file, then the same frames are read from that file if and only if every frame fits the arrays of the parser
(and, for version 2.4, has less than 256 bytes or is a comment) and the last one is not an empty one at the very end. -/
theorem C90_partial (t : Tag) (h : Reached UsualStart t) (contents : List UInt8) (file : File) (t' : Tag)
    (hw : ID3v2_write_tag (some (ofB contents)) t = .ok (file, t')) (hs : t.header.tag_size < 2 ^ 28)
    (hflag : t.header.flags &&& 0x40 = 0) (hk : ∀ f ∈ writtenFrames t.frames, Determined f)
    (hb : Platform.memcmpLenient = true ∨ ∀ f ∈ writtenFrames t.frames, ¬ BareText f) :
    (∃ u, ID3v2_read_tag file = .ok (some u) ∧ framesOf u = writtenFrames t.frames) ↔
      (∀ f ∈ writtenFrames t.frames, ReadsAgain t.header.major_version f) ∧ ¬ EmptyAtEnd t := by
  obtain ⟨gs, zeros, g1, g2, g3, g4, rfl⟩ := written_sframes t h contents file t' hw hs hk hb
  have hv := reached_version t h
  have hr := read_file_iff t.header.major_version t.header.minor_version t.header.flags gs zeros (audio contents) hv hflag g1
    (by omega)
  have e1 : (∃ u, ID3v2_read_tag (some (ofB (outBytes t.header.major_version t.header.minor_version t.header.flags gs zeros ++
      audio contents))) = .ok (some u) ∧ framesOf u = writtenFrames t.frames) ↔
      ∃ u, ID3v2_read_tag (some (ofB (outBytes t.header.major_version t.header.minor_version t.header.flags gs zeros ++
      audio contents))) = .ok (some u) ∧ u.frames = toFrameList gs := by
    constructor
    · rintro ⟨u, h1, h2⟩
      exact ⟨u, h1, by rw [read_nodes _ u h1, h2, ← g2, nodes_toFrame]⟩
    · rintro ⟨u, h1, h2⟩
      exact ⟨u, h1, by rw [framesOf, h2, ← nodes_toFrame, framesOf_nodes, g2]⟩
  rw [e1, hr]
  have e2 : LastLost gs zeros ↔ EmptyAtEnd t := by
    unfold LastLost EmptyAtEnd
    rw [← g2, List.getLast?_map]
    constructor
    · rintro ⟨h0, g, hg, hb⟩
      refine ⟨by rw [g2]; omega, g.toFrame, by rw [hg]; rfl, ?_⟩
      simp [SFrame.toFrame, hb]
    · rintro ⟨h0, f, hf, hz⟩
      rw [g2] at h0
      cases hg : gs.getLast? with
      | none => rw [hg] at hf; cases hf
      | some g =>
        rw [hg] at hf
        cases hf
        refine ⟨by omega, g, rfl, ?_⟩
        simpa [SFrame.toFrame] using hz
  rw [e2]
  have e3 : (∀ f ∈ writtenFrames t.frames, ReadsAgain t.header.major_version f) ↔
      (∀ g ∈ gs, g.defect = none) ∧ (t.header.major_version = 4 →
        ∀ g ∈ gs, (∃ fl lang desc txt, g = .comment fl lang desc txt) ∨ g.body.length < 256) := by
    rw [← g2]
    simp only [List.mem_map, forall_exists_index, and_imp, forall_apply_eq_imp_iff₂, reads_again_iff]
    exact ⟨fun H => ⟨fun g hg => (H g hg).1, fun h4 g hg => (H g hg).2 h4⟩, fun H g hg => ⟨H.1 g hg, fun h4 => H.2 h4 g hg⟩⟩
  rw [e3]
  exact ⟨fun H => ⟨⟨H.1, H.2.2⟩, H.2.1⟩, fun H => ⟨H.1.1, H.2, H.1.2⟩⟩

/-! ## Tags with the flag of an extended header -/

omit p in
theorem looseSize_head (a : UInt8) (x : List UInt8) (hx : x.length = 3) : a.toNat * 2 ^ 21 ≤ looseSize (a :: x) := by
  match x, hx with
  | [b, c, d], _ => exact Nat.right_le_or

/-- A tag that was read with the flag of an extended header keeps the flag, but no extended header is written: the id of the
first frame is then taken for its size, and no frame is found any more. -/
theorem extended_flag_loses_frames (t : Tag) (h : Reached UsualStart t) (contents : List UInt8) (file : File) (t' : Tag)
    (hw : ID3v2_write_tag (some (ofB contents)) t = .ok (file, t')) (hs : t.header.tag_size < 2 ^ 26)
    (hflag : t.header.flags &&& 0x40 = 0x40) (hk : ∀ f ∈ writtenFrames t.frames, Determined f)
    (hb : Platform.memcmpLenient = true ∨ ∀ f ∈ writtenFrames t.frames, ¬ BareText f)
    (f : Frame) (fs : List Frame) (hf : writtenFrames t.frames = f :: fs) (c : UInt8)
    (hc : f.header.id.head? = some (some c)) (hc' : 0x20 ≤ c) :
    ∃ u, ID3v2_read_tag file = .ok (some u) ∧ framesOf u = [] := by
  obtain ⟨gs, zeros, g1, g2, g3, g4, rfl⟩ := written_sframes t h contents file t' hw (by omega) hk hb
  have hv := reached_version t h
  rw [hf] at g2
  cases gs with
  | nil => cases g2
  | cons g gs =>
    rw [List.map_cons, List.cons.injEq] at g2
    obtain ⟨rfl, -⟩ := g2
    have hid : g.id.length = 4 := by
      have := (g1 g List.mem_cons_self).1
      cases g with
      | text => exact this.1
      | comment => rfl
      | apic => rfl
      | other => exact this.1
    obtain ⟨x, hx, hx'⟩ : ∃ x, x.length = 3 ∧ g.id = c :: x := by
      cases hg : g.id with
      | nil => rw [hg] at hid; cases hid
      | cons y x =>
        have : (ofB g.id).head? = some (some c) := hc
        rw [hg] at this hid
        cases this
        exact ⟨x, by simpa using hid, rfl⟩
    have hbig : 2 ^ 26 ≤ looseSize g.id := by
      have h1 := looseSize_head c x hx
      have h2 : (0x20 : UInt8).toNat ≤ c.toNat := UInt8.le_iff_toNat_le.mp hc'
      rw [hx']
      have : (0x20 : UInt8).toNat = 32 := rfl
      omega
    generalize hA : audio contents = A
    generalize hV : t.header.major_version = v at *
    generalize hM : t.header.minor_version = mi at *
    generalize hF : t.header.flags = fl at *
    have hlen : tagLength (outBytes v mi fl (g :: gs) zeros ++ A) = 10 + (framesSize (g :: gs) + zeros) := by
      unfold outBytes
      rw [List.append_assoc, List.append_assoc]
      exact tagLength_header _ _ _ _ _ hv (by omega)
    have hol : (outBytes v mi fl (g :: gs) zeros).length = 10 + (framesSize (g :: gs) + zeros) := by
      unfold outBytes
      rw [List.length_append, List.length_append, flatMap_bytes_length, List.length_replicate]
      simp [tagHeaderBytes, synchsafe]
      omega
    have hpad : padTo (tagLength (outBytes v mi fl (g :: gs) zeros ++ A)) (ofB (outBytes v mi fl (g :: gs) zeros ++ A)) =
        ofB (outBytes v mi fl (g :: gs) zeros) := by
      unfold padTo
      rw [hlen, ← hol, ofB_append, ← ofB_length (outBytes v mi fl (g :: gs) zeros), List.take_left]
      simp
    obtain ⟨u, hu, hu'⟩ : ∃ u, TagIn (ofB (outBytes v mi fl (g :: gs) zeros)) u ∧ framesOf u = [] := by
      refine ⟨_, ⟨v, mi, fl, synchsafe (framesSize (g :: gs) + zeros),
        ofB ((g :: gs).flatMap SFrame.bytes ++ List.replicate zeros 0), looseSize g.id, looseSize g.id, [], looseSize g.id, hv,
        rfl, ?_, ?_, .stop _ _ ?_, rfl⟩, rfl⟩
      · simp [outBytes, tagHeaderBytes]
      · rw [if_pos hflag]
        refine ⟨g.id, hid, ?_, rfl, ?_⟩
        · rw [ofB_take, List.flatMap_cons]
          congr 1
          simp only [SFrame.bytes, List.append_assoc]
          rw [← hid, List.take_left]
        · rw [if_neg (by omega)]
      · rw [looseSize_synchsafe _ (by omega)]
        omega
    exact ⟨u, (C67_file _ _).mpr (by rw [hpad]; exact hu), hu'⟩

/-- The claim: what is written is read again. -/
def C90_claim : Prop :=
  ∀ (t : Tag) (contents : List UInt8) (file : File) (t' : Tag), Reached UsualStart t →
    ID3v2_write_tag (some (ofB contents)) t = .ok (file, t') →
    ∃ u, ID3v2_read_tag file = .ok (some u) ∧ framesOf u = writtenFrames t.frames

/-- A title after an empty extended header. -/
def flaggedTag : List UInt8 :=
  [0x49, 0x44, 0x33, 3, 0, 0x40, 0, 0, 0, 40] ++ [0, 0, 0, 0] ++ [0x54, 0x49, 0x54, 0x32, 0, 0, 0, 3, 0, 0, 0, 0x41, 0] ++
    List.replicate 23 0

def flaggedRead : Tag :=
  { header := { identifier := ofB [0x49, 0x44, 0x33], major_version := 3, minor_version := 0, flags := 0x40,
                tag_size := 40, extended_header_size := some 0 }
    frames := [some (SFrame.text [0x54, 0x49, 0x54, 0x32] [0, 0] (.latin [0x41])).toFrame]
    padding_size := 23 }

omit p in
theorem flagged_read : @ID3v2_read_tag strict (some (ofB flaggedTag)) = .ok (some flaggedRead) := by decide +kernel

omit p in
theorem flagged_reached : @Reached strict (@UsualStart strict) flaggedRead :=
  @Reached.start strict _ _ (@UsualStart.readFile strict _ _ flagged_read)

omit p in
theorem flagged_written : ∃ file t', @ID3v2_write_tag strict (some (ofB flaggedTag)) flaggedRead = .ok (file, t') := by
  obtain ⟨⟨file, t'⟩, h⟩ := (@written_iff_fits strict flaggedRead flagged_reached flaggedTag).mpr
    ⟨⟨by decide, .inr ⟨[(SFrame.text [0x54, 0x49, 0x54, 0x32] [0, 0] (.latin [0x41])).toFrame], by simp, rfl, by decide,
      by decide⟩⟩, by decide⟩
  exact ⟨file, t', h⟩

omit p in
/-- **C90** is false: reading a tag with an extended header and writing it back makes its title disappear. -/
theorem C90_false : ¬ @C90_claim strict := by
  intro h
  obtain ⟨file, t', hw⟩ := flagged_written
  obtain ⟨u, hu, e⟩ := h flaggedRead flaggedTag file t' flagged_reached hw
  obtain ⟨u', hu', e'⟩ := @extended_flag_loses_frames strict flaggedRead flagged_reached flaggedTag file t' hw (by decide)
    (by decide) (by decide) (.inr (by decide)) _ _ rfl 0x54 rfl (by decide)
  rw [hu] at hu'
  cases hu'
  rw [e] at e'
  exact absurd e' (by decide)

omit p in
/-- The title of a file with bytes after its terminator is copied to a file that has another tag. -/
theorem slack_copied : ∃ file t' u, @ID3v2_write_tag strict (some (ofB (flaggedTag ++ [0xFF, 0xFB]))) slackRead = .ok (file, t') ∧
    @ID3v2_read_tag strict file = .ok (some u) ∧ framesOf u = framesOf slackRead := by
  have hr : @Reached strict (@UsualStart strict) slackRead := @Reached.start strict _ _ (@UsualStart.read strict _ _ _
    ((@C67_buffer strict slackTag 35 (by decide) (by decide) slackRead).mpr slack_holds))
  obtain ⟨⟨file, t'⟩, hw⟩ := (@written_iff_fits strict slackRead hr (flaggedTag ++ [0xFF, 0xFB])).mpr
    ⟨⟨by decide, .inr ⟨[(SFrame.text [0x54, 0x49, 0x54, 0x32] [0, 0] (.latin [0x41])).toFrame], by simp, rfl, by decide,
      by decide⟩⟩, by decide⟩
  have he : ¬ EmptyAtEnd slackRead := fun h => absurd h.1 (by decide)
  obtain ⟨u, hu, hu'⟩ := (@C90_partial strict slackRead hr _ file t' hw (by decide) (by decide) (by decide) (.inr (by decide))).mpr
    ⟨by decide, he⟩
  exact ⟨file, t', u, hw, hu, hu'⟩

end Id3.Props
