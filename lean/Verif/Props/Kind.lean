import Verif.Spec.Start
import Verif.Props.Robust

/-!
# C48: the typed getters return frames of their type

`ID3v2_Tag_get_title_frame` and its siblings cast the frame they find to a text, comment or picture frame. The cast is
right for every tag that can be obtained through the API, whatever the files and buffers contain.
-/

namespace Id3.Props

open Id3 Spec

/-! ### The operations keep frames typed -/

theorem text_new_typed [Platform] (id fl text : Bytes) (f : Frame) (hid : id.head? = some (some 0x54))
    (h : TextFrame_new id fl text = .ok f) : Typed f := by
  obtain ⟨-, h1, d, h2⟩ := (sat_text_new id fl text).of_ok h
  unfold Typed
  rw [h2]
  show f.header.id.head? = _
  rw [h1]
  cases id with
  | nil => simp at hid
  | cons x xs => simpa using hid

theorem comment_new_typed [Platform] (fl l d c : Bytes) (f : Frame) (h : CommentFrame_new fl l d c = .ok f) : Typed f := by
  obtain ⟨h1, d, h2⟩ := (sat_comment_new fl l d c).of_ok h
  unfold Typed
  rw [h2, h1]; rfl

theorem apic_new_typed [Platform] (fl d : Bytes) (pt : UInt8) (m : Bytes) (n : Int) (p : Bytes) (f : Frame)
    (h : ApicFrame_new fl d pt m n p = .ok f) : Typed f := by
  by_cases hn : 0 ≤ n
  · obtain ⟨h1, d, h2⟩ := (sat_apic_new fl d pt m n p hn).of_ok h
    unfold Typed
    rw [h2, h1]; rfl
  · unfold ApicFrame_new ApicFrameData_new at h
    obtain ⟨x, h1, -⟩ := Res.bind_eq_ok.mp h
    obtain ⟨_, -, h1⟩ := Res.bind_eq_ok.mp h1
    obtain ⟨_, -, h1⟩ := Res.bind_eq_ok.mp h1
    obtain ⟨_, -, h1⟩ := Res.bind_eq_ok.mp h1
    obtain ⟨_, -, h1⟩ := Res.bind_eq_ok.mp h1
    obtain ⟨_, -, h1⟩ := Res.bind_eq_ok.mp h1
    obtain ⟨_, h1, -⟩ := Res.bind_eq_ok.mp h1
    unfold memcpySrc at h1
    rw [if_pos (by omega)] at h1
    cases h1

theorem mem_replace (l : FrameList) (i : Nat) (f g : Frame) (h : some g ∈ FrameList_replace_frame l i f) :
    some g ∈ l ∨ g = f := by
  induction l generalizing i with
  | nil => simp [FrameList_replace_frame] at h
  | cons x xs ih =>
    cases i with
    | zero =>
      simp only [FrameList_replace_frame, List.mem_cons, Option.some.injEq] at h
      rcases h with h | h
      · exact .inr h
      · exact .inl (List.mem_cons_of_mem _ h)
    | succ i =>
      simp only [FrameList_replace_frame, List.mem_cons] at h
      rcases h with h | h
      · exact .inl (by rw [h]; exact List.mem_cons_self)
      · rcases ih i h with h | h
        · exact .inl (List.mem_cons_of_mem _ h)
        · exact .inr h

theorem set_typed (t t' : Tag) (id : Bytes) (f : Frame) (ht : Tag.AllTyped t) (hf : Typed f)
    (h : Tag_set_frame t id f = .ok t') : Tag.AllTyped t' := by
  unfold Tag_set_frame at h
  obtain ⟨r, -, h⟩ := Res.bind_eq_ok.mp h
  cases r with
  | none =>
    cases h
    exact typed_add _ _ ht hf
  | some p =>
    obtain ⟨i, e⟩ := p
    obtain ⟨d, -, h⟩ := Res.bind_eq_ok.mp h
    obtain ⟨_, -, h⟩ := Res.bind_eq_ok.mp h
    cases h
    intro g hg
    rcases mem_replace _ _ _ _ hg with hg | rfl
    · exact ht g hg
    · exact hf

theorem mem_unlink (l : FrameList) (g : Frame) (h : some g ∈ unlinkNode l) : some g ∈ l := by
  unfold unlinkNode at h
  split at h
  · simp at h
  · exact h

theorem mem_remove_by_id (l l' : FrameList) (id : Bytes) (r : Option Frame) (g : Frame)
    (h : FrameList_remove_frame_by_id l id = .ok (r, l')) (hg : some g ∈ l') : some g ∈ l := by
  induction l generalizing l' with
  | nil => unfold FrameList_remove_frame_by_id at h; cases h; exact hg
  | cons x xs ih =>
    cases x with
    | none => unfold FrameList_remove_frame_by_id at h; cases h
    | some f =>
      unfold FrameList_remove_frame_by_id at h
      obtain ⟨b, -, h⟩ := Res.bind_eq_ok.mp h
      split at h
      · cases h
        exact List.mem_cons_of_mem _ (mem_unlink _ _ hg)
      · obtain ⟨⟨r', l''⟩, h1, h⟩ := Res.bind_eq_ok.mp h
        cases h
        rcases List.mem_cons.1 hg with hg | hg
        · rw [hg]; exact List.mem_cons_self
        · exact List.mem_cons_of_mem _ (ih l'' h1 hg)

theorem mem_remove (l : FrameList) (i : Nat) (g : Frame) (hg : some g ∈ FrameList_remove_frame l i) : some g ∈ l := by
  induction l generalizing i with
  | nil => exact hg
  | cons x xs ih =>
    cases i with
    | zero => exact List.mem_cons_of_mem _ (mem_unlink _ _ hg)
    | succ i =>
      rcases List.mem_cons.1 hg with hg | hg
      · rw [hg]; exact List.mem_cons_self
      · exact List.mem_cons_of_mem _ (ih i hg)

theorem mem_remove_null (l : FrameList) (g : Frame) (hg : some g ∈ FrameList_remove_null l) : some g ∈ l := by
  induction l with
  | nil => exact hg
  | cons x xs ih =>
    cases x with
    | none => exact List.mem_cons_of_mem _ (mem_unlink _ _ hg)
    | some f =>
      rcases List.mem_cons.1 hg with hg | hg
      · rw [hg]; exact List.mem_cons_self
      · exact List.mem_cons_of_mem _ (ih hg)

/-- All frames of all obtainable tags have the data that their id announces. -/
theorem obtainable_typed [Platform] (t : Tag) (h : Obtainable t) : Tag.AllTyped t := by
  induction h with
  | new h p => intro f hf; simp [ID3v2_Tag_new, FrameList_new] at hf
  | @read buffer n t h =>
    by_cases hn : 0 ≤ n
    · exact ((sat_read_from_buffer buffer n hn).of_ok h t rfl).1
    · unfold ID3v2_read_tag_from_buffer CharStream_from_buffer memcpySrc at h
      rw [if_pos (by omega)] at h
      cases h
  | @readFile file t h => exact (sat_read_tag file).of_ok h t rfl
  | setText _ hid h ih =>
    obtain ⟨f, h1, h⟩ := Res.bind_eq_ok.mp h
    exact set_typed _ _ _ _ ih (text_new_typed _ _ _ _ hid h1) h
  | setComment _ h ih =>
    obtain ⟨f, h1, h⟩ := Res.bind_eq_ok.mp h
    exact set_typed _ _ _ _ ih (comment_new_typed _ _ _ _ _ h1) h
  | addComment _ h ih =>
    obtain ⟨f, h1, h⟩ := Res.bind_eq_ok.mp h
    cases h
    exact typed_add _ _ ih (comment_new_typed _ _ _ _ _ h1)
  | setApic _ h ih =>
    obtain ⟨f, h1, h⟩ := Res.bind_eq_ok.mp h
    exact set_typed _ _ _ _ ih (apic_new_typed _ _ _ _ _ _ _ h1) h
  | addApic _ h ih =>
    obtain ⟨f, h1, h⟩ := Res.bind_eq_ok.mp h
    cases h
    exact typed_add _ _ ih (apic_new_typed _ _ _ _ _ _ _ h1)
  | delete _ h ih =>
    obtain ⟨⟨r, l⟩, h1, h⟩ := Res.bind_eq_ok.mp h
    cases r with
    | none => cases h
    | some d =>
      obtain ⟨n, -, h⟩ := Res.bind_eq_ok.mp h
      obtain ⟨_, -, h⟩ := Res.bind_eq_ok.mp h
      cases h
      exact fun g hg => ih g (mem_remove_by_id _ _ _ _ _ h1 hg)
  | @deleteAt t t' id n _ h ih =>
    obtain ⟨m, -, h⟩ := Res.bind_eq_ok.mp h
    cases m with
    | nil =>
      dsimp only at h
      split at h
      · cases h
        exact fun g hg => ih g (mem_remove_null _ _ hg)
      · cases h; exact ih
    | cons x xs =>
      dsimp only at h
      split at h
      · cases h; exact ih
      · split at h
        · cases h; exact ih
        · obtain ⟨_, -, h⟩ := Res.bind_eq_ok.mp h
          cases h
          exact fun g hg => ih g (mem_remove _ _ _ hg)
  | @write t t' file file' _ h ih =>
    unfold ID3v2_write_tag at h
    obtain ⟨_, -, h⟩ := Res.bind_eq_ok.mp h
    obtain ⟨_, -, h⟩ := Res.bind_eq_ok.mp h
    obtain ⟨_, -, h⟩ := Res.bind_eq_ok.mp h
    obtain ⟨_, -, h⟩ := Res.bind_eq_ok.mp h
    obtain ⟨_, -, h⟩ := Res.bind_eq_ok.mp h
    cases file with
    | none => cases h
    | some c => cases h; exact ih

/-! ### The getters -/

theorem match_head (f : Frame) (c : UInt8) (id : Bytes) (hc : c ≠ 0) (h : idMatches f (some c :: id) = .ok true) :
    f.header.id.head? = some (some c) := by
  unfold idMatches strncmpEq at h
  split at h
  · next h1 => cases h1
  · next h1 h2 h3 =>
    cases h3
    obtain ⟨v, hv, h⟩ := Res.bind_eq_ok.mp h
    obtain ⟨w, hw, h⟩ := Res.bind_eq_ok.mp h
    cases hw
    split at h
    · cases h
    · next he =>
      simp only [ne_eq, Decidable.not_not] at he
      rw [h2, List.head?_cons]
      subst he
      unfold load at hv
      split at hv
      · simp only [Res.ok.injEq] at hv; rw [hv]
      · cases hv
  · cases h

theorem found_in_list (l : FrameList) (id : Bytes) (i : Nat) (f : Frame)
    (h : FrameList_get_frame_by_id l id = .ok (some (i, f))) : some f ∈ l ∧ idMatches f id = .ok true := by
  induction l generalizing i with
  | nil => unfold FrameList_get_frame_by_id at h; cases h
  | cons x xs ih =>
    cases x with
    | none => unfold FrameList_get_frame_by_id at h; cases h
    | some g =>
      unfold FrameList_get_frame_by_id at h
      obtain ⟨b, hb, h⟩ := Res.bind_eq_ok.mp h
      split at h
      · next hbt => cases h; exact ⟨List.mem_cons_self, by rw [hb, hbt]⟩
      · obtain ⟨r, hr, h⟩ := Res.bind_eq_ok.mp h
        cases r with
        | none => cases h
        | some p =>
          obtain ⟨j, g'⟩ := p
          cases h
          exact ⟨List.mem_cons_of_mem _ (ih j hr).1, (ih j hr).2⟩

theorem get_head (t : Tag) (c : UInt8) (id : List UInt8) (f : Frame) (hc : c ≠ 0)
    (h : ID3v2_Tag_get_frame t (lit (c :: id)) = .ok (some f)) : some f ∈ t.frames ∧ f.header.id.head? = some (some c) := by
  unfold ID3v2_Tag_get_frame at h
  obtain ⟨r, hr, h⟩ := Res.bind_eq_ok.mp h
  cases r with
  | none => cases h
  | some p =>
    obtain ⟨i, g⟩ := p
    cases h
    obtain ⟨h1, h2⟩ := found_in_list _ _ _ _ hr
    exact ⟨h1, match_head _ _ _ hc h2⟩

/-- **C48**, text: for any id beginning with `T`, what `ID3v2_Tag_get_frame` finds is a text frame. The nine typed getters
below are instances. -/
theorem get_text_typed [Platform] (t : Tag) (ht : Obtainable t) (id : List UInt8) (f : Frame)
    (h : ID3v2_Tag_get_frame t (lit (0x54 :: id)) = .ok (some f)) : ∃ d, f.data = .text d := by
  obtain ⟨h1, h2⟩ := get_head t _ _ f (by decide) h
  have := obtainable_typed t ht f h1
  unfold Typed at this
  split at this
  · next d hd => exact ⟨d, hd⟩
  · rw [h2] at this; exact absurd this (by decide)
  · rw [h2] at this; exact absurd this (by decide)
  · rw [h2] at this; exact absurd rfl this.1

/-- **C48**: the nine named text getters. -/
theorem text_getters_typed [Platform] (t : Tag) (ht : Obtainable t) (f : Frame)
    (get : Tag → Res (Option Frame)) (hget : get ∈ [ID3v2_Tag_get_artist_frame, ID3v2_Tag_get_album_frame,
      ID3v2_Tag_get_title_frame, ID3v2_Tag_get_track_frame, ID3v2_Tag_get_album_artist_frame, ID3v2_Tag_get_genre_frame,
      ID3v2_Tag_get_year_frame, ID3v2_Tag_get_disc_number_frame, ID3v2_Tag_get_composer_frame])
    (h : get t = .ok (some f)) : ∃ d, f.data = .text d := by
  simp only [List.mem_cons, List.not_mem_nil, or_false] at hget
  rcases hget with rfl | rfl | rfl | rfl | rfl | rfl | rfl | rfl | rfl <;> exact get_text_typed t ht _ f h

/-- **C48**, comments. -/
theorem comment_getter_typed [Platform] (t : Tag) (ht : Obtainable t) (f : Frame)
    (h : ID3v2_Tag_get_comment_frame t = .ok (some f)) : ∃ d, f.data = .comment d := by
  obtain ⟨h1, h2⟩ := get_head t _ _ f (by decide) h
  have := obtainable_typed t ht f h1
  unfold Typed at this
  split at this
  · rw [h2] at this; exact absurd this (by decide)
  · next d hd => exact ⟨d, hd⟩
  · rw [h2] at this; exact absurd this (by decide)
  · rw [h2] at this; exact absurd rfl this.2.1

/-- **C48**, pictures. -/
theorem cover_getter_typed [Platform] (t : Tag) (ht : Obtainable t) (f : Frame)
    (h : ID3v2_Tag_get_album_cover_frame t = .ok (some f)) : ∃ d, f.data = .apic d := by
  obtain ⟨h1, h2⟩ := get_head t _ _ f (by decide) h
  have := obtainable_typed t ht f h1
  unfold Typed at this
  split at this
  · rw [h2] at this; exact absurd this (by decide)
  · rw [h2] at this; exact absurd this (by decide)
  · next d hd => exact ⟨d, hd⟩
  · rw [h2] at this; exact absurd rfl this.2.2

/-! ### Lists of frames -/

theorem matching_in_list (l : FrameList) (id : Bytes) (m : List (Nat × Frame)) (p : Nat × Frame)
    (h : FrameList_matching l id = .ok m) (hp : p ∈ m) : some p.2 ∈ l ∧ idMatches p.2 id = .ok true := by
  induction l generalizing m p with
  | nil => unfold FrameList_matching at h; cases h; simp at hp
  | cons x xs ih =>
    cases x with
    | none => unfold FrameList_matching at h; cases h; simp at hp
    | some g =>
      unfold FrameList_matching at h
      obtain ⟨b, hb, h⟩ := Res.bind_eq_ok.mp h
      obtain ⟨r, hr, h⟩ := Res.bind_eq_ok.mp h
      have hrest : ∀ q ∈ r.map (fun (p : Nat × Frame) => (p.1 + 1, p.2)),
          some q.2 ∈ some g :: xs ∧ idMatches q.2 id = .ok true := by
        intro q hq
        obtain ⟨q', hq', rfl⟩ := List.mem_map.mp hq
        exact ⟨List.mem_cons_of_mem _ (ih r q' hr hq').1, (ih r q' hr hq').2⟩
      simp only [Res.pure_eq, Res.ok.injEq] at h
      subst h
      split at hp
      · next hbt =>
        rcases List.mem_cons.1 hp with rfl | hp
        · exact ⟨List.mem_cons_self, by rw [hb, hbt]⟩
        · exact hrest p hp
      · exact hrest p hp

theorem mem_foldl_add (m : List (Nat × Frame)) (l : FrameList) (f : Frame)
    (h : some f ∈ m.foldl (fun l p => FrameList_add_frame l p.2) l) : some f ∈ l ∨ ∃ p ∈ m, p.2 = f := by
  induction m generalizing l with
  | nil => exact .inl h
  | cons x xs ih =>
    rcases ih _ h with h | ⟨p, hp, he⟩
    · dsimp only at h
      unfold FrameList_add_frame at h
      split at h
      · simp at h
      · rcases List.mem_cons.1 h with h | h
        · exact .inr ⟨x, List.mem_cons_self, (Option.some.inj h).symm⟩
        · exact .inl (List.mem_cons_of_mem _ h)
      · rcases List.mem_append.1 h with h | h
        · exact .inl h
        · exact .inr ⟨x, List.mem_cons_self, (Option.some.inj (List.mem_singleton.1 h)).symm⟩
    · exact .inr ⟨p, List.mem_cons_of_mem _ hp, he⟩

theorem get_frames_head (t : Tag) (c : UInt8) (id : List UInt8) (l : FrameList) (f : Frame) (hc : c ≠ 0)
    (h : ID3v2_Tag_get_frames t (lit (c :: id)) = .ok l) (hf : some f ∈ l) :
    some f ∈ t.frames ∧ f.header.id.head? = some (some c) := by
  unfold ID3v2_Tag_get_frames FrameList_get_frames_by_id at h
  obtain ⟨m, hm, h⟩ := Res.bind_eq_ok.mp h
  simp only [Res.pure_eq, Res.ok.injEq] at h
  subst h
  rcases mem_foldl_add _ _ _ hf with hf | ⟨p, hp, rfl⟩
  · simp [FrameList_new] at hf
  · obtain ⟨h1, h2⟩ := matching_in_list _ _ _ _ hm hp
    exact ⟨h1, match_head _ _ _ hc h2⟩

/-- **C48**: every element of the list of comment frames is one. -/
theorem comment_frames_typed [Platform] (t : Tag) (ht : Obtainable t) (l : FrameList) (f : Frame)
    (h : ID3v2_Tag_get_comment_frames t = .ok l) (hf : some f ∈ l) : ∃ d, f.data = .comment d := by
  obtain ⟨h1, h2⟩ := get_frames_head t _ _ l f (by decide) h hf
  have := obtainable_typed t ht f h1
  unfold Typed at this
  split at this
  · rw [h2] at this; exact absurd this (by decide)
  · next d hd => exact ⟨d, hd⟩
  · rw [h2] at this; exact absurd this (by decide)
  · rw [h2] at this; exact absurd rfl this.2.1

/-- **C48**: every element of the list of picture frames is one. -/
theorem apic_frames_typed [Platform] (t : Tag) (ht : Obtainable t) (l : FrameList) (f : Frame)
    (h : ID3v2_Tag_get_apic_frames t = .ok l) (hf : some f ∈ l) : ∃ d, f.data = .apic d := by
  obtain ⟨h1, h2⟩ := get_frames_head t _ _ l f (by decide) h hf
  have := obtainable_typed t ht f h1
  unfold Typed at this
  split at this
  · rw [h2] at this; exact absurd this (by decide)
  · rw [h2] at this; exact absurd this (by decide)
  · next d hd => exact ⟨d, hd⟩
  · rw [h2] at this; exact absurd rfl this.2.2

/-! ### Casts inside the library -/

/-- The call does not use an object as a struct of another type. -/
def NoConf {α : Type} (x : Res α) : Prop := x ≠ .ub .typeConfusion

theorem NoConf.bind {α β : Type} {x : Res α} {f : α → Res β} (hx : NoConf x) (hf : ∀ a, x = .ok a → NoConf (f a)) :
    NoConf (x >>= f) := by
  cases x with
  | ok a => exact hf a rfl
  | ub k => intro e; apply hx; simpa using e
  | exit => intro e; simp at e
  | diverge => intro e; simp at e

theorem NoConf.of_sat {α : Type} {P : α → Prop} {x : Res α} (h : Sat P x) : NoConf x := by
  intro e; rw [e] at h; cases h

theorem noConf_ok {α : Type} (a : α) : NoConf (.ok a) := by intro e; cases e

theorem noConf_write (cs : CharStream) (d : Bytes) (n : Int) : NoConf (CharStream_write cs d n) := by
  unfold CharStream_write
  refine (NoConf.of_sat (sat_get_cur cs)).bind fun p _ => ?_
  have : NoConf (memcpySrc d n) := by
    unfold memcpySrc
    split
    · intro e; cases e
    · split <;> intro e <;> cases e
  refine this.bind fun s _ => ?_
  split
  · intro e; cases e
  · exact (NoConf.of_sat (sat_ck _)).bind fun c _ => noConf_ok _

theorem noConf_header (h : FrameHeader) : NoConf (FrameHeader_to_char_stream h) := by
  unfold FrameHeader_to_char_stream
  refine (noConf_write _ _ _).bind fun _ _ => ?_
  refine (noConf_write _ _ _).bind fun _ _ => ?_
  exact noConf_write _ _ _

theorem starts_typed (f : Frame) (c : UInt8) (b : Bool) (h : idStartsWith f.header c = .ok b) :
    b = true ↔ f.header.id.head? = some (some c) := (sat_idStartsWith f.header c).of_ok h

/-- **C48**, inside the library: serialising a frame of an obtainable tag, or freeing it, never uses its data as a struct
of another type. -/
theorem no_confusion [Platform] (t : Tag) (ht : Obtainable t) (f : Frame) (hf : some f ∈ t.frames) :
    Frame_to_char_stream f ≠ .ub .typeConfusion ∧ ID3v2_Frame_free f ≠ .ub .typeConfusion := by
  have hty := obtainable_typed t ht f hf
  unfold Typed at hty
  constructor
  · show NoConf _
    unfold Frame_to_char_stream
    refine (NoConf.of_sat (sat_idStartsWith _ _)).bind fun b hb => ?_
    have hb := starts_typed f _ b hb
    split
    · next hbt =>
      have hh := hb.1 hbt
      cases hd : f.data with
      | text d =>
        dsimp only
        unfold TextFrame_to_char_stream
        refine (noConf_header _).bind fun _ _ => ?_
        refine (NoConf.of_sat (sat_ck _)).bind fun _ _ => ?_
        refine (noConf_write _ _ _).bind fun _ _ => ?_
        refine (noConf_write _ _ _).bind fun _ _ => ?_
        exact noConf_write _ _ _
      | comment d => rw [hd] at hty; dsimp only at hty; rw [hh] at hty; exact absurd hty (by decide)
      | apic d => rw [hd] at hty; dsimp only at hty; rw [hh] at hty; exact absurd hty (by decide)
      | raw d => rw [hd] at hty; dsimp only at hty; rw [hh] at hty; exact absurd rfl hty.1
    · next hbf =>
      refine (NoConf.of_sat (sat_idStartsWith _ _)).bind fun b' hb' => ?_
      have hb' := starts_typed f _ b' hb'
      split
      · next hbt =>
        have hh := hb'.1 hbt
        cases hd : f.data with
        | comment d =>
          dsimp only
          unfold CommentFrame_to_char_stream
          refine (noConf_header _).bind fun _ _ => ?_
          refine (NoConf.of_sat (sat_ck _)).bind fun _ _ => ?_
          refine (noConf_write _ _ _).bind fun _ _ => ?_
          refine (noConf_write _ _ _).bind fun _ _ => ?_
          refine (noConf_write _ _ _).bind fun _ _ => ?_
          refine (NoConf.of_sat (sat_strlent _)).bind fun _ _ => ?_
          refine (noConf_write _ _ _).bind fun _ _ => ?_
          exact noConf_write _ _ _
        | text d => rw [hd] at hty; dsimp only at hty; rw [hh] at hty; exact absurd hty (by decide)
        | apic d => rw [hd] at hty; dsimp only at hty; rw [hh] at hty; exact absurd hty (by decide)
        | raw d => rw [hd] at hty; dsimp only at hty; rw [hh] at hty; exact absurd rfl hty.2.1
      · next hbf' =>
        refine (NoConf.of_sat (sat_idStartsWith _ _)).bind fun b'' hb'' => ?_
        have hb'' := starts_typed f _ b'' hb''
        split
        · next hbt =>
          have hh := hb''.1 hbt
          cases hd : f.data with
          | apic d =>
            dsimp only
            unfold ApicFrame_to_char_stream
            refine (noConf_header _).bind fun _ _ => ?_
            refine (NoConf.of_sat (sat_ck _)).bind fun _ _ => ?_
            refine (noConf_write _ _ _).bind fun _ _ => ?_
            refine (noConf_write _ _ _).bind fun _ _ => ?_
            refine (NoConf.of_sat (sat_strlent _)).bind fun _ _ => ?_
            refine (noConf_write _ _ _).bind fun _ _ => ?_
            refine (noConf_write _ _ _).bind fun _ _ => ?_
            refine (NoConf.of_sat (sat_strlent _)).bind fun _ _ => ?_
            refine (noConf_write _ _ _).bind fun _ _ => ?_
            exact noConf_write _ _ _
          | text d => rw [hd] at hty; dsimp only at hty; rw [hh] at hty; exact absurd hty (by decide)
          | comment d => rw [hd] at hty; dsimp only at hty; rw [hh] at hty; exact absurd hty (by decide)
          | raw d => rw [hd] at hty; dsimp only at hty; rw [hh] at hty; exact absurd rfl hty.2.2
        · next hbf'' =>
          cases hd : f.data with
          | raw d =>
            dsimp only
            refine (NoConf.of_sat (sat_ck _)).bind fun _ _ => ?_
            refine (noConf_header _).bind fun _ _ => ?_
            refine (noConf_write _ _ _).bind fun _ _ => ?_
            exact noConf_write _ _ _
          | text d => rw [hd] at hty; exact absurd (hb.2 hty) hbf
          | comment d => rw [hd] at hty; exact absurd (hb'.2 hty) hbf'
          | apic d => rw [hd] at hty; exact absurd (hb''.2 hty) hbf''
  · show NoConf _
    unfold ID3v2_Frame_free
    refine (NoConf.of_sat (sat_idStartsWith _ _)).bind fun b hb => ?_
    have hb := starts_typed f _ b hb
    split
    · next hbt =>
      have hh := hb.1 hbt
      cases hd : f.data with
      | text d => exact noConf_ok _
      | comment d => rw [hd] at hty; dsimp only at hty; rw [hh] at hty; exact absurd hty (by decide)
      | apic d => rw [hd] at hty; dsimp only at hty; rw [hh] at hty; exact absurd hty (by decide)
      | raw d => rw [hd] at hty; dsimp only at hty; rw [hh] at hty; exact absurd rfl hty.1
    · refine (NoConf.of_sat (sat_idStartsWith _ _)).bind fun b' hb' => ?_
      have hb' := starts_typed f _ b' hb'
      split
      · next hbt =>
        have hh := hb'.1 hbt
        cases hd : f.data with
        | comment d => exact noConf_ok _
        | text d => rw [hd] at hty; dsimp only at hty; rw [hh] at hty; exact absurd hty (by decide)
        | apic d => rw [hd] at hty; dsimp only at hty; rw [hh] at hty; exact absurd hty (by decide)
        | raw d => rw [hd] at hty; dsimp only at hty; rw [hh] at hty; exact absurd rfl hty.2.1
      · refine (NoConf.of_sat (sat_idStartsWith _ _)).bind fun b'' hb'' => ?_
        have hb'' := starts_typed f _ b'' hb''
        split
        · next hbt =>
          have hh := hb''.1 hbt
          cases hd : f.data with
          | apic d => exact noConf_ok _
          | text d => rw [hd] at hty; dsimp only at hty; rw [hh] at hty; exact absurd hty (by decide)
          | comment d => rw [hd] at hty; dsimp only at hty; rw [hh] at hty; exact absurd hty (by decide)
          | raw d => rw [hd] at hty; dsimp only at hty; rw [hh] at hty; exact absurd rfl hty.2.2
        · exact noConf_ok _

/-! ### Examples -/

/-- A hostile file (the text frame lies about its size) followed by a setter: the title is found and is a text frame. -/
example : ∃ t t' f d, @ID3v2_read_tag_from_buffer strict
      (ofB (rawTag [0x54, 0x49, 0x54, 0x32, 0, 0, 0, 99, 0, 0, 7, 0x41, 0])) 23 = .ok (some t) ∧
    @ID3v2_Tag_add_comment_frame strict t ⟨NO_FLAGS, lit [1, 2, 3], lit [5], lit [6]⟩ = .ok t' ∧
    ID3v2_Tag_get_title_frame t' = .ok (some f) ∧ f.data = .text d := ⟨_, _, _, _, rfl, rfl, rfl, rfl⟩

/-- The hypothesis on the id is needed: a text frame with the id of a comment is used as a comment. -/
theorem wrong_id_confuses :
    (do
      let t ← @ID3v2_Tag_set_text_frame strict ID3v2_Tag_new_empty ⟨COMMENT_ID, NO_FLAGS, lit [0x41]⟩
      @Tag_to_char_stream strict t) = .ub .typeConfusion := by decide

end Id3.Props
