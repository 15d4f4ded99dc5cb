import Verif.Props.Exact
import Verif.Props.File
import Verif.Props.Compat

/-!
# The full statements of C20, C25, C26, C27 and C49, and why the code does not meet them
-/

namespace Id3.Props

open Id3 Spec

/-- The claim of C25: whatever the history, a setter succeeds and the getter returns the frame. -/
def C25_claim : Prop :=
  ∀ [Platform] (tag t : Tag) (st : State) (ops : List Op) (op : Op) (f : SFrame), Start tag st → (∀ op ∈ ops, op.Valid) →
    runAll [] ops tag = .ok t → Stores op f → op.Valid →
    ∃ t', op.run [] t = .ok t' ∧ ID3v2_Tag_get_frame t' (ofB f.id) = .ok (some f.toFrame)

/-- **C25** is false: title, artist, delete artist, album. -/
theorem C25_false : ¬ C25_claim := by
  intro h
  obtain ⟨t', h1, h2⟩ := @h strict ID3v2_Tag_new_empty _ ⟨[], 0⟩ (holeHistory.take 3)
    (.setText [0x54, 0x41, 0x4C, 0x42] [0, 0] (.latin [0x48, 0x61])) _ (@Start.new strict) (by decide) rfl
    (.text _ _ _) (by decide)
  cases h1
  exact absurd h2 (by decide)

/-- The claim of C26: whatever the history, a setter leaves the frames with other ids alone. -/
def C26_claim : Prop :=
  ∀ [Platform] (tag t t' : Tag) (st : State) (ops : List Op) (op : Op) (f : SFrame) (k : List UInt8), Start tag st →
    (∀ op ∈ ops, op.Valid) → runAll [] ops tag = .ok t → Stores op f → op.Valid → op.run [] t = .ok t' →
    ValidId k → k ≠ f.id → ID3v2_Tag_get_frames t' (ofB k) = ID3v2_Tag_get_frames t (ofB k)

/-- **C26** is false: title, artist, delete artist, album, delete title. Then there is no album, but there is one after
setting the artist. -/
theorem C26_false : ¬ C26_claim := by
  intro h
  exact absurd (@h strict ID3v2_Tag_new_empty _ _ ⟨[], 0⟩ (holeHistory.take 5)
    (.setText [0x54, 0x50, 0x45, 0x31] [0, 0] (.latin [0x48, 0x61])) _ [0x54, 0x41, 0x4C, 0x42] (@Start.new strict)
    (by decide) rfl (.text _ _ _) (by decide) rfl (by decide) (by decide)) (by decide)

/-- The claim of C27: whatever the history, an added comment comes after the other comments. -/
def C27_claim : Prop :=
  ∀ [Platform] (tag t t' : Tag) (st : State) (ops : List Op) (flags lang : List UInt8) (desc txt : Str), Start tag st →
    (∀ op ∈ ops, op.Valid) → runAll [] ops tag = .ok t → Op.Valid (.addComment flags lang desc txt) →
    Op.run [] (.addComment flags lang desc txt) t = .ok t' →
    ∃ l, ID3v2_Tag_get_comment_frames t = .ok (toFrameList l) ∧
      ID3v2_Tag_get_comment_frames t' = .ok (toFrameList (l ++ [.comment flags lang desc txt]))

theorem toFrameList_length (l : List SFrame) (h : l ≠ []) : (toFrameList l).length = l.length := by
  cases l with
  | nil => exact absurd rfl h
  | cons x xs => simp [toFrameList]

/-- **C27** is false: title, artist, delete artist, then the comment is not found. -/
theorem C27_false : ¬ C27_claim := by
  intro h
  obtain ⟨l, -, h2⟩ := @h strict ID3v2_Tag_new_empty _ _ ⟨[], 0⟩ (holeHistory.take 3) [0, 0] [0x65, 0x6E, 0x67] (.latin [0x61])
    (.latin [0x62]) (@Start.new strict) (by decide) rfl (by decide) rfl
  have e : toFrameList (l ++ [SFrame.comment [0, 0] [0x65, 0x6E, 0x67] (.latin [0x61]) (.latin [0x62])]) = [none] :=
    (Res.ok.inj (h2.symm.trans rfl))
  rw [toFrameList_nodes, nodes_eq _ (by simp)] at e
  have := congrArg List.head? e
  cases l <;> simp at this

/-- The claim of C20: a tag that was written is read again. -/
def C20_claim : Prop :=
  ∀ [Platform] (tag t t' : Tag) (st : State) (ops : List Op) (contents : List UInt8) (file : File), Start tag st →
    SafeHistory ops st → runAll [] ops tag = .ok t → ID3v2_write_tag (some (ofB contents)) t = .ok (file, t') →
    ∃ t'', ID3v2_read_tag file = .ok (some t'') ∧ t''.frames = t.frames ∧ t''.header = t.header

/-- A title and a picture without data. -/
def emptyPicture : List SFrame :=
  [.text [0x54, 0x49, 0x54, 0x32] [0, 0] (.latin [0x48, 0x69]), .apic [0, 0] (.latin [0x69]) 3 (.latin [0x64]) []]

/-- Such a tag can be written to a file, but it cannot be read from it: the parser makes an array of size 0. -/
theorem emptyPicture_unreadable :
    @ID3v2_read_tag strict (some (ofB (tagBytes 0 0 emptyPicture 10 ++ [1, 2, 3]))) = .ub .vlaSize := by decide

/-- **C20** is false: read a tag with a title and some padding, set a picture without data, write the tag, read it. -/
theorem C20_false : ¬ C20_claim := by
  intro h
  have hst := @start_read strict 3 0 0 [.text [0x54, 0x49, 0x54, 0x32] [0, 0] 0 (.latin [0x48, 0x69]) []] 20 (Or.inl rfl)
    (by decide) (by decide) (by decide) (by decide)
  have hs : @SafeHistory strict [.setApic [0, 0] (.latin [0x69]) 3 (.latin [0x64]) []]
      ⟨[.text [0x54, 0x49, 0x54, 0x32] [0, 0] (.latin [0x48, 0x69])], 20⟩ := by decide
  have hr := (@history_step strict 3 0 0 20 [] _ _ (@start_eq strict _ _ hst).1 hs).1
  obtain ⟨tag', hw⟩ := @write_bytes strict [1, 2, 3] 0 0 emptyPicture 10 20 (by decide) (by decide) (by decide) (by decide)
  obtain ⟨t'', h1, -⟩ := @h strict _ _ _ _ _ [1, 2, 3] _ hst hs hr hw
  exact absurd (h1.symm.trans emptyPicture_unreadable) (by simp)

/-- The claim of C49: load, replace, write, load. -/
def C49_claim : Prop :=
  ∀ [Platform] (ct ct' ct'' : CTag) (st : State) (ops : List COp) (contents : List UInt8) (file : File), CStart ct st →
    (∀ o ∈ ops, o.Valid ∧ st.has o.frame.id = true) → crunAll [] ops ct = .ok ct' →
    set_tag (some (ofB contents)) ct' = .ok (file, ct'') →
    ∃ final, load_tag file = .ok final ∧ final.frames = ct'.frames

/-- **C49** is false: load a tag with a picture, replace the picture by one without data, write the tag, load it. -/
theorem C49_false : ¬ C49_claim := by
  intro h
  obtain ⟨ct, -, ht, hst⟩ := @load_succeeds_partial strict 3 0 0 [.apic [0x41, 0x50, 0x49, 0x43] [0, 0] 0 (.latin [0x69]) 3 (.latin [0x64]) [1]] 20 []
    (Or.inl rfl) (by decide) (by decide) (by decide) (by decide) (by decide)
  have hops : ∀ o ∈ [COp.cover (.latin [0x69]) []], @COp.Valid strict o ∧ State.has _ o.frame.id = true :=
    (by decide : ∀ o ∈ [COp.cover (.latin [0x69]) []], @COp.Valid strict o ∧
      State.has ⟨[.apic [0, 0] (.latin [0x69]) 3 (.latin [0x64]) [1]], 20⟩ o.frame.id = true)
  obtain ⟨ct', h1, -, h2⟩ := @compat_safe_partial strict ct _ _ [] hst hops
  obtain ⟨ct'', h3, -⟩ := h2 [1, 2, 3] (by rw [ht]; rfl) (by decide)
  obtain ⟨final, h4, -⟩ := @h strict ct ct' ct'' _ _ [1, 2, 3] _ hst hops h1 h3
  rw [ht] at h4
  exact absurd (h4.symm.trans (by decide : _ = Res.ub .vlaSize)) (by simp)

end Id3.Props
