import Verif.Spec.Api
import Verif.Props.More
import Verif.Props.Truthful
import Verif.Props.Again
import Verif.Props.UnsyncIff
import Verif.Props.Injective
import Verif.Props.Compat

/-!
# C98: a getter depends on nothing but the frames of its id
-/

namespace Id3.Props

open Spec

theorem all_toFrame (k : List UInt8) (fs : List SFrame) :
    all Frame.key k (fs.map SFrame.toFrame) = (fs.filter (fun f => f.id = k)).map SFrame.toFrame := by
  unfold all
  rw [List.filter_map]
  congr 1
  apply List.filter_congr
  intro f _
  simp [toFrame_key]

theorem first_head (k : List UInt8) (fs : List Frame) : first Frame.key k fs = (all Frame.key k fs).head? := by
  unfold first all
  rw [List.head?_filter]

/-- **C98**: two files with any tags of well-formed frames (their versions, flags, paddings, other frames and audio may differ).
If they have the same frames of an id, in the same order, then the getters for this id give the same. -/
theorem getters_local [Platform] (version minor flags version' minor' flags' : UInt8) (ws ws' : List Wire)
    (padding padding' : Nat) (rest rest' : List UInt8) (k : List UInt8) (hk : ValidId k)
    (hv : version = 3 ∨ version = 4) (hflag : flags &&& 0x40 = 0) (hR : ∀ w ∈ ws, w.Readable version)
    (hs : (ws.flatMap (Wire.bytes version)).length + padding < 2 ^ 28) (hlast : lastSeen ws padding)
    (hv' : version' = 3 ∨ version' = 4) (hflag' : flags' &&& 0x40 = 0) (hR' : ∀ w ∈ ws', w.Readable version')
    (hs' : (ws'.flatMap (Wire.bytes version')).length + padding' < 2 ^ 28) (hlast' : lastSeen ws' padding')
    (h : (ws.map Wire.kept).filter (fun f => f.id = k) = (ws'.map Wire.kept).filter (fun f => f.id = k)) :
    ∃ t t', ID3v2_read_tag (some (ofB (wireTagBytes version minor flags ws padding ++ rest))) = .ok (some t) ∧
      ID3v2_read_tag (some (ofB (wireTagBytes version' minor' flags' ws' padding' ++ rest'))) = .ok (some t') ∧
      (∀ r, ID3v2_Tag_get_frame t (ofB k ++ r) = ID3v2_Tag_get_frame t' (ofB k ++ r) ∧
        ID3v2_Tag_get_frames t (ofB k ++ r) = ID3v2_Tag_get_frames t' (ofB k ++ r)) ∧
      ∀ p ∈ getterApi, p.2 = k → p.1 t = p.1 t' := by
  refine ⟨_, _, read_file_wire version minor flags ws padding rest hv hflag hR hs hlast,
    read_file_wire version' minor' flags' ws' padding' rest' hv' hflag' hR' hs' hlast', ?_⟩
  have h1 := toTag_holds version minor flags ((ws.flatMap (Wire.bytes version)).length + padding) (ws.map Wire.kept) padding
    (by
      intro f hf
      obtain ⟨w, hw, rfl⟩ := List.mem_map.mp hf
      exact (hR w hw).1.2.1)
  have h2 := toTag_holds version' minor' flags' ((ws'.flatMap (Wire.bytes version')).length + padding') (ws'.map Wire.kept)
    padding' (by
      intro f hf
      obtain ⟨w, hw, rfl⟩ := List.mem_map.mp hf
      exact (hR' w hw).1.2.1)
  have ha : all Frame.key k ((ws.map Wire.kept).map SFrame.toFrame) = all Frame.key k ((ws'.map Wire.kept).map SFrame.toFrame) := by
    rw [all_toFrame, all_toFrame, h]
  refine ⟨fun r => ⟨?_, ?_⟩, ?_⟩
  · rw [get_first _ _ k r h1 hk, get_first _ _ k r h2 hk, first_head, first_head, ha]
  · rw [get_all _ _ k r h1 hk, get_all _ _ k r h2 hk, ha]
  · rintro p hp rfl
    rw [named_getters p hp _ _ h1, named_getters p hp _ _ h2, first_head, first_head, ha]

theorem toFrame_inj [Platform] (f g : SFrame) (hf : f.Usable) (hg : g.Usable) (h : f.toFrame = g.toFrame) : f = g := by
  have e := congrArg frameBytes h
  rw [toFrame_bytes, toFrame_bytes, ofB_inj] at e
  exact (frame_bytes_inj f g [] [] hf hg (by rw [e])).1

theorem toFrames_inj [Platform] (fs gs : List SFrame) (hf : ∀ f ∈ fs, f.Usable) (hg : ∀ g ∈ gs, g.Usable)
    (h : fs.map SFrame.toFrame = gs.map SFrame.toFrame) : fs = gs := by
  induction fs generalizing gs with
  | nil => exact (List.map_eq_nil_iff.mp h.symm).symm
  | cons f fs ih =>
    cases gs with
    | nil => cases h
    | cons g gs =>
      simp only [List.map_cons, List.cons.injEq] at h
      rw [toFrame_inj f g (hf f (by simp)) (hg g (by simp)) h.1,
        ih gs (fun x hx => hf x (List.mem_cons_of_mem _ hx)) (fun x hx => hg x (List.mem_cons_of_mem _ hx)) h.2]

/-- **C98**, the other way round: only then. `ID3v2_Tag_get_frames` gives the same for two files if and only if they have the
same frames of the id, in the same order. -/
theorem getters_local_iff [Platform] (version minor flags version' minor' flags' : UInt8) (ws ws' : List Wire)
    (padding padding' : Nat) (rest rest' : List UInt8) (k : List UInt8) (hk : ValidId k)
    (hv : version = 3 ∨ version = 4) (hflag : flags &&& 0x40 = 0) (hR : ∀ w ∈ ws, w.Readable version)
    (hs : (ws.flatMap (Wire.bytes version)).length + padding < 2 ^ 28) (hlast : lastSeen ws padding)
    (hv' : version' = 3 ∨ version' = 4) (hflag' : flags' &&& 0x40 = 0) (hR' : ∀ w ∈ ws', w.Readable version')
    (hs' : (ws'.flatMap (Wire.bytes version')).length + padding' < 2 ^ 28) (hlast' : lastSeen ws' padding') :
    ∃ t t', ID3v2_read_tag (some (ofB (wireTagBytes version minor flags ws padding ++ rest))) = .ok (some t) ∧
      ID3v2_read_tag (some (ofB (wireTagBytes version' minor' flags' ws' padding' ++ rest'))) = .ok (some t') ∧
      ∀ r, ID3v2_Tag_get_frames t (ofB k ++ r) = ID3v2_Tag_get_frames t' (ofB k ++ r) ↔
        (ws.map Wire.kept).filter (fun f => f.id = k) = (ws'.map Wire.kept).filter (fun f => f.id = k) := by
  have hu : ∀ f ∈ ws.map Wire.kept, f.Usable := by
    intro f hf
    obtain ⟨w, hw, rfl⟩ := List.mem_map.mp hf
    exact (hR w hw).1.2.1
  have hu' : ∀ f ∈ ws'.map Wire.kept, f.Usable := by
    intro f hf
    obtain ⟨w, hw, rfl⟩ := List.mem_map.mp hf
    exact (hR' w hw).1.2.1
  refine ⟨_, _, read_file_wire version minor flags ws padding rest hv hflag hR hs hlast,
    read_file_wire version' minor' flags' ws' padding' rest' hv' hflag' hR' hs' hlast', fun r => ?_⟩
  rw [get_all _ _ k r (toTag_holds version minor flags _ _ padding hu) hk,
    get_all _ _ k r (toTag_holds version' minor' flags' _ _ padding' hu') hk, all_toFrame, all_toFrame]
  constructor
  · intro h
    exact toFrames_inj _ _ (fun f hf => hu f (List.mem_filter.mp hf).1) (fun f hf => hu' f (List.mem_filter.mp hf).1)
      (nodes_inj (Res.ok.inj h))
  · intro h
    rw [h]

theorem filter_perm_unique (k : List UInt8) (fs gs : List SFrame) (h : fs.Perm gs) (hd : (fs.map SFrame.id).Nodup) :
    fs.filter (fun f => f.id = k) = gs.filter (fun f => f.id = k) := by
  have hp : (fs.filter (fun f => f.id = k)).Perm (gs.filter (fun f => f.id = k)) := h.filter _
  have hl : (fs.filter (fun f => f.id = k)).length ≤ 1 := by
    clear hp h
    induction fs with
    | nil => simp
    | cons f fs ih =>
      rw [List.map_cons, List.nodup_cons] at hd
      rw [List.filter_cons]
      split
      · next hf =>
        have he : fs.filter (fun f => f.id = k) = [] := by
          rw [List.filter_eq_nil_iff]
          intro g hg hgk
          apply hd.1
          rw [List.mem_map]
          refine ⟨g, hg, ?_⟩
          rw [of_decide_eq_true hf, of_decide_eq_true hgk]
        rw [he]
        simp
      · exact ih hd.2
  generalize fs.filter (fun f => f.id = k) = a at hp hl
  match a, hl with
  | [], _ => exact (List.nil_perm.mp hp).symm
  | [x], _ => exact List.singleton_perm.mp hp
  | _ :: _ :: _, hl => simp at hl

/-- **C98**: the order of the frames in the file does not matter if their ids differ: every getter, for every id, gives the
same. -/
theorem order_irrelevant [Platform] (version minor flags : UInt8) (ws ws' : List Wire) (padding : Nat) (rest : List UInt8)
    (hp : ws.Perm ws') (hd : (ws.map (fun w => w.kept.id)).Nodup)
    (hv : version = 3 ∨ version = 4) (hflag : flags &&& 0x40 = 0) (hR : ∀ w ∈ ws, w.Readable version)
    (hs : (ws.flatMap (Wire.bytes version)).length + padding < 2 ^ 28) (hlast : lastSeen ws padding)
    (hlast' : lastSeen ws' padding) :
    ∃ t t', ID3v2_read_tag (some (ofB (wireTagBytes version minor flags ws padding ++ rest))) = .ok (some t) ∧
      ID3v2_read_tag (some (ofB (wireTagBytes version minor flags ws' padding ++ rest))) = .ok (some t') ∧
      (∀ k, ValidId k → ∀ r, ID3v2_Tag_get_frame t (ofB k ++ r) = ID3v2_Tag_get_frame t' (ofB k ++ r) ∧
        ID3v2_Tag_get_frames t (ofB k ++ r) = ID3v2_Tag_get_frames t' (ofB k ++ r)) ∧
      ∀ p ∈ getterApi, p.1 t = p.1 t' := by
  have hR' : ∀ w ∈ ws', w.Readable version := fun w hw => hR w (hp.mem_iff.mpr hw)
  have hs' : (ws'.flatMap (Wire.bytes version)).length + padding < 2 ^ 28 := by
    rw [(hp.flatMap_right (Wire.bytes version)).length_eq] at hs
    exact hs
  have key : ∀ k, ValidId k → _ := fun k hk =>
    getters_local version minor flags version minor flags ws ws' padding padding rest rest k hk hv hflag hR hs hlast hv hflag
      hR' hs' hlast' (filter_perm_unique k _ _ (hp.map _) (by rw [List.map_map]; exact hd))
  refine ⟨_, _, read_file_wire version minor flags ws padding rest hv hflag hR hs hlast,
    read_file_wire version minor flags ws' padding rest hv hflag hR' hs' hlast', ?_, ?_⟩
  · intro k hk r
    obtain ⟨t, t', e1, e2, h1, -⟩ := key k hk
    rw [read_file_wire version minor flags ws padding rest hv hflag hR hs hlast] at e1
    rw [read_file_wire version minor flags ws' padding rest hv hflag hR' hs' hlast'] at e2
    cases e1
    cases e2
    exact h1 r
  · intro p hpm
    have hk : ValidId p.2 := by
      have : ∀ p ∈ getterApi, ValidId p.2 := by
        intro p hp
        simp only [getterApi, List.mem_cons, List.not_mem_nil, or_false] at hp
        rcases hp with rfl | rfl | rfl | rfl | rfl | rfl | rfl | rfl | rfl | rfl | rfl
        all_goals exact (by decide)
      exact this p hpm
    obtain ⟨t, t', e1, e2, -, h2⟩ := key p.2 hk
    rw [read_file_wire version minor flags ws padding rest hv hflag hR hs hlast] at e1
    rw [read_file_wire version minor flags ws' padding rest hv hflag hR' hs' hlast'] at e2
    cases e1
    cases e2
    exact h2 p hpm rfl

theorem first_filter (k : List UInt8) (fs : List SFrame) :
    first SFrame.id k fs = (fs.filter (fun f => f.id = k)).head? := by
  unfold first
  rw [List.head?_filter]

/-- **C98** for the compatibility API: the entry for an id depends on the frames of the id only. -/
theorem entries_local [Platform] (version minor flags version' minor' flags' : UInt8) (ws ws' : List Wire)
    (padding padding' : Nat) (rest rest' : Bytes) (k : List UInt8) (hk : ValidId k)
    (hv : version = 3 ∨ version = 4) (hflag : flags &&& 0x40 = 0) (hne : ws ≠ []) (hR : ∀ w ∈ ws, w.Readable version)
    (hs : (ws.flatMap (Wire.bytes version)).length + padding < 2 ^ 28) (hlast : lastSeen ws padding)
    (hv' : version' = 3 ∨ version' = 4) (hflag' : flags' &&& 0x40 = 0) (hne' : ws' ≠ [])
    (hR' : ∀ w ∈ ws', w.Readable version')
    (hs' : (ws'.flatMap (Wire.bytes version')).length + padding' < 2 ^ 28) (hlast' : lastSeen ws' padding')
    (h : (ws.map Wire.kept).filter (fun f => f.id = k) = (ws'.map Wire.kept).filter (fun f => f.id = k)) :
    ∃ ct ct', load_tag (some (ofB (wireTagBytes version minor flags ws padding) ++ rest)) = .ok ct ∧
      load_tag (some (ofB (wireTagBytes version' minor' flags' ws' padding') ++ rest')) = .ok ct' ∧
      ∀ r, get_from_list ct.frames (ofB k ++ r) = get_from_list ct'.frames (ofB k ++ r) := by
  have h1 := load_file version minor flags ws padding rest hv hs
  have h2 := load_buffer version minor flags ws padding [] [] _ hv hflag hne hR hs
      (by simp only [List.length_nil]; omega) hlast rfl
  rw [List.append_nil, List.append_nil] at h2
  have h1' := load_file version' minor' flags' ws' padding' rest' hv' hs'
  have h2' := load_buffer version' minor' flags' ws' padding' [] [] _ hv' hflag' hne' hR' hs'
      (by simp only [List.length_nil]; omega) hlast' rfl
  rw [List.append_nil, List.append_nil] at h2'
  have hl : ∀ (v : UInt8) (l : List Wire), (∀ w ∈ l, w.Readable v) → ∀ g ∈ l.map Wire.kept, g.id.length = 4 := by
    intro v l hl g hg
    obtain ⟨w, hw, rfl⟩ := List.mem_map.mp hg
    exact (SFrame.wf_lengths _ (hl w hw).1.2.1.1).1
  refine ⟨_, _, h1.trans h2, h1'.trans h2', fun r => ?_⟩
  dsimp only
  rw [get_compat _ k r hk (hl _ _ hR), get_compat _ k r hk (hl _ _ hR'), first_filter, first_filter, h]

/-- Two text frames and one of another kind, in both orders. -/
example : (∀ w ∈ sampleWire, @Wire.Readable lenient 3 w) ∧ lastSeen sampleWire 0 ∧ lastSeen sampleWire.reverse 0 ∧
    sampleWire.Perm sampleWire.reverse ∧ 2 ≤ sampleWire.length ∧ (sampleWire.map (fun w => w.kept.id)).Nodup := by
  exact ⟨by decide, by decide, by decide, (List.reverse_perm _).symm, by decide, by decide⟩

end Id3.Props
