import Verif.Props.Tag
import Verif.Proof.ExtAll

/-!
# C16: extended headers of every size
-/

namespace Id3.Props

open Spec

/-- **C16** fails for every size of extended header: if a tag is returned and has frames, then its first frame starts with
byte number `e` of the file (`e` is the size in the extended header), which belongs to the tag header or to the extended
header. What follows the extended header is `rest`. In version 2.4 the size counts its own four bytes, in version 2.3 it
does not. -/
theorem extended_header_first_frame [Platform] (version minor flags : UInt8) (size e : Nat) (ext : List UInt8)
    (rest : Bytes) (n : Int) (hv : version = 3 ∧ ext.length = e ∨ version = 4 ∧ ext.length + 4 = e)
    (hflag : flags &&& 0x40 = 0x40) (he : 0 < e) (he' : e < 2 ^ 27)
    (hn : n = (14 + ext.length + rest.length : Nat)) (t : Option Tag)
    (ht : ID3v2_read_tag_from_buffer
      (ofB (tagHeaderBytes version minor flags size ++ synchsafe e ++ ext) ++ rest) n = .ok t) :
    ∃ tag, t = some tag ∧ ∀ f r, tag.frames = some f :: r →
      ∃ b, (tagHeaderBytes version minor flags size ++ synchsafe e ++ ext)[e]? = some b ∧
        f.header.id.head? = some (some b) := by
  unfold ID3v2_read_tag_from_buffer at ht
  have := from_buffer_csAt (ofB (tagHeaderBytes version minor flags size ++ synchsafe e ++ ext) ++ rest) [] n
    (by rw [hn]; simp [tagHeaderBytes, synchsafe]; omega)
  rw [List.append_nil] at this
  rw [this] at ht
  simp only [Res.bind_ok] at ht
  have eq : ofB (tagHeaderBytes version minor flags size ++ synchsafe e ++ ext) ++ rest =
      ofB [0x49, 0x44, 0x33, version, minor, flags, UInt8.ofNat (size / 128 ^ 3 % 128), UInt8.ofNat (size / 128 ^ 2 % 128),
        UInt8.ofNat (size / 128 % 128), UInt8.ofNat (size % 128)] ++
        (ofB [UInt8.ofNat (e / 128 ^ 3 % 128), UInt8.ofNat (e / 128 ^ 2 % 128),
        UInt8.ofNat (e / 128 % 128), UInt8.ofNat (e % 128)] ++ (ofB ext ++ rest)) := by
    simp [tagHeaderBytes, synchsafe]
  have hval : sizeValue (UInt8.ofNat (e / 128 ^ 3 % 128)) (UInt8.ofNat (e / 128 ^ 2 % 128))
      (UInt8.ofNat (e / 128 % 128)) (UInt8.ofNat (e % 128)) = e := by
    rw [sizeValue_eq] <;> simp only [UInt8.toNat_ofNat'] <;> omega
  rw [eq] at ht
  obtain ⟨tag, h1, h2⟩ := parse_ext_any version minor flags _ _ _ _ _ _ _ _ (ofB ext ++ rest) (hv.imp And.left And.left) hflag
    (by rw [hval]; exact he) (by rw [hval, List.length_append, ofB_length]; omega) t ht
  refine ⟨tag, h1, fun f r hf => ?_⟩
  rw [hval, ← eq] at h2
  rcases h2 with h2 | ⟨f', r', h2, h3⟩
  · rw [hf] at h2; cases h2
  · rw [hf] at h2
    simp only [List.cons.injEq, Option.some.injEq] at h2
    obtain ⟨rfl, -⟩ := h2
    have hlen : e < (tagHeaderBytes version minor flags size ++ synchsafe e ++ ext).length := by
      simp [tagHeaderBytes, synchsafe]; omega
    refine ⟨(tagHeaderBytes version minor flags size ++ synchsafe e ++ ext)[e], List.getElem?_eq_getElem hlen, ?_⟩
    rw [h3, List.getElem?_append_left (by rw [ofB_length]; exact hlen), ofB, List.getElem?_map,
      List.getElem?_eq_getElem hlen]
    rfl

/-- So the frame after the extended header is not the first one of the tag, unless it starts with the same letter. -/
theorem extended_header_hides_frame [Platform] (version minor flags : UInt8) (size e : Nat) (ext : List UInt8)
    (w : Wire) (rest : Bytes) (n : Int) (hv : version = 3 ∧ ext.length = e ∨ version = 4 ∧ ext.length + 4 = e)
    (hflag : flags &&& 0x40 = 0x40) (he : 0 < e) (he' : e < 2 ^ 27)
    (hdiff : w.kept.id.head? ≠ (tagHeaderBytes version minor flags size ++ synchsafe e ++ ext)[e]?)
    (hn : n = (14 + ext.length + ((w.bytes version).length + rest.length) : Nat)) (t : Tag)
    (ht : ID3v2_read_tag_from_buffer
      (ofB (tagHeaderBytes version minor flags size ++ synchsafe e ++ ext) ++ (ofB (w.bytes version) ++ rest)) n =
        .ok (some t)) :
    ∀ r, t.frames ≠ some w.kept.toFrame :: r := by
  intro r hr
  obtain ⟨tag, e1, h⟩ := extended_header_first_frame version minor flags size e ext (ofB (w.bytes version) ++ rest) n hv
    hflag he he' (by rw [hn, List.length_append, ofB_length]) (some t) ht
  cases e1
  obtain ⟨b, h1, h2⟩ := h _ _ hr
  apply hdiff
  rw [h1]
  have : w.kept.toFrame.header.id = ofB w.kept.id := by cases w.kept <;> rfl
  rw [this, ofB, List.head?_map] at h2
  cases hh : w.kept.id.head? with
  | none => rw [hh] at h2; cases h2
  | some x => rw [hh] at h2; simpa using h2

/-- An extended header of 20 bytes in version 2.3 and a title frame: the frame found starts with a zero byte. -/
example : (tagHeaderBytes 3 0 0x40 60 ++ synchsafe 20 ++ List.replicate 20 0)[20]? = some 0 ∧
    (Wire.text [0x54, 0x49, 0x54, 0x32] [0, 0] 0 (.latin [0x48, 0x69]) []).kept.id.head? = some 0x54 := by decide

end Id3.Props
