import Verif.Spec.EndianRead
import Verif.Props.Endian
import Verif.Props.Again

/-!
# Reading a tag that was written on a big-endian machine (C83)

The sizes are backwards. The size of a comment does not matter to the parser: comments are read right. At the first frame of
another kind the wrong size is used: a text or a picture usually does not fit the stack any more, any other frame takes all
that is left.
-/

namespace Id3.Props

open Spec

/-- A comment is read right, whatever its size says. -/
theorem item_comment_any_size [Platform] (v : UInt8) {f : SFrame} (hc : f.IsComment) (hr : f.Readable) (more : Bytes) :
    Item v (ofB (bytesOn .big f) ++ more) f.toFrame more := by
  cases f with
  | comment fl lang desc txt =>
    obtain ⟨hu, hst⟩ := hr
    obtain ⟨⟨h1, h2, h3, h4⟩, -, hu2⟩ := hu
    have e : ofB (bytesOn .big (.comment fl lang desc txt)) ++ more =
        ofB (commId ++ (be32 (SFrame.comment fl lang desc txt).body.length).reverse ++ fl) ++
          some txt.encoding :: (ofB lang ++ (ofB desc.bytes ++ (ofB txt.bytes ++ more))) := by
      simp [bytesOn, field, SFrame.id, SFrame.flags, SFrame.body, ofB, List.append_assoc]
    rw [e]
    exact Item.comment commId _ fl _ lang desc txt more ⟨rfl, rfl⟩ (by simp [be32]) h1 h2 hu2.1 hu2.2 hst
  | _ => exact absurd hc (by simp [SFrame.IsComment])

theorem bytesOn_big_length (fs : List SFrame) : (fs.flatMap (bytesOn .big)).length = framesSize fs := by
  rw [← flatMap_bytes_length]
  induction fs with
  | nil => rfl
  | cons f fs ih => simp only [List.flatMap_cons, List.length_append, bytesOn_length, ih]

/-- The comments at the front of a tag. -/
theorem items_comments [Platform] (v : UInt8) (cs : List SFrame) (size : Nat) (pre post : Bytes)
    (ht : Tail (pre ++ (ofB (cs.flatMap (bytesOn .big)) ++ post))) (h10 : 10 ≤ pre.length)
    (hb : pre.length + (ofB (cs.flatMap (bytesOn .big)) ++ post).length ≤ 2147483647)
    (hlt : pre.length + framesSize cs ≤ size) (hc : ∀ f ∈ cs, f.IsComment ∧ f.Readable) (fs : List Frame) (stop : Nat) :
    Items v size pre.length (ofB (cs.flatMap (bytesOn .big)) ++ post) fs stop ↔
      ∃ gs, fs = cs.map SFrame.toFrame ++ gs ∧ Items v size (pre.length + framesSize cs) post gs stop := by
  induction cs generalizing pre fs with
  | nil => simp [framesSize]
  | cons f cs ih =>
    have hsplit : framesSize (f :: cs) = (bytesOn .big f).length + framesSize cs := by
      rw [bytesOn_length]; simp [framesSize]
    obtain ⟨h1, h2⟩ := hc f (by simp)
    have h0 := SFrame.bytes_length f h2.1.1
    have e : ofB ((f :: cs).flatMap (bytesOn .big)) ++ post =
        ofB (bytesOn .big f) ++ (ofB (cs.flatMap (bytesOn .big)) ++ post) := by simp
    rw [e] at ht hb ⊢
    have hi := item_comment_any_size v h1 h2 (ofB (cs.flatMap (bytesOn .big)) ++ post)
    have hp := frame_parse_fwd hi hb
    rw [List.length_append (as := ofB (bytesOn .big f)), Nat.add_sub_cancel, List.take_left] at hp
    rw [bytesOn_length] at hsplit
    rw [items_known ht (by omega) hb (by omega) hp]
    have hpl : (pre ++ ofB (bytesOn .big f)).length = pre.length + f.bytes.length := by
      simp [bytesOn_length]
    have ih' := fun fs => ih (pre ++ ofB (bytesOn .big f)) (by rw [List.append_assoc]; exact ht) (by omega)
      (by rw [hpl]; rw [List.length_append, ofB_length, bytesOn_length] at hb; omega) (by omega)
      (fun x hx => hc x (by simp [hx])) fs
    constructor
    · rintro ⟨gs, rfl, h⟩
      obtain ⟨gs', rfl, h3⟩ := (ih' gs).mp h
      refine ⟨gs', rfl, ?_⟩
      rw [hsplit, ← Nat.add_assoc, ← hpl]; exact h3
    · rintro ⟨gs', rfl, h3⟩
      refine ⟨cs.map SFrame.toFrame ++ gs', rfl, (ih' _).mpr ⟨gs', rfl, ?_⟩⟩
      rw [hpl, Nat.add_assoc, ← hsplit]; exact h3

/-- What is read, when comments come first: the comments, and what the rest is taken for. -/
theorem big_endian_comments_first [Platform] (version minor flags : UInt8) (cs after : List SFrame) (padding : Nat)
    (rest : List UInt8) (bw : Nat) (hv : version = 3 ∨ version = 4) (hx : flags &&& 0x40 = 0)
    (hc : ∀ f ∈ cs, f.IsComment ∧ f.Readable) (hbw : bw = backwards (framesSize (cs ++ after) + padding))
    (hb : 10 + framesSize cs ≤ bw) (t : Tag) :
    ID3v2_read_tag (some (ofB (outBytesOn .big version minor flags (cs ++ after) padding ++ rest))) = .ok (some t) ↔
      ∃ gs stop, Items version bw (10 + framesSize cs)
          (padTo (bw - framesSize cs) (ofB (after.flatMap (bytesOn .big) ++ List.replicate padding 0 ++ rest))) gs stop ∧
        t = { toTag version minor flags bw [] ((10 + bw : Nat) - (stop : Int)) with
              frames := Spec.nodes (cs.map SFrame.toFrame ++ gs) } := by
  have hlt : bw < 2 ^ 28 := by rw [hbw]; exact backwards_lt _
  have hC : outBytesOn .big version minor flags (cs ++ after) padding ++ rest =
      tagHeaderBytes version minor flags bw ++ (cs.flatMap (bytesOn .big) ++
        (after.flatMap (bytesOn .big) ++ List.replicate padding 0 ++ rest)) := by
    unfold outBytesOn
    rw [header_backwards, ← hbw]
    simp only [List.flatMap_append, List.append_assoc]
  rw [C67_file, big_endian_length _ _ _ _ _ _ hv, ← hbw, hC]
  generalize hW : after.flatMap (bytesOn .big) ++ List.replicate padding 0 ++ rest = W
  have hh : (ofB (tagHeaderBytes version minor flags bw)).length = 10 := by simp [tagHeaderBytes, synchsafe]
  have hl : (ofB (cs.flatMap (bytesOn .big))).length = framesSize cs := by rw [ofB_length, bytesOn_big_length]
  have ht := tail_padTo (10 + bw) (tagHeaderBytes version minor flags bw ++ (cs.flatMap (bytesOn .big) ++ W))
  have he : padTo (10 + bw) (ofB (tagHeaderBytes version minor flags bw ++ (cs.flatMap (bytesOn .big) ++ W))) =
      ofB (tagHeaderBytes version minor flags bw) ++ (ofB (cs.flatMap (bytesOn .big)) ++ padTo (bw - framesSize cs) (ofB W)) := by
    rw [ofB_append, padTo_append _ _ _ (by omega), hh, ofB_append, padTo_append _ _ _ (by omega), hl]
    congr 3
    omega
  rw [he] at ht ⊢
  rw [tagIn_header version minor flags bw _ hv hx hlt]
  have hr : (ofB (cs.flatMap (bytesOn .big)) ++ padTo (bw - framesSize cs) (ofB W)).length = bw := by
    rw [List.length_append, hl, padTo_length]; omega
  have hit := items_comments version cs bw (ofB (tagHeaderBytes version minor flags bw)) (padTo (bw - framesSize cs) (ofB W)) ht
    (by omega) (by rw [hr]; omega) (by omega) hc
  rw [hh] at hit
  rw [hr]
  constructor
  · rintro ⟨gs, stop, h, rfl⟩
    obtain ⟨gs', rfl, h'⟩ := (hit gs stop).mp h
    exact ⟨gs', stop, h', rfl⟩
  · rintro ⟨gs, stop, h, rfl⟩
    exact ⟨_, stop, (hit _ stop).mpr ⟨gs, rfl, h⟩, rfl⟩

/-- **C83**: a tag of comments that was written on a big-endian machine is read right on any machine, except for the sizes in
the header, if the size of the tag read backwards covers the comments and there is padding. -/
theorem big_endian_comments_kept [Platform] (version minor flags : UInt8) (cs : List SFrame) (padding : Nat)
    (rest : List UInt8) (bw : Nat) (hv : version = 3 ∨ version = 4) (hx : flags &&& 0x40 = 0)
    (hc : ∀ f ∈ cs, f.IsComment ∧ f.Readable) (hbw : bw = backwards (framesSize cs + padding))
    (hb : 10 + framesSize cs < bw) (hp : 4 ≤ padding) :
    ID3v2_read_tag (some (ofB (outBytesOn .big version minor flags cs padding ++ rest))) =
      .ok (some (toTag version minor flags bw cs (bw - framesSize cs : Nat))) := by
  have h := big_endian_comments_first version minor flags cs [] padding rest bw hv hx hc (by simpa using hbw) (by omega)
    (toTag version minor flags bw cs (bw - framesSize cs : Nat))
  rw [List.append_nil] at h
  refine h.mpr ⟨[], 10 + framesSize cs, ?_, ?_⟩
  · have e : ofB (([] : List SFrame).flatMap (bytesOn .big) ++ List.replicate padding 0 ++ rest) =
        ofB [0, 0, 0, 0] ++ ofB (List.replicate (padding - 4) 0 ++ rest) := by
      rw [show padding = 4 + (padding - 4) from by omega, ← List.replicate_append_replicate]
      simp [ofB]
    rw [e, padTo_append _ _ _ (by simp; omega)]
    exact .padding _ _ (by omega)
  · rw [List.append_nil, nodes_toFrame]
    unfold toTag
    congr 1
    dsimp only
    omega

/-- A text or picture: its size tells how much has to fit the stack. -/
theorem item_bad_size [Platform] {v : UInt8} {f : SFrame} {more r' : Bytes} {g : Frame} (hw : f.WF) (hl : f.TooLong v)
    (h : Item v (ofB (f.id ++ (be32 f.body.length).reverse) ++ more) g r') : False := by
  have h0 : ∀ f : SFrame, (be32 f.body.length).reverse.length = 4 := by intro f; simp [be32]
  have cut : ∀ {id size id' size' : List UInt8} {more' : Bytes}, ofB (id ++ size) ++ more = ofB (id' ++ size') ++ more' →
      id.length = 4 → size.length = 4 → id'.length = 4 → size'.length = 4 → id = id' ∧ size = size' := by
    intro id size id' size' more' e h3 h4 h1 h2
    have := (append_cancel e (by simp [h1, h2, h3, h4])).1
    exact append_cancel (ofB_inj.mp this) (by rw [h3, h1])
  have c3 : ∀ {id' size' fl : List UInt8} {more' : Bytes}, ofB (id' ++ size' ++ fl) ++ more' =
      ofB (id' ++ size') ++ (ofB fl ++ more') := by
    intro id' size' fl more'
    rw [ofB_append, List.append_assoc]
  generalize hr : ofB (f.id ++ (be32 f.body.length).reverse) ++ more = r at h
  cases f with
  | text id fl s =>
    obtain ⟨w1, w2, -⟩ := hw
    obtain ⟨n, h1, h2⟩ := item_text_size (id := id) ⟨w1, w2⟩ (h0 (.text id fl s)) (by rw [← hr] at h; exact h)
    rcases hl with hl | hl <;> unfold sizeRead at hl <;> omega
  | apic fl mime pt desc pic =>
    have w1 : (SFrame.apic fl mime pt desc pic).id.length = 4 := rfl
    have w2 : (SFrame.apic fl mime pt desc pic).id.head? = some 0x41 := rfl
    have hz := h0 (.apic fl mime pt desc pic)
    cases h with
    | text id' size' flags enc s more' n hid' hz' =>
      rw [c3] at hr
      have e := (cut hr w1 hz hid'.1 hz').1
      rw [e] at w2
      exact absurd (w2.symm.trans hid'.2) (by decide)
    | comment id' size' flags enc lang desc txt more' hid' hz' =>
      rw [c3] at hr
      have e := (cut hr w1 hz hid'.1 hz').1
      rw [e] at w2
      exact absurd (w2.symm.trans hid'.2) (by decide)
    | apic id' size' flags enc mime pt desc more' n hid' hz' hf hm hd hst hn hn' =>
      rw [c3] at hr
      have e := (cut hr w1 hz hid'.1 hz').2
      rw [← e] at hn
      rcases hl with hl | hl <;> unfold sizeRead at hl <;> omega
    | other id' size' more' hid' hz' hT hC hA =>
      have e := (cut hr w1 hz hid' hz').1
      rw [e] at w2
      exact absurd w2 hA
  | comment => exact hl
  | other => exact hl

/-- The end of a size is the front of the size that is read. -/
theorem sizeRead_large (v : UInt8) (f : SFrame) :
    sizeRead v f < 0 ∨ ((f.body.length % 256 * 2 ^ 21 : Nat) : Int) ≤ sizeRead v f := by
  unfold sizeRead
  generalize f.body.length = n at *
  have e : (be32 n).reverse = [UInt8.ofNat n, UInt8.ofNat (n / 2 ^ 8), UInt8.ofNat (n / 2 ^ 16), UInt8.ofNat (n / 2 ^ 24)] := rfl
  have en : (UInt8.ofNat n).toNat = n % 256 := by rw [UInt8.toNat_ofNat']
  rw [e]
  unfold frameSize
  split
  · right
    simp only [looseSize]
    rw [en]
    exact_mod_cast Nat.right_le_or
  · have b1 := UInt8.toNat_lt (UInt8.ofNat (n / 2 ^ 8))
    have b2 := UInt8.toNat_lt (UInt8.ofNat (n / 2 ^ 16))
    have b3 := UInt8.toNat_lt (UInt8.ofNat (n / 2 ^ 24))
    simp only [plainSize, en]
    split <;> omega

/-- A text or a picture is too long, unless its size ends with a small byte. -/
theorem tooLong_usual [Platform] (v : UInt8) (f : SFrame)
    (h : match f with
      | .text _ _ _ => 1 + Platform.stack < f.body.length % 256 * 2 ^ 21
      | .apic _ _ _ _ _ => 2 + 3 * Platform.stack < f.body.length % 256 * 2 ^ 21
      | _ => False) : f.TooLong v := by
  have := sizeRead_large v f
  cases f with
  | text id fl s =>
    rcases this with this | this
    · exact .inl this
    · exact .inr (by dsimp only at h; omega)
  | apic fl m pt d pic =>
    rcases this with this | this
    · exact .inl this
    · exact .inr (by dsimp only at h; omega)
  | comment => exact h
  | other => exact h

/-- **C83**: reading a file whose tag was written on a big-endian machine has undefined behaviour on every machine, if the first
frame that is not a comment is a text or a picture whose size, as it is read, is negative or more than the stack can hold. -/
theorem big_endian_undefined [Platform] (version minor flags : UInt8) (cs : List SFrame) (f : SFrame) (fs : List SFrame)
    (padding : Nat) (rest : List UInt8) (hv : version = 3 ∨ version = 4) (hx : flags &&& 0x40 = 0)
    (hc : ∀ g ∈ cs, g.IsComment ∧ g.Readable) (hw : f.WF) (hl : f.TooLong version)
    (hb : 10 + framesSize cs < backwards (framesSize (cs ++ f :: fs) + padding)) :
    ∃ u, ID3v2_read_tag (some (ofB (outBytesOn .big version minor flags (cs ++ f :: fs) padding ++ rest))) = .ub u := by
  rw [C67_file_undefined]
  refine ⟨by rw [big_endian_length _ _ _ _ _ _ hv]; omega, ?_⟩
  intro t h
  rw [← C67_file] at h
  obtain ⟨gs, stop, hi, -⟩ := (big_endian_comments_first version minor flags cs (f :: fs) padding rest _ hv hx hc rfl
    (by omega) t).mp h
  generalize backwards (framesSize (cs ++ f :: fs) + padding) = bw at hb hi
  have hid : f.id.length = 4 := by
    cases f with
    | text => exact hw.1
    | other => exact hw.1
    | _ => rfl
  have h8 : (f.id ++ (be32 f.body.length).reverse).length = 8 := by simp [hid, be32]
  have e : ofB ((f :: fs).flatMap (bytesOn .big) ++ List.replicate padding 0 ++ rest) =
      ofB (f.id ++ (be32 f.body.length).reverse) ++
        ofB (f.flags ++ f.body ++ fs.flatMap (bytesOn .big) ++ List.replicate padding 0 ++ rest) := by
    rw [← ofB_append]
    simp [bytesOn, field, List.append_assoc]
  rw [e, padTo_append _ _ _ (by rw [ofB_length, h8]; omega)] at hi
  generalize padTo _ (ofB (f.flags ++ f.body ++ fs.flatMap (bytesOn .big) ++ List.replicate padding 0 ++ rest)) = more at hi
  generalize hr : ofB (f.id ++ (be32 f.body.length).reverse) ++ more = r at hi
  cases hi with
  | stop c r h => omega
  | padding c r h =>
    rw [ofB_append, List.append_assoc] at hr
    have e0 := ofB_inj.mp (append_cancel hr (by simp [hid])).1
    cases f with
    | text id fl s =>
      have e1 : id = [0, 0, 0, 0] := e0
      rw [e1] at hw
      exact absurd hw.2.1 (by decide)
    | apic => exact absurd e0 (by simp [SFrame.id, apicId])
    | comment => exact hl
    | other => exact hl
  | frame c r g r' fs' c' h hi hs =>
    subst hr
    exact item_bad_size hw hl hi

/-- **C83**: a frame of any other kind takes all that is left of the tag, and indeterminate bytes, if its size, as it is read,
is large enough: the frames after it are lost. -/
theorem big_endian_swallows [Platform] (version minor flags : UInt8) (cs : List SFrame) (id fl data : List UInt8)
    (fs : List SFrame) (padding : Nat) (rest : List UInt8) (bw : Nat) (hv : version = 3 ∨ version = 4)
    (hx : flags &&& 0x40 = 0) (hc : ∀ g ∈ cs, g.IsComment ∧ g.Readable) (hw : (SFrame.other id fl data).WF)
    (hbw : bw = backwards (framesSize (cs ++ .other id fl data :: fs) + padding)) (hb : 10 + framesSize cs < bw)
    (hl : (bw - framesSize cs - 10 : Nat) ≤ sizeRead version (.other id fl data)) :
    ID3v2_read_tag (some (ofB (outBytesOn .big version minor flags (cs ++ .other id fl data :: fs) padding ++ rest))) =
      .ok (some { toTag version minor flags bw [] 0 with
        frames := cs.map (fun g => some g.toFrame) ++
          [some { header := { id := ofB id, size := sizeRead version (.other id fl data), flags := ofB fl }
                  data := .raw (padTo (sizeRead version (.other id fl data)).toNat
                    (padTo (bw - framesSize cs - 10)
                      (ofB (data ++ fs.flatMap (bytesOn .big) ++ List.replicate padding 0 ++ rest)))) }] }) := by
  obtain ⟨w1, w2, w3, w4, w5, w6⟩ := hw
  rw [big_endian_comments_first version minor flags cs (.other id fl data :: fs) padding rest bw hv hx hc hbw (by omega)]
  have h8 : (id ++ (be32 data.length).reverse).length = 8 := by simp [w1, be32]
  have e : ofB ((SFrame.other id fl data :: fs).flatMap (bytesOn .big) ++ List.replicate padding 0 ++ rest) =
      ofB (id ++ (be32 data.length).reverse) ++
        (ofB fl ++ ofB (data ++ fs.flatMap (bytesOn .big) ++ List.replicate padding 0 ++ rest)) := by
    rw [← ofB_append, ← ofB_append]
    simp [bytesOn, field, SFrame.id, SFrame.flags, SFrame.body, List.append_assoc]
  rw [e, padTo_append _ _ _ (by rw [ofB_length, h8]; omega), padTo_append _ _ _ (by simp only [ofB_length, h8, w6]; omega)]
  simp only [ofB_length, h8, w6]
  rw [show bw - framesSize cs - 8 - 2 = bw - framesSize cs - 10 from by omega]
  generalize ofB (data ++ fs.flatMap (bytesOn .big) ++ List.replicate padding 0 ++ rest) = W
  have hi := Item.other (version := version) id (be32 data.length).reverse (ofB fl ++ padTo (bw - framesSize cs - 10) W) w1
    (by simp [be32]) w2 w3 w4 w5
  have hd : (ofB fl ++ padTo (bw - framesSize cs - 10) W).drop 2 = padTo (bw - framesSize cs - 10) W := by
    rw [← w6, ← ofB_length, List.drop_left]
  have ht : padTo 2 (ofB fl ++ padTo (bw - framesSize cs - 10) W) = ofB fl := by
    rw [padTo_append _ _ _ (by rw [ofB_length, w6]; omega), ofB_length, w6]
    simp [padTo]
  change ((bw - framesSize cs - 10 : Nat) : Int) ≤ frameSize version (be32 data.length).reverse at hl
  rw [hd, ht, List.drop_of_length_le (by rw [padTo_length]; omega)] at hi
  refine ⟨_, 10 + bw, .frame _ _ _ _ [] _ (by omega) hi ?_, ?_⟩
  · rw [List.length_append, List.length_append, padTo_length, ofB_length, ofB_length, h8, w6, List.length_nil,
      show 10 + framesSize cs + (8 + (2 + (bw - framesSize cs - 10)) - 0) = 10 + bw from by omega]
    exact .stop _ _ (by omega)
  · have hn : ∀ (a : List Frame) (b : Frame), Spec.nodes (a ++ [b]) = a.map some ++ [some b] := by
      intro a b
      cases a <;> simp [Spec.nodes]
    rw [hn, List.map_map, Int.sub_self]
    rfl

/-! ## Concrete files -/

/-- The comment "Hi" in English. -/
def aComment : SFrame := .comment [0, 0] [0x65, 0x6E, 0x67] (.latin [0x41]) (.latin [0x48, 0x69])

/-- A comment and twenty bytes of padding: the tag has 39 bytes, and is taken for 81788928 bytes. -/
example : @ID3v2_read_tag strict (some (ofB (outBytesOn .big 3 0 0 [aComment] 20 ++ [0xFF, 0xFB, 0x90]))) =
    .ok (some (toTag 3 0 0 81788928 [aComment] 81788909)) :=
  @big_endian_comments_kept strict 3 0 0 [aComment] 20 [0xFF, 0xFB, 0x90] 81788928 (.inl rfl) (by decide)
    (by simp [aComment, SFrame.IsComment]; decide) (by decide) (by decide) (by decide)

/-- A comment, a picture of ten bytes, and padding. -/
example : ∃ u, @ID3v2_read_tag strict (some (ofB (outBytesOn .big 4 0 0
    ([aComment] ++ .apic [0, 0] (.latin [0x69]) 3 (.latin [0x43]) [1, 2, 3, 4] :: []) 20 ++ [0xFF, 0xFB, 0x90]))) = .ub u :=
  @big_endian_undefined strict 4 0 0 [aComment] (.apic [0, 0] (.latin [0x69]) 3 (.latin [0x43]) [1, 2, 3, 4]) [] 20
    [0xFF, 0xFB, 0x90] (.inr rfl) (by decide) (by simp [aComment, SFrame.IsComment]; decide) (by decide)
    (@tooLong_usual strict 4 _ (by decide)) (by decide)

/-- A private frame takes the title after it. -/
example : ∃ t, @ID3v2_read_tag strict (some (ofB (outBytesOn .big 3 0 0
      ([] ++ .other [0x50, 0x52, 0x49, 0x56] [0, 0] [1, 2] :: [.text [0x54, 0x49, 0x54, 0x32] [0, 0] (.latin [0x48, 0x69])])
      102 ++ []))) = .ok (some t) ∧ t.frames.length = 1 :=
  ⟨_, @big_endian_swallows strict 3 0 0 [] [0x50, 0x52, 0x49, 0x56] [0, 0] [1, 2]
    [.text [0x54, 0x49, 0x54, 0x32] [0, 0] (.latin [0x48, 0x69])] 102 [] 16384 (.inl rfl) (by decide) (by simp) (by decide)
    (by decide) (by decide) (by decide), rfl⟩

end Id3.Props
