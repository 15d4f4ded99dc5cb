import Verif.Props.Injective
import Verif.Props.Tests

/-!
# C15, C12: exactly which tags are written back byte for byte
-/

namespace Id3.Props

open Id3 Spec

theorem wire_id_length (w : Wire) (h : w.WF) : w.id.length = 4 := by
  cases w <;> exact h.1

theorem wire_flags_length (w : Wire) (h : w.WF) : w.flags.length = 2 := by
  cases w with
  | text => exact h.2.2.1
  | comment => exact h.2.2.1
  | apic => exact h.2.2.1
  | other => exact h.2.2.2.2.2

theorem kept_body_le (w : Wire) : w.kept.body.length ≤ w.body.length := by
  cases w <;> simp [Wire.kept, SFrame.body, Wire.body] <;> omega

/-- A size whose synchsafe bytes are the plain bytes of a number that is not larger is that number, and is below 128. -/
theorem synchsafe_be32 (n m : Nat) (hn : n < 2 ^ 28) (hm : m ≤ n) (h : synchsafe n = be32 m) : n = m ∧ n < 128 := by
  have a3 : n / 128 ^ 3 = n / 128 / 128 / 128 := by rw [Nat.div_div_eq_div_mul, Nat.div_div_eq_div_mul]
  have a2 : n / 128 ^ 2 = n / 128 / 128 := by rw [Nat.div_div_eq_div_mul]
  have b3 : m / 2 ^ 24 = m / 256 / 256 / 256 := by rw [Nat.div_div_eq_div_mul, Nat.div_div_eq_div_mul]
  have b2 : m / 2 ^ 16 = m / 256 / 256 := by rw [Nat.div_div_eq_div_mul]
  rw [be32, synchsafe, a3, a2, b3, b2] at h
  clear a3 a2 b3 b2
  simp only [List.cons.injEq, ← UInt8.toNat_inj, UInt8.toNat_ofNat', and_true, Nat.reducePow] at h
  have hd : ∀ x : Nat, x % 128 % 256 = x % 128 := fun x => by omega
  rw [hd, hd, hd, hd] at h
  clear hd
  have hz3 : n / 128 / 128 / 128 % 128 = n / 128 / 128 / 128 := by clear h hm; omega
  have hx3 : m / 256 / 256 / 256 % 256 = m / 256 / 256 / 256 := by clear h; omega
  rw [hz3, hx3] at h
  clear hz3 hx3
  obtain ⟨h3, h2, h1, h0⟩ := h
  have n0 := Nat.div_add_mod n 128
  have n1 := Nat.div_add_mod (n / 128) 128
  have n2 := Nat.div_add_mod (n / 128 / 128) 128
  have m0 := Nat.div_add_mod m 256
  have m1 := Nat.div_add_mod (m / 256) 256
  have m2 := Nat.div_add_mod (m / 256 / 256) 256
  rw [h3, h2] at n2
  rw [h1] at n1
  rw [h0] at n0
  have l0 : m % 256 < 128 := by rw [← h0]; exact Nat.mod_lt _ (by decide)
  clear h3 h2 h1 h0
  generalize m % 256 = x0 at *
  generalize m / 256 % 256 = x1 at *
  generalize m / 256 / 256 % 256 = x2 at *
  generalize m / 256 / 256 / 256 = x3 at *
  generalize m / 256 / 256 = y2 at *
  generalize m / 256 = y1 at *
  generalize n / 128 / 128 / 128 = z3 at *
  generalize n / 128 / 128 = w2 at *
  generalize n / 128 = w1 at *
  omega

theorem be32_synchsafe (n : Nat) (hn : n < 128) : synchsafe n = be32 n := by
  have e1 : n / 128 ^ 3 % 128 = 0 := by omega
  have e2 : n / 128 ^ 2 % 128 = 0 := by omega
  have e3 : n / 128 % 128 = 0 := by omega
  have e4 : n % 128 = n := by omega
  have e5 : n / 2 ^ 24 = 0 := by omega
  have e6 : n / 2 ^ 16 = 0 := by omega
  have e7 : n / 2 ^ 8 = 0 := by omega
  rw [synchsafe, be32, e1, e2, e3, e4, e5, e6, e7]

/-- What the first bytes of two equal byte strings say about a frame and what the library keeps of it. -/
theorem same_start (version : UInt8) (w : Wire) (a b : List UInt8) (hw : w.WF) (hl : w.body.length < 2 ^ 28)
    (h : w.bytes version ++ a = w.kept.bytes ++ b) :
    w.bytes version = w.kept.bytes ∧ a = b := by
  have hk := Wire.kept_WF w hw
  have hlen : w.body.length = w.kept.body.length := by
    have h' : w.id ++ (sizeBytes version w.sizeField ++ (w.flags ++ w.body ++ a)) =
        w.kept.id ++ (be32 w.kept.body.length ++ (w.kept.flags ++ w.kept.body ++ b)) := by
      simpa [Wire.bytes, Wire.bytesWith, SFrame.bytes] using h
    have h1 := (List.append_inj h' (by rw [wire_id_length w hw, sframe_id_length _ hk])).2
    have h2 := (List.append_inj h1 (by simp [sizeBytes]; split <;> rfl)).1
    have hle := kept_body_le w
    cases w with
    | comment => simp [Wire.kept, SFrame.body, Wire.body]
    | apic => simp [Wire.kept, SFrame.body, Wire.body]
    | other => rfl
    | text id fl enc s junk =>
      have hsz : (Wire.text id fl enc s junk).sizeField = (Wire.text id fl enc s junk).body.length := rfl
      rw [hsz] at h2
      unfold sizeBytes at h2
      split at h2
      · exact (synchsafe_be32 _ _ hl hle h2).1
      · exact be32_inj _ _ (by omega) (by omega) h2
  exact List.append_inj h (by rw [Wire.bytes_length version w hw, SFrame.bytes_length _ hk, hlen])

theorem same_all (version : UInt8) (ws : List Wire) (a b : List UInt8) (hw : ∀ w ∈ ws, w.WF)
    (hl : (ws.flatMap (Wire.bytes version)).length < 2 ^ 28)
    (h : ws.flatMap (Wire.bytes version) ++ a = ws.flatMap (fun w => w.kept.bytes) ++ b) :
    ∀ w ∈ ws, w.bytes version = w.kept.bytes := by
  induction ws with
  | nil => simp
  | cons w ws ih =>
    rw [List.flatMap_cons, List.length_append, Wire.bytes_length version w (hw w (by simp))] at hl
    rw [List.flatMap_cons, List.flatMap_cons, List.append_assoc, List.append_assoc] at h
    obtain ⟨h1, h2⟩ := same_start version w _ _ (hw w (by simp)) (by omega) h
    intro x hx
    rcases List.mem_cons.mp hx with rfl | hx
    · exact h1
    · exact ih (fun y hy => hw y (by simp [hy])) (by omega) h2 x hx

/-- **C15**, exactly, for versions 2.3 and 2.4: reading a tag and serialising it gives the bytes that were read if and
only if the library would write every frame of it with the bytes it has in the file. -/
theorem read_write_same_iff [Platform] (version minor flags : UInt8) (ws : List Wire) (padding : Nat)
    (hv : version = 3 ∨ version = 4) (hflag : flags &&& 0x40 = 0) (hR : ∀ w ∈ ws, w.Readable version)
    (hs : (ws.flatMap (Wire.bytes version)).length + padding < 2 ^ 28) (hlast : lastSeen ws padding) :
    ∃ t cs, ID3v2_read_tag_from_buffer (ofB (wireTagBytes version minor flags ws padding))
        (10 + (ws.flatMap (Wire.bytes version)).length + padding : Nat) = .ok (some t) ∧
      Tag_to_char_stream t = .ok cs ∧
      (cs.stream = ofB (wireTagBytes version minor flags ws padding) ↔
        ∀ w ∈ ws, w.bytes version = w.kept.bytes) := by
  obtain ⟨t, cs, h1, h2, h3⟩ := read_write_bytes version minor flags ws padding hv hflag hR hs hlast
  refine ⟨t, cs, h1, h2, ?_⟩
  rw [h3]
  unfold wireTagBytes
  dsimp only
  constructor
  · intro h
    have h' := ofB_injective h
    rw [List.append_assoc, List.append_assoc] at h'
    exact same_all version ws _ _ (fun w hw => (hR w hw).1.1) (by omega) (List.append_cancel_left h').symm
  · intro h
    have e : ws.flatMap (fun w => w.kept.bytes) = ws.flatMap (Wire.bytes version) := by
      unfold List.flatMap
      rw [List.map_congr_left (fun w hw => (h w hw).symm)]
    have e' : framesSize (ws.map Wire.kept) = (ws.flatMap (Wire.bytes version)).length := by
      rw [← e, ← flatMap_bytes_length, List.flatMap_map]
    rw [e, e', Nat.add_sub_cancel_left]

/-- Which frames of a version 2.3 tag the library writes with the bytes they have in the file: those in its own form. -/
theorem same_bytes_three (w : Wire) (hw : w.WF) (hl : w.body.length < 2 ^ 28) (hz : w.sizeField < 2 ^ 32) :
    w.bytes 3 = w.kept.bytes ↔ w = Wire.ofSFrame w.kept := by
  constructor
  · intro h
    have hk := Wire.kept_WF w hw
    have h' : w.id ++ (be32 w.sizeField ++ (w.flags ++ w.body)) =
        w.kept.id ++ (be32 w.kept.body.length ++ (w.kept.flags ++ w.kept.body)) := by
      simpa [Wire.bytes, Wire.bytesWith, SFrame.bytes, sizeBytes] using h
    obtain ⟨e1, h1⟩ := List.append_inj h' (by rw [wire_id_length w hw, sframe_id_length _ hk])
    obtain ⟨e2, h2⟩ := List.append_inj h1 rfl
    have e4 := (List.append_inj h2 (by rw [wire_flags_length w hw, sframe_flags_length _ hk])).2
    have hle := kept_body_le w
    have e3 := be32_inj _ _ hz (by omega) e2
    cases w with
    | text id fl enc s junk =>
      simp only [Wire.body, Wire.kept, SFrame.body, List.cons_append, List.cons.injEq, List.append_right_eq_self] at e4
      rw [e4.1, e4.2]; rfl
    | comment id fl sz enc lang desc txt =>
      simp only [Wire.body, Wire.kept, SFrame.body, List.cons_append, List.cons.injEq, and_true] at e4
      simp only [Wire.id, Wire.kept, SFrame.id] at e1
      simp only [Wire.sizeField, Wire.kept] at e3
      rw [e4, e1, e3]; rfl
    | apic id fl enc mime pt desc pic =>
      simp only [Wire.body, Wire.kept, SFrame.body, List.cons_append, List.cons.injEq, and_true] at e4
      simp only [Wire.id, Wire.kept, SFrame.id] at e1
      rw [e4, e1]; rfl
    | other => rfl
  · intro h
    rw [h, ofSFrame_bytes _ 3 (by decide), ofSFrame_kept]

/-- **C15**, exactly, for version 2.3: a tag is written back byte for byte if and only if every frame of it is in the form
the library itself writes. (The form: text without a second value, COMM and APIC only among the ids in C and A, encoding
byte 0 for text without BOM and 1 for text with BOM, truthful sizes.) -/
theorem read_write_identity_iff [Platform] (minor flags : UInt8) (ws : List Wire) (padding : Nat)
    (hflag : flags &&& 0x40 = 0) (hR : ∀ w ∈ ws, w.Readable 3)
    (hs : (ws.flatMap (Wire.bytes 3)).length + padding < 2 ^ 28) (hlast : lastSeen ws padding) :
    ∃ t cs, ID3v2_read_tag_from_buffer (ofB (wireTagBytes 3 minor flags ws padding))
        (10 + (ws.flatMap (Wire.bytes 3)).length + padding : Nat) = .ok (some t) ∧
      Tag_to_char_stream t = .ok cs ∧
      (cs.stream = ofB (wireTagBytes 3 minor flags ws padding) ↔ ∀ w ∈ ws, w = Wire.ofSFrame w.kept) := by
  obtain ⟨t, cs, h1, h2, h3⟩ := read_write_same_iff 3 minor flags ws padding (Or.inl rfl) hflag hR hs hlast
  refine ⟨t, cs, h1, h2, h3.trans ?_⟩
  refine forall_congr' fun w => forall_congr' fun hw => ?_
  obtain ⟨⟨hwf, -, -⟩, hmax⟩ := hR w hw
  have hlen : (w.bytes 3).length ≤ (ws.flatMap (Wire.bytes 3)).length := by
    obtain ⟨a, b, rfl⟩ := List.append_of_mem hw
    simp only [List.flatMap_append, List.flatMap_cons, List.length_append]
    omega
  rw [Wire.bytes_length 3 w hwf] at hlen
  have : maxFrameSize 3 = 2 ^ 31 - 1 := rfl
  exact same_bytes_three w hwf (by omega) (by omega)

example : (∀ w ∈ sampleFrames.map Wire.ofSFrame, w = Wire.ofSFrame w.kept) ∧
    (∀ w ∈ sampleWire, ¬ w = Wire.ofSFrame w.kept) := by decide

/-- Which frames of a version 2.4 tag the library writes with the bytes they have in the file: those in its own form with
fewer than 128 bytes. (Comments, whose size the library ignores, are left out.) -/
theorem same_bytes_four (w : Wire) (hw : w.WF) (hl : w.body.length < 2 ^ 28) (hc : w.id.head? ≠ some 0x43) :
    w.bytes 4 = w.kept.bytes ↔ w = Wire.ofSFrame w.kept ∧ w.body.length < 128 := by
  have hsz : w.sizeField = w.body.length := by
    cases w with
    | comment => exact absurd hw.2.1 hc
    | _ => rfl
  have hle := kept_body_le w
  have e4 : w.bytes 4 = w.id ++ synchsafe w.body.length ++ w.flags ++ w.body := by
    rw [← hsz]; rfl
  have e3 : w.bytes 3 = w.id ++ be32 w.body.length ++ w.flags ++ w.body := by
    rw [← hsz]; rfl
  have base := same_bytes_three w hw hl (by omega)
  constructor
  · intro h
    have hk := Wire.kept_WF w hw
    have h' : w.id ++ (synchsafe w.body.length ++ (w.flags ++ w.body)) =
        w.kept.id ++ (be32 w.kept.body.length ++ (w.kept.flags ++ w.kept.body)) := by
      rw [e4] at h
      simpa [SFrame.bytes] using h
    have h1 := (List.append_inj h' (by rw [wire_id_length w hw, sframe_id_length _ hk])).2
    have h2 := (List.append_inj h1 rfl).1
    have h3 := (synchsafe_be32 _ _ hl hle h2).2
    refine ⟨base.mp ?_, h3⟩
    rw [e3, ← be32_synchsafe _ h3, ← e4, h]
  · rintro ⟨h1, h2⟩
    rw [e4, be32_synchsafe _ h2, ← e3]
    exact base.mpr h1

/-- **C15**, exactly, for version 2.4 tags without comments: such a tag is written back byte for byte if and only if every
frame of it is in the form the library itself writes and has fewer than 128 bytes. -/
theorem read_write_identity_four_iff [Platform] (minor flags : UInt8) (ws : List Wire) (padding : Nat)
    (hflag : flags &&& 0x40 = 0) (hR : ∀ w ∈ ws, w.Readable 4) (hc : ∀ w ∈ ws, w.id.head? ≠ some 0x43)
    (hs : (ws.flatMap (Wire.bytes 4)).length + padding < 2 ^ 28) (hlast : lastSeen ws padding) :
    ∃ t cs, ID3v2_read_tag_from_buffer (ofB (wireTagBytes 4 minor flags ws padding))
        (10 + (ws.flatMap (Wire.bytes 4)).length + padding : Nat) = .ok (some t) ∧
      Tag_to_char_stream t = .ok cs ∧
      (cs.stream = ofB (wireTagBytes 4 minor flags ws padding) ↔
        ∀ w ∈ ws, w = Wire.ofSFrame w.kept ∧ w.body.length < 128) := by
  obtain ⟨t, cs, h1, h2, h3⟩ := read_write_same_iff 4 minor flags ws padding (Or.inr rfl) hflag hR hs hlast
  refine ⟨t, cs, h1, h2, h3.trans ?_⟩
  refine forall_congr' fun w => forall_congr' fun hw => ?_
  have hwf := (hR w hw).1.1
  have hlen : (w.bytes 4).length ≤ (ws.flatMap (Wire.bytes 4)).length := by
    obtain ⟨a, b, rfl⟩ := List.append_of_mem hw
    simp only [List.flatMap_append, List.flatMap_cons, List.length_append]
    omega
  rw [Wire.bytes_length 4 w hwf] at hlen
  exact same_bytes_four w hwf (by omega) (hc w hw)

example :
    let short : Wire := .text [0x54, 0x49, 0x54, 0x32] [0, 0] 0 (.latin (List.replicate 120 0x41)) []
    let long : Wire := .text [0x54, 0x49, 0x54, 0x32] [0, 0] 0 (.latin (List.replicate 130 0x41)) []
    (∀ w ∈ [short, long], @Wire.Readable strict 4 w ∧ w.id.head? ≠ some 0x43 ∧ w = Wire.ofSFrame w.kept) ∧
      short.body.length < 128 ∧ ¬ long.body.length < 128 := by decide +kernel

/-- **C15**, exactly, for files: reading the tag of a file and writing it back leaves the file as it was, byte for byte, if
and only if the library would write every frame of the tag with the bytes it has in the file. (`same_bytes_three` and
`same_bytes_four` say which frames these are.) -/
theorem resave_unchanged_iff [Platform] (version minor flags : UInt8) (ws : List Wire) (padding : Nat) (rest : List UInt8)
    (hv : version = 3 ∨ version = 4) (hflag : flags &&& 0x40 = 0) (hR : ∀ w ∈ ws, w.Readable version)
    (hs : (ws.flatMap (Wire.bytes version)).length + padding < 2 ^ 28) (hlast : lastSeen ws padding) :
    ∃ tag file tag', ID3v2_read_tag (some (ofB (wireTagBytes version minor flags ws padding ++ rest))) = .ok (some tag) ∧
      ID3v2_write_tag (some (ofB (wireTagBytes version minor flags ws padding ++ rest))) tag = .ok (file, tag') ∧
      (file = some (ofB (wireTagBytes version minor flags ws padding ++ rest)) ↔
        ∀ w ∈ ws, w.bytes version = w.kept.bytes) := by
  obtain ⟨t, cs, h1, h2, h3⟩ := read_write_same_iff version minor flags ws padding hv hflag hR hs hlast
  have hb := beyond_length_ignored version minor flags ws padding [] hv hflag hR hs hlast
  have e : ofB (wireTagBytes version minor flags ws padding ++ rest) =
      ofB (tagHeaderBytes version minor flags ((ws.flatMap (Wire.bytes version)).length + padding)) ++
        ofB (ws.flatMap (Wire.bytes version) ++ List.replicate padding 0) ++ ofB rest := by
    rw [wireTag_split]; simp
  have e2 : ofB (wireTagBytes version minor flags ws padding) =
      ofB (tagHeaderBytes version minor flags ((ws.flatMap (Wire.bytes version)).length + padding)) ++
        ofB (ws.flatMap (Wire.bytes version) ++ List.replicate padding 0) := by
    rw [wireTag_split]; simp
  have hread : ID3v2_read_tag (some (ofB (wireTagBytes version minor flags ws padding ++ rest))) = .ok (some t) := by
    rw [e, read_tag_prefix version minor flags _ _ _ hv hs (by simp), ← e2]
    rw [Nat.add_assoc] at h1
    exact h1
  have haud : audio (wireTagBytes version minor flags ws padding ++ rest) = rest := by
    have hle := kept_framesSize version ws (fun w hw => (hR w hw).1.1)
    obtain ⟨-, -, -, -, h, -⟩ := tagged_read (contents := wireTagBytes version minor flags ws padding ++ rest)
      (version := version) (fs := ws.map Wire.kept) (rest := rest)
      (spare := (ws.flatMap (Wire.bytes version)).length + padding - framesSize (ws.map Wire.kept))
      ⟨minor, flags, ws, padding, rfl, hv, hflag, hR, hs, hlast, rfl, by omega⟩
    exact h
  rw [List.append_nil, h1, Res.ok.injEq, Option.some.injEq] at hb
  obtain ⟨tag', h4⟩ := write_succeeds (wireTagBytes version minor flags ws padding ++ rest) t cs (by rw [hb]; rfl) h2
    (by rw [hb]; show (0 : Int) ≤ (padding : Nat); omega) (by rw [hb]; show ((padding : Nat) : Int) ≤ _; omega)
  refine ⟨t, _, tag', hread, h4, ?_⟩
  rw [haud, Option.some.injEq, ofB_append, List.append_left_inj]
  exact h3

example : (∀ w ∈ sampleFrames.map Wire.ofSFrame, @Wire.Readable strict 3 w ∧ w.bytes 3 = w.kept.bytes) ∧
    (∀ w ∈ sampleWire, @Wire.Readable strict 3 w ∧ w.bytes 3 ≠ w.kept.bytes) ∧
    lastSeen (sampleFrames.map Wire.ofSFrame) 7 ∧ lastSeen sampleWire 7 := by decide

end Id3.Props
