import Verif.Spec.Repr

/-!
# The bytes that the library reads, whatever they are

A description of what is found in a buffer of any bytes, as a grammar: which bytes are taken for a frame, what frame they
give, and where the next one starts. Bytes that are not there (the file ends before the tag does) are indeterminate.
-/

namespace Id3.Spec

open Id3

/-- A number from four bytes of seven bits each; bits 7, which should not be set, run into the next digit. -/
def looseSize : List UInt8 → Nat
  | [a, b, c, d] => d.toNat ||| c.toNat * 2 ^ 7 ||| b.toNat * 2 ^ 14 ||| a.toNat * 2 ^ 21
  | _ => 0

/-- A signed number from four bytes, most significant first. -/
def plainSize : List UInt8 → Int
  | [a, b, c, d] =>
    let n : Nat := a.toNat * 2 ^ 24 + b.toNat * 2 ^ 16 + c.toNat * 2 ^ 8 + d.toNat
    if n < 2 ^ 31 then n else (n : Int) - 2 ^ 32
  | _ => 0

/-- The number in the size field of a frame. -/
def frameSize (version : UInt8) (size : List UInt8) : Int :=
  if version = 4 then looseSize size else plainSize size

/-- The first `n` bytes of `d`, or all of them and indeterminate ones. -/
def padTo (n : Nat) (d : Bytes) : Bytes := d.take n ++ List.replicate (n - d.length) none

/-- A frame id with the given first letter. -/
def IdOf (letter : UInt8) (id : List UInt8) : Prop := id.length = 4 ∧ id.head? = some letter

/-- `Item version r f r'`: the bytes `r` are taken for the frame `f`, and `r'` is what follows. -/
inductive Item [Platform] (version : UInt8) : Bytes → Frame → Bytes → Prop
  /-- Text: after the encoding there are `n` bytes (fewer if the buffer ends before), which have to fit the stack. They start
  with a terminated string. -/
  | text (id size flags : List UInt8) (enc : UInt8) (s : Str) (more : Bytes) (n : Nat)
      (hid : IdOf 0x54 id) (hz : size.length = 4) (hf : flags.length = 2) (hn : frameSize version size = 1 + n)
      (hst : n ≤ Platform.stack) (hs : s.WF) (hfit : s.bytes.length ≤ n)
      (hcmp : Platform.memcmpLenient = true ∨ s ≠ .latin [] ∨ (2 ≤ n ∧ ∃ b r, more = some b :: r)) :
      Item version (ofB (id ++ size ++ flags) ++ some enc :: (ofB s.bytes ++ more)) (SFrame.text id flags s).toFrame
        ((ofB s.bytes ++ more).drop n)
  /-- Comment: two terminated strings, each of which has to fit the stack. The size does not matter. -/
  | comment (id size flags : List UInt8) (enc : UInt8) (lang : List UInt8) (desc txt : Str) (more : Bytes)
      (hid : IdOf 0x43 id) (hz : size.length = 4) (hf : flags.length = 2) (hl : lang.length = 3)
      (hd : desc.Usable) (ht : txt.Usable) (hst : desc.bytes.length ≤ Platform.stack ∧ txt.bytes.length ≤ Platform.stack) :
      Item version (ofB (id ++ size ++ flags) ++ some enc :: (ofB lang ++ (ofB desc.bytes ++ (ofB txt.bytes ++ more))))
        (SFrame.comment flags lang desc txt).toFrame more
  /-- Picture: a terminated string, the type, a terminated string, and the `n` bytes that are left of the size (fewer if the
  buffer ends before: the others are indeterminate). Each of them has to fit the stack, and `n` is not zero. -/
  | apic (id size flags : List UInt8) (enc : UInt8) (mime : Str) (pt : UInt8) (desc : Str) (more : Bytes) (n : Nat)
      (hid : IdOf 0x41 id) (hz : size.length = 4) (hf : flags.length = 2) (hm : mime.Usable) (hd : desc.Usable)
      (hst : mime.bytes.length ≤ Platform.stack ∧ desc.bytes.length ≤ Platform.stack)
      (hn : frameSize version size = (1 + mime.bytes.length + 1 + desc.bytes.length + n : Nat))
      (hn' : 0 < n ∧ n ≤ Platform.stack) :
      Item version (ofB (id ++ size ++ flags) ++ some enc :: (ofB mime.bytes ++ (some pt :: (ofB desc.bytes ++ more))))
        { header := { id := ofB apicId, size := frameSize version size, flags := ofB flags }
          data := .apic { encoding := desc.encoding, mime_type := ofB mime.bytes, picture_type := pt,
                          description := ofB desc.bytes, data := padTo n more, picture_size := n } }
        (more.drop n)
  /-- Any other id: as many bytes as the size says (fewer if the buffer ends before, even in the flags: the others are
  indeterminate); none if the size is negative. -/
  | other (id size : List UInt8) (more : Bytes) (hid : id.length = 4) (hz : size.length = 4)
      (hT : id.head? ≠ some 0x54) (hC : id.head? ≠ some 0x43) (hA : id.head? ≠ some 0x41) (h0 : id ≠ [0, 0, 0, 0]) :
      Item version (ofB (id ++ size) ++ more)
        { header := { id := ofB id, size := frameSize version size, flags := padTo 2 more }
          data := .raw (padTo (frameSize version size).toNat (more.drop 2)) }
        ((more.drop 2).drop (frameSize version size).toNat)

/-- `Items version size c r fs c'`: from position `c` of the buffer, where the bytes `r` are, the frames `fs` are found; the
search ends at position `c'`. It ends at padding, or ten bytes before the end of the tag (or further on), because the position
counts the ten bytes of the tag header and `size` does not. -/
inductive Items [Platform] (version : UInt8) (size : Nat) : Nat → Bytes → List Frame → Nat → Prop
  | stop (c : Nat) (r : Bytes) (h : size ≤ c) : Items version size c r [] c
  | padding (c : Nat) (r : Bytes) (h : c < size) : Items version size c (ofB [0, 0, 0, 0] ++ r) [] c
  | frame (c : Nat) (r : Bytes) (f : Frame) (r' : Bytes) (fs : List Frame) (c' : Nat) (h : c < size)
      (hi : Item version r f r') (hs : Items version size (c + (r.length - r'.length)) r' fs c') :
      Items version size c r (f :: fs) c'

/-- The nodes of a list of frames: an empty list is one node without a frame. -/
def nodes : List Frame → FrameList
  | [] => [none]
  | fs => fs.map some

/-- `TagIn buffer t`: the buffer holds the tag `t`. After the header the frames start, unless there is the flag of an extended
header: then its size tells the position of the frames in the buffer (if it is zero, they follow). -/
def TagIn [Platform] (buffer : Bytes) (t : Tag) : Prop :=
  ∃ (version minor flags : UInt8) (size : List UInt8) (rest : Bytes) (ext start : Nat) (fs : List Frame) (stop : Nat),
    (version = 3 ∨ version = 4) ∧ size.length = 4 ∧
    buffer = ofB ([0x49, 0x44, 0x33, version, minor, flags] ++ size) ++ rest ∧
    (if flags &&& 0x40 = 0x40 then
      ∃ x : List UInt8, x.length = 4 ∧ rest.take 4 = ofB x ∧ ext = looseSize x ∧ start = (if ext = 0 then 14 else ext)
      else ext = 0 ∧ start = 10) ∧
    Items version (looseSize size) start (buffer.drop start) fs stop ∧
    t = { header := { identifier := ofB [0x49, 0x44, 0x33], major_version := version, minor_version := minor,
                      flags := flags, tag_size := looseSize size, extended_header_size := some ext }
          frames := nodes fs
          padding_size := (buffer.length : Int) - stop }

end Id3.Spec
