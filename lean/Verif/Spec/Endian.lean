import Verif.Model.Endian
import Verif.Spec.Layout

/-!
# What is written on a target of either byte order
-/

namespace Id3.Spec

open Id3

/-- A field of four bytes as it is written: the right way round on a little-endian target, backwards on a big-endian one. -/
def field (o : ByteOrder) (b : List UInt8) : List UInt8 :=
  match o with
  | .little => b
  | .big => b.reverse

/-- A frame as it is written: compare `SFrame.bytes`. -/
def bytesOn (o : ByteOrder) (f : SFrame) : List UInt8 := f.id ++ field o (be32 f.body.length) ++ f.flags ++ f.body

/-- The header of a tag as it is written: compare `tagHeaderBytes`. -/
def tagHeaderBytesOn (o : ByteOrder) (major minor flags : UInt8) (size : Nat) : List UInt8 :=
  [0x49, 0x44, 0x33, major, minor, flags] ++ field o (synchsafe size)

/-- A tag as it is written: compare `outBytes`. -/
def outBytesOn (o : ByteOrder) (version minor flags : UInt8) (fs : List SFrame) (padding : Nat) : List UInt8 :=
  tagHeaderBytesOn o version minor flags (framesSize fs + padding) ++ fs.flatMap (bytesOn o) ++ List.replicate padding 0

/-- The four bytes from position `k` on, the other way round. -/
def swapAt {α : Type} (k : Nat) (s : List α) : List α := s.take k ++ ((s.drop k).take 4).reverse ++ s.drop (k + 4)

/-- The same for several positions. -/
def swapAll {α : Type} : List Nat → List α → List α
  | [], s => s
  | k :: ks, s => swapAll ks (swapAt k s)

/-- Where the sizes of the frames are in the bytes of a tag: the first frame begins at `at`, and the size of a frame comes
after its id. The frames end at a node without a frame. -/
def sizeFields («at» : Nat) : FrameList → List Nat
  | some f :: rest => («at» + 4) :: sizeFields («at» + (f.header.size + 10).toNat) rest
  | _ => []

/-- Where the sizes are in the bytes of a tag: that of the tag after "ID3", version, revision and flags, then those of the
frames. -/
def tagFields (tag : Tag) : List Nat := 6 :: sizeFields 10 tag.frames

/-- What the byte order of the target makes of the bytes of a tag. -/
def turned {α : Type} (o : ByteOrder) (fields : List Nat) (s : List α) : List α :=
  match o with
  | .little => s
  | .big => swapAll fields s

/-- The number with the four base-128 digits of `n` the other way round. -/
def backwards (n : Nat) : Nat :=
  n % 128 * 128 ^ 3 + n / 128 % 128 * 128 ^ 2 + n / 128 ^ 2 % 128 * 128 + n / 128 ^ 3 % 128

/-- Two targets that differ in the sign of `char` at most. -/
def SameButChar (p p' : Platform) : Prop := p.memcmpLenient = p'.memcmpLenient ∧ p.stack = p'.stack

end Id3.Spec
