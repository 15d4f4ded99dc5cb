import Verif.Model.Core

/-!
# Model of src/modules/utils.c
-/

namespace Id3

/-- src/modules/utils.c:148-161 `string_has_bom` for a pointer that is not NULL. -/
def string_has_bom [Platform] (s : Bytes) : Res Bool := do
  if ← memcmpEq s [0xFF, 0xFE] then return true
  if ← memcmpEq s [0xFE, 0xFF] then return true
  return false

/-- libc `strlen` (called from utils.c:28, 35, 53): counts up to the first zero byte, reading every byte before it. -/
def c_strlen : Bytes → Res Nat
  | [] => .ub .oobRead
  | b :: bs => do
    let v ← load b
    if v = 0 then return 0
    return (← c_strlen bs) + 1

/-- src/modules/utils.c:60-71, the loop of `ID3v2_strlen` for strings with BOM: counts pairs of bytes up to the first
pair of zeros, loading both bytes of every pair (lines 62-63). -/
def utf16_scan : Bytes → Res Nat
  | a :: b :: rest => do
    let va ← load a
    let vb ← load b
    if va = 0 ∧ vb = 0 then return 0
    return (← utf16_scan rest) + 2
  | _ => .ub .oobRead

/-- src/modules/utils.c:48-74 `ID3v2_strlen`. A length that does not fit an `int` is reported as overflow (in C the
conversion from `size_t` on line 53 is implementation-defined and the addition on line 70 overflows). -/
def ID3v2_strlen [Platform] (s : Bytes) : Res Int := do
  if ← string_has_bom s then
    ck (← utf16_scan s)
  else
    ck (← c_strlen s)

/-- src/modules/utils.c:76-80 `ID3v2_strlent`. -/
def ID3v2_strlent [Platform] (s : Bytes) : Res Int := do
  let term : Int := if ← string_has_bom s then 2 else 1
  ck ((← ID3v2_strlen s) + term)

/-- src/modules/utils.c:35-39, the conversion loop of `ID3v2_to_unicode`: each byte becomes itself and a zero. -/
def widen : Bytes → Bytes
  | [] => []
  | b :: bs => b :: some 0 :: widen bs

/-- src/modules/utils.c:19-46 `ID3v2_to_unicode` for a pointer that is not NULL. The result is the object the returned
pointer gives access to: the argument itself (line 24) or the freshly allocated block (line 45). The size is computed as a
`size_t` and stored in an `int` (line 28); where it does not fit, the block is too small or NULL and the stores of lines
32-43 are out of bounds, which `ck` stands for. -/
def ID3v2_to_unicode [Platform] (s : Bytes) : Res Bytes := do
  if ← string_has_bom s then
    return s
  else
    let n ← c_strlen s
    let _ ← ck (n * 2 + 2 + 2)
    return [some 0xFF, some 0xFE] ++ widen (s.take n) ++ [some 0, some 0]

/-- The two public length functions and the conversion on a possibly NULL pointer: `string_has_bom(NULL)` is false
(utils.c:150-153) and `strlen(NULL)` (utils.c:28, 53) is undefined. -/
def ID3v2_strlen_ptr [Platform] : Option Bytes → Res Int
  | none => .ub .nullDeref
  | some s => ID3v2_strlen s

/-- See `ID3v2_strlen_ptr`; src/modules/utils.c:76-80. -/
def ID3v2_strlent_ptr [Platform] : Option Bytes → Res Int
  | none => .ub .nullDeref
  | some s => ID3v2_strlent s

/-- See `ID3v2_strlen_ptr`; src/modules/utils.c:19-46. -/
def ID3v2_to_unicode_ptr [Platform] : Option Bytes → Res Bytes
  | none => .ub .nullDeref
  | some s => ID3v2_to_unicode s

/-- src/modules/utils.c:86-90, the loop of `btoi`. -/
def btoi_loop (acc : BitVec 32) : List UInt8 → BitVec 32
  | [] => acc
  | b :: bs => btoi_loop ((acc <<< 8) ||| b.toBitVec.setWidth 32) bs

/-- All bytes of an array as values; every byte must be determinate. -/
def loadAll : Bytes → Res (List UInt8)
  | [] => .ok []
  | b :: bs => do
    let v ← load b
    return v :: (← loadAll bs)

/-- src/modules/utils.c:82-93 `btoi`: reads `size` bytes, most significant first. -/
def btoi (p : Bytes) (size : Nat) : Res (BitVec 32) := do
  let bs ← memcpySrc p size
  let vs ← loadAll bs
  return btoi_loop 0 vs

/-- src/modules/utils.c:95-109 `itob` on a little-endian target: `aux[i]` is byte `i` of the integer (line 101), and
`result[3 - i] = aux[i]` for i = 3 .. 0 (lines 103-106). -/
def itob (integer : BitVec 32) : List UInt8 :=
  let aux (i : Nat) : UInt8 := UInt8.ofBitVec ((integer >>> (8 * i)).setWidth 8)
  [aux 3, aux 2, aux 1, aux 0]

/-- src/modules/utils.c:115-122, the loop of `syncint_encode`. Arithmetic wraps around (`-fwrapv`): in strict C the
last update of `mask` (line 120, `(0x7FFFFF + 1) << 8` and `- 1`) overflows `int`, see `syncint_mask_overflows`.
The fuel is only there to make the loop total. -/
def syncint_encode_loop : Nat → BitVec 32 → BitVec 32 → BitVec 32 → Res (BitVec 32)
  | 0, _, _, _ => .diverge
  | fuel + 1, mask, value, out =>
    if mask ^^^ 0x7FFFFFFF#32 ≠ 0#32 then
      let out := value &&& ~~~mask
      let out := out <<< 1
      let out := out ||| (value &&& mask)
      let mask := ((mask + 1#32) <<< 8) - 1#32
      syncint_encode_loop fuel mask out out
    else .ok out

/-- src/modules/utils.c:111-125 `syncint_encode`. -/
def syncint_encode (value : BitVec 32) : Res (BitVec 32) :=
  syncint_encode_loop 8 0x7F#32 value 0#32

/-- src/modules/utils.c:115-122: the values of `mask` alone, with the overflow checks of strict C: the loop condition and
line 120. It does not depend on the value encoded. -/
def syncint_mask_strict : Nat → Int → Res Unit
  | 0, _ => .diverge
  | fuel + 1, mask =>
    if mask ≠ 0x7FFFFFFF then do
      let a ← ck (mask + 1)
      let b ← ck (a * 256)
      syncint_mask_strict fuel (← ck (b - 1))
    else .ok ()

/-- src/modules/utils.c:127-141 `syncint_decode`. `>>` on a negative `int` is an arithmetic shift, but the masks on
lines 131-133 keep only bits that are the same for both kinds of shift. -/
def syncint_decode (value : BitVec 32) : BitVec 32 :=
  let a := value &&& 0xFF#32
  let b := (value.sshiftRight 8) &&& 0xFF#32
  let c := (value.sshiftRight 16) &&& 0xFF#32
  let d := (value.sshiftRight 24) &&& 0xFF#32
  let result := 0#32
  let result := result ||| a
  let result := result ||| (b <<< 7)
  let result := result ||| (c <<< 14)
  let result := result ||| (d <<< 21)
  result

/-- src/modules/utils.c:143-146 `clamp_int`. -/
def clamp_int (value min max : Int) : Int :=
  if value < min then min else if value > max then max else value

end Id3
