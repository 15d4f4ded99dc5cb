import Verif.Model.CharStream

/-!
# Model of src/modules/tag_header.c
-/

namespace Id3

/-- include/modules/tag_header.h:21-29 `ID3v2_TagHeader`. `tag_size` is an `unsigned int`, kept below 2^32.
`extended_header_size` is `none` when its value is indeterminate. -/
structure TagHeader where
  identifier : Bytes
  major_version : UInt8
  minor_version : UInt8
  flags : UInt8
  tag_size : Nat
  extended_header_size : Option Nat
deriving DecidableEq, Repr

/-- src/modules/tag_header.c:20-41 `TagHeader_new` (`malloc` succeeds). -/
def TagHeader_new (major_version minor_version flags : Int) (tag_size : Nat)
    (extended_header_size : Option Nat) : TagHeader :=
  { identifier := ofB [0x49, 0x44, 0x33]
    major_version := toChar major_version
    minor_version := toChar minor_version
    flags := toChar flags
    tag_size := tag_size
    extended_header_size := extended_header_size }

/-- src/modules/tag_header.c:43-46 `TagHeader_new_empty`. -/
def TagHeader_new_empty : TagHeader := TagHeader_new 3 0 0 0 (some 0)

/-- src/modules/tag_header.c:73 `(flags & (1 << 6)) == (1 << 6)` on the `int` returned by `CharStream_getc`
(sign extension does not change bit 6). -/
def hasExtendedHeader (flags : Int) : Bool := (toChar flags) &&& 0x40 == 0x40

/-- `syncint_decode(btoi(raw, 4))` where some of the four bytes may be indeterminate, in which case so is the value
(tag_header.c:78). -/
def decodeSizeIndet (raw : Bytes) : Option Nat :=
  match btoi raw 4 with
  | .ok v => some (syncint_decode v).toNat
  | _ => none

/-- src/modules/tag_header.c:48-82 `TagHeader_parse`. The result is NULL (`none`) or a header. Bytes that
`CharStream_read` did not fill are indeterminate: for `raw_size` this counts as undefined (both callers branch on the
tag size at once), for `raw_eh_size` the field becomes indeterminate. -/
def TagHeader_parse [Platform] (header_cs : CharStream) : Res (Option TagHeader × CharStream) := do
  let has_id3v2_tag ← memcmpEq header_cs.stream [0x49, 0x44, 0x33]
  if !has_id3v2_tag then return (none, header_cs)
  let (_, cs) ← CharStream_read header_cs 3
  let (major_version, cs) ← CharStream_getc cs
  let (minor_version, cs) ← CharStream_getc cs
  if major_version ≠ 3 ∧ major_version ≠ 4 then return (none, cs)
  let (flags, cs) ← CharStream_getc cs
  let (d, cs) ← CharStream_read cs 4
  let raw_size := intoArray 4 d
  let tag_size := (syncint_decode (← btoi raw_size 4)).toNat
  if hasExtendedHeader flags then
    let (d, cs) ← CharStream_read cs 4
    let raw_eh_size := intoArray 4 d
    return (some (TagHeader_new major_version minor_version flags tag_size (decodeSizeIndet raw_eh_size)), cs)
  else
    return (some (TagHeader_new major_version minor_version flags tag_size (some 0)), cs)

end Id3
