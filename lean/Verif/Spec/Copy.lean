import Verif.Model.Compat

/-!
# Programs that copy the tag of one file to another, or write it back
-/

namespace Id3.Spec

open Id3

/-- What the second file contains after a program has read the tag of the first and written it to the second. If the first has
no tag, there is nothing to be written. -/
def copyTag [Platform] (source target : Option Bytes) : Res (Option Bytes) := do
  match ← ID3v2_read_tag source with
  | none => .ok target
  | some t =>
    let (target', _) ← ID3v2_write_tag target t
    .ok target'

/-- The same with the compatibility API, whose `load_tag` does not return NULL. -/
def compatCopy [Platform] (source target : Option Bytes) : Res (Option Bytes) := do
  let t ← load_tag source
  let (target', _) ← set_tag target t
  .ok target'

/-- A program that reads the tag of a file and writes it back unchanged. -/
def readWrite [Platform] (file : Option Bytes) : Res (Option Bytes) := do
  match ← ID3v2_read_tag file with
  | none => .ok file
  | some t =>
    let (file', _) ← ID3v2_write_tag file t
    .ok file'

/-- The same, `n` times. -/
def readWrites [Platform] : Nat → Option Bytes → Res (Option Bytes)
  | 0, file => .ok file
  | n + 1, file => do
    let file' ← readWrite file
    readWrites n file'

end Id3.Spec
