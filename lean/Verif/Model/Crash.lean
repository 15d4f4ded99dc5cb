import Verif.Model.Lib

/-!
# The file operations of `ID3v2_write_tag` and `ID3v2_delete_tag` as small steps

`Verif/Model/Lib.lean` gives only the final contents of the file. Here the same code is a transition system, so that
one can look at the file at every moment, for example when the process is killed. Buffered output may reach the disk in
pieces of any size (`flush`); if `faults` is true a write to the disk may fail, which the code does not notice because
it ignores the results of `putc` and `fclose`.
-/

namespace Id3

/-- Where the function is. -/
inductive Phase where
  /-- id3v2lib.c:110-115 / 144-149: `temp` was written to the temporary file, `rest` is still unread. -/
  | reading (temp rest : Bytes)
  /-- id3v2lib.c:119-125 / 153-159: the destination was truncated by `fopen(…, "w+b")`; `buffer` is in the stdio buffer
  of the destination, `rest` is still to be copied from the temporary file. -/
  | copying (buffer rest : Bytes)
  /-- after id3v2lib.c:128 / 164 -/
  | finished
deriving DecidableEq, Repr

/-- The file on disk and the position in the function. -/
structure IOState where
  dest : Bytes
  phase : Phase
deriving DecidableEq, Repr

/-- One step. -/
inductive IOStep (faults : Bool) : IOState → IOState → Prop where
  /-- id3v2lib.c:112-115 / 146-149: one byte from the file to the temporary file -/
  | save (dest temp rest : Bytes) (c : MByte) :
      IOStep faults ⟨dest, .reading temp (c :: rest)⟩ ⟨dest, .reading (temp ++ [c]) rest⟩
  /-- id3v2lib.c:118-120 / 152-154: `fopen(file_name, "w+b")` truncates the file -/
  | truncate (dest temp : Bytes) :
      IOStep faults ⟨dest, .reading temp []⟩ ⟨[], .copying [] temp⟩
  /-- id3v2lib.c:122-125 / 156-159: one byte from the temporary file to the buffer of the destination -/
  | copy (dest buffer rest : Bytes) (c : MByte) :
      IOStep faults ⟨dest, .copying buffer (c :: rest)⟩ ⟨dest, .copying (buffer ++ [c]) rest⟩
  /-- part of the buffer reaches the disk -/
  | flush (dest buf₁ buf₂ rest : Bytes) :
      IOStep faults ⟨dest, .copying (buf₁ ++ buf₂) rest⟩ ⟨dest ++ buf₁, .copying buf₂ rest⟩
  /-- a write to the disk fails and its bytes are dropped -/
  | fail (dest buf₁ buf₂ rest : Bytes) :
      faults = true → IOStep faults ⟨dest, .copying (buf₁ ++ buf₂) rest⟩ ⟨dest, .copying buf₂ rest⟩
  /-- id3v2lib.c:127-128 / 163-164: `fclose` flushes the rest -/
  | close (dest : Bytes) :
      IOStep faults ⟨dest, .copying [] []⟩ ⟨dest, .finished⟩

/-- Any number of steps. -/
inductive IOSteps (faults : Bool) : IOState → IOState → Prop where
  | refl (s : IOState) : IOSteps faults s s
  | tail (s t u : IOState) : IOSteps faults s t → IOStep faults t u → IOSteps faults s u

/-- id3v2lib.c:97-108: `ID3v2_write_tag` when the tag was serialised to `tag_bytes` and the old tag had
`original_size` bytes. -/
def writeStart (contents tag_bytes : Bytes) (original_size : Nat) : IOState :=
  ⟨contents, .reading tag_bytes (contents.drop original_size)⟩

/-- id3v2lib.c:139-142: `ID3v2_delete_tag` when the tag had `original_size` bytes. -/
def deleteStart (contents : Bytes) (original_size : Nat) : IOState :=
  ⟨contents, .reading [] (contents.drop original_size)⟩

end Id3
