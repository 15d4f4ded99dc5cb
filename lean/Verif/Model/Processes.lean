import Verif.Model.Concurrent

/-!
# Any number of processes that use one file

Every process makes any number of calls of `ID3v2_read_tag`, `ID3v2_write_tag` and `ID3v2_delete_tag`, all with the same
file. Between any two steps of one process the others may make any number of steps. A process reads one byte per step; a call
that reads several bytes at once is a run of such steps. What is written goes to the file in pieces of any size. `fopen`
succeeds: no process removes the file. No write fails.
-/

namespace Id3

/-- A call with the file. -/
inductive FileCall where
  | read
  | write (tag : Tag)
  | delete

/-- Where a process is. -/
inductive PPhase where
  /-- not in a call -/
  | idle
  /-- in `ID3v2_read_tag` -/
  | reading (r : RPhase)
  /-- id3v2lib.c:86 / 135, within `ID3v2_read_tag_header`: the bytes of the header that were read so far -/
  | header (call : FileCall) (got : Bytes)
  /-- id3v2lib.c:112-115 / 146-149: `temp` is in the temporary file, the file is read from `pos` on; `ret` is the tag of the
  caller -/
  | saving (temp : Bytes) (pos : Nat) (ret : Option Tag)
  /-- id3v2lib.c:117 / 151: the end of the file was reached -/
  | saved (temp : Bytes) (ret : Option Tag)
  /-- id3v2lib.c:122-125 / 156-159: the file was truncated; `buffer` goes to position `pos` of it, `rest` is still in the
  temporary file -/
  | copying (pos : Nat) (buffer rest : Bytes) (ret : Option Tag)
  /-- the end of `ID3v2_write_tag` or `ID3v2_delete_tag`, or a crash in it -/
  | done (result : Res (Option Tag))

/-- id3v2lib.c:82 and 133: the beginning of a call. -/
def FileCall.begin : FileCall → PPhase
  | .read => .reading (.header [])
  | c => .header c []

/-- id3v2lib.c:87-104: what `ID3v2_write_tag` does between reading the header of the file and opening it: the size of the
existing tag, the bytes of the new tag, and the tag of the caller with its new padding. `got` is what was read of the header. -/
def prepareWrite [Platform] (got : Bytes) (tag : Tag) : Res (Int × Bytes × Tag) := do
  let original_size ← existingTagSize (some got)
  let extra_padding_length := clamp_int (← ck (2048 - tag.padding_size)) 0 2048
  let tag := { tag with padding_size := ← ck (tag.padding_size + extra_padding_length) }
  let tag_cs ← Tag_to_char_stream tag
  let temp ← memcpySrc tag_cs.stream tag_cs.size
  return (original_size, temp, tag)

/-- id3v2lib.c:87-108 and 137-142: what happens after the header was read. -/
def afterHeaderOf [Platform] (call : FileCall) (got : Bytes) : PPhase :=
  match call with
  | .read => .reading (afterHeader got)
  | .write tag =>
    match prepareWrite got tag with
    | .ok (original_size, temp, tag') => .saving temp original_size.toNat (some tag')
    | .ub k => .done (.ub k)
    | .exit => .done .exit
    | .diverge => .done .diverge
  | .delete =>
    match ID3v2_read_tag_header (some got) with
    | .ok none => .done (.ok none)
    | .ok (some h) => .saving [] (u32 (h.tag_size + 10)) none
    | .ub k => .done (.ub k)
    | .exit => .done .exit
    | .diverge => .done .diverge

/-- One step within a call: the file and the process before, the file and the process after. -/
inductive CallStep [Platform] : Bytes → PPhase → Bytes → PPhase → Prop where
  /-- `ID3v2_read_tag` -/
  | reading (dest : Bytes) (r r' : RPhase) : RStep dest r r' → CallStep dest (.reading r) dest (.reading r')
  /-- id3v2lib.c:29: one more byte of the header -/
  | getHeader (dest : Bytes) (call : FileCall) (got : Bytes) (c : MByte) : got.length < 10 → dest[got.length]? = some c →
      CallStep dest (.header call got) dest (.header call (got ++ [c]))
  /-- id3v2lib.c:29-34: the header is complete, or the file ends -/
  | endHeader (dest : Bytes) (call : FileCall) (got : Bytes) : got.length = 10 ∨ dest.length ≤ got.length →
      CallStep dest (.header call got) dest (afterHeaderOf call got)
  /-- id3v2lib.c:112-115 / 146-149: one byte of the audio -/
  | save (dest temp : Bytes) (pos : Nat) (ret : Option Tag) (c : MByte) : dest[pos]? = some c →
      CallStep dest (.saving temp pos ret) dest (.saving (temp ++ [c]) (pos + 1) ret)
  /-- id3v2lib.c:112 / 146: `getc` finds the end of the file -/
  | eof (dest temp : Bytes) (pos : Nat) (ret : Option Tag) : dest.length ≤ pos →
      CallStep dest (.saving temp pos ret) dest (.saved temp ret)
  /-- id3v2lib.c:118-120 / 152-154: `fopen(file_name, "w+b")` truncates the file -/
  | truncate (dest temp : Bytes) (ret : Option Tag) : CallStep dest (.saved temp ret) [] (.copying 0 [] temp ret)
  /-- id3v2lib.c:122-125 / 156-159: one byte to the stdio buffer -/
  | copy (dest buffer rest : Bytes) (pos : Nat) (ret : Option Tag) (c : MByte) :
      CallStep dest (.copying pos buffer (c :: rest) ret) dest (.copying pos (buffer ++ [c]) rest ret)
  /-- part of the buffer is written -/
  | flush (dest buf₁ buf₂ rest : Bytes) (pos : Nat) (ret : Option Tag) :
      CallStep dest (.copying pos (buf₁ ++ buf₂) rest ret)
        (writeAt dest pos buf₁) (.copying (pos + buf₁.length) buf₂ rest ret)
  /-- id3v2lib.c:127-128 / 163-164 -/
  | close (dest : Bytes) (pos : Nat) (ret : Option Tag) : CallStep dest (.copying pos [] [] ret) dest (.done (.ok ret))

/-- The result of a call that is over. -/
def PPhase.result : PPhase → Option (Res (Option Tag))
  | .reading (.done r) => some r
  | .done r => some r
  | _ => none

/-- A process: where it is, and the calls it has not finished. -/
structure Proc where
  phase : PPhase
  todo : List FileCall

/-- A call that is over: the process, the call, and its result. For `ID3v2_read_tag` that is the tag, for `ID3v2_write_tag`
the tag of the caller as it is afterwards. -/
structure CallEntry where
  proc : Nat
  call : FileCall
  result : Res (Option Tag)

/-- The file, the processes, and the calls that are over, in the order in which they ended. -/
structure PState where
  dest : Bytes
  procs : Nat → Proc
  log : List CallEntry

/-- Process `i` becomes `p`. -/
def setProc (procs : Nat → Proc) (i : Nat) (p : Proc) : Nat → Proc := fun j => if j = i then p else procs j

/-- The calls that a process still makes after a call with result `r`: none if the call did not return. -/
def afterResult (r : Res (Option Tag)) (cs : List FileCall) : List FileCall :=
  match r with
  | .ok _ => cs
  | _ => []

/-- One step of one process. -/
inductive PStep [Platform] : PState → PState → Prop where
  /-- a process begins its next call -/
  | start (dest : Bytes) (procs : Nat → Proc) (log : List CallEntry) (i : Nat) (c : FileCall) (cs : List FileCall) :
      procs i = ⟨.idle, c :: cs⟩ → PStep ⟨dest, procs, log⟩ ⟨dest, setProc procs i ⟨c.begin, c :: cs⟩, log⟩
  /-- a step within a call -/
  | work (dest dest' : Bytes) (procs : Nat → Proc) (log : List CallEntry) (i : Nat) (p' : PPhase) :
      CallStep dest (procs i).phase dest' p' → PStep ⟨dest, procs, log⟩ ⟨dest', setProc procs i ⟨p', (procs i).todo⟩, log⟩
  /-- a call returns, or the process ends because of a crash -/
  | finish (dest : Bytes) (procs : Nat → Proc) (log : List CallEntry) (i : Nat) (c : FileCall) (cs : List FileCall)
      (r : Res (Option Tag)) : (procs i).phase.result = some r → (procs i).todo = c :: cs →
      PStep ⟨dest, procs, log⟩ ⟨dest, setProc procs i ⟨.idle, afterResult r cs⟩, log ++ [⟨i, c, r⟩]⟩

/-- Any number of steps. -/
inductive PSteps [Platform] : PState → PState → Prop where
  | refl (s : PState) : PSteps s s
  | tail (s t u : PState) : PSteps s t → PStep t u → PSteps s u

/-- The processes before their first calls. -/
def PState.init (contents : Bytes) (calls : Nat → List FileCall) : PState := ⟨contents, fun i => ⟨.idle, calls i⟩, []⟩

end Id3
