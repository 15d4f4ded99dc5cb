import Verif.Model.Crash

/-!
# Several processes that use one file

The library takes no locks. Here `ID3v2_read_tag` and `ID3v2_write_tag` are transition systems on a file that another
process may change between any two steps. A process reads one byte per step; a call that reads several bytes at once is a
run of such steps. `fopen` succeeds: no process removes the file.
-/

namespace Id3

/-! ## A reader -/

/-- Where `ID3v2_read_tag` is. -/
inductive RPhase where
  /-- id3v2lib.c:29, within `ID3v2_read_tag_header`: the bytes of the header that were read so far -/
  | header (got : Bytes)
  /-- id3v2lib.c:63: the length of the buffer, and what was read into it -/
  | body (length : Int) (got : Bytes)
  /-- returned -/
  | done (result : Res (Option Tag))

/-- id3v2lib.c:30-34 and 47-52: what happens after the header was read. -/
def afterHeader [Platform] (got : Bytes) : RPhase :=
  if got.length < 10 then .done (.ok none)
  else match ID3v2_read_tag_header_from_buffer got with
    | .ok none => .done (.ok none)
    | .ok (some h) => .body (toInt32 (u32 (h.tag_size + 10))) []
    | .ub k => .done (.ub k)
    | .exit => .done .exit
    | .diverge => .done .diverge

/-- One step of `ID3v2_read_tag` while the file contains `dest`. -/
inductive RStep [Platform] (dest : Bytes) : RPhase → RPhase → Prop where
  /-- id3v2lib.c:29: one more byte of the header -/
  | getHeader (got : Bytes) (c : MByte) : got.length < 10 → dest[got.length]? = some c →
      RStep dest (.header got) (.header (got ++ [c]))
  /-- id3v2lib.c:29-34: the header is complete, or the file ends -/
  | endHeader (got : Bytes) : got.length = 10 ∨ dest.length ≤ got.length → RStep dest (.header got) (afterHeader got)
  /-- id3v2lib.c:63: one more byte of the tag -/
  | getBody (length : Int) (got : Bytes) (c : MByte) : got.length < length.toNat → dest[got.length]? = some c →
      RStep dest (.body length got) (.body length (got ++ [c]))
  /-- id3v2lib.c:63-71: the tag is complete, or the file ends -/
  | endBody (length : Int) (got : Bytes) : got.length = length.toNat ∨ dest.length ≤ got.length →
      RStep dest (.body length got) (.done (ID3v2_read_tag_from_buffer (intoArray length got) length))

/-- A process that reads and a process that writes or deletes, on one file. -/
structure RWState where
  writer : IOState
  reader : RPhase

/-- One step of one of them; no write fails. -/
inductive RWStep [Platform] : RWState → RWState → Prop where
  | writer (s s' : IOState) (r : RPhase) : IOStep false s s' → RWStep ⟨s, r⟩ ⟨s', r⟩
  | reader (s : IOState) (r r' : RPhase) : RStep s.dest r r' → RWStep ⟨s, r⟩ ⟨s, r'⟩

/-- Any number of steps. -/
inductive RWSteps [Platform] : RWState → RWState → Prop where
  | refl (s : RWState) : RWSteps s s
  | tail (s t u : RWState) : RWSteps s t → RWStep t u → RWSteps s u

/-! ## Two writers -/

/-- Where `ID3v2_write_tag` is. -/
inductive WPhase where
  /-- before id3v2lib.c:86 -/
  | start
  /-- id3v2lib.c:112-115: `temp` is in the temporary file, the file is read from `pos` on -/
  | reading (temp : Bytes) (pos : Nat)
  /-- id3v2lib.c:117: the end of the file was reached -/
  | saved (temp : Bytes)
  /-- id3v2lib.c:122-125: the file was truncated; `buffer` goes to position `pos` of it, `rest` is still in the temporary
  file -/
  | copying (pos : Nat) (buffer rest : Bytes)
  /-- after id3v2lib.c:128 -/
  | finished
deriving DecidableEq, Repr

/-- `write` at a position of a file. A gap is filled with zeros, as POSIX says. -/
def writeAt (dest : Bytes) (pos : Nat) (data : Bytes) : Bytes :=
  if data = [] then dest
  else dest.take pos ++ List.replicate (pos - dest.length) (some 0) ++ data ++ dest.drop (pos + data.length)

/-- One step of `ID3v2_write_tag`, for a tag that was serialised to `tag_bytes`, on a file that others may change. -/
inductive WStep [Platform] (tag_bytes : Bytes) : Bytes × WPhase → Bytes × WPhase → Prop where
  /-- id3v2lib.c:86-108: the header of the file is read (in one step), the tag goes to the temporary file -/
  | header (dest : Bytes) (n : Nat) : existingTagSize (some dest) = .ok (n : Nat) →
      WStep tag_bytes (dest, .start) (dest, .reading tag_bytes n)
  /-- id3v2lib.c:112-115: one byte of the audio -/
  | save (dest temp : Bytes) (pos : Nat) (c : MByte) : dest[pos]? = some c →
      WStep tag_bytes (dest, .reading temp pos) (dest, .reading (temp ++ [c]) (pos + 1))
  /-- id3v2lib.c:112: `getc` finds the end of the file -/
  | eof (dest temp : Bytes) (pos : Nat) : dest.length ≤ pos → WStep tag_bytes (dest, .reading temp pos) (dest, .saved temp)
  /-- id3v2lib.c:118-120: `fopen(file_name, "w+b")` truncates the file -/
  | truncate (dest temp : Bytes) : WStep tag_bytes (dest, .saved temp) ([], .copying 0 [] temp)
  /-- id3v2lib.c:122-125: one byte to the stdio buffer -/
  | copy (dest buffer rest : Bytes) (pos : Nat) (c : MByte) :
      WStep tag_bytes (dest, .copying pos buffer (c :: rest)) (dest, .copying pos (buffer ++ [c]) rest)
  /-- part of the buffer is written -/
  | flush (dest buf₁ buf₂ rest : Bytes) (pos : Nat) :
      WStep tag_bytes (dest, .copying pos (buf₁ ++ buf₂) rest)
        (writeAt dest pos buf₁, .copying (pos + buf₁.length) buf₂ rest)
  /-- id3v2lib.c:127-128 -/
  | close (dest : Bytes) (pos : Nat) : WStep tag_bytes (dest, .copying pos [] []) (dest, .finished)

/-- The file, and two processes that write to it. -/
structure WWState where
  dest : Bytes
  first : WPhase
  second : WPhase
deriving DecidableEq, Repr

/-- One step of one of the two. -/
inductive WWStep [Platform] (a b : Bytes) : WWState → WWState → Prop where
  | first (dest dest' : Bytes) (p p' q : WPhase) : WStep a (dest, p) (dest', p') → WWStep a b ⟨dest, p, q⟩ ⟨dest', p', q⟩
  | second (dest dest' : Bytes) (p q q' : WPhase) : WStep b (dest, q) (dest', q') → WWStep a b ⟨dest, p, q⟩ ⟨dest', p, q'⟩

/-- Any number of steps. -/
inductive WWSteps [Platform] (a b : Bytes) : WWState → WWState → Prop where
  | refl (s : WWState) : WWSteps a b s s
  | tail (s t u : WWState) : WWSteps a b s t → WWStep a b t u → WWSteps a b s u

end Id3
