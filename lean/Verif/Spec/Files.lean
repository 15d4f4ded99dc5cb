import Verif.Model.World
import Verif.Model.Fault

/-!
# Calls on a file system

What a program can do with files of several names, and what each call does to its file alone (`FileCall.effect`, in terms
of `Verif/Model/Lib.lean` and `Verif/Model/Compat.lean`).
-/

namespace Id3.Spec

open Id3

/-- A call with a file name. -/
inductive FileCall where
  /-- `ID3v2_read_tag_header` -/
  | readHeader (name : Name)
  /-- `ID3v2_read_tag` -/
  | read (name : Name)
  /-- `ID3v2_write_tag` -/
  | write (name : Name) (tag : Tag)
  /-- `ID3v2_delete_tag` -/
  | delete (name : Name)
  /-- `load_tag` -/
  | load (name : Name)
  /-- `set_tag` -/
  | set (name : Name) (tag : CTag)
  /-- `remove_tag` -/
  | remove (name : Name)
  /-- `tag_set_album_cover`; the name is that of the picture -/
  | cover (name : Name) (tag : CTag)

/-- The name of the file. -/
def FileCall.name : FileCall → Name
  | .readHeader n => n
  | .read n => n
  | .write n _ => n
  | .delete n => n
  | .load n => n
  | .set n _ => n
  | .remove n => n
  | .cover n _ => n

/-- What a call returns, or the tag that it changes. -/
inductive Answer where
  | header (h : Option TagHeader)
  | tag (t : Option Tag)
  | written (t : Tag)
  | loaded (t : CTag)
  | done

/-- The call on a file system. -/
def FileCall.run [Platform] : FileCall → CIO Answer
  | .readHeader n => do return .header (← ID3v2_read_tag_header_os n)
  | .read n => do return .tag (← ID3v2_read_tag_os n)
  | .write n t => do return .written (← ID3v2_write_tag_os n t)
  | .delete n => do ID3v2_delete_tag_os n; return .done
  | .load n => do return .loaded (← load_tag_os n)
  | .set n t => do return .loaded (← set_tag_os n t)
  | .remove n => do remove_tag_os n; return .done
  | .cover n t => do return .loaded (← tag_set_album_cover_os n t)

/-- The call on one file, if no operation fails. -/
def FileCall.effect [Platform] (file : File) : FileCall → Res (File × Answer)
  | .readHeader _ => do return (file, .header (← ID3v2_read_tag_header file))
  | .read _ => do return (file, .tag (← ID3v2_read_tag file))
  | .write _ t => do let (f, t) ← ID3v2_write_tag file t; return (f, .written t)
  | .delete _ => do let f ← ID3v2_delete_tag file; return (f, .done)
  | .load _ => do return (file, .loaded (← load_tag file))
  | .set _ t => do let (f, t) ← set_tag file t; return (f, .loaded t)
  | .remove _ => do let f ← remove_tag file; return (f, .done)
  | .cover n t => do return (file, .loaded (← tag_set_album_cover n file t))

/-- Calls one after the other, with their answers. -/
def runCalls [Platform] : List FileCall → CIO (List (Name × Answer))
  | [] => pure []
  | c :: cs => do
    let a ← c.run
    let as ← runCalls cs
    return (c.name, a) :: as

/-- Calls on one file. -/
def effects [Platform] (file : File) : List FileCall → Res (File × List Answer)
  | [] => .ok (file, [])
  | c :: cs => do
    let (f, a) ← c.effect file
    let (f, as) ← effects f cs
    return (f, a :: as)

/-- The calls with this file name. -/
def callsOn (name : Name) (calls : List FileCall) : List FileCall := calls.filter (fun c => c.name == name)

/-- The answers of the calls with this file name. -/
def answersOn (name : Name) (answers : List (Name × Answer)) : List Answer :=
  (answers.filter (fun a => a.1 == name)).map (·.2)

end Id3.Spec
