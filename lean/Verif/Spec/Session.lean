import Verif.Model.Session
/-!
# What a history of saves and loads must do (C73)

A disk with files, objects as values, and the number of XML documents that were never deleted. A save changes the named file as the
value model says (`X.saveFileOn`), a load gives what the value model says for the contents of the named file (`X.loadFile`), or for
the first `k` bytes of it if the disk cannot be read further (`readable`); nothing
else happens.
-/
namespace Afs.Spec.Session
open Afs Afs.Xml
open Afs.Session (Any Call Result Sys readable)

variable {L : ConfigLib}

/-- What `*_save_file` returns and what is then in the file; indented saving of a file or a list of files is undefined (C25). -/
def savedFile (x : Any L) (v1 compact canOpen : Bool) (ok : Nat → Bool) (old : Option Bytes) : Res (Bool × Option Bytes) :=
  match x with
  | .section x => .ok (x.saveFileOn compact canOpen ok old)
  | .sections x => .ok (x.saveFileOn compact canOpen ok old)
  | .layout x => .ok (x.saveFileOn compact canOpen ok old)
  | .layouts x => .ok (x.saveFileOn compact canOpen ok old)
  | .page x => .ok (x.saveFileOn compact canOpen ok old)
  | .preview x => .ok (x.saveFileOn compact canOpen ok old)
  | .metaSource x => .ok (x.saveFileOn compact canOpen ok old)
  | .tocMeta x => .ok (x.saveFileOn compact canOpen ok old)
  | .fileSource x => .ok (x.saveFileOn compact canOpen ok old)
  | .fileMeta x => .ok (x.saveFileOn compact canOpen ok old)
  | .file x => if canOpen = true ∧ x.saveFile compact v1 = .ub then .ub else .ok (x.saveFileOn v1 canOpen ok old)
  | .files x => if canOpen = true ∧ x.saveFile compact = .ub then .ub else .ok (x.saveFileOn canOpen ok old)
  | .reel x => .ok (x.saveFileOn compact canOpen ok old)
  | .reels x => .ok (x.saveFileOn compact canOpen ok old)
  | .toc x => .ok (x.saveFileOn compact canOpen ok old)
  | .admin x => .ok (x.saveFileOn compact canOpen ok old)
  | .format x => .ok (x.saveFileOn compact canOpen ok old)
  | .tech x => .ok (x.saveFileOn compact canOpen ok old)
  | .control x => .ok (x.saveFileOn compact canOpen ok old)

/-- What `*_save_string` returns. -/
def savedString (x : Any L) (v1 compact : Bool) : Res (Option Bytes) :=
  match x with
  | .section x => .ok (x.saveString compact)
  | .sections x => .ok (x.saveString compact)
  | .layout x => .ok (x.saveString compact)
  | .layouts x => .ok (x.saveString compact)
  | .page x => .ok (x.saveString compact)
  | .preview x => .ok (x.saveString compact)
  | .metaSource x => .ok (x.saveString compact)
  | .tocMeta x => .ok (x.saveString compact)
  | .fileSource x => .ok (x.saveString compact)
  | .fileMeta x => .ok (x.saveString compact)
  | .file x => .ok (x.saveString compact v1)
  | .files x => x.saveString compact
  | .reel x => .ok (x.saveString compact)
  | .reels x => .ok (x.saveString compact)
  | .toc x => .ok (x.saveString compact)
  | .admin x => .ok (x.saveString compact)
  | .format x => .ok (x.saveString compact)
  | .tech x => .ok (x.saveString compact)
  | .control x => .ok (x.saveString compact)

/-- A result of loading, as an object of any kind. -/
def as {α : Type} (k : α → Any L) (r : Bool × α) : Bool × Any L := (r.1, k r.2)

/-- What `*_load_file` makes of an object when these bytes are in the file. -/
def loadedFile (x : Any L) (s : Bytes) : Res (Bool × Any L) :=
  match x with
  | .section x => .ok (as .section (x.loadFile s))
  | .sections x => .ok (as .sections (x.loadFile s))
  | .layout x => .ok (as .layout (x.loadFile s))
  | .layouts x => (x.loadFile s).bind fun r => .ok (as .layouts r)
  | .page x => .ok (as .page (x.loadFile s))
  | .preview x => .ok (as .preview (x.loadFile s))
  | .metaSource x => .ok (as .metaSource (x.loadFile s))
  | .tocMeta x => .ok (as .tocMeta (x.loadFile s))
  | .fileSource x => .ok (as .fileSource (x.loadFile s))
  | .fileMeta x => .ok (as .fileMeta (x.loadFile s))
  | .file x => .ok (as .file (x.loadFile s))
  | .files x => .ok (as .files (x.loadFile s))
  | .reel x => .ok (as .reel (x.loadFile s))
  | .reels x => .ok (as .reels (x.loadFile s))
  | .toc x => (x.loadFile s).bind fun r => .ok (as .toc r)
  | .admin x => .ok (as .admin (x.loadFile s))
  | .format x => .ok (as .format (x.loadFile s))
  | .tech x => .ok (as .tech (x.loadFile s))
  | .control x => .ok (as .control (x.loadFile s))

/-- What `*_load_string` makes of an object. -/
def loadedString (x : Any L) (s : Bytes) : Res (Bool × Any L) :=
  match x with
  | .section x => .ok (as .section (x.loadString s))
  | .sections x => .ok (as .sections (x.loadString s))
  | .layout x => .ok (as .layout (x.loadString s))
  | .layouts x => (x.loadString s).bind fun r => .ok (as .layouts r)
  | .page x => .ok (as .page (x.loadString s))
  | .preview x => .ok (as .preview (x.loadString s))
  | .metaSource x => .ok (as .metaSource (x.loadString s))
  | .tocMeta x => .ok (as .tocMeta (x.loadString s))
  | .fileSource x => .ok (as .fileSource (x.loadString s))
  | .fileMeta x => .ok (as .fileMeta (x.loadString s))
  | .file x => .ok (as .file (x.loadString s))
  | .files x => .ok (as .files (x.loadString s))
  | .reel x => .ok (as .reel (x.loadString s))
  | .reels x => .ok (as .reels (x.loadString s))
  | .toc x => (x.loadString s).bind fun r => .ok (as .toc r)
  | .admin x => .ok (as .admin (x.loadString s))
  | .format x => .ok (as .format (x.loadString s))
  | .tech x => .ok (as .tech (x.loadString s))
  | .control x => .ok (as .control (x.loadString s))

/-! ### The documents that are lost -/

/-- Objects whose `*_save_file` loses a document when the file cannot be opened: the document is already made (if the object is one that
    can be saved, where this is tested before), and not deleted. Never with lists of sections, file metadata sources and technical metadata. -/
def losesWhenClosed : Any L → Bool
  | .section x => x.isValid
  | .layouts x => LayoutDefs.isValid (some x)
  | .metaSource x => x.isValid
  | .reel x => x.isValid
  | .toc x => x.isValid
  | .page _ | .file _ | .admin _ | .format _ => true
  | .layout x => x.saveXml.isSome
  | .preview x => x.saveXml.isSome
  | .tocMeta x => (TocMeta.saveXml (some x)).isSome
  | .fileMeta x => (FileMeta.saveXml (some x)).isSome
  | .files x => x.saveXml.isSome
  | .reels x => x.saveXml.isSome
  | .control x => x.complete && x.saveXml.isSome
  | .sections _ | .fileSource _ | .tech _ => false

/-- A `*_load_string` that fails on a text that could be read loses the document, except with boxing formats. -/
def losesLoad (x : Any L) (s : Bytes) (loaded : Bool) : Bool :=
  match x with
  | .format _ => false
  | _ => !loaded && decide (s ≠ []) && (Xml.loadString s).isSome

/-! ### Histories -/

/-- The files, the objects and how many documents were lost. -/
structure World (L : ConfigLib) where
  disk : Bytes → Option Bytes
  objs : List (Any L)
  lost : Nat

/-- The number for a condition. -/
def count (b : Bool) : Nat := if b then 1 else 0

/-- One call. -/
def step (w : World L) : Call L → Res (Result × World L)
  | .new x => .ok (.nothing, { w with objs := w.objs ++ [x] })
  | .saveFile i name v1 compact canOpen ok => match w.objs[i]? with
    | none => .ub
    | some x => match savedFile x v1 compact canOpen ok (w.disk name) with
      | .ub => .ub
      | .ok (b, file) => .ok (.flag b, { w with disk := fun n => if n = name then file else w.disk n,
                                                lost := w.lost + count (!canOpen && losesWhenClosed x) })
  | .saveString i v1 compact => match w.objs[i]? with
    | none => .ub
    | some x => match savedString x v1 compact with
      | .ub => .ub
      | .ok t => .ok (.text t, w)
  | .loadFile i name canOpen upTo => match w.objs[i]? with
    | none => .ub
    | some x => match (if canOpen then w.disk name else none) with
      | none => .ok (.flag false, w)
      | some s => match loadedFile x (readable upTo s) with
        | .ub => .ub
        | .ok (b, x') => .ok (.flag b, { w with objs := w.objs.set i x' })
  | .loadString i s => match w.objs[i]? with
    | none => .ub
    | some x => match loadedString x s with
      | .ub => .ub
      | .ok (b, x') => .ok (.flag b, { w with objs := w.objs.set i x', lost := w.lost + count (losesLoad x s b) })

/-- Calls one after the other, with their results. -/
def run (w : World L) : List (Call L) → Res (List Result × World L)
  | [] => .ok ([], w)
  | c :: cs => match step w c with
    | .ub => .ub
    | .ok (r, w') => match run w' cs with
      | .ub => .ub
      | .ok (rs, w'') => .ok (r :: rs, w'')

/-- The system is as it should be: the files are those of the world, no file is open, and there are as many documents as were lost. -/
structure Describes (s : Sys) (w : World L) : Prop where
  disk : s.disk = w.disk
  closed : ∀ h, s.handles h = none
  docs : ∃ l : List Nat, l.Nodup ∧ l.length = w.lost ∧ ∀ d, s.docs d ≠ none ↔ d ∈ l

/-- A call that writes to a file with this name. -/
def writesTo (name : Bytes) : Call L → Prop
  | .saveFile _ n _ _ _ _ => n = name
  | _ => False

/-! ### Histories that are defined -/

/-- Files and lists of files; their callbacks for white space are not made for whole documents (C25). -/
def isFileKind : Any L → Bool
  | .file _ | .files _ => true
  | _ => false

/-- A list of layout definitions whose definitions all have an id, or any other object. -/
def usable : Any L → Prop
  | .layouts x => ∀ d ∈ x.defs.getD [], d.id ≠ none
  | _ => True

/-- A history that uses only objects it has made, usable ones, and saves files and lists of files without indentation. `kinds` says of
    the objects there are whether they are files or lists of files. -/
def Sensible : List Bool → List (Call L) → Prop
  | _, [] => True
  | kinds, .new x :: cs => usable x ∧ Sensible (kinds ++ [isFileKind x]) cs
  | kinds, .saveFile i _ _ compact _ _ :: cs => (∃ k, kinds[i]? = some k ∧ (k = true → compact = true)) ∧ Sensible kinds cs
  | kinds, .saveString i _ compact :: cs => (∃ k, kinds[i]? = some k ∧ (k = true → compact = true)) ∧ Sensible kinds cs
  | kinds, .loadFile i _ _ _ :: cs => i < kinds.length ∧ Sensible kinds cs
  | kinds, .loadString i _ :: cs => i < kinds.length ∧ Sensible kinds cs

/-- A call that reports a failure. -/
def failed : Result → Bool
  | .flag b => !b
  | .text t => t.isNone
  | .nothing => false

end Afs.Spec.Session
