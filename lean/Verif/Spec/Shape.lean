import Verif.Spec.RefsLoad
import Verif.Model.ControlData
import Verif.Model.Io.TocData
/-!
# What objects a value is made of

A value (a table of contents, a preview, …) is held in memory by an object, which owns the objects for its parts, which own theirs.
`shape` says which objects these are; `Owns` says that they are there, each of them owned by exactly one other object.
-/
namespace Afs.Spec
open Afs Afs.Refs

/-- A type of object, and what it owns. -/
inductive ObjShape where
  | node (k : Kind) (parts : List ObjShape)

mutual
/-- At address `a` there is an object of this shape; it and everything in it has one reference. -/
inductive Owns (h : Heap) : Nat → ObjShape → Prop where
  | mk {a : Nat} {k : Kind} {kids : List Nat} {ts : List ObjShape} :
      h.cells a = some ⟨k, 1, kids⟩ → OwnsAll h kids ts → Owns h a (.node k ts)
/-- The same for several objects. -/
inductive OwnsAll (h : Heap) : List Nat → List ObjShape → Prop where
  | nil : OwnsAll h [] []
  | cons {a : Nat} {t : ObjShape} {as : List Nat} {ts : List ObjShape} : Owns h a t → OwnsAll h as ts → OwnsAll h (a :: as) (t :: ts)
end

/-- The call `l` on the object `p`, a new object of type `k` (it owns nothing), in the state `w`: it is defined, it returns `ok`, afterwards the
    object owns exactly objects of the shapes `ts`, it has as many references as before, and every other object is as it was. -/
def LoadsAs (w : LWorld) (l : Load) (p : Nat) (k : Kind) (ok : Bool) (ts : List ObjShape) : Prop :=
  ∃ r rc kids, l.run w.heap = .ok r ∧ r.ok = ok ∧ w.heap.cells p = some ⟨k, rc, []⟩ ∧ r.heap.cells p = some ⟨k, rc, kids⟩ ∧ OwnsAll r.heap kids ts ∧
    ∀ x c, x ≠ p → w.heap.cells x = some c → r.heap.cells x = some c

/-- A new object that the program can use. -/
def NewObject (w : LWorld) (p : Nat) (k : Kind) : Prop := Reach w.heap w.held p ∧ ∃ rc, w.heap.cells p = some ⟨k, rc, []⟩

/-- A state that some program reaches. -/
def Reachable (w : LWorld) : Prop := ∃ cs, LLegalRun LWorld.start cs ∧ cs.length < 2147483646 ∧ LWorld.start.run cs = .ok w

/-! ### The shapes of values -/

def leaf (k : Kind) : ObjShape := .node k []

/-- A preview owns its pages. -/
def previewParts (p : Preview) : List ObjShape := (p.pages.getD []).map fun _ => leaf .page
/-- Metadata of a file own their sources. -/
def fileMetaParts (m : FileMeta) : List ObjShape := (m.sources.getD []).map fun _ => leaf .fileMetaSource
/-- Metadata of a table of contents own their sources. -/
def tocMetaParts (m : TocMeta) : List ObjShape := (m.sources.getD []).map fun _ => leaf .metaSource
/-- A list of sections owns the sections. -/
def sectionsParts (s : Sections) : List ObjShape := (s.sections.getD []).map fun _ => leaf .section_
/-- A layout owns its list of sections. -/
def layoutParts (d : LayoutDef) : List ObjShape := d.sections.toList.map fun s => .node .sections (sectionsParts s)
def layoutsParts (d : LayoutDefs) : List ObjShape := (d.defs.getD []).map fun x => .node .layoutDef (layoutParts x)
/-- A file entry owns its preview and its metadata. -/
def fileParts (f : File) : List ObjShape :=
  f.preview.toList.map (fun p => .node .preview (previewParts p)) ++ f.metadata.toList.map fun m => .node .fileMeta (fileMetaParts m)
def filesParts (f : Files) : List ObjShape := (f.tocs.getD []).map fun x => .node .file (fileParts x)
/-- A reel owns its list of files. -/
def reelParts (r : Reel) : List ObjShape := r.files.toList.map fun f => .node .files (filesParts f)
def reelsParts (r : Reels) : List ObjShape := (r.reels.getD []).map fun x => .node .reel (reelParts x)
/-- A table of contents owns its metadata, its layouts and its reels. -/
def tocParts (t : TocData) : List ObjShape :=
  t.metadata.toList.map (fun m => .node .tocMeta (tocMetaParts m)) ++ t.layouts.toList.map (fun d => .node .layoutDefs (layoutsParts d)) ++
  t.reels.toList.map fun r => .node .reels (reelsParts r)
/-- Technical metadata own the boxing format, the tables of contents and the applications. -/
def techParts {L : ConfigLib} (t : TechMeta L) : List ObjShape :=
  t.format.toList.map (fun _ => leaf .boxing) ++ t.tocs.toList.map (fun f => .node .files (filesParts f)) ++
  t.apps.toList.map fun f => .node .files (filesParts f)
/-- Control data own both metadata. -/
def controlParts {L : ConfigLib} (c : ControlData L) : List ObjShape :=
  c.admin.toList.map (fun _ => leaf .admin) ++ c.tech.toList.map fun t => .node .tech (techParts t)

end Afs.Spec
