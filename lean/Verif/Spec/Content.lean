import Verif.Model.TocData
/-!
# Specification: the observable content of an object

`content` replaces every NULL string by the empty string and changes nothing else (all other
fields are kept by `{ x with … }`).  For a whole TOC an absent, NULL or empty container is
one and the same "nothing there".  Two objects have the same content iff their `content`
values are the same record.
-/
namespace Afs.Spec
open Afs

/-- NULL is read as "". -/
def str (s : Option Bytes) : Option Bytes := some (s.getD [])

def pageContent (p : Page) : Page := { p with layoutId := str p.layoutId }

def previewContent (p : Preview) : Preview := { p with pages := p.pages.map (·.map pageContent) }

def fileMetaSourceContent (s : FileMetaSource) : FileMetaSource :=
  { s with data := str s.data, formatId := str s.formatId }

def fileMetaContent (m : FileMeta) : FileMeta := ⟨m.sources.map (·.map fileMetaSourceContent)⟩

def fileContent (f : File) : File :=
  { f with
    name := str f.name, date := str f.date, checksum := str f.checksum
    uniqueId := str f.uniqueId, fileFormat := str f.fileFormat
    preview := f.preview.map previewContent, metadata := f.metadata.map fileMetaContent }

def filesContent (f : Files) : Files := ⟨f.tocs.map (·.map fileContent)⟩

def reelContent (r : Reel) : Reel := ⟨str r.id, r.files.map filesContent⟩

def reelsContent (r : Reels) : Reels := ⟨r.reels.map (·.map reelContent)⟩

def layoutContent (d : LayoutDef) : LayoutDef := { d with id := str d.id, name := str d.name }

def layoutsContent (d : LayoutDefs) : LayoutDefs := ⟨d.defs.map (·.map layoutContent)⟩

def metaSourceContent (s : MetaSource) : MetaSource :=
  { s with format := str s.format, data := str s.data }

def tocMetaContent (m : TocMeta) : TocMeta := ⟨m.sources.map (·.map metaSourceContent)⟩

/-- Absent, NULL-vector and empty containers of a TOC are the same. -/
def reelsField (r : Option Reels) : List Reel := ((r.bind Reels.reels).getD []).map reelContent
def metaField (m : Option TocMeta) : List MetaSource :=
  ((m.bind TocMeta.sources).getD []).map metaSourceContent
def layoutsField (d : Option LayoutDefs) : List LayoutDef :=
  ((d.bind LayoutDefs.defs).getD []).map layoutContent

/-- The content of a TOC: four strings and three lists. -/
structure TocContent where
  version : Option Bytes
  indexType : Option Bytes
  jobId : Option Bytes
  reelId : Option Bytes
  reels : List Reel
  metadata : List MetaSource
  layouts : List LayoutDef

def tocContent (t : TocData) : TocContent :=
  ⟨str t.version, str t.indexType, str t.jobId, str t.reelId, reelsField t.reels,
   metaField t.metadata, layoutsField t.layouts⟩

/-- A Boolean comparison of possibly NULL pointers is an equivalence relation. -/
structure IsEquivalence {α : Type} (eq : Option α → Option α → Bool) : Prop where
  refl : ∀ a, eq a a = true
  symm : ∀ a b, eq a b = eq b a
  trans : ∀ a b c, eq a b = true → eq b c = true → eq a c = true

end Afs.Spec
