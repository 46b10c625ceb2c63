import Verif.Spec.Save
import Verif.Model.Layout
import Verif.Model.Preview
import Verif.Model.TocMeta
import Verif.Model.FileMeta
import Verif.Model.File
import Verif.Model.TocData
/-!
# Which objects survive being saved and loaded

`storable` says of an object that its texts can be written as XML, its numbers are C integers,
and that it has none of the few shapes saving or loading is known to change (each of those shapes has its own
counterexample theorem in `Props`).
-/
namespace Afs
open Spec

/-- All numbers of a section are C `unsigned int`s. -/
def Section.inRange (s : Section) : Prop :=
  IsUInt s.id ∧ IsUInt s.x ∧ IsUInt s.y ∧ IsUInt s.width ∧ IsUInt s.height ∧ IsUInt s.rotation

/-- Sections as they are built by appending: valid, ids all different. -/
def Sections.storable (s : Sections) : Prop :=
  Sections.isValid (some s) = true ∧ ((s.sections.getD []).map Section.id).Nodup ∧
    ∀ x ∈ s.sections.getD [], x.inRange

/-- A valid layout definition with texts that can be stored. -/
def LayoutDef.storable (d : LayoutDef) : Prop :=
  d.isValid = true ∧ TextField d.id ∧ TextField d.name ∧ ∀ s, d.sections = some s → s.storable

/-- Layout definition lists as built through the API: no empty vector, ids all different. -/
def LayoutDefs.storable (d : LayoutDefs) : Prop :=
  d.defs ≠ some [] ∧ ((d.defs.getD []).map LayoutDef.id).Nodup ∧ ∀ x ∈ d.defs.getD [], x.storable

/-- A preview page whose layout id is clean text and whose numbers are C `unsigned int`s. -/
def Page.writable (p : Page) : Prop :=
  AttrField p.layoutId ∧ IsUInt p.startFrame ∧ IsUInt p.startSection ∧ IsUInt p.sectionCount ∧
    IsUInt p.dimX ∧ IsUInt p.dimY ∧ IsUInt p.ovX ∧ IsUInt p.ovY

/-- What becomes of a writable page: a dimension or overlap with exactly one zero is lost. -/
def Page.asLoaded (p : Page) : Page :=
  { p with
    dimX := if p.dimY = 0 then 0 else p.dimX
    dimY := if p.dimX = 0 then 0 else p.dimY
    ovX := if p.ovY = 0 then 0 else p.ovX
    ovY := if p.ovX = 0 then 0 else p.ovY }

/-- A writable page whose dimension and overlap are each all zero or all non-zero. -/
def Page.storable (p : Page) : Prop :=
  p.writable ∧ (p.dimX = 0 ↔ p.dimY = 0) ∧ (p.ovX = 0 ↔ p.ovY = 0)

/-- A valid preview whose pages can be stored and whose dpi value is absent (−1) or not negative. -/
def Preview.storable (p : Preview) : Prop :=
  Preview.isValid (some p) = true ∧ IsInt p.dpi ∧ -1 ≤ p.dpi ∧ ∀ x ∈ p.pages.getD [], x.storable

/-- A valid metadata source: the format is clean text, the data is clean text without `]]>`, the
    tags come from splitting a text that can be stored. -/
def MetaSource.storable (s : MetaSource) : Prop :=
  s.isValid = true ∧ AttrField s.format ∧ IsInt s.id ∧ IsInt s.fileId ∧ (∀ d, s.data = some d → CleanData d) ∧
    (∀ l, s.tags = some l → ∃ t, TextField (some t) ∧ l = splitOn semicolon t)

/-- Valid TOC metadata with storable sources. -/
def TocMeta.storable (m : TocMeta) : Prop :=
  TocMeta.isValid (some m) = true ∧ ∀ x ∈ m.sources.getD [], x.storable

/-- A valid metadata source of a file; without data there is no place for a format id. -/
def FileMetaSource.storable (s : FileMetaSource) : Prop :=
  s.isValid = true ∧ AttrField s.formatId ∧ IsInt s.fileId ∧ IsInt s.sourceId ∧ (∀ d, s.data = some d → CleanData d) ∧
    (s.data = none → s.formatId = none)

/-- File metadata with storable sources and no empty vector. -/
def FileMeta.storable (m : FileMeta) : Prop :=
  m.sources ≠ some [] ∧ ∀ x ∈ m.sources.getD [], x.storable

/-- A valid file entry whose texts can be written, whose numbers are C integers, and whose preview
    and metadata can be stored.  The checksum of a digital file may be the empty string. -/
def File.writable (f : File) : Prop :=
  f.isValid = true ∧ AttrField f.fileFormat ∧ TextField f.uniqueId ∧ TextField f.name ∧ TextField f.date ∧
    IsInt f.id ∧ IsInt f.parentId ∧ IsInt64 f.size ∧
    IsInt f.startFrame ∧ IsInt f.startByte ∧ IsInt f.endFrame ∧ IsInt f.endByte ∧
    (f.isDigital = true → f.checksum = some [] ∨ TextField f.checksum) ∧
    (f.isPreview = true → ∀ p, f.preview = some p → p.storable) ∧
    (f.hasMetadata = true → ∀ m, f.metadata = some m → m.storable)

/-- What a writable file entry becomes when it is saved and loaded: a missing format becomes
    `undefined`; of a file without the digital type the size, position and checksum are dropped;
    a preview without the preview type and a metadata object without sources are dropped; the
    old data format (`v1`) does not store the checksum. -/
def File.asLoaded (f : File) (v1 : Bool) : File where
  name := f.name
  date := f.date
  checksum := if f.isDigital = true ∧ v1 = false then f.checksum else some []
  size := if f.isDigital then f.size else 0
  id := f.id
  startFrame := if f.isDigital then f.startFrame else -1
  startByte := if f.isDigital then f.startByte else -1
  endFrame := if f.isDigital then f.endFrame else -1
  endByte := if f.isDigital then f.endByte else -1
  uniqueId := f.uniqueId
  parentId := f.parentId
  types := (if f.isDigital then 1 else 0) + (if f.isPreview then 2 else 0)
  preview := if f.isPreview then f.preview else none
  fileFormat := some (f.fileFormat.getD (b! "undefined"))
  metadata := if f.hasMetadata then f.metadata else none

/-- A writable digital file with format, in which nothing is lost. -/
def File.storable (f : File) : Prop :=
  f.writable ∧ f.fileFormat ≠ none ∧ f.types ≤ 3 ∧ f.isDigital = true ∧ (f.isPreview = false → f.preview = none) ∧
    (f.hasMetadata = false → f.metadata = none)

/-- What a list of writable files becomes: every entry as above, in order; a list without entries
    has no vector. -/
def Files.asLoaded (f : Files) : Files :=
  ⟨if f.list = [] then none else some (f.list.map fun x => x.asLoaded false)⟩

/-- A list whose entries can all be stored. -/
def Files.storable (f : Files) : Prop := f.tocs ≠ some [] ∧ ∀ x ∈ f.list, x.storable

/-- A valid reel whose id can be written and whose files are writable. -/
def Reel.writable (r : Reel) : Prop := r.isValid = true ∧ TextField r.id ∧ ∀ x ∈ r.list, x.writable

/-- What becomes of a writable reel: id and files, in order. -/
def Reel.asLoaded (r : Reel) : Reel := ⟨r.id, r.files.map Files.asLoaded⟩

/-- A reel in which nothing is lost. -/
def Reel.storable (r : Reel) : Prop := r.writable ∧ ∀ f, r.files = some f → f.storable

/-- What becomes of a list of writable reels. -/
def Reels.asLoaded (r : Reels) : Reels := ⟨if r.list = [] then none else some (r.list.map Reel.asLoaded)⟩

/-- A list of reels in which nothing is lost. -/
def Reels.storable (r : Reels) : Prop := r.reels ≠ some [] ∧ ∀ x ∈ r.list, x.storable

/-- A valid table of contents whose texts can be written and whose parts are writable. -/
def TocData.writable (t : TocData) : Prop :=
  t.isValid = true ∧ AttrField t.version ∧ TextField t.jobId ∧ TextField t.reelId ∧
    (∀ m, t.metadata = some m → m.sources.getD [] ≠ [] → m.storable) ∧
    (∀ d, t.layouts = some d → d.defs.getD [] ≠ [] → d.storable) ∧
    ∀ x ∈ t.reelList, x.writable

/-- What becomes of a writable table of contents: containers without entries become NULL. -/
def TocData.asLoaded (t : TocData) : TocData where
  version := t.version
  indexType := t.indexType
  jobId := t.jobId
  reelId := t.reelId
  metadata := t.metadata.bind fun m => if m.sources.getD [] = [] then none else some m
  layouts := t.layouts.bind fun d => if d.defs.getD [] = [] then none else some d
  reels := t.reels.bind fun r => if r.list = [] then none else some r.asLoaded

/-- A table of contents in which nothing is lost: reels storable. -/
def TocData.storable (t : TocData) : Prop := t.writable ∧ ∀ x ∈ t.reelList, x.storable

end Afs
