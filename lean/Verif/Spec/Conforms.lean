import Verif.Spec.Schema
import Verif.Spec.Storable
/-!
# Objects whose saved form follows the schema

Said of the objects' values only; the theorems of C61 connect it with the schema.
-/
namespace Afs
open Spec Spec.Schema

/-- The layout id is a number (or missing). -/
def Page.conforms (p : Page) : Prop := ∀ l, p.layoutId = some l → unsignedInt l

/-- The layout ids of all pages are numbers. -/
def Preview.conforms (p : Preview) : Prop := ∀ x ∈ p.pages.getD [], x.conforms

/-- There is data, and both ids are set. -/
def FileMetaSource.conforms (s : FileMetaSource) : Prop := s.data ≠ none ∧ 0 ≤ s.fileId ∧ 0 ≤ s.sourceId

/-- All sources conform. -/
def FileMeta.conforms (m : FileMeta) : Prop := ∀ x ∈ m.sources.getD [], x.conforms

/-- A digital file of less than 4 GiB with a unique id, a date of the right form, a parent id that is a number or one of the
    two special values, not ending at a negative position, whose preview and metadata conform. -/
def File.conforms (D : Char → Prop) (f : File) : Prop :=
  f.uniqueId ≠ none ∧ (∀ d, f.date = some d → dateType D d) ∧ -2 ≤ f.parentId ∧ f.isDigital = true ∧
    (0 ≤ f.size ∧ f.size < 4294967296) ∧ 0 ≤ f.endByte ∧ (f.isPreview = true → ∀ p, f.preview = some p → p.conforms) ∧
    (∀ m, f.metadata = some m → m.conforms)

/-- There is a file, and all conform. -/
def Files.conforms (D : Char → Prop) (f : Files) : Prop := f.list ≠ [] ∧ ∀ x ∈ f.list, x.conforms D

/-- There is a file, and all conform. -/
def Reel.conforms (D : Char → Prop) (r : Reel) : Prop := ∃ f, r.files = some f ∧ f.conforms D

/-- There is a reel, and all conform. -/
def Reels.conforms (D : Char → Prop) (r : Reels) : Prop := r.list ≠ [] ∧ ∀ x ∈ r.list, x.conforms D

/-- There are tags and no data (the schema has no place for the data of a source). -/
def MetaSource.conforms (s : MetaSource) : Prop := s.tags ≠ none ∧ s.data = none

/-- All sources conform. -/
def TocMeta.conforms (m : TocMeta) : Prop := ∀ x ∈ m.sources.getD [], x.conforms

/-- The version is numbers and dots, there is a layout definition, there is a reel, and the reels and
    metadata sources conform. -/
def TocData.conforms (D : Char → Prop) (t : TocData) : Prop :=
  (∀ v, t.version = some v → versionType D v) ∧ (∀ m, t.metadata = some m → m.conforms) ∧
    (∃ d, t.layouts = some d ∧ d.defs.getD [] ≠ []) ∧ ∃ r, t.reels = some r ∧ r.conforms D

end Afs
