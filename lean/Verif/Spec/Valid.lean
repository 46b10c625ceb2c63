import Verif.Spec.Container
/-!
# Specification: what a valid object is

Written as plain conditions on the fields, without the early-return chains of the code.
-/
namespace Afs.Spec
open Afs

/-- A present, non-empty string. -/
def NonEmpty (s : Option Bytes) : Prop := ∃ b, s = some b ∧ b ≠ []

def ValidSection (s : Section) : Prop :=
  (s.rotation = 0 ∨ s.rotation = 90 ∨ s.rotation = 180 ∨ s.rotation = 270) ∧ 0 < s.width ∧ 0 < s.height

/-- At least one section, all valid, no two overlapping (as the code's overlap test sees it; for
    sections inside the 32-bit space this is "no common pixel", see `C07_sections_valid_iff`). -/
def ValidSections (s : Sections) : Prop :=
  ∃ l, s.sections = some l ∧ l ≠ [] ∧ (∀ x ∈ l, ValidSection x) ∧
    l.Pairwise fun a b => Section.isOverlap a b = false

def ValidLayout (d : LayoutDef) : Prop :=
  NonEmpty d.id ∧ NonEmpty d.name ∧ ∃ s, d.sections = some s ∧ ValidSections s

def ValidLayouts (d : LayoutDefs) : Prop := ∀ x ∈ d.defs.getD [], ValidLayout x

def ValidPage (p : Page) : Prop :=
  NonEmpty p.layoutId ∧ p.sectionCount ≠ 0 ∧ p.ovX ≤ p.dimX ∧ p.ovY ≤ p.dimY

def ValidPreview (p : Preview) : Prop := ∃ l, p.pages = some l ∧ l ≠ [] ∧ ∀ q ∈ l, ValidPage q

def ValidFileMetaSource (s : FileMetaSource) : Prop := NonEmpty s.data ∨ s.fileId ≠ -1

def ValidFileMeta (m : FileMeta) : Prop := ∀ s ∈ m.sources.getD [], ValidFileMetaSource s

def ValidFile (f : File) : Prop :=
  -2 ≤ f.id ∧ NonEmpty f.name ∧ NonEmpty f.date ∧
  (f.types.testBit 0 = true → 0 ≤ f.startFrame ∧ 0 ≤ f.startByte ∧ f.startFrame ≤ f.endFrame ∧
    f.checksum ≠ none ∧ (f.endFrame = f.startFrame → f.startByte ≤ f.endByte)) ∧
  (f.types.testBit 1 = true → ∃ p, f.preview = some p ∧ ValidPreview p) ∧
  (∀ m, f.metadata = some m → ValidFileMeta m)

def ValidFiles (f : Files) : Prop := ∀ x ∈ f.tocs.getD [], ValidFile x

def ValidReel (r : Reel) : Prop := NonEmpty r.id ∧ ∀ f, r.files = some f → ValidFiles f

def ValidReels (r : Reels) : Prop := ∀ x ∈ r.reels.getD [], ValidReel x

def ValidMetaSource (s : MetaSource) : Prop :=
  NonEmpty s.format ∧ ((0 ≤ s.fileId) ∨ (s.fileId = -1 ∧ NonEmpty s.data))

def ValidTocMeta (m : TocMeta) : Prop :=
  ∃ l, m.sources = some l ∧ l ≠ [] ∧ ∀ s ∈ l, ValidMetaSource s

def ValidToc (t : TocData) : Prop :=
  NonEmpty t.version ∧ NonEmpty t.jobId ∧ NonEmpty t.reelId ∧
  (t.indexType = some (b! "job") ∨ t.indexType = some (b! "reel")) ∧
  (∀ r, t.reels = some r → ValidReels r) ∧
  (∀ d, t.layouts = some d → ValidLayouts d) ∧
  (∀ m, t.metadata = some m → ∀ s ∈ m.sources.getD [], ValidMetaSource s)

end Afs.Spec
