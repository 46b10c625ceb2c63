import Verif.Proof.Equal
/-!
# C03, C04, C05 — clones and equality, for every object type

`X.equal` models the C function on possibly NULL pointers, `X.clone` the clone function.
`Spec.*Content` (Verif/Spec/Content.lean) is the observable content: NULL strings read as "",
every other field literally.
-/
namespace Afs
open Spec

/-! ## C05 — equal means same content -/

theorem C05_frame_range_equal_iff (a b : Option FrameRange) : FrameRange.equal a b = true ↔ a = b :=
  (ptrEqual_iff frameRange_eq_iff a b).trans (by simp)

theorem C05_frame_ranges_equal_iff (a b : Option FrameRanges) : FrameRanges.equal a b = true ↔ a = b :=
  (ptrEqual_iff frameRanges_eq_iff a b).trans (by simp)

theorem C05_preview_section_equal_iff (a b : Option Section) : Section.equal a b = true ↔ a = b :=
  (ptrEqual_iff section_eq_iff a b).trans (by simp)

theorem C05_preview_sections_equal_iff (a b : Option Sections) : Sections.equal a b = true ↔ a = b :=
  (ptrEqual_iff sections_eq_iff a b).trans (by simp)

theorem C05_layout_definition_equal_iff (a b : Option LayoutDef) : LayoutDef.equal a b = true ↔ a.map layoutContent = b.map layoutContent :=
  ptrEqual_iff layout_eq_iff a b

theorem C05_layout_definitions_equal_iff (a b : Option LayoutDefs) : LayoutDefs.equal a b = true ↔ a.map layoutsContent = b.map layoutsContent :=
  ptrEqual_iff layouts_eq_iff a b

theorem C05_preview_page_equal_iff (a b : Option Page) : Page.equal a b = true ↔ a.map pageContent = b.map pageContent :=
  ptrEqual_iff page_eq_iff a b

theorem C05_preview_equal_iff (a b : Option Preview) : Preview.equal a b = true ↔ a.map previewContent = b.map previewContent :=
  ptrEqual_iff preview_eq_iff a b

theorem C05_file_metadata_source_equal_iff (a b : Option FileMetaSource) : FileMetaSource.equal a b = true ↔ a.map fileMetaSourceContent = b.map fileMetaSourceContent :=
  ptrEqual_iff fileMetaSource_eq_iff a b

theorem C05_file_metadata_equal_iff (a b : Option FileMeta) : FileMeta.equal a b = true ↔ a.map fileMetaContent = b.map fileMetaContent :=
  ptrEqual_iff fileMeta_eq_iff a b

theorem C05_file_equal_iff (a b : Option File) : File.equal a b = true ↔ a.map fileContent = b.map fileContent :=
  ptrEqual_iff file_eq_iff a b

theorem C05_files_equal_iff (a b : Option Files) : Files.equal a b = true ↔ a.map filesContent = b.map filesContent :=
  ptrEqual_iff files_eq_iff a b

theorem C05_reel_equal_iff (a b : Option Reel) : Reel.equal a b = true ↔ a.map reelContent = b.map reelContent :=
  ptrEqual_iff reel_eq_iff a b

theorem C05_reels_equal_iff (a b : Option Reels) : Reels.equal a b = true ↔ a.map reelsContent = b.map reelsContent :=
  ptrEqual_iff reels_eq_iff a b

theorem C05_metadata_source_equal_iff (a b : Option MetaSource) : MetaSource.equal a b = true ↔ a.map metaSourceContent = b.map metaSourceContent :=
  ptrEqual_iff metaSource_eq_iff a b

theorem C05_metadata_equal_iff (a b : Option TocMeta) : TocMeta.equal a b = true ↔ a.map tocMetaContent = b.map tocMetaContent :=
  ptrEqual_iff tocMeta_eq_iff a b

theorem C05_toc_equal_iff (a b : Option TocData) : TocData.equal a b = true ↔ a.map tocContent = b.map tocContent :=
  ptrEqual_iff toc_eq_iff a b

/-- `afs_toc_file_not_equal` is the negation of `afs_toc_file_equal`. -/
theorem C05_file_not_equal (a b : Option File) : File.notEqual a b = !File.equal a b := by
  unfold File.notEqual; cases File.equal a b <;> rfl

/-- A digital file on one frame with the given checksum. -/
def digitalFile (checksum : Option Bytes) : File :=
  { File.create with
    name := some (b! "n"), date := some (b! "d"), checksum := checksum, types := TYPE_DIGITAL
    startFrame := 0, startByte := 0, endFrame := 0, endByte := 0 }

/-- Equality compares NULL and "" as the same although validity separates them: a digital file
    with a NULL checksum is equal to one with an empty checksum, but only the latter is valid. -/
theorem C05_equal_files_may_differ_in_validity :
    File.equal (some (digitalFile none)) (some (digitalFile (some []))) = true ∧
    (digitalFile none).isValid = false ∧ (digitalFile (some [])).isValid = true := by
  decide

/-! ## C04 — equality is an equivalence relation (NULL included) -/

theorem C04_frame_range_equivalence : IsEquivalence FrameRange.equal :=
  isEquivalence_of_iff C05_frame_range_equal_iff

theorem C04_frame_ranges_equivalence : IsEquivalence FrameRanges.equal :=
  isEquivalence_of_iff C05_frame_ranges_equal_iff

theorem C04_preview_section_equivalence : IsEquivalence Section.equal :=
  isEquivalence_of_iff C05_preview_section_equal_iff

theorem C04_preview_sections_equivalence : IsEquivalence Sections.equal :=
  isEquivalence_of_iff C05_preview_sections_equal_iff

theorem C04_layout_definition_equivalence : IsEquivalence LayoutDef.equal :=
  isEquivalence_of_iff C05_layout_definition_equal_iff

theorem C04_layout_definitions_equivalence : IsEquivalence LayoutDefs.equal :=
  isEquivalence_of_iff C05_layout_definitions_equal_iff

theorem C04_preview_page_equivalence : IsEquivalence Page.equal :=
  isEquivalence_of_iff C05_preview_page_equal_iff

theorem C04_preview_equivalence : IsEquivalence Preview.equal :=
  isEquivalence_of_iff C05_preview_equal_iff

theorem C04_file_metadata_source_equivalence : IsEquivalence FileMetaSource.equal :=
  isEquivalence_of_iff C05_file_metadata_source_equal_iff

theorem C04_file_metadata_equivalence : IsEquivalence FileMeta.equal :=
  isEquivalence_of_iff C05_file_metadata_equal_iff

theorem C04_file_equivalence : IsEquivalence File.equal :=
  isEquivalence_of_iff C05_file_equal_iff

theorem C04_files_equivalence : IsEquivalence Files.equal :=
  isEquivalence_of_iff C05_files_equal_iff

theorem C04_reel_equivalence : IsEquivalence Reel.equal :=
  isEquivalence_of_iff C05_reel_equal_iff

theorem C04_reels_equivalence : IsEquivalence Reels.equal :=
  isEquivalence_of_iff C05_reels_equal_iff

theorem C04_metadata_source_equivalence : IsEquivalence MetaSource.equal :=
  isEquivalence_of_iff C05_metadata_source_equal_iff

theorem C04_metadata_equivalence : IsEquivalence TocMeta.equal :=
  isEquivalence_of_iff C05_metadata_equal_iff

theorem C04_toc_equivalence : IsEquivalence TocData.equal :=
  isEquivalence_of_iff C05_toc_equal_iff

/-! ## C03 — clones

Each theorem: the clone is the same in every field, compares equal (in both orders) and has the
same validity. -/

theorem C03_frame_range_clone (x : FrameRange) :
    x.clone = x ∧ FrameRange.equal (some x.clone) (some x) = true ∧ FrameRange.equal (some x) (some x.clone) = true :=
  ⟨rfl, (by rw [show x.clone = x from rfl]; exact C04_frame_range_equivalence.refl _), (by rw [show x.clone = x from rfl]; exact C04_frame_range_equivalence.refl _)⟩

theorem C03_frame_ranges_clone (x : FrameRanges) :
    x.clone = x ∧ FrameRanges.equal (some x.clone) (some x) = true ∧ FrameRanges.equal (some x) (some x.clone) = true :=
  ⟨frameRanges_clone x, (by rw [show x.clone = x from frameRanges_clone x]; exact C04_frame_ranges_equivalence.refl _), (by rw [show x.clone = x from frameRanges_clone x]; exact C04_frame_ranges_equivalence.refl _)⟩

theorem C03_preview_section_clone (x : Section) :
    x.clone = x ∧ Section.equal (some x.clone) (some x) = true ∧ Section.equal (some x) (some x.clone) = true ∧
      Section.isValid x.clone = Section.isValid x :=
  ⟨rfl, (by rw [show x.clone = x from rfl]; exact C04_preview_section_equivalence.refl _), (by rw [show x.clone = x from rfl]; exact C04_preview_section_equivalence.refl _), by rw [show x.clone = x from rfl]⟩

theorem C03_preview_sections_clone (x : Sections) :
    x.clone = x ∧ Sections.equal (some x.clone) (some x) = true ∧ Sections.equal (some x) (some x.clone) = true ∧
      Sections.isValid (some x.clone) = Sections.isValid (some x) :=
  ⟨sections_clone x, (by rw [show x.clone = x from sections_clone x]; exact C04_preview_sections_equivalence.refl _), (by rw [show x.clone = x from sections_clone x]; exact C04_preview_sections_equivalence.refl _), by rw [show x.clone = x from sections_clone x]⟩

theorem C03_layout_definition_clone (x : LayoutDef) :
    x.clone = x ∧ LayoutDef.equal (some x.clone) (some x) = true ∧ LayoutDef.equal (some x) (some x.clone) = true ∧
      LayoutDef.isValid x.clone = LayoutDef.isValid x :=
  ⟨layout_clone x, (by rw [show x.clone = x from layout_clone x]; exact C04_layout_definition_equivalence.refl _), (by rw [show x.clone = x from layout_clone x]; exact C04_layout_definition_equivalence.refl _), by rw [show x.clone = x from layout_clone x]⟩

theorem C03_layout_definitions_clone (x : LayoutDefs) :
    x.clone = x ∧ LayoutDefs.equal (some x.clone) (some x) = true ∧ LayoutDefs.equal (some x) (some x.clone) = true ∧
      LayoutDefs.isValid (some x.clone) = LayoutDefs.isValid (some x) :=
  ⟨layouts_clone x, (by rw [show x.clone = x from layouts_clone x]; exact C04_layout_definitions_equivalence.refl _), (by rw [show x.clone = x from layouts_clone x]; exact C04_layout_definitions_equivalence.refl _), by rw [show x.clone = x from layouts_clone x]⟩

theorem C03_preview_page_clone (x : Page) :
    x.clone = x ∧ Page.equal (some x.clone) (some x) = true ∧ Page.equal (some x) (some x.clone) = true ∧
      Page.isValid x.clone = Page.isValid x :=
  ⟨page_clone x, (by rw [show x.clone = x from page_clone x]; exact C04_preview_page_equivalence.refl _), (by rw [show x.clone = x from page_clone x]; exact C04_preview_page_equivalence.refl _), by rw [show x.clone = x from page_clone x]⟩

theorem C03_preview_clone (x : Preview) :
    x.clone = x ∧ Preview.equal (some x.clone) (some x) = true ∧ Preview.equal (some x) (some x.clone) = true ∧
      Preview.isValid (some x.clone) = Preview.isValid (some x) :=
  ⟨preview_clone x, (by rw [show x.clone = x from preview_clone x]; exact C04_preview_equivalence.refl _), (by rw [show x.clone = x from preview_clone x]; exact C04_preview_equivalence.refl _), by rw [show x.clone = x from preview_clone x]⟩

theorem C03_file_metadata_source_clone (x : FileMetaSource) :
    x.clone = x ∧ FileMetaSource.equal (some x.clone) (some x) = true ∧ FileMetaSource.equal (some x) (some x.clone) = true ∧
      FileMetaSource.isValid x.clone = FileMetaSource.isValid x :=
  ⟨fileMetaSource_clone x, (by rw [show x.clone = x from fileMetaSource_clone x]; exact C04_file_metadata_source_equivalence.refl _), (by rw [show x.clone = x from fileMetaSource_clone x]; exact C04_file_metadata_source_equivalence.refl _), by rw [show x.clone = x from fileMetaSource_clone x]⟩

theorem C03_file_metadata_clone (x : FileMeta) :
    x.clone = x ∧ FileMeta.equal (some x.clone) (some x) = true ∧ FileMeta.equal (some x) (some x.clone) = true ∧
      FileMeta.isValid (some x.clone) = FileMeta.isValid (some x) :=
  ⟨fileMeta_clone x, (by rw [show x.clone = x from fileMeta_clone x]; exact C04_file_metadata_equivalence.refl _), (by rw [show x.clone = x from fileMeta_clone x]; exact C04_file_metadata_equivalence.refl _), by rw [show x.clone = x from fileMeta_clone x]⟩

theorem C03_file_clone (x : File) :
    x.clone = x ∧ File.equal (some x.clone) (some x) = true ∧ File.equal (some x) (some x.clone) = true ∧
      File.isValid x.clone = File.isValid x :=
  ⟨file_clone x, (by rw [show x.clone = x from file_clone x]; exact C04_file_equivalence.refl _), (by rw [show x.clone = x from file_clone x]; exact C04_file_equivalence.refl _), by rw [show x.clone = x from file_clone x]⟩

theorem C03_files_clone (x : Files) :
    x.clone = x ∧ Files.equal (some x.clone) (some x) = true ∧ Files.equal (some x) (some x.clone) = true ∧
      Files.isValid (some x.clone) = Files.isValid (some x) :=
  ⟨files_clone x, (by rw [show x.clone = x from files_clone x]; exact C04_files_equivalence.refl _), (by rw [show x.clone = x from files_clone x]; exact C04_files_equivalence.refl _), by rw [show x.clone = x from files_clone x]⟩

theorem C03_reel_clone (x : Reel) :
    x.clone = x ∧ Reel.equal (some x.clone) (some x) = true ∧ Reel.equal (some x) (some x.clone) = true ∧
      Reel.isValid x.clone = Reel.isValid x :=
  ⟨reel_clone x, (by rw [show x.clone = x from reel_clone x]; exact C04_reel_equivalence.refl _), (by rw [show x.clone = x from reel_clone x]; exact C04_reel_equivalence.refl _), by rw [show x.clone = x from reel_clone x]⟩

theorem C03_reels_clone (x : Reels) :
    x.clone = x ∧ Reels.equal (some x.clone) (some x) = true ∧ Reels.equal (some x) (some x.clone) = true ∧
      Reels.isValid (some x.clone) = Reels.isValid (some x) :=
  ⟨reels_clone x, (by rw [show x.clone = x from reels_clone x]; exact C04_reels_equivalence.refl _), (by rw [show x.clone = x from reels_clone x]; exact C04_reels_equivalence.refl _), by rw [show x.clone = x from reels_clone x]⟩

theorem C03_metadata_source_clone (x : MetaSource) :
    x.clone = x ∧ MetaSource.equal (some x.clone) (some x) = true ∧ MetaSource.equal (some x) (some x.clone) = true ∧
      MetaSource.isValid x.clone = MetaSource.isValid x :=
  ⟨metaSource_clone x, (by rw [show x.clone = x from metaSource_clone x]; exact C04_metadata_source_equivalence.refl _), (by rw [show x.clone = x from metaSource_clone x]; exact C04_metadata_source_equivalence.refl _), by rw [show x.clone = x from metaSource_clone x]⟩

theorem C03_metadata_clone (x : TocMeta) :
    x.clone = x ∧ TocMeta.equal (some x.clone) (some x) = true ∧ TocMeta.equal (some x) (some x.clone) = true ∧
      TocMeta.isValid (some x.clone) = TocMeta.isValid (some x) :=
  ⟨tocMeta_clone x, (by rw [show x.clone = x from tocMeta_clone x]; exact C04_metadata_equivalence.refl _), (by rw [show x.clone = x from tocMeta_clone x]; exact C04_metadata_equivalence.refl _), by rw [show x.clone = x from tocMeta_clone x]⟩

theorem C03_toc_clone (x : TocData) :
    x.clone = x ∧ TocData.equal (some x.clone) (some x) = true ∧ TocData.equal (some x) (some x.clone) = true ∧
      TocData.isValid x.clone = TocData.isValid x :=
  ⟨toc_clone x, (by rw [show x.clone = x from toc_clone x]; exact C04_toc_equivalence.refl _), (by rw [show x.clone = x from toc_clone x]; exact C04_toc_equivalence.refl _), by rw [show x.clone = x from toc_clone x]⟩

/-! ### Non-vacuity: distinct objects are told apart, NULL/"" are not -/

example : File.equal (some { File.create with id := 1 }) (some { File.create with id := 2 }) = false := by
  decide
example : File.equal (some { File.create with preview := some ⟨some [Page.create], 300⟩ })
    (some { File.create with preview := some ⟨some [Page.create], 301⟩ }) = false := by decide
example : File.equal (some { File.create with name := some [] }) (some File.create) = true := by decide
example : Files.equal (some ⟨none⟩) (some ⟨some []⟩) = false := by decide
example : TocData.equal (some { TocData.create with reels := some ⟨none⟩ })
    (some { TocData.create with reels := some ⟨some []⟩ }) = true := by decide

end Afs
