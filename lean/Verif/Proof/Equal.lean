import Verif.Spec.Content
import Mathlib.Tactic.Tauto
/-! # Helper lemmas for clone and equality -/
namespace Afs
open Spec

theorem strEq_iff (a b : Option Bytes) : strEq a b = true ↔ str a = str b := by
  unfold strEq orEmpty str
  cases a <;> cases b <;> simp

theorem listEqual_iff {α β : Type} {eq : α → α → Bool} {n : α → β}
    (h : ∀ a b, eq a b = true ↔ n a = n b) (l m : List α) :
    listEqual eq l m = true ↔ l.map n = m.map n := by
  induction l generalizing m with
  | nil => cases m <;> simp [listEqual]
  | cons x xs ih =>
    cases m with
    | nil => simp [listEqual]
    | cons y ys => simp [listEqual, h, ih]

theorem ptrEqual_iff {α β : Type} {eq : α → α → Bool} {n : α → β}
    (h : ∀ a b, eq a b = true ↔ n a = n b) (a b : Option α) :
    ptrEqual eq a b = true ↔ a.map n = b.map n := by
  cases a <;> cases b <;> simp [ptrEqual, h]

theorem vecEqual_iff {α β : Type} {eq : α → α → Bool} {n : α → β}
    (h : ∀ a b, eq a b = true ↔ n a = n b) (a b : Option (List α)) :
    vecEqual eq a b = true ↔ a.map (·.map n) = b.map (·.map n) :=
  ptrEqual_iff (listEqual_iff h) a b

theorem isEquivalence_of_iff {α β : Type} {eq : Option α → Option α → Bool} {n : Option α → β}
    (h : ∀ a b, eq a b = true ↔ n a = n b) : IsEquivalence eq where
  refl a := (h a a).mpr rfl
  symm a b := by
    rw [Bool.eq_iff_iff, h, h]; exact eq_comm
  trans a b c h1 h2 := (h a c).mpr (((h a b).mp h1).trans ((h b c).mp h2))

theorem frameRange_eq_iff (a b : FrameRange) : FrameRange.eqFields a b = true ↔ id a = id b := by
  cases a; cases b; simp [FrameRange.eqFields]

theorem frameRanges_eq_iff (a b : FrameRanges) : FrameRanges.eqFields a b = true ↔ id a = id b := by
  unfold FrameRanges.eqFields
  rw [vecEqual_iff frameRange_eq_iff]
  cases a; cases b; simp

theorem section_eq_iff (a b : Section) : Section.eqFields a b = true ↔ id a = id b := by
  cases a; cases b; simp [Section.eqFields, and_assoc]; try tauto

theorem sections_eq_iff (a b : Sections) : Sections.eqFields a b = true ↔ id a = id b := by
  unfold Sections.eqFields
  rw [vecEqual_iff section_eq_iff]
  cases a; cases b; simp

theorem layout_eq_iff (a b : LayoutDef) :
    LayoutDef.eqFields a b = true ↔ layoutContent a = layoutContent b := by
  unfold LayoutDef.eqFields Sections.equal
  simp only [Bool.and_eq_true, strEq_iff, ptrEqual_iff sections_eq_iff]
  cases a; cases b; simp [layoutContent, and_assoc]; try tauto

theorem layouts_eq_iff (a b : LayoutDefs) :
    LayoutDefs.eqFields a b = true ↔ layoutsContent a = layoutsContent b := by
  unfold LayoutDefs.eqFields
  rw [vecEqual_iff layout_eq_iff]
  cases a; cases b; simp [layoutsContent]

theorem page_eq_iff (a b : Page) : Page.eqFields a b = true ↔ pageContent a = pageContent b := by
  unfold Page.eqFields
  simp only [Bool.and_eq_true, strEq_iff]
  cases a; cases b; simp [pageContent, and_assoc]; try tauto

theorem preview_eq_iff (a b : Preview) :
    Preview.eqFields a b = true ↔ previewContent a = previewContent b := by
  unfold Preview.eqFields
  simp only [Bool.and_eq_true, vecEqual_iff page_eq_iff]
  cases a; cases b; simp [previewContent]

theorem fileMetaSource_eq_iff (a b : FileMetaSource) :
    FileMetaSource.eqFields a b = true ↔ fileMetaSourceContent a = fileMetaSourceContent b := by
  unfold FileMetaSource.eqFields
  simp only [Bool.and_eq_true, strEq_iff]
  cases a; cases b; simp [fileMetaSourceContent, and_assoc]; try tauto

theorem fileMeta_eq_iff (a b : FileMeta) :
    FileMeta.eqFields a b = true ↔ fileMetaContent a = fileMetaContent b := by
  unfold FileMeta.eqFields
  rw [vecEqual_iff fileMetaSource_eq_iff]
  cases a; cases b; simp [fileMetaContent]

theorem file_eq_iff (a b : File) : File.eqFields a b = true ↔ fileContent a = fileContent b := by
  unfold File.eqFields Preview.equal FileMeta.equal
  simp only [Bool.and_eq_true, strEq_iff, ptrEqual_iff preview_eq_iff,
    ptrEqual_iff fileMeta_eq_iff, beq_iff_eq]
  cases a; cases b; simp [fileContent, and_assoc]; try tauto

theorem files_eq_iff (a b : Files) : Files.eqFields a b = true ↔ filesContent a = filesContent b := by
  unfold Files.eqFields
  rw [vecEqual_iff file_eq_iff]
  cases a; cases b; simp [filesContent]

theorem reel_eq_iff (a b : Reel) : Reel.eqFields a b = true ↔ reelContent a = reelContent b := by
  unfold Reel.eqFields Files.equal
  simp only [Bool.and_eq_true, strEq_iff, ptrEqual_iff files_eq_iff]
  cases a; cases b; simp [reelContent]

theorem reels_eq_iff (a b : Reels) : Reels.eqFields a b = true ↔ reelsContent a = reelsContent b := by
  unfold Reels.eqFields
  rw [vecEqual_iff reel_eq_iff]
  cases a; cases b; simp [reelsContent]

theorem metaSource_eq_iff (a b : MetaSource) :
    MetaSource.eqFields a b = true ↔ metaSourceContent a = metaSourceContent b := by
  unfold MetaSource.eqFields
  simp only [Bool.and_eq_true, strEq_iff, beq_iff_eq,
    vecEqual_iff (eq := fun s t : Bytes => s == t) (n := id) (by simp)]
  cases a; cases b; simp [metaSourceContent, and_assoc]; try tauto

theorem tocMeta_eq_iff (a b : TocMeta) :
    TocMeta.eqFields a b = true ↔ tocMetaContent a = tocMetaContent b := by
  unfold TocMeta.eqFields
  rw [vecEqual_iff metaSource_eq_iff]
  cases a; cases b; simp [tocMetaContent]

theorem reelsField_iff (a b : Option Reels) :
    (Reels.equal a b || (Reels.count a == 0 && Reels.count b == 0)) = true ↔
      reelsField a = reelsField b := by
  unfold Reels.equal
  simp only [Bool.or_eq_true, ptrEqual_iff reels_eq_iff, Bool.and_eq_true, beq_iff_eq]
  unfold Reels.count vecSize reelsField reelsContent
  rcases a with _ | ⟨_ | _ | ⟨a, as⟩⟩ <;> rcases b with _ | ⟨_ | _ | ⟨b, bs⟩⟩ <;> simp

theorem metaField_iff (a b : Option TocMeta) :
    (TocMeta.equal a b || (TocMeta.sourcesCount a == 0 && TocMeta.sourcesCount b == 0)) = true ↔
      metaField a = metaField b := by
  unfold TocMeta.equal
  simp only [Bool.or_eq_true, ptrEqual_iff tocMeta_eq_iff, Bool.and_eq_true, beq_iff_eq]
  unfold TocMeta.sourcesCount vecSize metaField tocMetaContent
  rcases a with _ | ⟨_ | _ | ⟨a, as⟩⟩ <;> rcases b with _ | ⟨_ | _ | ⟨b, bs⟩⟩ <;> simp

theorem layoutsField_iff (a b : Option LayoutDefs) :
    (LayoutDefs.equal a b || (LayoutDefs.getCount a == 0 && LayoutDefs.getCount b == 0)) = true ↔
      layoutsField a = layoutsField b := by
  unfold LayoutDefs.equal
  simp only [Bool.or_eq_true, ptrEqual_iff layouts_eq_iff, Bool.and_eq_true, beq_iff_eq]
  unfold LayoutDefs.getCount vecSize layoutsField layoutsContent
  rcases a with _ | ⟨_ | _ | ⟨a, as⟩⟩ <;> rcases b with _ | ⟨_ | _ | ⟨b, bs⟩⟩ <;> simp

theorem toc_eq_iff (a b : TocData) : TocData.eqFields a b = true ↔ tocContent a = tocContent b := by
  unfold TocData.eqFields TocData.reelCount TocData.metadataSourceCount TocData.layoutCount
  rw [Bool.and_eq_true, Bool.and_eq_true, Bool.and_eq_true, Bool.and_eq_true, Bool.and_eq_true,
    Bool.and_eq_true, reelsField_iff, metaField_iff, layoutsField_iff]
  simp only [strEq_iff]
  cases a; cases b; simp [tocContent, and_assoc]; try tauto

/-! ### Clones -/

theorem vecClone_id {α : Type} {cl : α → α} (h : ∀ a, cl a = a) (v : Option (List α)) :
    vecClone cl v = v := by
  have : cl = id := funext h
  cases v <;> simp [vecClone, this]

theorem optMap_id {α : Type} {cl : α → α} (h : ∀ a, cl a = a) (v : Option α) :
    v.map cl = v := by
  have : cl = id := funext h
  simp [this]

theorem frameRanges_clone (a : FrameRanges) : a.clone = a := by
  cases a; simp [FrameRanges.clone, vecClone_id (cl := FrameRange.clone) (fun _ => rfl)]
theorem sections_clone (a : Sections) : a.clone = a := by
  cases a; simp [Sections.clone, vecClone_id (cl := Section.clone) (fun _ => rfl)]
theorem layout_clone (a : LayoutDef) : a.clone = a := by
  cases a; simp [LayoutDef.clone, LayoutDef.create2, strClone, optMap_id sections_clone]
theorem layouts_clone (a : LayoutDefs) : a.clone = a := by
  cases a; simp [LayoutDefs.clone, vecClone_id layout_clone]
theorem page_clone (a : Page) : a.clone = a := by
  cases a; simp [Page.clone, Page.create2, strClone]
theorem preview_clone (a : Preview) : a.clone = a := by
  have : Page.clone = id := funext page_clone
  rcases a with ⟨_ | l, d⟩ <;> simp [Preview.clone, Preview.create, Preview.create2, this]
theorem fileMetaSource_clone (a : FileMetaSource) : a.clone = a := by
  cases a; simp [FileMetaSource.clone, strClone]
theorem fileMeta_clone (a : FileMeta) : a.clone = a := by
  cases a; simp [FileMeta.clone, vecClone_id fileMetaSource_clone]
theorem file_clone (a : File) : a.clone = a := by
  cases a; simp [File.clone, File.create2, strClone, optMap_id preview_clone, optMap_id fileMeta_clone]
theorem files_clone (a : Files) : a.clone = a := by
  cases a; simp [Files.clone, vecClone_id file_clone]
theorem reel_clone (a : Reel) : a.clone = a := by
  cases a; simp [Reel.clone, strClone, optMap_id files_clone]
theorem reels_clone (a : Reels) : a.clone = a := by
  cases a; simp [Reels.clone, vecClone_id reel_clone]
theorem metaSource_clone (a : MetaSource) : a.clone = a := by
  cases a; simp [MetaSource.clone, strClone, vecClone_id]
theorem tocMeta_clone (a : TocMeta) : a.clone = a := by
  cases a; simp [TocMeta.clone, vecClone_id metaSource_clone]
theorem toc_clone (a : TocData) : a.clone = a := by
  cases a; simp [TocData.clone, TocData.create2, strClone, optMap_id reels_clone,
    optMap_id tocMeta_clone, optMap_id layouts_clone]

end Afs
