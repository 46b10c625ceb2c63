import Verif.Proof.IoToc
import Verif.Props.C07_C08_Layouts
/-! # What every load guarantees, whatever the document -/
namespace Afs
open Spec Xml

theorem loadFromString_inv {β : Type} {load : Node → β} {fail : β} (P : β → Prop) (hf : P fail) (hl : ∀ d, P (load d)) (s : Bytes) :
    P (loadFromString load fail s) := by
  unfold loadFromString
  split
  · exact hf
  · cases Xml.loadString s with
    | none => exact hf
    | some d => exact hl d

theorem loadFromFile_inv {β : Type} {load : Node → β} {fail : β} (P : β → Prop) (hf : P fail) (hl : ∀ d, P (load d)) (s : Bytes) :
    P (loadFromFile load fail s) := by
  unfold loadFromFile
  cases Xml.loadFile s with
  | none => exact hf
  | some d => exact hl d

/-- The loading loops keep whatever adding an item keeps. -/
theorem Sections.loadLoop_inv (ns : List Node) : ∀ s : Sections, SectionsInv (s.sections.getD []) →
    SectionsInv ((s.loadLoop ns).2.sections.getD []) := by
  induction ns with
  | nil => intro s h; exact h
  | cons n ns ih =>
    intro s h
    rw [Sections.loadLoop]
    dsimp only
    split
    · exact h
    · split
      · exact h
      · rename_i hr hq
        apply ih
        have hq' : (s.append (some (Section.create.loadXml n).2)).1 = true := by simpa using hq
        have hok : sectionOk (s.sections.getD []) (Section.create.loadXml n).2 = true := by
          rw [← sections_container.result]; exact hq'
        rw [sections_container.admitted _ _ hok]
        exact sectionsInv_step _ _ h hok

theorem Sections.loadXml_inv (s : Sections) (h : SectionsInv (s.sections.getD [])) (n : Node) :
    SectionsInv ((s.loadXml n).2.sections.getD []) := by
  unfold Sections.loadXml
  split
  · exact h
  · exact Sections.loadLoop_inv _ s h

theorem LayoutDefs.loadLoop_inv (ns : List Node) : ∀ s : LayoutDefs, DefsInv (s.defs.getD []) →
    ∃ b r, s.loadLoop ns = .ok (b, r) ∧ DefsInv (r.defs.getD []) := by
  induction ns with
  | nil => intro s h; exact ⟨true, s, rfl, h⟩
  | cons n ns ih =>
    intro s h
    rw [LayoutDefs.loadLoop]
    split
    · exact ⟨false, s, rfl, h⟩
    · rw [layouts_add_ok (defsInv_ids h)]
      simp only [Res.ok_bind]
      cases hok : layoutOk (s.defs.getD []) (LayoutDef.create.loadXml n).2 with
      | false => exact ⟨false, s, rfl, h⟩
      | true =>
        simp only [if_true, Bool.true_eq_false, if_false]
        apply ih
        simp only [vecAppend_getD]
        exact defsInv_step _ _ h hok

theorem LayoutDefs.loadXml_inv (s : LayoutDefs) (h : DefsInv (s.defs.getD [])) (n : Node) :
    ∃ b r, s.loadXml n = .ok (b, r) ∧ DefsInv (r.defs.getD []) := by
  unfold LayoutDefs.loadXml
  split
  · exact ⟨false, s, rfl, h⟩
  · exact LayoutDefs.loadLoop_inv _ s h

theorem TocMeta.loadLoop_inv (ns : List Node) : ∀ s : TocMeta, (∀ x ∈ s.sources.getD [], x.isValid = true) →
    ∀ x ∈ (s.loadLoop ns).2.sources.getD [], x.isValid = true := by
  induction ns with
  | nil => intro s h; exact h
  | cons n ns ih =>
    intro s h
    rw [TocMeta.loadLoop]
    dsimp only
    split
    · exact h
    · split
      · exact h
      · rename_i hr hq
        apply ih
        have hok : (MetaSource.create.loadXml n).2.isValid = true := by
          rw [← tocMeta_container.result s]; simpa using hq
        intro x hx
        have e := tocMeta_container.admitted s _ hok
        rw [e] at hx
        rcases List.mem_append.mp hx with hx | hx
        · exact h x hx
        · rw [List.mem_singleton.mp hx]; exact hok

theorem TocMeta.loadXml_inv (s : TocMeta) (h : ∀ x ∈ s.sources.getD [], x.isValid = true) (n : Node) :
    ∀ x ∈ (s.loadXml n).2.sources.getD [], x.isValid = true := by
  unfold TocMeta.loadXml
  split
  · exact h
  · exact TocMeta.loadLoop_inv _ s h

theorem FileMeta.loadLoop_inv (ns : List Node) : ∀ s : FileMeta, (∀ x ∈ s.sources.getD [], x.isValid = true) →
    ∀ x ∈ (s.loadLoop ns).2.sources.getD [], x.isValid = true := by
  induction ns with
  | nil => intro s h; exact h
  | cons n ns ih =>
    intro s h
    rw [FileMeta.loadLoop]
    dsimp only
    split
    · exact h
    · split
      · exact h
      · rename_i hr hq
        apply ih
        have hok : (FileMetaSource.create.loadXml n).2.isValid = true := by
          rw [← fileMeta_container.result s]; simpa using hq
        intro x hx
        have e := fileMeta_container.admitted s _ hok
        rw [e] at hx
        rcases List.mem_append.mp hx with hx | hx
        · exact h x hx
        · rw [List.mem_singleton.mp hx]; exact hok

theorem FileMeta.loadXml_inv (s : FileMeta) (h : ∀ x ∈ s.sources.getD [], x.isValid = true) (n : Node) :
    ∀ x ∈ (s.loadXml n).2.sources.getD [], x.isValid = true := by
  unfold FileMeta.loadXml
  split
  · exact h
  · exact FileMeta.loadLoop_inv _ s h

theorem Preview.loadPages_inv (ns : List Node) : ∀ s : Preview, (∀ x ∈ s.pages.getD [], x.isValid = true) →
    ∀ x ∈ (s.loadPages ns).2.pages.getD [], x.isValid = true := by
  induction ns with
  | nil => intro s h; exact h
  | cons n ns ih =>
    intro s h
    cases n with
    | text t => rw [Preview.loadPages]; exact ih s h
    | elem n as cs =>
      rw [Preview.loadPages]
      dsimp only
      split
      · split
        · exact h
        · split
          · exact h
          · rename_i hn hr hq
            apply ih
            have hok : (Page.create.loadXml (.elem n as cs)).2.isValid = true := by
              rw [← preview_container.result s]; simpa using hq
            intro x hx
            have e := preview_container.admitted s _ hok
            rw [e] at hx
            rcases List.mem_append.mp hx with hx | hx
            · exact h x hx
            · rw [List.mem_singleton.mp hx]; exact hok
      · exact ih s h

theorem Preview.loadXml_inv (s : Preview) (h : ∀ x ∈ s.pages.getD [], x.isValid = true) (n : Node) :
    ∀ x ∈ (s.loadXml n).2.pages.getD [], x.isValid = true := by
  unfold Preview.loadXml
  split
  · exact h
  · exact Preview.loadPages_inv _ _ h

theorem Files.loadLoop_inv (ns : List Node) : ∀ s : Files, (∀ x ∈ s.list, x.isValid = true) →
    ∀ x ∈ (s.loadLoop ns).2.list, x.isValid = true := by
  induction ns with
  | nil => intro s h; exact h
  | cons n ns ih =>
    intro s h
    rw [Files.loadLoop]
    dsimp only
    split
    · exact h
    · split
      · exact h
      · rename_i hr hq
        apply ih
        have hok : (File.create.loadXml n).2.isValid = true := by
          rw [← files_container.result s]; simpa using hq
        intro x hx
        have e := files_container.admitted s _ hok
        rw [e] at hx
        rcases List.mem_append.mp hx with hx | hx
        · exact h x hx
        · rw [List.mem_singleton.mp hx]; exact hok

theorem Reels.loadLoop_inv (ns : List Node) : ∀ s : Reels, (∀ x ∈ s.list, x.isValid = true) →
    ∀ x ∈ (s.loadLoop ns).2.list, x.isValid = true := by
  induction ns with
  | nil => intro s h; exact h
  | cons n ns ih =>
    intro s h
    rw [Reels.loadLoop]
    dsimp only
    split
    · exact h
    · split
      · exact h
      · rename_i hr hq
        apply ih
        have hok : (Reel.create.loadXml n).2.isValid = true := by
          rw [← reels_container.result s]; simpa using hq
        intro x hx
        have e := reels_container.admitted s _ hok
        rw [e] at hx
        rcases List.mem_append.mp hx with hx | hx
        · exact h x hx
        · rw [List.mem_singleton.mp hx]; exact hok

/-! ### Saving -/

theorem mapM_isSome {α β : Type} {f : α → Option β} {l : List α} (h : ∀ x ∈ l, (f x).isSome = true) : ∃ r, l.mapM f = some r := by
  induction l with
  | nil => exact ⟨[], rfl⟩
  | cons x l ih =>
    obtain ⟨r, hr⟩ := ih fun y hy => h y (by simp [hy])
    have hx := h x (by simp)
    cases hfx : f x with
    | none => rw [hfx] at hx; cases hx
    | some y => exact ⟨y :: r, by rw [List.mapM_cons, hfx, hr]; rfl⟩

end Afs
