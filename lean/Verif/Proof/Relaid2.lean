import Verif.Proof.Relaid
import Verif.Model.ControlData
/-! # Loading documents that differ in what the library does not know -/
namespace Afs
open Spec Xml Spec.Extended
open Spec.Relaid (textElements SameText SameStart isCData)

theorem Page.loadXml_relaid (p : Page) {t u : Node} (h : ExtendedDoc t u) : p.loadXml t = p.loadXml u := by
  have hs := doc_selfOrFind h (nm := b! "pages") rfl
  unfold Page.loadXml
  revert hs
  generalize selfOrFind t (b! "pages") = a
  generalize selfOrFind u (b! "pages") = b
  intro hs
  cases hs with
  | none => rfl
  | some hr => simp (disch := decide) only [relaid_attr hr.1, relaid_intAttr hr.1]

theorem Preview.loadPages_relaid {b : Bool} : ∀ {cs ds : List Node}, Kids b cs ds → ∀ p : Preview, p.loadPages cs = p.loadPages ds
  | _, _, .nil => fun p => rfl
  | _, _, .left (x := x) h hk => fun p => by
    rcases x with ⟨n, as, ks⟩ | s
    · have hn : n ≠ b! "pages" := by rintro rfl; rw [Foreign] at h; exact absurd h.1 (by decide)
      rw [Preview.loadPages, if_neg hn]; exact Preview.loadPages_relaid hk p
    · rw [Preview.loadPages]; exact Preview.loadPages_relaid hk p
  | _, _, .right (x := x) h hk => fun p => by
    rcases x with ⟨n, as, ks⟩ | s
    · have hn : n ≠ b! "pages" := by rintro rfl; rw [Foreign] at h; exact absurd h.1 (by decide)
      conv => rhs; rw [Preview.loadPages, if_neg hn]
      exact Preview.loadPages_relaid hk p
    · conv => rhs; rw [Preview.loadPages]
      exact Preview.loadPages_relaid hk p
  | _, _, .cons (cs := cs) (ds := ds) h hk => fun p => by
    have hp := fun q : Page => q.loadXml_relaid (relaid_doc h)
    cases h with
    | @mk _ n as bs ks ls _ _ _ _ =>
      rw [Preview.loadPages, Preview.loadPages, hp]
      have ih := Preview.loadPages_relaid hk
      simp only [ih]

theorem Preview.loadXml_relaid (p : Preview) {t u : Node} (h : ExtendedDoc t u) : p.loadXml t = p.loadXml u := by
  have hs := doc_selfOrFind h (nm := b! "preview") rfl
  unfold Preview.loadXml
  revert hs
  generalize selfOrFind t (b! "preview") = a
  generalize selfOrFind u (b! "preview") = b
  intro hs
  cases hs with
  | none => rfl
  | some hr =>
    dsimp only
    rw [relaid_intElement hr.1 (nm := b! "dpi") rfl (by decide)]
    obtain ⟨hr, _⟩ := hr
    cases hr with
    | mk _ hk _ _ => exact Preview.loadPages_relaid hk _

theorem Section.loadXml_relaid (p : Section) {t u : Node} (h : ExtendedDoc t u) : p.loadXml t = p.loadXml u := by
  have hs := doc_selfOrFind h (nm := b! "section") rfl
  unfold Section.loadXml
  revert hs
  generalize selfOrFind t (b! "section") = a
  generalize selfOrFind u (b! "section") = b
  intro hs
  cases hs with
  | none => rfl
  | some hr => simp (disch := decide) only [relaid_uintAttr hr.1]

theorem Sections.loadLoop_relaid {l m : List Node} (h : List.Forall₂ (Extended false) l m) (s : Sections) : s.loadLoop l = s.loadLoop m := by
  induction h generalizing s with
  | nil => rfl
  | cons h _ ih =>
    rw [Sections.loadLoop, Sections.loadLoop, Section.loadXml_relaid _ (relaid_doc h)]
    simp only [ih]

theorem Sections.loadXml_relaid (s : Sections) {t u : Node} (h : ExtendedDoc t u) : s.loadXml t = s.loadXml u := by
  have hs := doc_selfOrFind h (nm := b! "sections") rfl
  unfold Sections.loadXml
  revert hs
  generalize selfOrFind t (b! "sections") = a
  generalize selfOrFind u (b! "sections") = b
  intro hs
  cases hs with
  | none => rfl
  | some hr => exact Sections.loadLoop_relaid (doc_findAll (relaid_doc hr.1) rfl) s

theorem LayoutDef.loadXml_relaid (d : LayoutDef) {t u : Node} (h : ExtendedDoc t u) : d.loadXml t = d.loadXml u := by
  have hs := doc_selfOrFind h (nm := b! "previewLayout") rfl
  unfold LayoutDef.loadXml
  revert hs
  generalize selfOrFind t (b! "previewLayout") = a
  generalize selfOrFind u (b! "previewLayout") = b
  intro hs
  cases hs with
  | none => rfl
  | some hr =>
    dsimp only
    rw [relaid_nodeText hr.1 (nm := b! "id") rfl (by decide), relaid_nodeText hr.1 (nm := b! "name") rfl (by decide),
      Sections.loadXml_relaid _ (relaid_doc hr.1)]

theorem LayoutDefs.loadLoop_relaid {l m : List Node} (h : List.Forall₂ (Extended false) l m) (s : LayoutDefs) : s.loadLoop l = s.loadLoop m := by
  induction h generalizing s with
  | nil => rfl
  | cons h _ ih =>
    rw [LayoutDefs.loadLoop, LayoutDefs.loadLoop, LayoutDef.loadXml_relaid _ (relaid_doc h)]
    simp only [ih]

theorem LayoutDefs.loadXml_relaid (s : LayoutDefs) {t u : Node} (h : ExtendedDoc t u) : s.loadXml t = s.loadXml u := by
  have hs := doc_selfOrFind h (nm := b! "layoutDefinitions") rfl
  unfold LayoutDefs.loadXml
  revert hs
  generalize selfOrFind t (b! "layoutDefinitions") = a
  generalize selfOrFind u (b! "layoutDefinitions") = b
  intro hs
  cases hs with
  | none => rfl
  | some hr => exact LayoutDefs.loadLoop_relaid (doc_findAll (relaid_doc hr.1) rfl) s

theorem source_data {b : Bool} {x y : Node} (h : Extended b x y) (hx : named (b! "source") x = true) (old : Option Bytes) :
    (find x (b! "data")).map (fun n => (loadData old n, n.getAttr (b! "formatId"))) =
      (find y (b! "data")).map fun n => (loadData old n, n.getAttr (b! "formatId")) := by
  have hf := below_find (source_below h hx) (nm := b! "data") rfl
  cases e1 : find x (b! "data") with
  | none =>
    rw [e1] at hf
    cases e2 : find y (b! "data") with
    | none => rfl
    | some b => rw [e2] at hf; cases hf
  | some a =>
    rw [e1] at hf
    cases e2 : find y (b! "data") with
    | none => rw [e2] at hf; cases hf
    | some b =>
      rw [e2] at hf
      cases hf with
      | some hr =>
        simp only [Option.map_some]
        rw [relaid_loadData hr (find_named e1), relaid_attr hr (by decide)]

theorem MetaSource.loadXml_relaid (s : MetaSource) {t u : Node} (h : ExtendedDoc t u) : s.loadXml t = s.loadXml u := by
  have hs := doc_selfOrFind h (nm := b! "source") rfl
  unfold MetaSource.loadXml
  revert hs
  generalize selfOrFind t (b! "source") = a
  generalize selfOrFind u (b! "source") = b
  intro hs
  cases hs with
  | none => rfl
  | @some a b hr =>
    simp (disch := decide) only [relaid_attr hr.1, relaid_intAttr hr.1]
    have hd := source_data hr.1 hr.2 s.data
    have ht := below_text (relaid_below hr.1) (nm := b! "tags") rfl (by decide)
    split
    · rfl
    · split
      · rfl
      · revert hd ht
        generalize find a (b! "data") = d1
        generalize find b (b! "data") = d2
        generalize find a (b! "tags") = t1
        generalize find b (b! "tags") = t2
        intro hd ht
        cases d1 <;> cases d2 <;> first | cases hd | skip
        all_goals (cases t1 <;> cases t2 <;> first | cases ht.2 | skip)
        all_goals simp_all

theorem TocMeta.loadLoop_relaid {l m : List Node} (h : List.Forall₂ (Extended false) l m) (s : TocMeta) : s.loadLoop l = s.loadLoop m := by
  induction h generalizing s with
  | nil => rfl
  | cons h _ ih =>
    rw [TocMeta.loadLoop, TocMeta.loadLoop, MetaSource.loadXml_relaid _ (relaid_doc h)]
    simp only [ih]

theorem TocMeta.loadXml_relaid (s : TocMeta) {t u : Node} (h : ExtendedDoc t u) : s.loadXml t = s.loadXml u := by
  have hs := doc_selfOrFind h (nm := b! "metadata") rfl
  unfold TocMeta.loadXml
  revert hs
  generalize selfOrFind t (b! "metadata") = a
  generalize selfOrFind u (b! "metadata") = b
  intro hs
  cases hs with
  | none => rfl
  | some hr => exact TocMeta.loadLoop_relaid (doc_findAll (relaid_doc hr.1) rfl) s

theorem FileMetaSource.loadXml_relaid (s : FileMetaSource) {t u : Node} (h : ExtendedDoc t u) : s.loadXml t = s.loadXml u := by
  have hs := doc_selfOrFind h (nm := b! "source") rfl
  unfold FileMetaSource.loadXml
  revert hs
  generalize selfOrFind t (b! "source") = a
  generalize selfOrFind u (b! "source") = b
  intro hs
  cases hs with
  | none => rfl
  | @some a b hr =>
    simp (disch := decide) only [relaid_intAttr hr.1]
    have hd := source_data hr.1 hr.2 s.data
    split
    · rfl
    · revert hd
      generalize find a (b! "data") = d1
      generalize find b (b! "data") = d2
      intro hd
      cases d1 <;> cases d2 <;> first | cases hd | skip
      all_goals simp_all

theorem FileMeta.loadLoop_relaid {l m : List Node} (h : List.Forall₂ (Extended false) l m) (s : FileMeta) : s.loadLoop l = s.loadLoop m := by
  induction h generalizing s with
  | nil => rfl
  | cons h _ ih =>
    rw [FileMeta.loadLoop, FileMeta.loadLoop, FileMetaSource.loadXml_relaid _ (relaid_doc h)]
    simp only [ih]

theorem FileMeta.loadXml_relaid (s : FileMeta) {t u : Node} (h : ExtendedDoc t u) : s.loadXml t = s.loadXml u := by
  have hs := doc_selfOrFind h (nm := b! "metadata") rfl
  unfold FileMeta.loadXml
  revert hs
  generalize selfOrFind t (b! "metadata") = a
  generalize selfOrFind u (b! "metadata") = b
  intro hs
  cases hs with
  | none => rfl
  | some hr => exact FileMeta.loadLoop_relaid (doc_findAll (relaid_doc hr.1) rfl) s

end Afs
