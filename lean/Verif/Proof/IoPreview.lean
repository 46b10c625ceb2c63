import Verif.Proof.Save
import Verif.Model.Io.Preview
import Verif.Spec.Storable
/-! # Previews: saved trees and what loading makes of them -/
namespace Afs
open Spec Xml

def pairAttr (nm : Bytes) (x y : Nat) : List (Bytes × Option Bytes) :=
  if x ≠ 0 ∧ y ≠ 0 then [(nm, some (printNat x ++ [120] ++ printNat y))] else []

def Page.attrs (p : Page) : List (Bytes × Option Bytes) :=
  (match p.layoutId with | none => [] | some l => [(b! "layoutId", some l)]) ++
  [(b! "frame", some (printNat p.startFrame)), (b! "section", some (printNat p.startSection)),
    (b! "count", some (printNat p.sectionCount))] ++
  pairAttr (b! "dimension") p.dimX p.dimY ++ pairAttr (b! "overlap") p.ovX p.ovY

def Page.node (p : Page) : Node := .elem (b! "pages") p.attrs []

theorem Page.saveXml_eq (p : Page) : p.saveXml = some p.node := by
  unfold Page.saveXml Page.node Page.attrs pairAttr
  cases h : p.layoutId with
  | none => simp only; (repeat' split) <;> first | rfl | contradiction
  | some l => simp only; (repeat' split) <;> first | rfl | contradiction

theorem cleanAttrs_pair_ov (p : Page) : CleanAttrs (pairAttr (b! "overlap") p.ovX p.ovY) := by
  unfold pairAttr
  split
  · exact cleanAttrs_cons (by decide) (clean_UxU _ _) (by simp) cleanAttrs_nil
  · exact cleanAttrs_nil

theorem cleanAttrs_pair_dim (p : Page) :
    CleanAttrs (pairAttr (b! "dimension") p.dimX p.dimY ++ pairAttr (b! "overlap") p.ovX p.ovY) := by
  have h := cleanAttrs_pair_ov p
  conv => arg 1; arg 1; unfold pairAttr
  split
  · refine cleanAttrs_cons (by decide) (clean_UxU _ _) ?_ h
    unfold pairAttr
    split <;> simp
  · exact h

theorem Page.node_savable {p : Page} (h : AttrField p.layoutId) : Savable p.node := by
  refine .branch (by decide) ?_ (by simp)
  have hp := cleanAttrs_pair_dim p
  have hk : ∀ a ∈ (pairAttr (b! "dimension") p.dimX p.dimY ++ pairAttr (b! "overlap") p.ovX p.ovY).map Prod.fst,
      a = b! "dimension" ∨ a = b! "overlap" := by
    unfold pairAttr
    intro a ha
    split at ha <;> split at ha <;> simp at ha <;> simp [ha]
  have key : CleanAttrs ([(b! "frame", some (printNat p.startFrame)), (b! "section", some (printNat p.startSection)),
    (b! "count", some (printNat p.sectionCount))] ++
    (pairAttr (b! "dimension") p.dimX p.dimY ++ pairAttr (b! "overlap") p.ovX p.ovY)) := by
    refine cleanAttrs_cons (by decide) (clean_printNat _) (fun h => ?_) ?_
    · show False
      rcases List.mem_cons.mp h with h | h
      · simp at h
      rcases List.mem_cons.mp h with h | h
      · simp at h
      rcases hk _ h with h | h <;> exact absurd h (by decide)
    refine cleanAttrs_cons (by decide) (clean_printNat _) (fun h => ?_) ?_
    · show False
      rcases List.mem_cons.mp h with h | h
      · simp at h
      rcases hk _ h with h | h <;> exact absurd h (by decide)
    refine cleanAttrs_cons (by decide) (clean_printNat _) (fun h => ?_) hp
    · show False
      rcases hk _ h with h | h <;> exact absurd h (by decide)
  unfold Page.attrs
  rw [List.append_assoc, List.append_assoc]
  cases hl : p.layoutId with
  | none => exact key
  | some l =>
    refine cleanAttrs_cons (by decide) (h l hl) (fun h => ?_) key
    rcases List.mem_cons.mp h with h | h
    · simp at h
    rcases List.mem_cons.mp h with h | h
    · simp at h
    rcases List.mem_cons.mp h with h | h
    · simp at h
    rcases hk _ h with h | h <;> exact absurd h (by decide)

theorem extractXY_pair (x y : Nat) (hx : IsUInt x) (hy : IsUInt y) :
    Page.extractXY (if x ≠ 0 ∧ y ≠ 0 then some (printNat x ++ [120] ++ printNat y) else none) =
      some (if y = 0 then 0 else x, if x = 0 then 0 else y) := by
  by_cases h0 : x ≠ 0 ∧ y ≠ 0
  · rw [if_pos h0, if_neg h0.1, if_neg h0.2]
    unfold Page.extractXY
    simp only
    rw [if_neg (by simp), scanUxU_print x y hx hy]
  · rw [if_neg h0]
    have : x = 0 ∨ y = 0 := by omega
    unfold Page.extractXY
    rcases this with h | h <;> subst h <;> simp

theorem page_attr_layout (p : Page) : p.node.getAttr (b! "layoutId") = p.layoutId := by
  unfold Page.node Page.attrs pairAttr Node.getAttr Node.attrs
  cases h : p.layoutId with
  | none => simp only; (repeat' split) <;> first | rfl | contradiction
  | some l => rfl

theorem page_attr_frame (p : Page) : p.node.getAttr (b! "frame") = some (printNat p.startFrame) := by
  unfold Page.node Page.attrs pairAttr Node.getAttr Node.attrs
  cases h : p.layoutId <;> rfl

theorem page_attr_section (p : Page) : p.node.getAttr (b! "section") = some (printNat p.startSection) := by
  unfold Page.node Page.attrs pairAttr Node.getAttr Node.attrs
  cases h : p.layoutId <;> rfl

theorem page_attr_count (p : Page) : p.node.getAttr (b! "count") = some (printNat p.sectionCount) := by
  unfold Page.node Page.attrs pairAttr Node.getAttr Node.attrs
  cases h : p.layoutId <;> rfl

theorem page_attr_dim (p : Page) : p.node.getAttr (b! "dimension") =
    if p.dimX ≠ 0 ∧ p.dimY ≠ 0 then some (printNat p.dimX ++ [120] ++ printNat p.dimY) else none := by
  unfold Page.node Page.attrs pairAttr Node.getAttr Node.attrs
  cases h : p.layoutId <;> simp only <;> (repeat' split) <;> first | rfl | contradiction

theorem page_attr_ov (p : Page) : p.node.getAttr (b! "overlap") =
    if p.ovX ≠ 0 ∧ p.ovY ≠ 0 then some (printNat p.ovX ++ [120] ++ printNat p.ovY) else none := by
  unfold Page.node Page.attrs pairAttr Node.getAttr Node.attrs
  cases h : p.layoutId <;> simp only <;> (repeat' split) <;> first | rfl | contradiction

theorem Page.loadXml_asLoaded {p q : Page} (hp : p.writable) {T d : Node}
    (hT : selfOrFind T (b! "pages") = some d) (hd : IsRead d p.node) : q.loadXml T = (true, p.asLoaded) := by
  obtain ⟨_, h2, h3, h4, h5, h6, h7, h8⟩ := hp
  unfold Page.loadXml
  rw [hT]
  simp only [intAttr, isRead_attr hd, page_attr_layout, page_attr_frame, page_attr_section, page_attr_count,
    page_attr_dim, page_attr_ov, Option.map_some, Option.getD_some, uOfInt_atoi_printNat _ h2,
    uOfInt_atoi_printNat _ h3, uOfInt_atoi_printNat _ h4, extractXY_pair _ _ h5 h6, extractXY_pair _ _ h7 h8]
  obtain ⟨l, _⟩ := p
  cases l <;> rfl

theorem Page.asLoaded_of {p : Page} (hp : p.storable) : p.asLoaded = p := by
  obtain ⟨_, h1, h2⟩ := hp
  obtain ⟨l, f, s, c, dx, dy, ox, oy⟩ := p
  simp only at h1 h2
  have e1 : (if dy = 0 then 0 else dx) = dx := by split <;> simp_all
  have e2 : (if dx = 0 then 0 else dy) = dy := by split <;> simp_all
  have e3 : (if oy = 0 then 0 else ox) = ox := by split <;> simp_all
  have e4 : (if ox = 0 then 0 else oy) = oy := by split <;> simp_all
  unfold Page.asLoaded
  simp only [e1, e2, e3, e4]

theorem Page.loadXml_of {p q : Page} (hp : p.storable) {T d : Node}
    (hT : selfOrFind T (b! "pages") = some d) (hd : IsRead d p.node) : q.loadXml T = (true, p) := by
  rw [Page.loadXml_asLoaded hp.1 hT hd, Page.asLoaded_of hp]

/-! ### Previews -/

def dpiNodes (d : Int) : List Node := if d ≥ 0 then [intNode (b! "dpi") d] else []

def Preview.node (p : Preview) : Node := .elem (b! "preview") [] (dpiNodes p.dpi ++ (p.pages.getD []).map Page.node)

theorem Preview.saveXml_eq {p : Preview} (h : Preview.isValid (some p) = true) : p.saveXml = some p.node := by
  unfold Preview.saveXml Preview.node dpiNodes
  rw [if_neg (by simp [h]), mapM_some (g := Page.node) (fun x _ => Page.saveXml_eq x)]

theorem dpiNodes_savable (d : Int) : ∀ c ∈ dpiNodes d, Savable c := by
  intro c hc
  unfold dpiNodes at hc
  split at hc
  · rw [List.mem_singleton] at hc; subst hc; exact intNode_savable (by decide) d
  · simp at hc

theorem Preview.node_savable {p : Preview} (h : p.storable) : Savable p.node := by
  refine .branch (by decide) cleanAttrs_nil ?_
  intro c hc
  rcases List.mem_append.mp hc with hc | hc
  · exact dpiNodes_savable _ c hc
  · obtain ⟨x, hx, rfl⟩ := List.mem_map.mp hc
    exact Page.node_savable (h.2.2.2 x hx).1.1

theorem loadPages_text (p : Preview) (ns : List Node) : p.loadPages ns = p.loadPages (ns.filter isElem) := by
  induction ns generalizing p with
  | nil => rfl
  | cons n ns ih =>
    cases n with
    | text s => rw [Preview.loadPages, ih]; simp [isElem]
    | elem a b c =>
      rw [List.filter_cons_of_pos (by rfl), Preview.loadPages, Preview.loadPages]
      simp only [ih]

theorem loadPages_read {ns : List Node} {l : List Page} (h : ReadList ns (l.map Page.node))
    (hl : ∀ x ∈ l, x.storable ∧ x.isValid = true) :
    ∀ (p : Preview), p.loadPages ns = (true, { p with pages := if l = [] then p.pages else some (p.pages.getD [] ++ l) }) := by
  induction l generalizing ns with
  | nil => intro p; cases h; simp [Preview.loadPages]
  | cons x l ih =>
    intro p
    generalize hu : List.map Page.node (x :: l) = us at h
    cases h with
    | nil => simp at hu
    | @cons t u ts us' hd hrest =>
    rw [List.map_cons] at hu
    injection hu with hu1 hu2
    subst hu1 hu2
    obtain ⟨hx, hv⟩ := hl x (by simp)
    have hself : selfOrFind t (b! "pages") = some t := isRead_self hd rfl
    have hnm : named (b! "pages") t = true := (isRead_named hd _).trans rfl
    cases t with
    | text s => simp [named, Node.element] at hnm
    | elem a b c =>
    have ha : a = b! "pages" := by simpa [named, Node.element] using hnm
    rw [Preview.loadPages, if_pos ha, Page.loadXml_of hx hself hd]
    simp only [Bool.true_eq_false, if_false]
    have hadd : p.addPage (some x) = (true, { p with pages := vecAppend p.pages x }) := by
      unfold Preview.addPage; simp [hv]
    rw [hadd]
    simp only [Bool.true_eq_false, if_false]
    rw [ih hrest (fun y hy => hl y (by simp [hy]))]
    obtain ⟨pp, pd⟩ := p
    by_cases he : l = []
    · subst he; cases pp <;> simp [vecAppend]
    · cases pp <;> simp [vecAppend, he]

theorem Preview.valid_parts {p : Preview} (h : Preview.isValid (some p) = true) :
    ∃ l, p.pages = some l ∧ l ≠ [] ∧ ∀ x ∈ l, x.isValid = true := by
  obtain ⟨o, d⟩ := p
  cases o with
  | none => simp [Preview.isValid] at h
  | some l =>
    have h' : (if l.length = 0 then false else l.all Page.isValid) = true := h
    split at h'
    · cases h'
    · rename_i hl
      exact ⟨l, rfl, fun e => hl (by simp [e]), List.all_eq_true.mp h'⟩

theorem page_elem (x : Page) : isElem x.node = true := rfl

theorem pages_filter (l : List Page) : (l.map Page.node).filter isElem = l.map Page.node :=
  List.filter_eq_self.mpr (by intro c hc; obtain ⟨x, _, rfl⟩ := List.mem_map.mp hc; rfl)

theorem pages_names (l : List Page) : ∀ nm ∈ namesOf (l.map Page.node), nm = b! "pages" := by
  intro nm h
  rw [mem_namesOf_iff] at h
  obtain ⟨c, hc, h⟩ := h
  obtain ⟨x, _, rfl⟩ := List.mem_map.mp hc
  unfold Page.node at h
  rw [namesOf_elem] at h
  simp [namesOf_nil] at h
  exact h

/-- The dpi value as loaded. -/
theorem preview_dpi {p : Preview} (hi : IsInt p.dpi) (h1 : -1 ≤ p.dpi) {d : Node} (hd : IsRead d p.node) :
    (intElement d (b! "dpi")).getD (-1) = p.dpi := by
  by_cases h : p.dpi ≥ 0
  · obtain ⟨x, hx, hr⟩ := isRead_find_some hd (nm := b! "dpi") (e := .elem (b! "dpi") [] [.text (printInt p.dpi)]) (by
      unfold Preview.node dpiNodes
      rw [if_pos h, intNode_eq]
      rfl)
    unfold intElement
    rw [hx, isRead_text hr, Option.map_some, atoi_printInt _ hi.1 hi.2]
    rfl
  · have : find d (b! "dpi") = none := by
      refine isRead_find_none hd ?_
      unfold Preview.node dpiNodes
      rw [if_neg h, List.nil_append, find_elem]
      apply find?_none_of_names
      intro hm
      exact absurd (pages_names _ _ hm) (by decide)
    unfold intElement
    rw [this]
    simp only [nodeText, Option.map_none, Option.getD_none]
    omega

theorem dpi_named (v : Int) : isElem (intNode (b! "dpi") v) = true := by rw [intNode_eq]; rfl

theorem loadPages_skip {t : Node} (h : named (b! "pages") t = false) (p : Preview) (ns : List Node) :
    p.loadPages (t :: ns) = p.loadPages ns := by
  cases t with
  | text s => rw [Preview.loadPages]
  | elem a b c =>
    have : a ≠ b! "pages" := by simpa [named, Node.element] using h
    rw [Preview.loadPages, if_neg this]

theorem Preview.loadXml_of {p : Preview} (hp : p.storable) {T d : Node}
    (hT : selfOrFind T (b! "preview") = some d) (hd : IsRead d p.node) : Preview.create.loadXml T = (true, p) := by
  obtain ⟨hv, hi, h1, hst⟩ := hp
  obtain ⟨l, hl, hne, hlv⟩ := Preview.valid_parts hv
  rw [hl] at hst
  unfold Preview.loadXml
  rw [hT]
  simp only
  rw [show Preview.create.dpi = -1 from rfl, preview_dpi hi h1 hd, loadPages_text]
  have hc := isRead_children hd
  have hch : p.node.children.filter isElem = dpiNodes p.dpi ++ l.map Page.node := by
    unfold Preview.node
    rw [hl]
    simp only [Node.children, Option.getD_some, List.filter_append, pages_filter]
    congr 1
    unfold dpiNodes
    split
    · rw [List.filter_cons_of_pos (dpi_named _)]; rfl
    · rfl
  rw [hch] at hc
  have hgood := fun x hx => And.intro (hst x (by simpa using hx)) (hlv x hx)
  obtain ⟨pp, pd⟩ := p
  simp only at hl
  subst hl
  unfold dpiNodes at hc
  split at hc
  · rw [List.cons_append, List.nil_append] at hc
    generalize d.children.filter isElem = ns at hc
    cases hc with
    | cons h hrest =>
    rw [loadPages_skip (by rw [isRead_named h, intNode_eq]; rfl), loadPages_read hrest hgood]
    simp [hne, Preview.create]
  · rw [List.nil_append] at hc
    rw [loadPages_read hc hgood]
    simp [hne, Preview.create]

end Afs
