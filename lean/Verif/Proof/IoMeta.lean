import Verif.Proof.Save
import Verif.Model.Io.Meta
import Verif.Spec.Storable
import Verif.Props.C32_C35_TagsSizes
/-! # Metadata: saved trees and what loading makes of them -/
namespace Afs
open Spec Xml

theorem getCDATA_of_element {t u : Node} (h : t.element = u.element) : t.getCDATA = u.getCDATA := by
  cases t <;> cases u <;> simp_all [Node.element, Node.getCDATA]

theorem isRead_element {t u : Node} (h : IsRead t u) : t.element = u.element := by
  rw [← h.2]
  cases t with
  | text s => cases h.1; rfl
  | elem n as cs => rw [norm_elem]; rfl

theorem stripBrackets_close (d : Bytes) : stripBrackets (d ++ b! "]]") = d := by
  unfold stripBrackets
  simp

theorem newCDATA_get (d : Bytes) : (Node.newCDATA d).getCDATA = some (d ++ b! "]]") := by
  unfold Node.newCDATA Node.getCDATA Node.cdataOpen Node.cdataClose
  simp

theorem firstCData_filter (ns : List Node) : firstCData ns = firstCData (ns.filter isElem) := by
  induction ns with
  | nil => rfl
  | cons n ns ih =>
    cases n with
    | text s => rw [firstCData]; simp [Node.getCDATA, isElem, ih]
    | elem a b c => rw [List.filter_cons_of_pos (by rfl), firstCData, firstCData, ih]

/-- A `<data>` element with one CDATA section gives that section's text. -/
theorem loadData_cdata {t : Node} {as : List (Bytes × Option Bytes)} {d : Bytes} (old : Option Bytes)
    (h : IsRead t (.elem (b! "data") as [Node.newCDATA d])) : loadData old t = some d := by
  have hc := isRead_children h
  have : firstCData t.children = some d := by
    rw [firstCData_filter]
    have e : (Node.elem (b! "data") as [Node.newCDATA d]).children.filter isElem = [Node.newCDATA d] := rfl
    rw [e] at hc
    generalize t.children.filter isElem = ns at hc
    cases hc with
    | cons h1 h2 =>
      rw [firstCData, getCDATA_of_element (isRead_element h1), newCDATA_get]
      simp only
      rw [stripBrackets_close]
  unfold loadData
  rw [this]

theorem namesOf_cdata (d : Bytes) : namesOf [Node.newCDATA d] = [Node.cdataOpen ++ d ++ Node.cdataClose] := by
  unfold Node.newCDATA
  rw [namesOf_elem, namesOf_nil]; rfl

/-! ### TOC metadata -/

def dataNodes (as : List (Bytes × Option Bytes)) (d : Option Bytes) : List Node :=
  match d with
  | none => []
  | some d => [.elem (b! "data") as [Node.newCDATA d]]

def MetaSource.node (s : MetaSource) : Node :=
  .elem (b! "source") [(b! "formatId", s.format), (b! "id", some (printInt s.id)), (b! "fileId", some (printInt s.fileId))]
    (dataNodes [] s.data ++ textNode (b! "tags") s.getTags)

theorem foldl_addChild (l : List Node) (n as) (cs : List Node) :
    l.foldl Node.addChild (.elem n as cs) = .elem n as (cs ++ l) := by
  induction l generalizing cs with
  | nil => simp
  | cons c l ih => rw [List.foldl_cons, Node.addChild, ih]; simp

theorem MetaSource.saveXml_eq {s : MetaSource} (h : s.isValid = true) : s.saveXml = some s.node := by
  unfold MetaSource.saveXml
  rw [if_neg (by simp [h])]
  obtain ⟨f, i, fi, d, t⟩ := s
  cases d with
  | none =>
    cases t with
    | none => rfl
    | some l =>
      show some (List.foldl Node.addChild (.elem _ _ _) _) = _
      rw [foldl_addChild]; rfl
  | some d =>
    cases t with
    | none => rfl
    | some l =>
      show some (List.foldl Node.addChild (.elem _ _ _) _) = _
      rw [foldl_addChild]; rfl

theorem dataNodes_savable {as : List (Bytes × Option Bytes)} (ha : CleanAttrs as) {d : Option Bytes}
    (hd : ∀ x, d = some x → CleanData x) : ∀ c ∈ dataNodes as d, Savable c := by
  intro c hc
  cases d with
  | none => simp [dataNodes] at hc
  | some x =>
    simp only [dataNodes, List.mem_singleton] at hc
    subst hc
    refine .branch (by decide) ha ?_
    intro c hc
    rw [List.mem_singleton] at hc
    subst hc
    exact .cdata (hd x rfl)

theorem MetaSource.tags_text {s : MetaSource} (h : s.storable) : TextField s.getTags := by
  obtain ⟨_, _, _, _, _, h⟩ := h
  unfold MetaSource.getTags
  cases ht : s.tags with
  | none => exact textField_none
  | some l =>
    obtain ⟨t, h1, rfl⟩ := h l ht
    rw [Option.map_some, join_split]
    exact h1

theorem MetaSource.format_some {s : MetaSource} (h : s.isValid = true) : ∃ f, s.format = some f := by
  cases hf : s.format with
  | some f => exact ⟨f, rfl⟩
  | none => unfold MetaSource.isValid at h; simp [hf, nullOrEmpty] at h

theorem MetaSource.node_savable {s : MetaSource} (h : s.storable) : Savable s.node := by
  obtain ⟨f, hf⟩ := MetaSource.format_some h.1
  refine .branch (by decide) ?_ ?_
  · rw [hf]
    refine cleanAttrs_cons (by decide) (h.2.1 f hf) (by simp) ?_
    refine cleanAttrs_cons (by decide) (clean_printInt _) (by simp) ?_
    exact cleanAttrs_cons (by decide) (clean_printInt _) (by simp) cleanAttrs_nil
  · intro c hc
    rcases List.mem_append.mp hc with hc | hc
    · exact dataNodes_savable cleanAttrs_nil h.2.2.2.2.1 c hc
    · exact textNode_savable (by decide) (MetaSource.tags_text h) c hc

theorem cdata_name_ne {d nm : Bytes} (h : PlainName nm) : nm ≠ Node.cdataOpen ++ d ++ Node.cdataClose := by
  rintro rfl
  have := h.2 33 (by simp [Node.cdataOpen])
  simp at this

theorem dataNodes_names (as : List (Bytes × Option Bytes)) (d : Option Bytes) {nm : Bytes} (hp : PlainName nm) :
    nm ∈ namesOf (dataNodes as d) → nm = b! "data" := by
  intro h
  cases d with
  | none => simp [dataNodes, namesOf_nil] at h
  | some d =>
    rw [dataNodes, namesOf_elem, namesOf_cdata, namesOf_nil] at h
    simp only [List.append_nil, List.mem_cons, List.not_mem_nil, or_false] at h
    exact h.resolve_right (fun h => (cdata_name_ne hp h).elim)

theorem textNode_names (nm' : Bytes) (s : Option Bytes) {nm : Bytes} : nm ∈ namesOf (textNode nm' s) → nm = nm' := by
  intro h
  cases s with
  | none => simp [textNode, namesOf_nil] at h
  | some t =>
    by_cases ht : t = []
    · subst ht
      have : textNode nm' (some []) = [.elem nm' [] []] := rfl
      rw [this, namesOf_elem, namesOf_nil] at h
      simpa using h
    · rw [textNode_some ht, namesOf_elem, namesOf_text, namesOf_nil] at h
      simpa using h

theorem find_append_left {n as} {a b : List Node} {nm : Bytes} {e : Node} (h : (descendantsList a).find? (named nm) = some e) :
    find (.elem n as (a ++ b)) nm = some e := by
  rw [find_elem, descendantsList_append, List.find?_append, h]; rfl

theorem find_append_right {n as} {a b : List Node} {nm : Bytes} (h : nm ∉ namesOf a) :
    find (.elem n as (a ++ b)) nm = (descendantsList b).find? (named nm) := by
  rw [find_elem, descendantsList_append, List.find?_append, find?_none_of_names h]; rfl

theorem find_first (n as cs) (r : List Node) : (descendantsList (.elem n as cs :: r)).find? (named n) = some (.elem n as cs) := by
  rw [descendantsList, List.find?_cons]
  simp [named, Node.element]

theorem MetaSource.loadXml_of {s : MetaSource} (hs : s.storable) {T t : Node}
    (hT : selfOrFind T (b! "source") = some t) (hd : IsRead t s.node) : MetaSource.create.loadXml T = (true, s) := by
  have htg := MetaSource.tags_text hs
  obtain ⟨hv, hf, hi, hfi, hda, htags⟩ := hs
  have hfmt : t.getAttr (b! "formatId") = s.format := by rw [isRead_attr hd]; rfl
  have hid : intAttr t (b! "id") = some s.id := by
    unfold intAttr
    rw [isRead_attr hd, show s.node.getAttr (b! "id") = some (printInt s.id) from rfl, Option.map_some,
      atoi_printInt _ hi.1 hi.2]
  have hfid : intAttr t (b! "fileId") = some s.fileId := by
    unfold intAttr
    rw [isRead_attr hd, show s.node.getAttr (b! "fileId") = some (printInt s.fileId) from rfl, Option.map_some,
      atoi_printInt _ hfi.1 hfi.2]
  have hdata : (find t (b! "data") = none ∧ s.data = none) ∨ ∃ x d, find t (b! "data") = some x ∧ s.data = some d ∧
      loadData none x = some d := by
    cases h : s.data with
    | none =>
      left
      refine ⟨isRead_find_none hd ?_, rfl⟩
      unfold MetaSource.node
      rw [h, dataNodes, List.nil_append, find_elem]
      exact find?_none_of_names fun hm => absurd (textNode_names _ _ hm) (by decide)
    | some d =>
      right
      obtain ⟨x, h1, h2⟩ := isRead_find_some hd (nm := b! "data") (e := .elem (b! "data") [] [Node.newCDATA d]) (by
        unfold MetaSource.node
        rw [h, dataNodes]
        exact find_append_left (find_first _ _ _ _))
      exact ⟨x, d, h1, rfl, loadData_cdata none h2⟩
  have hnd : b! "tags" ∉ namesOf (dataNodes [] s.data) := fun h => absurd (dataNodes_names _ _ (by decide) h) (by decide)
  have htag : (find t (b! "tags") = none ∧ s.tags = none) ∨ ∃ x tt, find t (b! "tags") = some x ∧
      nodeText (some x) = some tt ∧ tt ≠ [] ∧ s.tags = some (splitOn semicolon tt) := by
    cases h : s.tags with
    | none =>
      left
      refine ⟨isRead_find_none hd ?_, rfl⟩
      unfold MetaSource.node
      rw [find_append_right hnd]
      unfold MetaSource.getTags
      rw [h]
      simp [textNode, descendantsList]
    | some l =>
      right
      obtain ⟨tt, h1, rfl⟩ := htags l h
      have hne := (h1 tt rfl).2.1
      obtain ⟨x, h3, h4⟩ := isRead_find_some hd (nm := b! "tags") (e := .elem (b! "tags") [] [.text tt]) (by
        unfold MetaSource.node
        rw [find_append_right hnd]
        unfold MetaSource.getTags
        rw [h, Option.map_some, join_split, textNode_some hne]
        exact find_first _ _ _ _)
      exact ⟨x, tt, h3, isRead_text h4, hne, rfl⟩
  unfold MetaSource.loadXml
  rw [hT]
  simp only [hfmt, hid, hfid]
  obtain ⟨f, i, fi, da, tg⟩ := s
  simp only at *
  have hclone : strClone f = f := by cases f <;> rfl
  rw [hclone]
  rcases hdata with ⟨h1, h2⟩ | ⟨x, d, h1, h2, h3⟩ <;> rcases htag with ⟨h4, h5⟩ | ⟨y, tt, h4, h5, h6, h7⟩
  · subst h2 h5; simp only [h1, h4]; rw [show MetaSource.create.data = none from rfl, show MetaSource.create.tags = none from rfl, hv]
  · subst h2 h7
    simp only [h1, h4, h5, MetaSource.setTags]
    rw [if_neg (by simpa using h6)]
    rw [show MetaSource.create.data = none from rfl, hv]
  · subst h2 h5; simp only [h1, h4]
    rw [show MetaSource.create.data = none from rfl, show MetaSource.create.tags = none from rfl, h3, hv]
  · subst h2 h7
    simp only [h1, h4, h5, MetaSource.setTags]
    rw [if_neg (by simpa using h6)]
    rw [show MetaSource.create.data = none from rfl, h3, hv]

def TocMeta.node (m : TocMeta) : Node := .elem (b! "metadata") [] ((m.sources.getD []).map MetaSource.node)

theorem TocMeta.valid_parts {m : TocMeta} (h : TocMeta.isValid (some m) = true) :
    ∃ l, m.sources = some l ∧ l ≠ [] ∧ ∀ x ∈ l, x.isValid = true := by
  obtain ⟨o⟩ := m
  cases o with
  | none => simp [TocMeta.isValid] at h
  | some l =>
    have h' : (if l.length = 0 then false else l.all MetaSource.isValid) = true := h
    split at h'
    · cases h'
    · rename_i hl
      exact ⟨l, rfl, fun e => hl (by simp [e]), List.all_eq_true.mp h'⟩

theorem TocMeta.saveXml_eq {m : TocMeta} (h : TocMeta.isValid (some m) = true) : TocMeta.saveXml (some m) = some m.node := by
  obtain ⟨l, h1, _, h2⟩ := TocMeta.valid_parts h
  unfold TocMeta.saveXml TocMeta.node
  simp only
  rw [if_neg (by simp [h]), h1, Option.getD_some,
    mapM_some (g := MetaSource.node) (fun x hx => MetaSource.saveXml_eq (h2 x hx))]

theorem TocMeta.node_savable {m : TocMeta} (h : m.storable) : Savable m.node := by
  refine .branch (by decide) cleanAttrs_nil ?_
  intro c hc
  obtain ⟨x, hx, rfl⟩ := List.mem_map.mp hc
  exact MetaSource.node_savable (h.2 x hx)

theorem metaSource_names (s : MetaSource) {nm : Bytes} (hp : PlainName nm) :
    nm ∈ namesOf s.node.children → nm = b! "data" ∨ nm = b! "tags" := by
  intro h
  unfold MetaSource.node at h
  simp only [Node.children] at h
  rw [namesOf_append] at h
  rcases List.mem_append.mp h with h | h
  · exact .inl (dataNodes_names _ _ hp h)
  · exact .inr (textNode_names _ _ h)

theorem TocMeta.loadLoop_of {ns : List Node} {l : List MetaSource} (hns : ReadList ns (l.map MetaSource.node))
    (hl : ∀ x ∈ l, x.storable) :
    ∀ (m : TocMeta), m.loadLoop ns = (true, if l = [] then m else ⟨some (m.sources.getD [] ++ l)⟩) := by
  induction l generalizing ns with
  | nil => intro m; cases hns; simp [TocMeta.loadLoop]
  | cons x l ih =>
    intro m
    generalize hu : List.map MetaSource.node (x :: l) = us at hns
    cases hns with
    | nil => simp at hu
    | @cons t u ts us' hd hrest =>
    rw [List.map_cons] at hu
    injection hu with hu1 hu2
    subst hu1 hu2
    have hx := hl x (by simp)
    rw [TocMeta.loadLoop, MetaSource.loadXml_of hx (isRead_self hd rfl) hd]
    simp only [Bool.true_eq_false, if_false]
    have hadd : m.addSource (some x) = (true, ⟨some (m.sources.getD [] ++ [x])⟩) := by
      unfold TocMeta.addSource; simp only [hx.1]; cases m.sources <;> rfl
    rw [hadd]
    simp only [Bool.true_eq_false, if_false]
    rw [ih hrest (fun y hy => hl y (by simp [hy]))]
    by_cases he : l = [] <;> simp [he]

theorem TocMeta.loadXml_of {m : TocMeta} (hm : m.storable) {T t : Node}
    (hT : selfOrFind T (b! "metadata") = some t) (hd : IsRead t m.node) : TocMeta.create.loadXml T = (true, m) := by
  obtain ⟨l, h1, hne, h2⟩ := TocMeta.valid_parts hm.1
  have hall := isRead_findAll hd (b! "source")
  have hroots : findAll m.node (b! "source") = l.map MetaSource.node := by
    unfold TocMeta.node
    rw [h1, findAll_elem]
    apply filter_roots
    intro c hc
    obtain ⟨x, _, rfl⟩ := List.mem_map.mp hc
    refine ⟨rfl, fun h => ?_⟩
    rcases metaSource_names x (by decide) h with h | h <;> exact absurd h (by decide)
  rw [hroots] at hall
  unfold TocMeta.loadXml
  rw [hT]
  simp only
  have hst := hm.2
  rw [h1] at hst
  rw [TocMeta.loadLoop_of hall hst]
  obtain ⟨o⟩ := m
  simp only at h1
  subst h1
  simp [hne, TocMeta.create]

/-! ### File metadata -/

def optAttr (nm : Bytes) (v : Option Bytes) : List (Bytes × Option Bytes) :=
  match v with
  | none => []
  | some v => [(nm, some v)]

theorem optAttr_clean {nm : Bytes} (hn : PlainName nm) {v : Option Bytes} (h : AttrField v) : CleanAttrs (optAttr nm v) := by
  cases v with
  | none => exact cleanAttrs_nil
  | some v => exact cleanAttrs_cons hn (h v rfl) (by simp) cleanAttrs_nil

theorem optAttr_get (n nm : Bytes) (v : Option Bytes) (cs : List Node) : (Node.elem n (optAttr nm v) cs).getAttr nm = v := by
  cases v with
  | none => rfl
  | some v => simp [optAttr, Node.getAttr, Node.attrs, Node.findAttr]

def FileMetaSource.node (s : FileMetaSource) : Node :=
  .elem (b! "source") [(b! "fileId", some (printInt s.fileId)), (b! "sourceId", some (printInt s.sourceId))]
    (dataNodes (optAttr (b! "formatId") s.formatId) s.data)

theorem FileMetaSource.saveXml_eq {s : FileMetaSource} (h : s.isValid = true) : s.saveXml = some s.node := by
  unfold FileMetaSource.saveXml
  rw [if_neg (by simp [h])]
  obtain ⟨d, f, i, fi⟩ := s
  cases d <;> cases f <;> rfl

theorem FileMetaSource.node_savable {s : FileMetaSource} (h : s.storable) : Savable s.node := by
  refine .branch (by decide) ?_ ?_
  · refine cleanAttrs_cons (by decide) (clean_printInt _) (by simp) ?_
    exact cleanAttrs_cons (by decide) (clean_printInt _) (by simp) cleanAttrs_nil
  · exact dataNodes_savable (optAttr_clean (by decide) h.2.1) h.2.2.2.2.1

theorem FileMetaSource.loadXml_of {s : FileMetaSource} (hs : s.storable) {T t : Node}
    (hT : selfOrFind T (b! "source") = some t) (hd : IsRead t s.node) : FileMetaSource.create.loadXml T = (true, s) := by
  obtain ⟨hv, hf, hi, hsi, hda, hno⟩ := hs
  have hid : intAttr t (b! "fileId") = some s.fileId := by
    unfold intAttr
    rw [isRead_attr hd, show s.node.getAttr (b! "fileId") = some (printInt s.fileId) from rfl, Option.map_some,
      atoi_printInt _ hi.1 hi.2]
  have hsid : intAttr t (b! "sourceId") = some s.sourceId := by
    unfold intAttr
    rw [isRead_attr hd, show s.node.getAttr (b! "sourceId") = some (printInt s.sourceId) from rfl, Option.map_some,
      atoi_printInt _ hsi.1 hsi.2]
  unfold FileMetaSource.loadXml
  rw [hT]
  simp only [hid, hsid, Option.getD_some]
  obtain ⟨da, f, i, si⟩ := s
  simp only at *
  cases da with
  | none =>
    have hfn := hno rfl
    subst hfn
    have : find t (b! "data") = none := isRead_find_none hd (by
      unfold FileMetaSource.node
      simp only [dataNodes]
      rw [find_elem]; simp [descendantsList])
    rw [this]
    simp only
    rw [show FileMetaSource.create.data = none from rfl, show FileMetaSource.create.formatId = none from rfl, hv]
  | some d =>
    obtain ⟨x, h1, h2⟩ := isRead_find_some hd (nm := b! "data") (e := .elem (b! "data") (optAttr (b! "formatId") f) [Node.newCDATA d]) (by
      unfold FileMetaSource.node
      simp only [dataNodes]
      rw [find_elem]
      exact find_first _ _ _ _)
    rw [h1]
    simp only
    rw [show FileMetaSource.create.data = none from rfl, loadData_cdata none h2, isRead_attr h2, optAttr_get]
    have hclone : strClone f = f := by cases f <;> rfl
    rw [hclone, hv]

def FileMeta.node (m : FileMeta) : Node := .elem (b! "metadata") [] ((m.sources.getD []).map FileMetaSource.node)

theorem FileMeta.storable_valid {m : FileMeta} (h : m.storable) : FileMeta.isValid (some m) = true := by
  obtain ⟨o⟩ := m
  cases o with
  | none => rfl
  | some l =>
    show l.all FileMetaSource.isValid = true
    exact List.all_eq_true.mpr fun x hx => (h.2 x hx).1

theorem FileMeta.saveXml_eq {m : FileMeta} (h : m.storable) : FileMeta.saveXml (some m) = some m.node := by
  unfold FileMeta.saveXml FileMeta.node
  simp only
  rw [if_neg (by simp [FileMeta.storable_valid h]),
    mapM_some (g := FileMetaSource.node) (fun x hx => FileMetaSource.saveXml_eq (h.2 x hx).1)]

theorem FileMeta.node_savable {m : FileMeta} (h : m.storable) : Savable m.node := by
  refine .branch (by decide) cleanAttrs_nil ?_
  intro c hc
  obtain ⟨x, hx, rfl⟩ := List.mem_map.mp hc
  exact FileMetaSource.node_savable (h.2 x hx)

theorem fileMetaSource_names (s : FileMetaSource) {nm : Bytes} (hp : PlainName nm) :
    nm ∈ namesOf s.node.children → nm = b! "data" := dataNodes_names _ _ hp

theorem FileMeta.loadLoop_of {ns : List Node} {l : List FileMetaSource} (hns : ReadList ns (l.map FileMetaSource.node))
    (hl : ∀ x ∈ l, x.storable) :
    ∀ (m : FileMeta), m.loadLoop ns = (true, if l = [] then m else ⟨some (m.sources.getD [] ++ l)⟩) := by
  induction l generalizing ns with
  | nil => intro m; cases hns; simp [FileMeta.loadLoop]
  | cons x l ih =>
    intro m
    generalize hu : List.map FileMetaSource.node (x :: l) = us at hns
    cases hns with
    | nil => simp at hu
    | @cons t u ts us' hd hrest =>
    rw [List.map_cons] at hu
    injection hu with hu1 hu2
    subst hu1 hu2
    have hx := hl x (by simp)
    rw [FileMeta.loadLoop, FileMetaSource.loadXml_of hx (isRead_self hd rfl) hd]
    simp only [Bool.true_eq_false, if_false]
    have hadd : m.addSource (some x) = (true, ⟨some (m.sources.getD [] ++ [x])⟩) := by
      unfold FileMeta.addSource; simp only [hx.1]; cases m.sources <;> rfl
    rw [hadd]
    simp only [Bool.true_eq_false, if_false]
    rw [ih hrest (fun y hy => hl y (by simp [hy]))]
    by_cases he : l = [] <;> simp [he]

theorem FileMeta.loadXml_of {m : FileMeta} (hm : m.storable) {T t : Node}
    (hT : selfOrFind T (b! "metadata") = some t) (hd : IsRead t m.node) : FileMeta.create.loadXml T = (true, m) := by
  have hall := isRead_findAll hd (b! "source")
  have hroots : findAll m.node (b! "source") = (m.sources.getD []).map FileMetaSource.node := by
    unfold FileMeta.node
    rw [findAll_elem]
    apply filter_roots
    intro c hc
    obtain ⟨x, _, rfl⟩ := List.mem_map.mp hc
    exact ⟨rfl, fun h => absurd (fileMetaSource_names x (by decide) h) (by decide)⟩
  rw [hroots] at hall
  unfold FileMeta.loadXml
  rw [hT]
  simp only
  rw [FileMeta.loadLoop_of hall hm.2]
  obtain ⟨o⟩ := m
  cases o with
  | none => rfl
  | some l =>
    have : l ≠ [] := by simpa using hm.1
    simp [this, FileMeta.create]

end Afs
