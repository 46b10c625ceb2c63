import Verif.Proof.Under
import Mathlib.Tactic.Tauto
/-! # File entries and file lists: saved trees and what loading makes of them -/
namespace Afs
open Spec Xml

namespace File

def parentPart (f : File) : List Node := if f.hasParent || f.isParent then [intNode (b! "parentId") f.parentId] else []

def posNode (nm : Bytes) (fr by' : Int) : Node :=
  .elem nm [(b! "frame", some (printInt06 fr)), (b! "byte", some (printInt by'))] []

def pos1Node (nm : Bytes) (fr by' : Int) : Node :=
  .elem nm [] [intNode (b! "frame") fr, intNode (b! "byte") by']

def dataNode (f : File) : Node :=
  .elem (b! "data") [] (textNode (b! "checksum") f.checksum ++
    [int64Node (b! "size") f.size, posNode (b! "start") f.startFrame f.startByte, posNode (b! "end") f.endFrame f.endByte])

def data1Nodes (f : File) : List Node :=
  [int64Node (b! "size") f.size, pos1Node (b! "start") f.startFrame f.startByte, pos1Node (b! "end") f.endFrame f.endByte]

def dataPart (f : File) (v1 : Bool) : List Node :=
  if f.isDigital then (if v1 then f.data1Nodes else [f.dataNode]) else []

def previewPart (f : File) : List Node :=
  if f.isPreview then (match f.preview with | none => [] | some p => [p.node]) else []

def metaPart (f : File) : List Node :=
  if f.hasMetadata then (match f.metadata with | none => [] | some p => [p.node]) else []

def parts (f : File) (v1 : Bool) : List Node :=
  [intNode (b! "id") f.id] ++ textNode (b! "uniqueId") f.uniqueId ++ textNode (b! "name") f.name ++
    textNode (b! "date") f.date ++ f.parentPart ++ f.dataPart v1 ++ f.previewPart ++ f.metaPart

def node (f : File) (v1 : Bool) : Node := .elem (b! "file") (optAttr (b! "formatId") f.fileFormat) (f.parts v1)

theorem addChild_elem (n as cs c) : Node.addChild (.elem n as cs) c = .elem n as (cs ++ [c]) := rfl

theorem saveDataV2_eq (f : File) : f.saveDataV2 = f.dataNode := by
  unfold saveDataV2 dataNode
  simp only
  rw [show Node.new (b! "data") = .elem (b! "data") [] [] from rfl, foldl_addChild, addChild_elem, addChild_elem, addChild_elem]
  simp only [List.append_assoc, List.nil_append, List.cons_append]
  rfl

theorem valid_preview {f : File} (h : f.isValid = true) (hp : f.isPreview = true) :
    ∃ p, f.preview = some p ∧ Preview.isValid (some p) = true := by
  unfold isValid at h
  split at h
  · cases h
  · split at h
    · cases h
    · split at h
      · cases h
      · split at h
        · cases h
        · rename_i hn
          cases hq : f.preview with
          | none => exact absurd ⟨hp, .inl hq⟩ hn
          | some p =>
            refine ⟨p, rfl, ?_⟩
            cases hv : Preview.isValid (some p) with
            | true => rfl
            | false => exact absurd ⟨hp, .inr (by rw [hq]; exact hv)⟩ hn

theorem saveXml_eq {f : File} (h : f.writable) (v1 : Bool) : f.saveXml v1 = some (f.node v1) := by
  obtain ⟨hv, _, _, _, _, _, _, _, _, _, _, _, _, hpr, hme⟩ := h
  unfold saveXml node parts
  rw [if_neg (by simp [hv])]
  have hn : setAttrOpt (Node.new (b! "file")) (b! "formatId") f.fileFormat =
      .elem (b! "file") (optAttr (b! "formatId") f.fileFormat) [] := by
    cases f.fileFormat <;> rfl
  simp only [hn]
  rw [addChild_elem, foldl_addChild, foldl_addChild, foldl_addChild]
  have h1 : ∀ cs, (if (f.hasParent || f.isParent) = true then
      (Node.elem (b! "file") (optAttr (b! "formatId") f.fileFormat) cs).addChild (intNode (b! "parentId") f.parentId)
      else Node.elem (b! "file") (optAttr (b! "formatId") f.fileFormat) cs) =
      .elem (b! "file") (optAttr (b! "formatId") f.fileFormat) (cs ++ f.parentPart) := by
    intro cs
    unfold parentPart
    split <;> simp [addChild_elem]
  rw [h1]
  have h2 : ∀ cs, (if f.isDigital = true then (if v1 = true then
        f.saveDataV1.foldl Node.addChild (Node.elem (b! "file") (optAttr (b! "formatId") f.fileFormat) cs)
        else (Node.elem (b! "file") (optAttr (b! "formatId") f.fileFormat) cs).addChild f.saveDataV2)
      else Node.elem (b! "file") (optAttr (b! "formatId") f.fileFormat) cs) =
      .elem (b! "file") (optAttr (b! "formatId") f.fileFormat) (cs ++ f.dataPart v1) := by
    intro cs
    unfold dataPart
    split
    · split
      · rw [foldl_addChild]; rfl
      · rw [addChild_elem, saveDataV2_eq]
    · simp
  rw [h2]
  have h3 : ∀ cs, (if f.isPreview = true then
        addOpt (Node.elem (b! "file") (optAttr (b! "formatId") f.fileFormat) cs) (f.preview.bind Preview.saveXml)
      else Node.elem (b! "file") (optAttr (b! "formatId") f.fileFormat) cs) =
      .elem (b! "file") (optAttr (b! "formatId") f.fileFormat) (cs ++ f.previewPart) := by
    intro cs
    unfold previewPart
    split
    · rename_i hp
      obtain ⟨p, h1, h2⟩ := valid_preview hv hp
      rw [h1, Option.bind_some, Preview.saveXml_eq h2]; rfl
    · simp
  rw [h3]
  have h4 : ∀ cs, (if f.hasMetadata = true then
        addOpt (Node.elem (b! "file") (optAttr (b! "formatId") f.fileFormat) cs) (FileMeta.saveXml f.metadata)
      else Node.elem (b! "file") (optAttr (b! "formatId") f.fileFormat) cs) =
      .elem (b! "file") (optAttr (b! "formatId") f.fileFormat) (cs ++ f.metaPart) := by
    intro cs
    unfold metaPart
    split
    · rename_i hp
      cases hm : f.metadata with
      | none => simp [FileMeta.saveXml, addOpt]
      | some m => simp only [FileMeta.saveXml_eq (hme hp m hm)]; rfl
    · simp
  rw [h4]
  simp

/-! ### The tree can be written -/

theorem int64Node_savable {nm : Bytes} (hn : PlainName nm) (v : Int) : Savable (int64Node nm v) := intNode_savable hn v

theorem checksum_savable {s : Option Bytes} (h : s = some [] ∨ TextField s) : ∀ c ∈ textNode (b! "checksum") s, Savable c := by
  rcases h with rfl | h
  · intro c hc
    have : textNode (b! "checksum") (some []) = [.elem (b! "checksum") [] []] := rfl
    rw [this, List.mem_singleton] at hc
    subst hc
    exact .branch (by decide) cleanAttrs_nil (by simp)
  · exact textNode_savable (by decide) h

theorem posNode_savable {nm : Bytes} (hn : PlainName nm) (a b : Int) : Savable (posNode nm a b) := by
  refine .branch hn ?_ (by simp)
  refine cleanAttrs_cons (by decide) (clean_printInt06 _) (by simp) ?_
  exact cleanAttrs_cons (by decide) (clean_printInt _) (by simp) cleanAttrs_nil

theorem pos1Node_savable {nm : Bytes} (hn : PlainName nm) (a b : Int) : Savable (pos1Node nm a b) := by
  refine .branch hn cleanAttrs_nil ?_
  intro c hc
  simp only [List.mem_cons, List.not_mem_nil, or_false] at hc
  rcases hc with rfl | rfl <;> exact intNode_savable (by decide) _

theorem node_savable {f : File} (h : f.writable) (v1 : Bool) : Savable (f.node v1) := by
  obtain ⟨hv, hff, hu, hn, hd, _, _, _, _, _, _, _, hck, hpr, hme⟩ := h
  refine .branch (by decide) (optAttr_clean (by decide) hff) ?_
  intro c hc
  unfold parts at hc
  simp only [List.mem_append, List.mem_singleton] at hc
  rcases hc with ((((((rfl | h) | h) | h) | h) | h) | h) | h
  · exact intNode_savable (by decide) _
  · exact textNode_savable (by decide) hu c h
  · exact textNode_savable (by decide) hn c h
  · exact textNode_savable (by decide) hd c h
  · unfold parentPart at h
    split at h
    · rw [List.mem_singleton] at h; subst h; exact intNode_savable (by decide) _
    · cases h
  · unfold dataPart at h
    split at h
    · rename_i hdig
      split at h
      · unfold data1Nodes at h
        simp only [List.mem_cons, List.not_mem_nil, or_false] at h
        rcases h with rfl | rfl | rfl
        · exact int64Node_savable (by decide) _
        · exact pos1Node_savable (by decide) _ _
        · exact pos1Node_savable (by decide) _ _
      · rw [List.mem_singleton] at h
        subst h
        refine .branch (by decide) cleanAttrs_nil ?_
        intro c hc
        simp only [List.mem_append, List.mem_cons, List.not_mem_nil, or_false] at hc
        rcases hc with h | rfl | rfl | rfl
        · exact checksum_savable (hck hdig) c h
        · exact int64Node_savable (by decide) _
        · exact posNode_savable (by decide) _ _
        · exact posNode_savable (by decide) _ _
    · cases h
  · unfold previewPart at h
    split at h
    · rename_i hp
      cases hq : f.preview with
      | none => rw [hq] at h; cases h
      | some p =>
        rw [hq] at h
        simp only [List.mem_singleton] at h
        subst h
        exact Preview.node_savable (hpr hp p hq)
    · cases h
  · unfold metaPart at h
    split at h
    · rename_i hp
      cases hq : f.metadata with
      | none => rw [hq] at h; cases h
      | some p =>
        rw [hq] at h
        simp only [List.mem_singleton] at h
        subst h
        exact FileMeta.node_savable (hme hp p hq)
    · cases h

/-! ### Names in the parts -/

theorem intNode_names (nm' : Bytes) (v : Int) {nm : Bytes} (h : nm ∈ namesOf [intNode nm' v]) : nm = nm' := by
  rw [intNode_eq, namesOf_elem, namesOf_text, namesOf_nil] at h
  simpa using h

theorem parentPart_names (f : File) {nm : Bytes} (h : nm ∈ namesOf f.parentPart) : nm = b! "parentId" := by
  unfold parentPart at h
  split at h
  · exact intNode_names _ _ h
  · rw [namesOf_nil] at h; cases h

theorem dataPart_names (f : File) (v1 : Bool) {nm : Bytes} (h : nm ∈ namesOf (f.dataPart v1)) :
    nm ∈ [b! "data", b! "checksum", b! "size", b! "start", b! "end", b! "frame", b! "byte"] := by
  unfold dataPart at h
  split at h
  · split at h
    · unfold data1Nodes pos1Node at h
      rw [int64Node_eq, intNode_eq, intNode_eq, intNode_eq, intNode_eq] at h
      simp only [namesOf_elem, namesOf_text, namesOf_nil, List.mem_cons, List.mem_append, List.not_mem_nil, or_false,
        List.nil_append, List.append_nil, List.cons_append] at h
      simp only [List.mem_cons, List.not_mem_nil, or_false]
      tauto
    · unfold dataNode posNode at h
      rw [int64Node_eq, namesOf_elem, namesOf_append] at h
      simp only [namesOf_elem, namesOf_text, namesOf_nil, List.mem_cons, List.mem_append, List.not_mem_nil, or_false,
        List.nil_append, List.append_nil, List.cons_append] at h
      simp only [List.mem_cons, List.not_mem_nil, or_false]
      rcases h with h | h | h
      · tauto
      · have := textNode_names _ _ h; tauto
      · tauto
  · rw [namesOf_nil] at h; cases h

theorem preview_names (p : Preview) {nm : Bytes} (h : nm ∈ namesOf [p.node]) :
    nm ∈ [b! "preview", b! "dpi", b! "pages"] := by
  unfold Preview.node at h
  rw [namesOf_elem, namesOf_append, namesOf_nil, List.append_nil] at h
  simp only [List.mem_cons, List.mem_append] at h
  rcases h with rfl | h | h
  · simp
  · unfold dpiNodes at h
    split at h
    · have := intNode_names _ _ h; simp [this]
    · rw [namesOf_nil] at h; cases h
  · simp [pages_names _ _ h]

theorem previewPart_names (f : File) {nm : Bytes} (h : nm ∈ namesOf f.previewPart) :
    nm ∈ [b! "preview", b! "dpi", b! "pages"] := by
  unfold previewPart at h
  split at h
  · cases hq : f.preview with
    | none => rw [hq] at h; simp only [namesOf_nil] at h; cases h
    | some p => rw [hq] at h; exact preview_names p h
  · rw [namesOf_nil] at h; cases h

theorem fileMeta_names (m : FileMeta) {nm : Bytes} (hp : PlainName nm) (h : nm ∈ namesOf [m.node]) :
    nm ∈ [b! "metadata", b! "source", b! "data"] := by
  unfold FileMeta.node at h
  rw [namesOf_elem, namesOf_nil, List.append_nil] at h
  simp only [List.mem_cons] at h
  rcases h with rfl | h
  · simp
  · rw [mem_namesOf_iff] at h
    obtain ⟨c, hc, h⟩ := h
    obtain ⟨x, _, rfl⟩ := List.mem_map.mp hc
    have e : x.node = .elem (b! "source") [(b! "fileId", some (printInt x.fileId)), (b! "sourceId", some (printInt x.sourceId))] x.node.children := rfl
    rw [e, namesOf_elem, namesOf_nil, List.append_nil] at h
    rcases List.mem_cons.mp h with rfl | h
    · simp
    · simp [fileMetaSource_names x hp h]

theorem metaPart_names (f : File) {nm : Bytes} (hp : PlainName nm) (h : nm ∈ namesOf f.metaPart) :
    nm ∈ [b! "metadata", b! "source", b! "data"] := by
  unfold metaPart at h
  split at h
  · cases hq : f.metadata with
    | none => rw [hq] at h; simp only [namesOf_nil] at h; cases h
    | some p => rw [hq] at h; exact fileMeta_names p hp h
  · rw [namesOf_nil] at h; cases h

/-- Searching the children of a file element: the parts one after the other. -/
theorem find_parts (f : File) (v1 : Bool) (nm : Bytes) :
    find (f.node v1) nm = (findL [intNode (b! "id") f.id] nm).or ((findL (textNode (b! "uniqueId") f.uniqueId) nm).or
      ((findL (textNode (b! "name") f.name) nm).or ((findL (textNode (b! "date") f.date) nm).or
      ((findL f.parentPart nm).or ((findL (f.dataPart v1) nm).or ((findL f.previewPart nm).or (findL f.metaPart nm))))))) := by
  unfold node parts
  rw [find_eq_findL]
  simp only [findL_append, Option.or_assoc]

theorem id_none (i : Int) {nm : Bytes} (h : nm ≠ b! "id") : findL [intNode (b! "id") i] nm = none :=
  findL_none fun hm => h (intNode_names _ _ hm)
theorem text_none {nm' : Bytes} (s : Option Bytes) {nm : Bytes} (h : nm ≠ nm') : findL (textNode nm' s) nm = none :=
  findL_none fun hm => h (textNode_names _ _ hm)
theorem parent_none (f : File) {nm : Bytes} (h : nm ≠ b! "parentId") : findL f.parentPart nm = none :=
  findL_none fun hm => h (parentPart_names f hm)
theorem data_none (f : File) (v1 : Bool) {nm : Bytes}
    (h : nm ∉ [b! "data", b! "checksum", b! "size", b! "start", b! "end", b! "frame", b! "byte"]) : findL (f.dataPart v1) nm = none :=
  findL_none fun hm => h (dataPart_names f v1 hm)
theorem preview_none (f : File) {nm : Bytes} (h : nm ∉ [b! "preview", b! "dpi", b! "pages"]) : findL f.previewPart nm = none :=
  findL_none fun hm => h (previewPart_names f hm)
theorem meta_none (f : File) {nm : Bytes} (hp : PlainName nm) (h : nm ∉ [b! "metadata", b! "source", b! "data"]) :
    findL f.metaPart nm = none :=
  findL_none fun hm => h (metaPart_names f hp hm)

theorem find_id (f : File) (v1 : Bool) : find (f.node v1) (b! "id") = some (.elem (b! "id") [] [.text (printInt f.id)]) := by
  rw [find_parts, intNode_eq, findL_self]; rfl

theorem findL_text {nm : Bytes} {s : Option Bytes} (h : TextField s) :
    findL (textNode nm s) nm = s.map fun t => .elem nm [] [.text t] := by
  cases s with
  | none => exact findL_nil nm
  | some t => rw [textNode_some (h t rfl).2.1, findL_self]; rfl

theorem find_unique (f : File) (v1 : Bool) (h : TextField f.uniqueId) :
    find (f.node v1) (b! "uniqueId") = f.uniqueId.map fun t => .elem (b! "uniqueId") [] [.text t] := by
  rw [find_parts, id_none _ (by decide), findL_text h, text_none _ (by decide), text_none _ (by decide), parent_none _ (by decide),
    data_none _ _ (by decide), preview_none _ (by decide), meta_none _ (by decide) (by decide)]
  simp

theorem find_name (f : File) (v1 : Bool) (h : TextField f.name) :
    find (f.node v1) (b! "name") = f.name.map fun t => .elem (b! "name") [] [.text t] := by
  rw [find_parts, id_none _ (by decide), findL_text h, text_none _ (by decide), text_none _ (by decide), parent_none _ (by decide),
    data_none _ _ (by decide), preview_none _ (by decide), meta_none _ (by decide) (by decide)]
  simp

theorem find_date (f : File) (v1 : Bool) (h : TextField f.date) :
    find (f.node v1) (b! "date") = f.date.map fun t => .elem (b! "date") [] [.text t] := by
  rw [find_parts, id_none _ (by decide), findL_text h, text_none _ (by decide), text_none _ (by decide), parent_none _ (by decide),
    data_none _ _ (by decide), preview_none _ (by decide), meta_none _ (by decide) (by decide)]
  simp

theorem find_parentId (f : File) (v1 : Bool) :
    find (f.node v1) (b! "parentId") =
      if f.parentId = FILE_NO_PARENT then none else some (.elem (b! "parentId") [] [.text (printInt f.parentId)]) := by
  rw [find_parts, id_none _ (by decide), text_none _ (by decide), text_none _ (by decide), text_none _ (by decide),
    data_none _ _ (by decide), preview_none _ (by decide), meta_none _ (by decide) (by decide)]
  unfold parentPart
  by_cases h : f.parentId = FILE_NO_PARENT
  · have h2 : ¬ f.parentId = FILE_PARENT := by rw [h]; decide
    have : (f.hasParent || f.isParent) = false := by unfold hasParent isParent; simp [h, h2]; decide
    rw [this]; simp [h, findL_nil]
  · have : (f.hasParent || f.isParent) = true := by
      unfold hasParent isParent
      by_cases h2 : f.parentId = FILE_PARENT <;> simp [h, h2]
    rw [this]
    simp [h, intNode_eq, findL_self]

theorem find_parentid (f : File) (v1 : Bool) : find (f.node v1) (b! "parentid") = none := by
  rw [find_parts, id_none _ (by decide), text_none _ (by decide), text_none _ (by decide), text_none _ (by decide),
    parent_none _ (by decide), data_none _ _ (by decide), preview_none _ (by decide), meta_none _ (by decide) (by decide)]
  rfl

theorem find_preview (f : File) (v1 : Bool) :
    find (f.node v1) (b! "preview") = if f.isPreview then f.preview.map Preview.node else none := by
  rw [find_parts, id_none _ (by decide), text_none _ (by decide), text_none _ (by decide), text_none _ (by decide),
    parent_none _ (by decide), data_none _ _ (by decide), meta_none _ (by decide) (by decide)]
  unfold previewPart
  split
  · cases f.preview with
    | none => simp [findL_nil]
    | some p => simp only [Option.none_or, Option.or_none, Option.map_some]; exact findL_self _ _ _ _
  · simp [findL_nil]

theorem find_metadata (f : File) (v1 : Bool) :
    find (f.node v1) (b! "metadata") = if f.hasMetadata then f.metadata.map FileMeta.node else none := by
  rw [find_parts, id_none _ (by decide), text_none _ (by decide), text_none _ (by decide), text_none _ (by decide),
    parent_none _ (by decide), data_none _ _ (by decide), preview_none _ (by decide)]
  unfold metaPart
  split
  · cases f.metadata with
    | none => simp [findL_nil]
    | some p => simp only [Option.none_or]; exact findL_self _ _ _ _
  · simp [findL_nil]

/-- The names of the old-format data nodes are only found among the data nodes. -/
theorem find_data_names (f : File) (v1 : Bool) {nm : Bytes} (h : nm ∈ [b! "size", b! "start", b! "end", b! "checksum"]) :
    find (f.node v1) nm = findL (f.dataPart v1) nm := by
  simp only [List.mem_cons, List.not_mem_nil, or_false] at h
  rcases h with rfl | rfl | rfl | rfl <;>
    rw [find_parts, id_none _ (by decide), text_none _ (by decide), text_none _ (by decide), text_none _ (by decide),
      parent_none _ (by decide), preview_none _ (by decide), meta_none _ (by decide) (by decide)] <;> simp

/-! ### The data node is the one directly below the file -/

theorem metaNode_parents (m : FileMeta) : ∀ x ∈ descUnderList (b! "file") [m.node], x.1 = b! "file" → x.2 = m.node := by
  intro x hx hf
  rw [descUnderList, descUnderList, List.append_nil] at hx
  rcases List.mem_cons.mp hx with rfl | hx
  · rfl
  · exfalso
    unfold FileMeta.node at hx
    rw [descUnder] at hx
    generalize m.sources.getD [] = l at hx
    induction l with
    | nil => rw [List.map_nil, descUnderList] at hx; cases hx
    | cons s l ih =>
      rw [List.map_cons, descUnderList] at hx
      rcases List.mem_cons.mp hx with rfl | hx
      · exact absurd hf (by simp)
      · rcases List.mem_append.mp hx with hx | hx
        · unfold FileMetaSource.node at hx
          rw [descUnder] at hx
          unfold dataNodes at hx
          cases hs : s.data with
          | none => rw [hs] at hx; simp only at hx; rw [descUnderList] at hx; cases hx
          | some d =>
            rw [hs] at hx
            simp only at hx
            rw [descUnderList, descUnderList, List.append_nil] at hx
            rcases List.mem_cons.mp hx with rfl | hx
            · exact absurd hf (by simp)
            · rw [descUnder, descUnderList, descUnderList, Node.newCDATA, descUnder, descUnderList] at hx
              simp only [List.append_nil, List.mem_cons, List.not_mem_nil, or_false] at hx
              subst hx
              exact absurd hf (by simp)
        · exact ih hx

theorem underL_meta (f : File) : underL (b! "file") f.metaPart (b! "file") (b! "data") = none := by
  unfold metaPart
  split
  · cases f.metadata with
    | none => exact underL_none_names (by rw [namesOf_nil]; simp)
    | some m =>
      refine underL_none_parents fun x hx hf => ?_
      rw [metaNode_parents m x hx hf]
      rfl
  · exact underL_none_names (by rw [namesOf_nil]; simp)

theorem under_parts (f : File) (v1 : Bool) :
    findUnder (f.node v1) (b! "file") (b! "data") = if f.isDigital = true ∧ v1 = false then some f.dataNode else none := by
  unfold node parts
  rw [findUnder_eq]
  simp only [underL_append]
  rw [underL_none_names (cs := [intNode _ _]) (fun hm => absurd (intNode_names _ _ hm) (by decide)),
    underL_none_names (cs := textNode (b! "uniqueId") _) (fun hm => absurd (textNode_names _ _ hm) (by decide)),
    underL_none_names (cs := textNode (b! "name") _) (fun hm => absurd (textNode_names _ _ hm) (by decide)),
    underL_none_names (cs := textNode (b! "date") _) (fun hm => absurd (textNode_names _ _ hm) (by decide)),
    underL_none_names (cs := f.parentPart) (fun hm => absurd (parentPart_names _ hm) (by decide)),
    underL_none_names (cs := f.previewPart) (fun hm => absurd (previewPart_names _ hm) (by decide)), underL_meta]
  simp only [Option.none_or, Option.or_none]
  unfold dataPart
  cases hd : f.isDigital with
  | false => simp only [Bool.false_eq_true, if_false, false_and]; exact underL_none_names (by rw [namesOf_nil]; simp)
  | true =>
    cases v1 with
    | true =>
      simp only [if_true, Bool.true_eq_false, and_false, if_false]
      refine underL_none_names ?_
      unfold data1Nodes pos1Node
      rw [int64Node_eq, intNode_eq, intNode_eq, intNode_eq, intNode_eq]
      simp only [namesOf_elem, namesOf_text, namesOf_nil]
      decide
    | false =>
      simp only [if_true, Bool.false_eq_true, and_true, if_false]
      exact underL_self _ _ _ _ _

/-! ### Reading the parts back -/

theorem read_opt {t u : Node} (h : IsRead t u) {nm : Bytes} {s : Option Bytes}
    (hf : find u nm = s.map fun x => .elem nm [] [.text x]) (old : Option Bytes) (ho : old = none) :
    (match find t nm with
      | none => old
      | some x => nodeText (some x)) = s := by
  cases s with
  | none => rw [isRead_find_none h hf]; exact ho
  | some x =>
    obtain ⟨d, h1, h2⟩ := isRead_find_some h hf
    rw [h1]
    exact isRead_text h2

theorem loadFields_of {f : File} (hw : f.writable) (v1 : Bool) {t : Node} (hd : IsRead t (f.node v1)) :
    create.loadFields t = { create with
      name := f.name, date := f.date, uniqueId := f.uniqueId, id := f.id, parentId := f.parentId,
      fileFormat := some (f.fileFormat.getD (b! "undefined")) } := by
  obtain ⟨_, _, hu, hn, hdt, hid, hpid, _⟩ := hw
  have a1 : t.getAttr (b! "formatId") = f.fileFormat := by
    rw [isRead_attr hd]; exact optAttr_get _ _ _ _
  have a2 := read_opt hd (find_name f v1 hn) none rfl
  have a3 := read_opt hd (find_unique f v1 hu) none rfl
  have a4 := read_opt hd (find_date f v1 hdt) none rfl
  have a5 : intElement t (b! "id") = some f.id := by
    unfold intElement
    obtain ⟨d, h1, h2⟩ := isRead_find_some hd (find_id f v1)
    rw [h1, isRead_text h2, Option.map_some, atoi_printInt _ hid.1 hid.2]
  have a6 : intElement t (b! "parentId") = some f.parentId ∨
      (intElement t (b! "parentId") = none ∧ intElement t (b! "parentid") = none ∧ f.parentId = FILE_NO_PARENT) := by
    by_cases hp : f.parentId = FILE_NO_PARENT
    · have h1 : find t (b! "parentId") = none := isRead_find_none hd (by rw [find_parentId, if_pos hp])
      have h2 : find t (b! "parentid") = none := isRead_find_none hd (find_parentid f v1)
      unfold intElement
      rw [h1, h2]
      exact .inr ⟨rfl, rfl, hp⟩
    · obtain ⟨d, h1, h2⟩ := isRead_find_some hd (nm := b! "parentId") (by rw [find_parentId, if_neg hp])
      unfold intElement
      rw [h1, isRead_text h2, Option.map_some, atoi_printInt _ hpid.1 hpid.2]
      exact .inl rfl
  unfold loadFields
  rw [a1, a5]
  have hfmt : some (f.fileFormat.getD (b! "undefined")) = (match strClone f.fileFormat with
      | none => some (b! "undefined")
      | some s => some s) := by cases f.fileFormat <;> rfl
  rw [hfmt]
  rcases a6 with a6 | ⟨a6, a7, a8⟩
  · rw [a6]
    cases h1 : find t (b! "name") <;> cases h2 : find t (b! "uniqueId") <;> cases h3 : find t (b! "date") <;>
      rw [h1] at a2 <;> rw [h2] at a3 <;> rw [h3] at a4 <;> simp only at a2 a3 a4 <;> simp only [Option.getD_some] <;>
      rw [← a2, ← a3, ← a4] <;> rfl
  · rw [a6, a7, a8]
    cases h1 : find t (b! "name") <;> cases h2 : find t (b! "uniqueId") <;> cases h3 : find t (b! "date") <;>
      rw [h1] at a2 <;> rw [h2] at a3 <;> rw [h3] at a4 <;> simp only at a2 a3 a4 <;> simp only [Option.getD_some] <;>
      rw [← a2, ← a3, ← a4] <;> rfl

theorem size_read {u : Node} {v : Int} (hv : IsInt64 v) {t : Node} (ht : IsRead t u) (hu : u = .elem (b! "size") [] [.text (printInt v)]) :
    strtol ((nodeTextSafe (some t) (b! "0")).getD []) = v := by
  subst hu
  unfold nodeTextSafe
  rw [isRead_text ht]
  exact strtol_printInt v hv.1 hv.2

theorem pos_attr {nm : Bytes} {a b : Int} (ha : IsInt a) (hb : IsInt b) {t : Node} (ht : IsRead t (posNode nm a b)) :
    intAttr t (b! "frame") = some a ∧ intAttr t (b! "byte") = some b := by
  unfold intAttr
  rw [isRead_attr ht, isRead_attr ht, show (posNode nm a b).getAttr (b! "frame") = some (printInt06 a) from rfl,
    show (posNode nm a b).getAttr (b! "byte") = some (printInt b) from rfl]
  simp only [Option.map_some, atoi_printInt _ hb.1 hb.2, atoi_printInt06 _ ha.1 ha.2, and_self]

theorem pos1_elem {nm : Bytes} {a b : Int} (ha : IsInt a) (hb : IsInt b) {t : Node} (ht : IsRead t (pos1Node nm a b)) :
    intElement t (b! "frame") = some a ∧ intElement t (b! "byte") = some b := by
  unfold intElement
  obtain ⟨x, h1, h2⟩ := isRead_find_some ht (nm := b! "frame") (e := .elem (b! "frame") [] [.text (printInt a)]) (by
    unfold pos1Node; rw [find_eq_findL, intNode_eq]; exact findL_self _ _ _ _)
  obtain ⟨y, h3, h4⟩ := isRead_find_some ht (nm := b! "byte") (e := .elem (b! "byte") [] [.text (printInt b)]) (by
    unfold pos1Node
    rw [find_eq_findL, findL_cons, findL_none (fun hm => absurd (intNode_names _ _ hm) (by decide)), intNode_eq (b! "byte"), findL_self]
    rfl)
  rw [h1, h3, isRead_text h2, isRead_text h4]
  simp only [Option.map_some, atoi_printInt _ ha.1 ha.2, atoi_printInt _ hb.1 hb.2, and_self]

theorem dataNode_find (f : File) :
    find f.dataNode (b! "size") = some (.elem (b! "size") [] [.text (printInt f.size)]) ∧
    find f.dataNode (b! "start") = some (posNode (b! "start") f.startFrame f.startByte) ∧
    find f.dataNode (b! "end") = some (posNode (b! "end") f.endFrame f.endByte) ∧
    find f.dataNode (b! "checksum") = findL (textNode (b! "checksum") f.checksum) (b! "checksum") := by
  unfold dataNode
  rw [int64Node_eq]
  refine ⟨?_, ?_, ?_, ?_⟩
  · rw [find_eq_findL, findL_append, text_none _ (by decide), findL_self]; rfl
  · rw [find_eq_findL, findL_append, text_none _ (by decide), findL_cons,
      findL_none (by simp only [namesOf_elem, namesOf_text, namesOf_nil]; decide)]
    unfold posNode
    rw [findL_self]; rfl
  · rw [find_eq_findL, findL_append, text_none _ (by decide), findL_cons,
      findL_none (by simp only [namesOf_elem, namesOf_text, namesOf_nil]; decide), findL_cons]
    unfold posNode
    rw [findL_none (by simp only [namesOf_elem, namesOf_text, namesOf_nil]; decide), findL_self]; rfl
  · rw [find_eq_findL, findL_append]
    unfold posNode
    rw [findL_none (cs := [_, _, _]) (by simp only [namesOf_elem, namesOf_text, namesOf_nil]; decide)]
    simp

theorem checksum_read {s : Option Bytes} (hs : s = some [] ∨ TextField s) (hne : s ≠ none) {t : Node} {u : Node} (hd : IsRead t u)
    (hf : find u (b! "checksum") = findL (textNode (b! "checksum") s) (b! "checksum")) :
    nodeTextSafe (find t (b! "checksum")) [] = s := by
  unfold nodeTextSafe
  rcases hs with rfl | hs
  · obtain ⟨x, h1, h2⟩ := isRead_find_some hd (nm := b! "checksum") (e := .elem (b! "checksum") [] []) (by rw [hf]; exact findL_self _ _ _ _)
    rw [h1]
    rw [(isRead_empty h2).2]
  · rw [findL_text hs] at hf
    cases s with
    | none => exact absurd rfl hne
    | some c =>
      obtain ⟨x, h1, h2⟩ := isRead_find_some hd hf
      rw [h1, isRead_text h2]

theorem loadDataV2_of {f : File} (hw : f.writable) (hdig : f.isDigital = true) {t : Node} (hd : IsRead t f.dataNode) (g : File) :
    g.loadDataV2 t = { g with
      size := f.size, checksum := f.checksum, startFrame := f.startFrame, startByte := f.startByte,
      endFrame := f.endFrame, endByte := f.endByte } := by
  obtain ⟨hv, _, _, _, _, _, _, hsz, hsf, hsb, hef, heb, hck, _, _⟩ := hw
  have hcn : f.checksum ≠ none := by
    intro hn
    unfold isValid at hv
    split at hv
    · cases hv
    · split at hv
      · cases hv
      · rw [if_pos ⟨hdig, .inr (.inr (.inr (.inl hn)))⟩] at hv
        cases hv
  obtain ⟨h1, h2, h3, h4⟩ := dataNode_find f
  obtain ⟨x1, e1, r1⟩ := isRead_find_some hd h1
  obtain ⟨x2, e2, r2⟩ := isRead_find_some hd h2
  obtain ⟨x3, e3, r3⟩ := isRead_find_some hd h3
  obtain ⟨p1, p2⟩ := pos_attr hsf hsb r2
  obtain ⟨q1, q2⟩ := pos_attr hef heb r3
  unfold loadDataV2
  rw [e1, e2, e3, checksum_read (hck hdig) hcn hd h4]
  simp only [size_read hsz r1 rfl, p1, p2, q1, q2, Option.getD_some]

theorem loadDataV1_of {f : File} (hw : f.writable) (hdig : f.isDigital = true) {t : Node} (hd : IsRead t (f.node true)) (g : File) :
    g.loadDataV1 t = { g with
      size := f.size, checksum := some [], startFrame := f.startFrame, startByte := f.startByte,
      endFrame := f.endFrame, endByte := f.endByte } ∧ (find t (b! "size")).isSome = true := by
  obtain ⟨_, _, _, _, _, _, _, hsz, hsf, hsb, hef, heb, _⟩ := hw
  have hp : f.dataPart true = f.data1Nodes := by unfold dataPart; simp [hdig]
  have h1 : find (f.node true) (b! "size") = some (.elem (b! "size") [] [.text (printInt f.size)]) := by
    rw [find_data_names f true (by decide), hp]
    unfold data1Nodes
    rw [int64Node_eq, findL_self]
  have h2 : find (f.node true) (b! "start") = some (pos1Node (b! "start") f.startFrame f.startByte) := by
    rw [find_data_names f true (by decide), hp]
    unfold data1Nodes
    rw [int64Node_eq, findL_cons, findL_none (by simp only [namesOf_elem, namesOf_text, namesOf_nil]; decide)]
    unfold pos1Node
    rw [findL_self]; rfl
  have h3 : find (f.node true) (b! "end") = some (pos1Node (b! "end") f.endFrame f.endByte) := by
    rw [find_data_names f true (by decide), hp]
    unfold data1Nodes
    rw [int64Node_eq, findL_cons, findL_none (by simp only [namesOf_elem, namesOf_text, namesOf_nil]; decide), findL_cons,
      findL_none (by
        unfold pos1Node; rw [intNode_eq, intNode_eq]
        simp only [namesOf_elem, namesOf_text, namesOf_nil]; decide)]
    unfold pos1Node
    rw [findL_self]; rfl
  have h4 : find (f.node true) (b! "checksum") = none := by
    rw [find_data_names f true (by decide), hp]
    apply findL_none
    unfold data1Nodes pos1Node
    rw [int64Node_eq, intNode_eq, intNode_eq, intNode_eq, intNode_eq]
    simp only [namesOf_elem, namesOf_text, namesOf_nil]
    decide
  obtain ⟨x1, e1, r1⟩ := isRead_find_some hd h1
  obtain ⟨x2, e2, r2⟩ := isRead_find_some hd h2
  obtain ⟨x3, e3, r3⟩ := isRead_find_some hd h3
  have e4 := isRead_find_none hd h4
  obtain ⟨p1, p2⟩ := pos1_elem hsf hsb r2
  obtain ⟨q1, q2⟩ := pos1_elem hef heb r3
  refine ⟨?_, by rw [e1]; rfl⟩
  unfold loadDataV1
  rw [e1, e2, e3, e4]
  simp only [size_read hsz r1 rfl, p1, p2, q1, q2, Option.getD_some]
  rfl

theorem loadDataV1_none {f : File} (v1 : Bool) (hdig : f.isDigital = false) {t : Node} (hd : IsRead t (f.node v1)) (g : File) :
    g.loadDataV1 t = { g with checksum := some [] } ∧
      find t (b! "size") = none ∧ find t (b! "start") = none ∧ find t (b! "end") = none := by
  have hp : f.dataPart v1 = [] := by unfold dataPart; simp [hdig]
  have key : ∀ nm, nm ∈ [b! "size", b! "start", b! "end", b! "checksum"] → find t nm = none := by
    intro nm h
    apply isRead_find_none hd
    rw [find_data_names f v1 h, hp, findL_nil]
  have e1 := key (b! "size") (by decide)
  have e2 := key (b! "start") (by decide)
  have e3 := key (b! "end") (by decide)
  have e4 := key (b! "checksum") (by decide)
  refine ⟨?_, e1, e2, e3⟩
  unfold loadDataV1
  rw [e1, e2, e3, e4]
  rfl

/-! ### Validity of the loaded entry -/

theorem asLoaded_digital (f : File) (v1 : Bool) : (f.asLoaded v1).isDigital = f.isDigital := by
  have : (f.asLoaded v1).isDigital = (((if f.isDigital then 1 else 0) + (if f.isPreview then 2 else 0)) &&& TYPE_DIGITAL != 0) := rfl
  rw [this]
  cases f.isDigital <;> cases f.isPreview <;> rfl

theorem asLoaded_preview (f : File) (v1 : Bool) : (f.asLoaded v1).isPreview = f.isPreview := by
  have : (f.asLoaded v1).isPreview = (((if f.isDigital then 1 else 0) + (if f.isPreview then 2 else 0)) &&& TYPE_PREVIEW != 0) := rfl
  rw [this]
  cases f.isDigital <;> cases f.isPreview <;> rfl

theorem asLoaded_meta (f : File) (v1 : Bool) : (f.asLoaded v1).hasMetadata = f.hasMetadata := by
  have : (f.asLoaded v1).hasMetadata = (FileMeta.sourcesCount (if f.hasMetadata then f.metadata else none) != 0) := rfl
  rw [this]
  cases h : f.hasMetadata with
  | false => rfl
  | true => exact h

theorem asLoaded_valid {f : File} (h : f.isValid = true) (v1 : Bool) : (f.asLoaded v1).isValid = true := by
  unfold isValid at h ⊢
  rw [asLoaded_digital, asLoaded_preview, asLoaded_meta]
  split at h
  · cases h
  · rename_i h1
    split at h
    · cases h
    · rename_i h2
      split at h
      · cases h
      · rename_i h3
        split at h
        · cases h
        · rename_i h4
          split at h
          · cases h
          · rename_i h5
            rw [if_neg (show ¬ (f.asLoaded v1).id < -2 from h1), if_neg (show ¬ (nullOrEmpty (f.asLoaded v1).name || nullOrEmpty (f.asLoaded v1).date) = true from h2),
              if_neg, if_neg, if_neg]
            · intro ⟨hm, hv⟩
              have : (f.asLoaded v1).metadata = f.metadata := by simp [asLoaded, hm]
              exact h5 ⟨hm, by rw [← this]; exact hv⟩
            · intro ⟨hm, hv⟩
              have : (f.asLoaded v1).preview = f.preview := by simp [asLoaded, hm]
              rw [this] at hv
              exact h4 ⟨hm, hv⟩
            · intro ⟨hm, hv⟩
              have hc : (f.asLoaded v1).checksum = none → f.checksum = none := by
                simp only [asLoaded]; split <;> simp
              simp only [asLoaded, hm, if_true] at hv
              refine h3 ⟨hm, ?_⟩
              rcases hv with hv | hv | hv | hv | hv
              · exact .inl hv
              · exact .inr (.inl hv)
              · exact .inr (.inr (.inl hv))
              · exact .inr (.inr (.inr (.inl (hc (by simpa [asLoaded, hm] using hv)))))
              · exact .inr (.inr (.inr (.inr hv)))

/-- The entry before its data is loaded. -/
def bare (f : File) : File :=
  { create with
    name := f.name, date := f.date, uniqueId := f.uniqueId, id := f.id, parentId := f.parentId,
    fileFormat := some (f.fileFormat.getD (b! "undefined")),
    types := if f.isPreview then 2 else 0,
    preview := if f.isPreview then f.preview else none,
    metadata := if f.hasMetadata then f.metadata else none }

theorem loadHead_of {f : File} (hw : f.writable) (v1 : Bool) {t : Node} (hd : IsRead t (f.node v1)) :
    ∃ g, (create.loadFields t).loadPreview t = (true, g) ∧ g.loadMetadata t = (true, f.bare) := by
  rw [loadFields_of hw v1 hd]
  have hw' := hw
  obtain ⟨hv, _, _, _, _, _, _, _, _, _, _, _, _, hpr, hme⟩ := hw'
  have hm : ∀ g : File, g.metadata = none → g.loadMetadata t =
      (true, { g with metadata := if f.hasMetadata then f.metadata else none }) := by
    intro g hg
    unfold loadMetadata
    cases hh : f.hasMetadata with
    | false =>
      rw [isRead_find_none hd (by rw [find_metadata, hh]; rfl)]
      simp only [Bool.false_eq_true, if_false]
      rw [← hg]
    | true =>
      cases hq : f.metadata with
      | none => unfold hasMetadata at hh; rw [hq] at hh; cases hh
      | some m =>
        obtain ⟨x, h1, h2⟩ := isRead_find_some hd (nm := b! "metadata") (e := m.node) (by rw [find_metadata, hh, hq]; rfl)
        rw [h1]
        simp only [FileMeta.loadXml_of (hme hh m hq) (isRead_self h2 rfl) h2]
        rfl
  unfold loadPreview
  cases hp : f.isPreview with
  | false =>
    rw [isRead_find_none hd (by rw [find_preview, hp]; rfl)]
    refine ⟨_, rfl, ?_⟩
    rw [hm _ rfl]
    unfold bare
    rw [hp]; rfl
  | true =>
    obtain ⟨p, hq, _⟩ := valid_preview hv hp
    obtain ⟨x, h1, h2⟩ := isRead_find_some hd (nm := b! "preview") (e := p.node) (by rw [find_preview, hp, hq]; rfl)
    rw [h1]
    simp only [Preview.loadXml_of (hpr hp p hq) (isRead_self h2 rfl) h2]
    refine ⟨_, rfl, ?_⟩
    rw [hm _ rfl]
    unfold bare
    rw [hp, hq]
    simp [addType, create, TYPE_PREVIEW, TYPE_UNDEFINED]

theorem loadDataPart_of {f : File} (hw : f.writable) (v1 : Bool) {t : Node} (hd : IsRead t (f.node v1)) :
    f.bare.loadDataPart t = f.asLoaded v1 := by
  have hv := asLoaded_valid hw.1 v1
  unfold loadDataPart
  cases hdig : f.isDigital with
  | false =>
    rw [isRead_findUnder_none hd (by rw [under_parts, hdig]; rfl)]
    obtain ⟨h1, h2, h3, h4⟩ := loadDataV1_none v1 hdig hd f.bare
    simp only [h1, h2, h3, h4]
    have e : { f.bare with checksum := some [] } = f.asLoaded v1 := by
      unfold bare asLoaded
      rw [hdig]
      simp [create]
    simp only [Option.isSome_none, Bool.or_self, Bool.false_eq_true, if_false, e]
    rw [if_neg (by simp [hv])]
  | true =>
    cases v1 with
    | false =>
      obtain ⟨x, h1, h2⟩ := isRead_findUnder_some hd (p := b! "file") (nm := b! "data") (e := f.dataNode) (by rw [under_parts, hdig]; rfl)
      rw [h1]
      simp only
      rw [loadDataV2_of hw hdig h2]
      unfold bare asLoaded
      rw [hdig]
      cases f.isPreview <;> simp [create, addType, TYPE_DIGITAL]
    | true =>
      rw [isRead_findUnder_none hd (by rw [under_parts, hdig]; rfl)]
      obtain ⟨h1, h2⟩ := loadDataV1_of hw hdig hd f.bare
      simp only [h1, h2]
      have e : addType { f.bare with
          size := f.size, checksum := some [], startFrame := f.startFrame, startByte := f.startByte,
          endFrame := f.endFrame, endByte := f.endByte } TYPE_DIGITAL = f.asLoaded true := by
        unfold bare asLoaded
        rw [hdig]
        cases f.isPreview <;> simp [create, addType, TYPE_DIGITAL]
      simp only [Bool.true_or, if_true, e]
      rw [if_neg (by simp [hv])]

theorem loadXml_of {f : File} (hw : f.writable) (v1 : Bool) {T t : Node}
    (hT : selfOrFind T (b! "file") = some t) (hd : IsRead t (f.node v1)) : create.loadXml T = (true, f.asLoaded v1) := by
  obtain ⟨g, h1, h2⟩ := loadHead_of hw v1 hd
  unfold loadXml
  rw [hT]
  simp only [h1, h2, Bool.true_eq_false, if_false, loadDataPart_of hw v1 hd]

theorem asLoaded_of {f : File} (h : f.storable) : f.asLoaded false = f := by
  obtain ⟨_, hff, ht, hd, hp, hm⟩ := h
  obtain ⟨na, da, ck, sz, id, sf, sb, ef, eb, un, pa, ty, pr, ff, me⟩ := f
  unfold asLoaded
  simp only [hd, if_true, and_self]
  have ht' : (1 + if (File.mk na da ck sz id sf sb ef eb un pa ty pr ff me).isPreview = true then 2 else 0) = ty := by
    have hd' : (ty &&& 1 != 0) = true := hd
    have : ∀ x : Nat, x ≤ 3 → (x &&& 1 != 0) = true → (1 + if (x &&& 2 != 0) = true then 2 else 0) = x := by decide
    exact this ty ht hd'
  rw [ht']
  congr
  · split
    · rfl
    · rename_i h; exact (hp (by simpa using h)).symm
  · cases ff with
    | none => exact absurd rfl hff
    | some x => rfl
  · split
    · rfl
    · rename_i h; exact (hm (by simpa using h)).symm

/-! ### File lists -/

theorem node_names (f : File) (v1 : Bool) {nm : Bytes} (hp : PlainName nm) (h : nm ∈ namesOf (f.parts v1)) :
    nm ∈ [b! "id", b! "uniqueId", b! "name", b! "date", b! "parentId", b! "data", b! "checksum", b! "size", b! "start",
      b! "end", b! "frame", b! "byte", b! "preview", b! "dpi", b! "pages", b! "metadata", b! "source"] := by
  unfold parts at h
  simp only [namesOf_append, List.mem_append] at h
  rcases h with ((((((h | h) | h) | h) | h) | h) | h) | h
  · rw [intNode_names _ _ h]; decide
  · rw [textNode_names _ _ h]; decide
  · rw [textNode_names _ _ h]; decide
  · rw [textNode_names _ _ h]; decide
  · rw [parentPart_names _ h]; decide
  · have := dataPart_names _ _ h
    revert this; simp only [List.mem_cons, List.not_mem_nil, or_false]; tauto
  · have := previewPart_names _ h
    revert this; simp only [List.mem_cons, List.not_mem_nil, or_false]; tauto
  · have := metaPart_names _ hp h
    revert this; simp only [List.mem_cons, List.not_mem_nil, or_false]; tauto

end File

namespace Files

def node (f : Files) : Node := .elem (b! "files") [] (f.list.map fun x => x.node false)

theorem valid_of {f : Files} (h : ∀ x ∈ f.list, x.isValid = true) : Files.isValid (some f) = true := by
  obtain ⟨o⟩ := f
  cases o with
  | none => rfl
  | some l =>
    show l.all File.isValid = true
    exact List.all_eq_true.mpr h

theorem saveXml_eq {f : Files} (h : ∀ x ∈ f.list, x.writable) : f.saveXml = some f.node := by
  unfold saveXml node
  rw [if_neg (by simp [valid_of fun x hx => (h x hx).1]), mapM_some (g := fun x => x.node false) (fun x hx => File.saveXml_eq (h x hx) false)]

theorem node_savable {f : Files} (h : ∀ x ∈ f.list, x.writable) : Savable f.node := by
  refine .branch (by decide) cleanAttrs_nil ?_
  intro c hc
  obtain ⟨x, hx, rfl⟩ := List.mem_map.mp hc
  exact File.node_savable (h x hx) false

theorem loadLoop_of {ns : List Node} {l : List File} (hns : ReadList ns (l.map fun x => x.node false))
    (hl : ∀ x ∈ l, x.writable) :
    ∀ (m : Files), m.loadLoop ns = (true, if l = [] then m else ⟨some (m.list ++ l.map fun x => x.asLoaded false)⟩) := by
  induction l generalizing ns with
  | nil => intro m; cases hns; simp [loadLoop]
  | cons x l ih =>
    intro m
    generalize hu : List.map (fun x => File.node x false) (x :: l) = us at hns
    cases hns with
    | nil => simp at hu
    | @cons t u ts us' hd hrest =>
    rw [List.map_cons] at hu
    injection hu with hu1 hu2
    subst hu1 hu2
    have hx := hl x (by simp)
    rw [loadLoop, File.loadXml_of hx false (isRead_self hd rfl) hd]
    simp only [Bool.true_eq_false, if_false]
    have hadd : m.addToc (some (x.asLoaded false)) = (true, ⟨some (m.list ++ [x.asLoaded false])⟩) := by
      unfold addToc list; simp only [File.asLoaded_valid hx.1]; cases m.tocs <;> rfl
    rw [hadd]
    simp only [Bool.true_eq_false, if_false]
    rw [ih hrest (fun y hy => hl y (by simp [hy]))]
    by_cases he : l = [] <;> simp [he, list]

theorem roots (l : List File) : (descendantsList (l.map fun x => x.node false)).filter (named (b! "file")) = l.map fun x => x.node false := by
  apply filter_roots
  intro c hc
  obtain ⟨x, _, rfl⟩ := List.mem_map.mp hc
  exact ⟨rfl, fun h => absurd (File.node_names x false (by decide) h) (by decide)⟩

/-- What becomes of a list of files. -/
theorem loadXml_of {f : Files} (h : ∀ x ∈ f.list, x.writable) {T : Node}
    (hT : ReadList (findAll T (b! "file")) (f.list.map fun x => x.node false)) :
    create.loadXml T = (true, f.asLoaded) := by
  unfold loadXml
  rw [loadLoop_of hT h]
  unfold asLoaded
  cases hl : f.list with
  | nil => simp [create]
  | cons x l => simp [create, list]

theorem findAll_files (f : Files) : findAll f.node (b! "file") = f.list.map fun x => x.node false := by
  unfold node
  rw [findAll_elem, roots]

theorem findAll_doc (f : Files) : findAll (.elem xmlDecl [] [f.node]) (b! "file") = f.list.map fun x => x.node false := by
  unfold node
  rw [findAll_elem, descendantsList, descendantsList, List.append_nil, descendants, List.filter_cons_of_neg (by simp [named, Node.element])]
  exact roots f.list

theorem asLoaded_of {f : Files} (h : f.storable) : f.asLoaded = f := by
  obtain ⟨o⟩ := f
  have hs := h.2
  unfold Files.asLoaded
  cases o with
  | none => rfl
  | some l =>
    have hne : l ≠ [] := fun e => h.1 (by rw [e])
    simp only [Files.list, Option.getD_some, hne, if_false] at hs ⊢
    congr 2
    conv => rhs; rw [← List.map_id l]
    exact List.map_congr_left fun x hx => File.asLoaded_of (hs x hx)

end Files
end Afs
