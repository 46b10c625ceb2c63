import Verif.Proof.IoFile
import Verif.Proof.IoLayout
import Verif.Model.Io.TocData
/-! # What is read back of reels, reel lists and tables of contents -/
namespace Afs
open Spec Xml

theorem TextField.mem_savable {nm : Bytes} (hn : PlainName nm) {s : Option Bytes} (hs : TextField s) :
    ∀ c ∈ textNode nm s, Savable c := textNode_savable hn hs

namespace Reel

def filesPart (r : Reel) : List Node :=
  match r.files with
  | none => []
  | some f => [f.node]

def node (r : Reel) : Node := .elem (b! "reel") [] (textNode (b! "id") r.id ++ r.filesPart)

theorem list_files {r : Reel} {f : Files} (h : r.files = some f) : r.list = f.list := by
  unfold list; rw [h]

theorem saveXml_eq {r : Reel} (h : r.writable) : r.saveXml = some r.node := by
  unfold saveXml node filesPart
  rw [if_neg (by simp [h.1])]
  have e := foldl_addChild (textNode (b! "id") r.id) (b! "reel") [] []
  rw [List.nil_append] at e
  simp only [show Node.new (b! "reel") = .elem (b! "reel") [] [] from rfl, e]
  cases hf : r.files with
  | none => simp
  | some f =>
    simp only
    rw [Files.saveXml_eq (fun x hx => h.2.2 x (by rw [list_files hf]; exact hx))]
    rfl

theorem node_savable {r : Reel} (h : r.writable) : Savable r.node := by
  refine .branch (by decide) cleanAttrs_nil ?_
  intro c hc
  rcases List.mem_append.mp hc with hc | hc
  · exact textNode_savable (by decide) h.2.1 c hc
  · unfold filesPart at hc
    cases hf : r.files with
    | none => simp [hf] at hc
    | some f =>
      simp only [hf, List.mem_singleton] at hc
      subst hc
      exact Files.node_savable (fun x hx => h.2.2 x (by rw [list_files hf]; exact hx))

theorem id_some {r : Reel} (h : r.isValid = true) : ∃ i, r.id = some i := by
  unfold isValid at h
  cases hi : r.id with
  | none => simp [hi, nullOrEmpty] at h
  | some i => exact ⟨i, rfl⟩

theorem loadXml_of {r : Reel} (h : r.writable) {T t : Node}
    (hT : selfOrFind T (b! "reel") = some t) (hd : IsRead t r.node) : create.loadXml T = (true, r.asLoaded) := by
  obtain ⟨i, hi⟩ := id_some h.1
  have htf := h.2.1
  rw [hi] at htf
  have hfid : find r.node (b! "id") = some (.elem (b! "id") [] [.text i]) := by
    unfold node
    rw [find_eq_findL, findL_append, hi, File.findL_text htf]
    rfl
  obtain ⟨d, h1, h2⟩ := isRead_find_some hd hfid
  have hff : find r.node (b! "files") = r.files.map Files.node := by
    unfold node filesPart
    rw [find_eq_findL, findL_append, findL_none (fun hm => absurd (textNode_names _ _ hm) (by decide))]
    cases hf : r.files with
    | none => simp [findL_nil]
    | some f => simp only [Option.none_or]; exact findL_self _ _ _ _
  unfold loadXml
  rw [hT]
  simp only [h1]
  rw [isRead_text h2]
  cases hf : r.files with
  | none =>
    rw [isRead_find_none hd (by rw [hff, hf]; rfl)]
    unfold asLoaded
    rw [hf, hi]; rfl
  | some f =>
    obtain ⟨x, h3, h4⟩ := isRead_find_some hd (nm := b! "files") (e := f.node) (by rw [hff, hf]; rfl)
    rw [h3]
    have hr := isRead_findAll h4 (b! "file")
    rw [Files.findAll_files] at hr
    simp only [Files.loadXml_of (fun x hx => h.2.2 x (by rw [list_files hf]; exact hx)) hr]
    unfold asLoaded
    rw [hf, hi]; rfl

theorem asLoaded_valid {r : Reel} (h : r.writable) : r.asLoaded.isValid = true := by
  have hv := h.1
  obtain ⟨i, hi⟩ := id_some h.1
  unfold isValid at hv ⊢
  have hid : r.asLoaded.id = r.id := rfl
  rw [hid]
  split at hv
  · cases hv
  · split at hv
    · cases hv
    · rename_i hn
      rw [if_neg, if_neg hn]
      rintro ⟨hc, hf⟩
      cases hfs : r.files with
      | none =>
        apply hc
        unfold asLoaded fileCount
        simp [hfs, list]
      | some f =>
        have : r.asLoaded.files = some f.asLoaded := by unfold asLoaded; rw [hfs]; rfl
        rw [this, Files.valid_of] at hf
        · cases hf
        · intro x hx
          unfold Files.asLoaded Files.list at hx
          simp only at hx
          split at hx
          · simp at hx
          · simp only [Option.getD_some, List.mem_map] at hx
            obtain ⟨y, hy, rfl⟩ := hx
            exact File.asLoaded_valid (h.2.2 y (by rw [list_files hfs]; exact hy)).1 false

theorem asLoaded_of {r : Reel} (h : r.storable) : r.asLoaded = r := by
  obtain ⟨i, fs⟩ := r
  unfold asLoaded
  cases fs with
  | none => rfl
  | some f =>
    simp only [Option.map_some]
    rw [Files.asLoaded_of (h.2 f rfl)]

/-- Names inside a reel. -/
theorem node_names (r : Reel) {nm : Bytes} (hp : PlainName nm) (h : nm ∈ namesOf r.node.children) :
    nm ∈ [b! "files", b! "file", b! "id", b! "uniqueId", b! "name", b! "date", b! "parentId", b! "data", b! "checksum",
      b! "size", b! "start", b! "end", b! "frame", b! "byte", b! "preview", b! "dpi", b! "pages", b! "metadata", b! "source"] := by
  unfold node Node.children at h
  simp only [namesOf_append, List.mem_append] at h
  rcases h with h | h
  · rw [textNode_names _ _ h]; decide
  · unfold filesPart at h
    cases hf : r.files with
    | none => rw [hf] at h; simp [namesOf_nil] at h
    | some f =>
      rw [hf] at h
      simp only [Files.node] at h
      rw [namesOf_elem] at h
      simp only [namesOf_nil, List.append_nil, List.mem_cons] at h
      rcases h with h | h
      · rw [h]; decide
      · rw [mem_namesOf_iff] at h
        obtain ⟨c, hc, h⟩ := h
        obtain ⟨x, _, rfl⟩ := List.mem_map.mp hc
        unfold File.node at h
        rw [namesOf_elem] at h
        simp only [namesOf_nil, List.append_nil, List.mem_cons] at h
        rcases h with h | h
        · rw [h]; decide
        · exact List.mem_cons_of_mem _ (List.mem_cons_of_mem _ (File.node_names x false hp h))

end Reel

namespace Reels

def node (r : Reels) : Node := .elem (b! "reels") [] (r.list.map Reel.node)

theorem saveXml_eq {r : Reels} (h : ∀ x ∈ r.list, x.writable) : r.saveXml = some r.node := by
  unfold saveXml node
  rw [if_neg, mapM_some (g := Reel.node) (fun x hx => Reel.saveXml_eq (h x hx))]
  show ¬ (r.list.all Reel.isValid = false)
  simp only [Bool.not_eq_false]
  exact List.all_eq_true.mpr fun x hx => (h x hx).1

theorem node_savable {r : Reels} (h : ∀ x ∈ r.list, x.writable) : Savable r.node := by
  refine .branch (by decide) cleanAttrs_nil ?_
  intro c hc
  obtain ⟨x, hx, rfl⟩ := List.mem_map.mp hc
  exact Reel.node_savable (h x hx)

theorem loadLoop_of {ns : List Node} {l : List Reel} (hns : ReadList ns (l.map Reel.node)) (hl : ∀ x ∈ l, x.writable) :
    ∀ m : Reels, m.loadLoop ns = (true, if l = [] then m else ⟨some (m.list ++ l.map Reel.asLoaded)⟩) := by
  induction l generalizing ns with
  | nil => intro m; cases hns; simp [loadLoop]
  | cons x l ih =>
    intro m
    generalize hu : List.map Reel.node (x :: l) = us at hns
    cases hns with
    | nil => simp at hu
    | @cons t u ts us' hd hrest =>
    rw [List.map_cons] at hu
    injection hu with hu1 hu2
    subst hu1 hu2
    have hx := hl x (by simp)
    rw [loadLoop, Reel.loadXml_of hx (isRead_self hd rfl) hd]
    simp only [Bool.true_eq_false, if_false]
    have hadd : m.addReel (some x.asLoaded) = (true, ⟨some (m.list ++ [x.asLoaded])⟩) := by
      unfold addReel list; simp only [Reel.asLoaded_valid hx]; cases m.reels <;> rfl
    rw [hadd]
    simp only [Bool.true_eq_false, if_false]
    rw [ih hrest (fun y hy => hl y (by simp [hy]))]
    by_cases he : l = [] <;> simp [he, list]

theorem loadLoop_create {r : Reels} (h : ∀ x ∈ r.list, x.writable) {ns : List Node} (hns : ReadList ns (r.list.map Reel.node)) :
    create.loadLoop ns = (true, r.asLoaded) := by
  rw [loadLoop_of hns h]
  unfold asLoaded
  cases hl : r.list with
  | nil => simp [create]
  | cons x l => simp [create, list]

theorem roots (l : List Reel) : (descendantsList (l.map Reel.node)).filter (named (b! "reel")) = l.map Reel.node := by
  apply filter_roots
  intro c hc
  obtain ⟨x, _, rfl⟩ := List.mem_map.mp hc
  exact ⟨rfl, fun h => absurd (Reel.node_names x (by decide) h) (by decide)⟩

theorem findAll_reels (r : Reels) : findAll r.node (b! "reel") = r.list.map Reel.node := by
  unfold node
  rw [findAll_elem, roots]

/-- Loading from the element itself. -/
theorem loadXml_self {r : Reels} (h : ∀ x ∈ r.list, x.writable) {t : Node} (hd : IsRead t r.node) :
    create.loadXml t = (true, r.asLoaded) := by
  unfold loadXml loadNodes
  rw [isRead_named hd, if_pos (by rfl)]
  refine loadLoop_create h ?_
  have := isRead_findAll hd (b! "reel")
  rwa [findAll_reels] at this

theorem takeWhile_text {l : List Node} {e : Node} {r : List Node} (he : named (b! "reels") e = true)
    (h : l.filter isElem = e :: r) :
    (l.takeWhile fun x => !named (b! "reels") x).filter (named (b! "reel")) = [] := by
  induction l with
  | nil => simp at h
  | cons x l ih =>
    cases hx : isElem x with
    | true =>
      rw [List.filter_cons_of_pos hx] at h
      injection h with h1 h2
      subst h1
      simp [List.takeWhile_cons, he]
    | false =>
      rw [List.filter_cons_of_neg (by simp [hx])] at h
      have hn : ∀ nm, named nm x = false := by
        intro nm
        cases hq : named nm x with
        | false => rfl
        | true => rw [named_isElem hq] at hx; cases hx
      rw [List.takeWhile_cons, hn]
      simp only [Bool.not_false, if_true]
      rw [List.filter_cons_of_neg (by simp [hn])]
      exact ih h

/-- Loading from a document. -/
theorem loadXml_doc {r : Reels} (h : ∀ x ∈ r.list, x.writable) {T : Node} (hT : IsRead T (.elem xmlDecl [] [r.node])) :
    create.loadXml T = (true, r.asLoaded) := by
  unfold loadXml
  refine loadLoop_create h ?_
  unfold loadNodes
  rw [isRead_named hT, not_named_decl (by decide)]
  simp only [Bool.false_eq_true, if_false]
  obtain ⟨d, h1, h2⟩ := isRead_find_some hT (nm := b! "reels") (e := r.node) (find_doc rfl)
  rw [h1]
  simp only
  have hall : findAll (.elem xmlDecl [] [r.node]) (b! "reel") = r.list.map Reel.node := by
    unfold node
    rw [findAll_elem, descendantsList, descendantsList, List.append_nil, descendants, List.filter_cons_of_neg (by simp [named, Node.element])]
    exact roots r.list
  split
  · rename_i hn
    have hl : r.list = [] := by
      cases hl : r.list with
      | nil => rfl
      | cons x l =>
        obtain ⟨q, hq, _⟩ := isRead_find_some h2 (nm := b! "reel") (e := x.node) (by
          unfold node; rw [hl, find_eq_findL]; exact findL_self _ _ _ _)
        rw [hq] at hn; cases hn
    rw [hl]; exact .nil
  · have hr := isRead_findAll hT (b! "reel")
    rw [hall] at hr
    have hsplit : (findAll T (b! "reel")) = ((descendants T).takeWhile fun x => !named (b! "reels") x).filter (named (b! "reel")) ++
        ((descendants T).dropWhile fun x => !named (b! "reels") x).filter (named (b! "reel")) := by
      rw [← List.filter_append, List.takeWhile_append_dropWhile]; rfl
    have hel : ((descendants T).filter isElem).map norm = (descendants (.elem xmlDecl [] [r.node])).filter isElem := by
      rw [← hT.2, desc_norm]
    rw [descendants_elem, descendantsList, List.filter_cons_of_pos (by rfl)] at hel
    cases hfl : (descendants T).filter isElem with
    | nil => rw [hfl] at hel; cases hel
    | cons e rest =>
      rw [hfl, List.map_cons] at hel
      injection hel with he1 _
      have : named (b! "reels") e = true := by rw [← named_norm, he1]; rfl
      rw [takeWhile_text this hfl, List.nil_append] at hsplit
      rw [← hsplit]; exact hr

theorem asLoaded_of {r : Reels} (h : r.storable) : r.asLoaded = r := by
  obtain ⟨o⟩ := r
  have hs := h.2
  unfold asLoaded
  cases o with
  | none => rfl
  | some l =>
    have hne : l ≠ [] := fun e => h.1 (by rw [e])
    simp only [Reels.list, Option.getD_some, hne, if_false] at hs ⊢
    congr 2
    conv => rhs; rw [← List.map_id l]
    exact List.map_congr_left fun x hx => Reel.asLoaded_of (hs x hx)

end Reels

/-! ### The whole table of contents -/

mutual
theorem descUnder_parent : ∀ (t : Node) (x : Bytes × Node), x ∈ descUnder t → x.1 ∈ namesOf [t]
  | .text s, x, h => by rw [descUnder] at h; cases h
  | .elem n as cs, x, h => by
    rw [descUnder] at h
    rw [namesOf_elem, namesOf_nil, List.append_nil]
    exact List.mem_cons.mpr (descUnderList_parent n cs x h)
theorem descUnderList_parent : ∀ (p : Bytes) (cs : List Node) (x : Bytes × Node),
    x ∈ descUnderList p cs → x.1 = p ∨ x.1 ∈ namesOf cs
  | p, [], x, h => by rw [descUnderList] at h; cases h
  | p, c :: cs, x, h => by
    rw [descUnderList] at h
    rw [namesOf_cons]
    rcases List.mem_cons.mp h with rfl | h
    · exact .inl rfl
    · rcases List.mem_append.mp h with h | h
      · exact .inr (List.mem_append_left _ (descUnder_parent c x h))
      · rcases descUnderList_parent p cs x h with h | h
        · exact .inl h
        · exact .inr (List.mem_append_right _ h)
end

namespace TocData

def metaPart (t : TocData) : List Node :=
  match t.metadata with
  | none => []
  | some m => if m.sources.getD [] = [] then [] else [m.node]

def layoutPart (t : TocData) : List Node :=
  match t.layouts with
  | none => []
  | some d => if d.defs.getD [] = [] then [] else [d.node]

def reelsPart (t : TocData) : List Node :=
  match t.reels with
  | none => []
  | some r => if r.list = [] then [] else [r.node]

def parts (t : TocData) : List Node :=
  textNode (b! "indexType") t.indexType ++ (textNode (b! "jobId") t.jobId ++ (textNode (b! "reelId") t.reelId ++
    (t.metaPart ++ (t.layoutPart ++ t.reelsPart))))

def node (t : TocData) : Node := .elem (b! "Index") (optAttr (b! "version") t.version) t.parts

theorem reelList_reels {t : TocData} {r : Reels} (h : t.reels = some r) : t.reelList = r.list := by
  unfold reelList; rw [h]

theorem valid_index {t : TocData} (h : t.isValid = true) : t.indexType = some INDEX_JOB ∨ t.indexType = some INDEX_REEL := by
  unfold isValid at h
  split at h
  · cases h
  split at h
  · cases h
  split at h
  · cases h
  split at h
  · cases h
  · rename_i hn
    have hn' : orEmpty t.indexType = INDEX_JOB ∨ orEmpty t.indexType = INDEX_REEL := by
      refine Decidable.byContradiction fun hc => ?_
      exact hn ⟨fun e => hc (.inl e), fun e => hc (.inr e)⟩
    cases hi : t.indexType with
    | none => rw [hi] at hn'; exact absurd hn' (by decide)
    | some x => rw [hi] at hn'; simpa [orEmpty] using hn'

theorem index_text {t : TocData} (h : t.isValid = true) : TextField t.indexType := by
  rcases valid_index h with h | h <;> rw [h] <;> exact textField_ascii (by decide)

theorem valid_version {t : TocData} (h : t.isValid = true) : ∃ v, t.version = some v := by
  unfold isValid at h
  split at h
  · cases h
  · rename_i hn
    cases hv : t.version with
    | none => rw [hv] at hn; exact absurd rfl hn
    | some v => exact ⟨v, rfl⟩

theorem savePart_zero (n : Node) (x : Option Node) : savePart n 0 x = some n := rfl

theorem savePart_some (n as) (cs : List Node) {c : Nat} (hc : c ≠ 0) (k : Node) :
    savePart (.elem n as cs) c (some k) = some (.elem n as (cs ++ [k])) := by
  unfold savePart; rw [if_neg hc]; rfl

theorem save_meta {t : TocData} (hw : t.writable) (n as) (cs : List Node) :
    savePart (.elem n as cs) (TocMeta.sourcesCount t.metadata) (TocMeta.saveXml t.metadata) = some (.elem n as (cs ++ t.metaPart)) := by
  unfold metaPart
  cases hm : t.metadata with
  | none => simp only [List.append_nil]; exact savePart_zero _ _
  | some m =>
    have hc : TocMeta.sourcesCount (some m) = (m.sources.getD []).length := rfl
    rw [hc]
    simp only
    split
    · rename_i he; rw [he, List.append_nil]; exact savePart_zero _ _
    · rename_i he
      rw [TocMeta.saveXml_eq (hw.2.2.2.2.1 m hm he).1]
      exact savePart_some _ _ _ (by simpa using he) _

theorem save_layout {t : TocData} (hw : t.writable) (n as) (cs : List Node) :
    savePart (.elem n as cs) (LayoutDefs.getCount t.layouts) (LayoutDefs.saveXml t.layouts) = some (.elem n as (cs ++ t.layoutPart)) := by
  unfold layoutPart
  cases hm : t.layouts with
  | none => simp only [List.append_nil]; exact savePart_zero _ _
  | some m =>
    have hc : LayoutDefs.getCount (some m) = (m.defs.getD []).length := rfl
    rw [hc]
    simp only
    split
    · rename_i he; rw [he, List.append_nil]; exact savePart_zero _ _
    · rename_i he
      rw [LayoutDefs.saveXml_eq (hw.2.2.2.2.2.1 m hm he)]
      exact savePart_some _ _ _ (by simpa using he) _

theorem save_reels {t : TocData} (hw : t.writable) (n as) (cs : List Node) :
    savePart (.elem n as cs) (Reels.count t.reels) (t.reels.bind Reels.saveXml) = some (.elem n as (cs ++ t.reelsPart)) := by
  unfold reelsPart
  cases hm : t.reels with
  | none => simp only [List.append_nil]; exact savePart_zero _ _
  | some m =>
    have hc : Reels.count (some m) = m.list.length := rfl
    rw [hc]
    simp only
    split
    · rename_i he; rw [he, List.append_nil]; exact savePart_zero _ _
    · rename_i he
      rw [Option.bind_some, Reels.saveXml_eq (fun x hx => hw.2.2.2.2.2.2 x (by rw [reelList_reels hm]; exact hx))]
      exact savePart_some _ _ _ (by simpa using he) _

theorem saveXml_eq {t : TocData} (h : t.writable) : t.saveXml = some t.node := by
  unfold saveXml node parts
  rw [if_neg (by simp [h.1])]
  have hn : setAttrOpt (Node.new (b! "Index")) (b! "version") t.version =
      .elem (b! "Index") (optAttr (b! "version") t.version) [] := by
    cases t.version <;> rfl
  simp only [hn]
  rw [foldl_addChild, foldl_addChild, foldl_addChild, save_meta h, Option.bind_some, save_layout h, Option.bind_some, save_reels h]
  simp

theorem metaPart_mem {t : TocData} {c : Node} (h : c ∈ t.metaPart) :
    ∃ m, t.metadata = some m ∧ m.sources.getD [] ≠ [] ∧ c = m.node := by
  unfold metaPart at h
  cases hm : t.metadata with
  | none => rw [hm] at h; cases h
  | some m =>
    rw [hm] at h; simp only at h
    split at h
    · cases h
    · rename_i he; exact ⟨m, rfl, he, by simpa using h⟩

theorem layoutPart_mem {t : TocData} {c : Node} (h : c ∈ t.layoutPart) :
    ∃ m, t.layouts = some m ∧ m.defs.getD [] ≠ [] ∧ c = m.node := by
  unfold layoutPart at h
  cases hm : t.layouts with
  | none => rw [hm] at h; cases h
  | some m =>
    rw [hm] at h; simp only at h
    split at h
    · cases h
    · rename_i he; exact ⟨m, rfl, he, by simpa using h⟩

theorem reelsPart_mem {t : TocData} {c : Node} (h : c ∈ t.reelsPart) :
    ∃ m, t.reels = some m ∧ m.list ≠ [] ∧ c = m.node := by
  unfold reelsPart at h
  cases hm : t.reels with
  | none => rw [hm] at h; cases h
  | some m =>
    rw [hm] at h; simp only at h
    split at h
    · cases h
    · rename_i he; exact ⟨m, rfl, he, by simpa using h⟩

theorem node_savable {t : TocData} (h : t.writable) : Savable t.node := by
  refine .branch (by decide) (optAttr_clean (by decide) h.2.1) ?_
  intro c hc
  unfold parts at hc
  simp only [List.mem_append] at hc
  rcases hc with hc | hc | hc | hc | hc | hc
  · exact textNode_savable (by decide) (index_text h.1) c hc
  · exact textNode_savable (by decide) h.2.2.1 c hc
  · exact textNode_savable (by decide) h.2.2.2.1 c hc
  · obtain ⟨m, h1, h2, rfl⟩ := metaPart_mem hc
    exact TocMeta.node_savable (h.2.2.2.2.1 m h1 h2)
  · obtain ⟨m, h1, h2, rfl⟩ := layoutPart_mem hc
    exact LayoutDefs.node_savable (h.2.2.2.2.2.1 m h1 h2)
  · obtain ⟨m, h1, h2, rfl⟩ := reelsPart_mem hc
    exact Reels.node_savable (fun x hx => h.2.2.2.2.2.2 x (by rw [reelList_reels h1]; exact hx))

theorem metaPart_names {t : TocData} {nm : Bytes} (hp : PlainName nm) (h : nm ∈ namesOf t.metaPart) :
    nm ∈ [b! "metadata", b! "source", b! "data", b! "tags"] := by
  rw [mem_namesOf_iff] at h
  obtain ⟨c, hc, h⟩ := h
  obtain ⟨m, _, _, rfl⟩ := metaPart_mem hc
  unfold TocMeta.node at h
  rw [namesOf_elem, namesOf_nil, List.append_nil] at h
  rcases List.mem_cons.mp h with h | h
  · rw [h]; decide
  · rw [mem_namesOf_iff] at h
    obtain ⟨c, hc, h⟩ := h
    obtain ⟨x, _, rfl⟩ := List.mem_map.mp hc
    have hx : x.node = .elem (b! "source") x.node.attrs x.node.children := rfl
    rw [hx, namesOf_elem, namesOf_nil, List.append_nil] at h
    rcases List.mem_cons.mp h with h | h
    · rw [h]; decide
    · rcases metaSource_names x hp h with h | h <;> rw [h] <;> decide

theorem layoutPart_names {t : TocData} (hw : t.writable) {nm : Bytes} (h : nm ∈ namesOf t.layoutPart) :
    nm ∈ [b! "layoutDefinitions", b! "previewLayout", b! "id", b! "name", b! "sections", b! "section"] := by
  rw [mem_namesOf_iff] at h
  obtain ⟨c, hc, h⟩ := h
  obtain ⟨m, hm, hne, rfl⟩ := layoutPart_mem hc
  have hs := hw.2.2.2.2.2.1 m hm hne
  unfold LayoutDefs.node at h
  rw [namesOf_elem, namesOf_nil, List.append_nil] at h
  rcases List.mem_cons.mp h with h | h
  · rw [h]; decide
  · rw [mem_namesOf_iff] at h
    obtain ⟨c, hc, h⟩ := h
    obtain ⟨x, hx, rfl⟩ := List.mem_map.mp hc
    have e : x.node = .elem (b! "previewLayout") x.node.attrs x.node.children := rfl
    rw [e, namesOf_elem, namesOf_nil, List.append_nil] at h
    rcases List.mem_cons.mp h with h | h
    · rw [h]; decide
    · rcases layoutDef_names (hs.2.2 x hx).1 _ h with h | h | h | h <;> rw [h] <;> decide

theorem reelsPart_names {t : TocData} {nm : Bytes} (hp : PlainName nm) (h : nm ∈ namesOf t.reelsPart) :
    nm ∈ [b! "reels", b! "reel", b! "files", b! "file", b! "id", b! "uniqueId", b! "name", b! "date", b! "parentId", b! "data",
      b! "checksum", b! "size", b! "start", b! "end", b! "frame", b! "byte", b! "preview", b! "dpi", b! "pages", b! "metadata",
      b! "source"] := by
  rw [mem_namesOf_iff] at h
  obtain ⟨c, hc, h⟩ := h
  obtain ⟨m, _, _, rfl⟩ := reelsPart_mem hc
  unfold Reels.node at h
  rw [namesOf_elem, namesOf_nil, List.append_nil] at h
  rcases List.mem_cons.mp h with h | h
  · rw [h]; decide
  · rw [mem_namesOf_iff] at h
    obtain ⟨c, hc, h⟩ := h
    obtain ⟨x, _, rfl⟩ := List.mem_map.mp hc
    have e : x.node = .elem (b! "reel") x.node.attrs x.node.children := rfl
    rw [e, namesOf_elem, namesOf_nil, List.append_nil] at h
    rcases List.mem_cons.mp h with h | h
    · rw [h]; decide
    · exact List.mem_cons_of_mem _ (List.mem_cons_of_mem _ (Reel.node_names x hp h))

theorem text_none {n nm : Bytes} (s : Option Bytes) (h : nm ≠ n) : findL (textNode n s) nm = none :=
  findL_none fun hm => h (textNode_names _ _ hm)

theorem find_node (t : TocData) (nm : Bytes) : find t.node nm =
    ((findL (textNode (b! "indexType") t.indexType) nm).or ((findL (textNode (b! "jobId") t.jobId) nm).or
      ((findL (textNode (b! "reelId") t.reelId) nm).or ((findL t.metaPart nm).or ((findL t.layoutPart nm).or (findL t.reelsPart nm)))))) := by
  unfold node parts
  rw [find_eq_findL, findL_append, findL_append, findL_append, findL_append, findL_append]

theorem meta_none (t : TocData) {nm : Bytes} (hp : PlainName nm)
    (h : nm ∉ [b! "metadata", b! "source", b! "data", b! "tags"]) : findL t.metaPart nm = none :=
  findL_none fun hm => h (metaPart_names hp hm)

theorem layout_none {t : TocData} (hw : t.writable) {nm : Bytes}
    (h : nm ∉ [b! "layoutDefinitions", b! "previewLayout", b! "id", b! "name", b! "sections", b! "section"]) :
    findL t.layoutPart nm = none :=
  findL_none fun hm => h (layoutPart_names hw hm)

theorem reels_none (t : TocData) {nm : Bytes} (hp : PlainName nm)
    (h : nm ∉ [b! "reels", b! "reel", b! "files", b! "file", b! "id", b! "uniqueId", b! "name", b! "date", b! "parentId", b! "data",
      b! "checksum", b! "size", b! "start", b! "end", b! "frame", b! "byte", b! "preview", b! "dpi", b! "pages", b! "metadata",
      b! "source"]) : findL t.reelsPart nm = none :=
  findL_none fun hm => h (reelsPart_names hp hm)

theorem find_index {t : TocData} (h : t.writable) :
    find t.node (b! "indexType") = t.indexType.map fun s => .elem (b! "indexType") [] [.text s] := by
  rw [find_node, File.findL_text (index_text h.1), text_none _ (by decide), text_none _ (by decide), meta_none _ (by decide) (by decide),
    layout_none h (by decide), reels_none _ (by decide) (by decide)]
  simp

theorem find_job {t : TocData} (h : t.writable) :
    find t.node (b! "jobId") = t.jobId.map fun s => .elem (b! "jobId") [] [.text s] := by
  rw [find_node, text_none _ (by decide), File.findL_text h.2.2.1, text_none _ (by decide), meta_none _ (by decide) (by decide),
    layout_none h (by decide), reels_none _ (by decide) (by decide)]
  simp

theorem find_reelId {t : TocData} (h : t.writable) :
    find t.node (b! "reelId") = t.reelId.map fun s => .elem (b! "reelId") [] [.text s] := by
  rw [find_node, text_none _ (by decide), text_none _ (by decide), File.findL_text h.2.2.2.1, meta_none _ (by decide) (by decide),
    layout_none h (by decide), reels_none _ (by decide) (by decide)]
  simp

theorem find_layouts {t : TocData} :
    find t.node (b! "layoutDefinitions") = t.layouts.bind fun d => if d.defs.getD [] = [] then none else some d.node := by
  rw [find_node, text_none _ (by decide), text_none _ (by decide), text_none _ (by decide), meta_none _ (by decide) (by decide),
    reels_none _ (by decide) (by decide)]
  unfold layoutPart
  cases t.layouts with
  | none => simp [findL_nil]
  | some d =>
    simp only [Option.none_or, Option.or_none, Option.bind_some]
    split
    · exact findL_nil _
    · exact findL_self _ _ _ _

theorem find_reels {t : TocData} (h : t.writable) :
    find t.node (b! "reels") = t.reels.bind fun r => if r.list = [] then none else some r.node := by
  rw [find_node, text_none _ (by decide), text_none _ (by decide), text_none _ (by decide), meta_none _ (by decide) (by decide),
    layout_none h (by decide)]
  unfold reelsPart
  cases t.reels with
  | none => simp [findL_nil]
  | some d =>
    simp only [Option.none_or, Option.bind_some]
    split
    · exact findL_nil _
    · exact findL_self _ _ _ _

theorem under_text {q n p nm : Bytes} (s : Option Bytes) (h : nm ≠ n) : underL q (textNode n s) p nm = none :=
  underL_none_names fun hm => h (textNode_names _ _ hm)

theorem find_meta {t : TocData} (h : t.writable) :
    findUnder t.node (b! "Index") (b! "metadata") = t.metadata.bind fun m => if m.sources.getD [] = [] then none else some m.node := by
  unfold node parts
  rw [findUnder_eq, underL_append, underL_append, underL_append, underL_append, underL_append,
    under_text _ (by decide), under_text _ (by decide), under_text _ (by decide),
    underL_none_names (cs := t.layoutPart) (fun hm => absurd (layoutPart_names h hm) (by decide)),
    underL_none_parents (cs := t.reelsPart)]
  · unfold metaPart
    cases t.metadata with
    | none => simp only [Option.none_or, Option.or_none, Option.bind_none]; exact underL_none_names (by rw [namesOf_nil]; simp)
    | some d =>
      simp only [Option.none_or, Option.or_none, Option.bind_some]
      split
      · exact underL_none_names (by rw [namesOf_nil]; simp)
      · exact underL_self _ _ _ _ _
  · intro x hx hi
    unfold reelsPart at hx
    cases hr : t.reels with
    | none => rw [hr] at hx; simp only at hx; rw [descUnderList] at hx; cases hx
    | some r =>
      rw [hr] at hx
      simp only at hx
      split at hx
      · rw [descUnderList] at hx; cases hx
      · rename_i hne
        rw [descUnderList, descUnderList, List.append_nil] at hx
        rcases List.mem_cons.mp hx with rfl | hx
        · rfl
        · have := descUnder_parent _ _ hx
          rw [hi] at this
          have hpart : t.reelsPart = [r.node] := by unfold reelsPart; rw [hr]; simp [hne]
          rw [← hpart] at this
          exact absurd (reelsPart_names (by decide) this) (by decide)

theorem loadMeta_of {t : TocData} (h : t.writable) {n : Node} (hd : IsRead n t.node) :
    loadMeta n = (true, t.asLoaded.metadata) := by
  have hf := find_meta h
  unfold loadMeta asLoaded
  cases hm : t.metadata with
  | none =>
    rw [isRead_findUnder_none hd (by rw [hf, hm]; rfl)]
    rfl
  | some m =>
    rw [hm, Option.bind_some] at hf
    simp only [Option.bind_some]
    by_cases he : m.sources.getD [] = []
    · rw [if_pos he] at hf
      rw [isRead_findUnder_none hd hf, if_pos he]
    · rw [if_neg he] at hf
      obtain ⟨x, h1, h2⟩ := isRead_findUnder_some hd hf
      rw [h1, if_neg he]
      simp only [TocMeta.loadXml_of (h.2.2.2.2.1 m hm he) (isRead_self h2 rfl) h2]

theorem loadLayouts_of {t : TocData} (h : t.writable) {n : Node} (hd : IsRead n t.node) :
    loadLayouts n = .ok (true, t.asLoaded.layouts) := by
  have hf := find_layouts (t := t)
  unfold loadLayouts asLoaded
  cases hm : t.layouts with
  | none =>
    rw [isRead_find_none hd (by rw [hf, hm]; rfl)]
    rfl
  | some m =>
    rw [hm, Option.bind_some] at hf
    simp only [Option.bind_some]
    by_cases he : m.defs.getD [] = []
    · rw [if_pos he] at hf
      rw [isRead_find_none hd hf, if_pos he]
    · rw [if_neg he] at hf
      obtain ⟨x, h1, h2⟩ := isRead_find_some hd hf
      rw [h1, if_neg he]
      simp only [LayoutDefs.loadXml_of (h.2.2.2.2.2.1 m hm he) (isRead_self h2 rfl) h2]
      rfl

theorem loadReels_of {t : TocData} (h : t.writable) {n : Node} (hd : IsRead n t.node) :
    loadReels n = (true, t.asLoaded.reels) := by
  have hf := find_reels h
  unfold loadReels asLoaded
  cases hm : t.reels with
  | none =>
    rw [isRead_find_none hd (by rw [hf, hm]; rfl)]
    rfl
  | some m =>
    rw [hm, Option.bind_some] at hf
    simp only [Option.bind_some]
    by_cases he : m.list = []
    · rw [if_pos he] at hf
      rw [isRead_find_none hd hf, if_pos he]
    · rw [if_neg he] at hf
      obtain ⟨x, h1, h2⟩ := isRead_find_some hd hf
      rw [h1, if_neg he]
      simp only [Reels.loadXml_self (fun x hx => h.2.2.2.2.2.2 x (by rw [reelList_reels hm]; exact hx)) h2]

theorem valid_ids {t : TocData} (h : t.isValid = true) : (∃ v, t.jobId = some v) ∧ ∃ v, t.reelId = some v := by
  unfold isValid at h
  split at h
  · cases h
  split at h
  · cases h
  · rename_i hn
    split at h
    · cases h
    · rename_i hm
      constructor
      · cases hv : t.jobId with
        | none => rw [hv] at hn; exact absurd rfl hn
        | some v => exact ⟨v, rfl⟩
      · cases hv : t.reelId with
        | none => rw [hv] at hm; exact absurd rfl hm
        | some v => exact ⟨v, rfl⟩

theorem read_some {t u : Node} (h : IsRead t u) {nm : Bytes} {s : Option Bytes} (hs : ∃ v, s = some v)
    (hf : find u nm = s.map fun x => .elem nm [] [.text x]) (old : Option Bytes) :
    (match find t nm with
      | none => old
      | some x => nodeText (some x)) = s := by
  obtain ⟨v, rfl⟩ := hs
  obtain ⟨d, h1, h2⟩ := isRead_find_some h hf
  rw [h1]
  exact isRead_text h2

/-- Loading into any table of contents replaces all of it. -/
theorem loadXml_of {t t0 : TocData} (h : t.writable) {T n : Node}
    (hT : selfOrFind T (b! "Index") = some n) (hd : IsRead n t.node) : t0.loadXml T = .ok (true, t.asLoaded) := by
  unfold loadXml
  rw [hT]
  simp only [loadMeta_of h hd, loadLayouts_of h hd, loadReels_of h hd, Bool.true_eq_false, if_false]
  have hfields : t0.loadFields n = { t.asLoaded with reels := t0.reels, metadata := t0.metadata, layouts := t0.layouts } := by
    have hx : ∃ v, t.indexType = some v := (valid_index h.1).elim (fun e => ⟨_, e⟩) fun e => ⟨_, e⟩
    have a1 := read_some hd hx (find_index h) t0.indexType
    have a2 := read_some hd (valid_ids h.1).1 (find_job h) t0.jobId
    have a3 := read_some hd (valid_ids h.1).2 (find_reelId h) t0.reelId
    have a4 : n.getAttr (b! "version") = t.version := by rw [isRead_attr hd]; exact optAttr_get _ _ _ _
    unfold loadFields asLoaded
    rw [a4]
    congr
  rw [hfields]
  rfl

theorem asLoaded_of {t : TocData} (h : t.storable)
    (h1 : t.metadata ≠ some ⟨none⟩ ∧ t.metadata ≠ some ⟨some []⟩)
    (h2 : t.layouts ≠ some ⟨none⟩ ∧ t.layouts ≠ some ⟨some []⟩)
    (h3 : t.reels ≠ some ⟨none⟩ ∧ t.reels ≠ some ⟨some []⟩) : t.asLoaded = t := by
  obtain ⟨v, i, j, r, rs, m, l⟩ := t
  have hs := h.2
  unfold asLoaded
  simp only at h1 h2 h3 ⊢
  congr
  · cases rs with
    | none => rfl
    | some x =>
      obtain ⟨o⟩ := x
      cases o with
      | none => exact absurd rfl h3.1
      | some k =>
        have hk : k ≠ [] := fun e => h3.2 (by rw [e])
        rw [Option.bind_some, if_neg (by simpa [Reels.list] using hk), Reels.asLoaded_of]
        exact ⟨by simpa using hk, hs⟩
  · cases m with
    | none => rfl
    | some x =>
      obtain ⟨o⟩ := x
      cases o with
      | none => exact absurd rfl h1.1
      | some k =>
        have hk : k ≠ [] := fun e => h1.2 (by rw [e])
        rw [Option.bind_some, if_neg (by simpa using hk)]
  · cases l with
    | none => rfl
    | some x =>
      obtain ⟨o⟩ := x
      cases o with
      | none => exact absurd rfl h2.1
      | some k =>
        have hk : k ≠ [] := fun e => h2.2 (by rw [e])
        rw [Option.bind_some, if_neg (by simpa using hk)]

end TocData
end Afs
