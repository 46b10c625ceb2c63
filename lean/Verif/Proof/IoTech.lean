import Verif.Proof.IoFormat
import Verif.Proof.XmlDoc
/-! # Saving and loading technical metadata and control data -/
namespace Afs
open Spec Xml

namespace Files

theorem node_names {f : Files} {nm : Bytes} (hp : PlainName nm) (h : nm ∈ namesOf [f.node]) :
    nm ∈ [b! "files", b! "file", b! "id", b! "uniqueId", b! "name", b! "date", b! "parentId", b! "data", b! "checksum", b! "size", b! "start",
      b! "end", b! "frame", b! "byte", b! "preview", b! "dpi", b! "pages", b! "metadata", b! "source"] := by
  unfold node at h
  rw [namesOf_elem, namesOf_nil, List.append_nil] at h
  rcases List.mem_cons.mp h with rfl | h
  · simp
  · rw [mem_namesOf_iff] at h
    obtain ⟨n, hn, h⟩ := h
    obtain ⟨x, _, rfl⟩ := List.mem_map.mp hn
    unfold File.node at h
    rw [namesOf_elem, namesOf_nil, List.append_nil] at h
    rcases List.mem_cons.mp h with rfl | h
    · simp
    · exact List.mem_cons_of_mem _ (List.mem_cons_of_mem _ (File.node_names x false hp h))

theorem findAll_wrapped (f : Files) {n : Bytes} (as) :
    findAll (.elem n as [f.node]) (b! "file") = f.list.map fun x => x.node false := by
  unfold node
  rw [findAll_elem, descendantsList, descendantsList, List.append_nil, descendants, List.filter_cons_of_neg (by simp [named, Node.element])]
  exact roots f.list

theorem load_wrapped {f : Files} (h : ∀ x ∈ f.list, x.writable) {T : Node} {n as} (hT : IsRead T (.elem n as [f.node])) :
    create.loadXml T = (true, f.asLoaded) := by
  refine loadXml_of h ?_
  have := isRead_findAll hT (b! "file")
  rwa [findAll_wrapped] at this

end Files

namespace TechMeta
variable {L : ConfigLib}

/-- The list written in an element of that name. -/
def filesPart (name : Bytes) (f : Option Files) : List Node := (f.map fun f => Node.elem name [] [f.node]).toList

theorem filesPart_names {name nm : Bytes} {f : Option Files} (hp : PlainName nm) (h : nm ∈ namesOf (filesPart name f)) :
    nm = name ∨ nm ∈ [b! "files", b! "file", b! "id", b! "uniqueId", b! "name", b! "date", b! "parentId", b! "data", b! "checksum", b! "size", b! "start",
      b! "end", b! "frame", b! "byte", b! "preview", b! "dpi", b! "pages", b! "metadata", b! "source"] := by
  cases f with
  | none => simp [filesPart, namesOf_nil] at h
  | some f =>
    change nm ∈ namesOf [Node.elem name [] [f.node]] at h
    rw [namesOf_elem, namesOf_nil, List.append_nil] at h
    rcases List.mem_cons.mp h with h | h
    · exact .inl h
    · exact .inr (Files.node_names hp h)

theorem saveFiles_eq {name : Bytes} {f : Option Files} (h : ∀ x, f = some x → ∀ y ∈ x.list, y.writable) (m as) (cs : List Node) :
    saveFiles (.elem m as cs) name f = some (.elem m as (cs ++ filesPart name f)) := by
  cases f with
  | none => simp [saveFiles, filesPart]
  | some f =>
    unfold saveFiles
    dsimp only
    rw [Files.saveXml_eq (h f rfl)]
    rfl

theorem filesPart_savable {name : Bytes} (hn : PlainName name) {f : Option Files} (h : ∀ x, f = some x → ∀ y ∈ x.list, y.writable) :
    ∀ c ∈ filesPart name f, Savable c := by
  cases f with
  | none => simp [filesPart]
  | some f =>
    intro c hc
    change c ∈ [Node.elem name [] [f.node]] at hc
    simp only [List.mem_cons, List.not_mem_nil, or_false] at hc
    subst hc
    exact .branch hn cleanAttrs_nil (by simpa using Files.node_savable (h f rfl))

/-- The element written for a boxing format. -/
def formatNode (f : Format L) : Node :=
  match f.config with
  | none => Node.new (b! "NULL")
  | some c => Format.configNode c

theorem formatNode_savable {f : Format L} (h : f.storable) : Savable (formatNode f) := by
  unfold formatNode
  cases hc : f.config with
  | none => exact .branch (by decide) cleanAttrs_nil (by simp)
  | some c => exact Format.configNode_savable (h.2 c hc).1

theorem formatNode_names {f : Format L} (h : f.storable) {nm : Bytes} (hm : nm ∈ namesOf [formatNode f]) :
    nm ∈ [b! "NULL", b! "work", b! "class", b! "property"] := by
  unfold formatNode at hm
  cases hc : f.config with
  | none =>
    rw [hc] at hm
    dsimp only [Node.new] at hm
    rw [namesOf_elem, namesOf_nil] at hm
    simp at hm; subst hm; simp
  | some c =>
    rw [hc] at hm
    exact List.mem_cons_of_mem _ (Format.configNode_names (h.2 c hc).1.1 hm)

def nodeOf (f : Format L) (tocs apps : Option Files) : Node :=
  .elem (b! "TechnicalMetadata") [] ([.elem (b! "BoxerFormat") [] [formatNode f]] ++ (filesPart (b! "Tocs") tocs ++ filesPart (b! "Applications") apps))

theorem saveXml_eq {t : TechMeta L} {f : Format L} (hf : t.format = some f) (ht : ∀ x, t.tocs = some x → ∀ y ∈ x.list, y.writable)
    (ha : ∀ x, t.apps = some x → ∀ y ∈ x.list, y.writable) : t.saveXml = some (nodeOf f t.tocs t.apps) := by
  unfold saveXml
  rw [hf]
  dsimp only
  have h1 : f.saveXml = some (formatNode f) := by unfold Format.saveXml formatNode; cases f.config <;> rfl
  rw [h1, Option.bind_some]
  have h2 : (Node.new (b! "TechnicalMetadata")).addChild ((Node.new (b! "BoxerFormat")).addChild (formatNode f)) =
    .elem (b! "TechnicalMetadata") [] [.elem (b! "BoxerFormat") [] [formatNode f]] := rfl
  rw [h2, saveFiles_eq ht, Option.bind_some, saveFiles_eq ha]
  unfold nodeOf
  rw [List.append_assoc]

theorem nodeOf_savable {f : Format L} {tocs apps : Option Files} (hf : f.storable) (ht : ∀ x, tocs = some x → ∀ y ∈ x.list, y.writable)
    (ha : ∀ x, apps = some x → ∀ y ∈ x.list, y.writable) : Savable (nodeOf f tocs apps) := by
  refine .branch (by decide) cleanAttrs_nil ?_
  intro c hc
  rcases List.mem_append.mp hc with hc | hc
  · simp only [List.mem_cons, List.not_mem_nil, or_false] at hc
    subst hc
    exact .branch (by decide) cleanAttrs_nil (by simpa using formatNode_savable hf)
  · rcases List.mem_append.mp hc with hc | hc
    · exact filesPart_savable (by decide) ht c hc
    · exact filesPart_savable (by decide) ha c hc

theorem find_filesPart (name : Bytes) (f : Option Files) : findL (filesPart name f) name = f.map fun f => .elem name [] [f.node] := by
  cases f with
  | none => exact findL_nil _
  | some f => exact findL_self _ _ _ _

theorem format_none {f : Format L} (h : f.storable) {nm : Bytes} (hn : nm ∉ [b! "BoxerFormat", b! "NULL", b! "work", b! "class", b! "property"]) :
    findL [.elem (b! "BoxerFormat") [] [formatNode f]] nm = none := by
  refine findL_none fun hm => hn ?_
  rw [namesOf_elem, namesOf_nil, List.append_nil] at hm
  rcases List.mem_cons.mp hm with rfl | hm
  · simp
  · exact List.mem_cons_of_mem _ (formatNode_names h hm)

theorem files_none {name nm : Bytes} (f : Option Files) (hp : PlainName nm) (h : nm ∉ name :: [b! "files", b! "file", b! "id", b! "uniqueId", b! "name", b! "date", b! "parentId", b! "data", b! "checksum", b! "size", b! "start",
      b! "end", b! "frame", b! "byte", b! "preview", b! "dpi", b! "pages", b! "metadata", b! "source"]) : findL (filesPart name f) nm = none := by
  refine findL_none fun hm => h ?_
  rcases filesPart_names hp hm with rfl | h
  · exact List.mem_cons_self
  · exact List.mem_cons_of_mem _ h

theorem find_format (f : Format L) (tocs apps : Option Files) :
    find (nodeOf f tocs apps) (b! "BoxerFormat") = some (.elem (b! "BoxerFormat") [] [formatNode f]) := by
  unfold nodeOf
  rw [find_eq_findL, findL_append, findL_self]; rfl

theorem find_tocs {f : Format L} (h : f.storable) (tocs apps : Option Files) :
    find (nodeOf f tocs apps) (b! "Tocs") = tocs.map fun x => .elem (b! "Tocs") [] [x.node] := by
  unfold nodeOf
  rw [find_eq_findL, findL_append, format_none h (by decide), Option.none_or, findL_append, find_filesPart, files_none _ (by decide) (by decide),
    Option.or_none]

theorem find_apps {f : Format L} (h : f.storable) (tocs apps : Option Files) :
    find (nodeOf f tocs apps) (b! "Applications") = apps.map fun x => .elem (b! "Applications") [] [x.node] := by
  unfold nodeOf
  rw [find_eq_findL, findL_append, format_none h (by decide), Option.none_or, findL_append, files_none _ (by decide) (by decide), Option.none_or,
    find_filesPart]

/-- What the loaded boxing format is. -/
def loadedFormat (f : Format L) : Format L := Format.create2 (f.config.map fun c => Format.setAll L.create (Format.configSets c))

theorem loadFormat_of {f : Format L} (h : f.storable) {T : Node} (hT : IsRead T (.elem (b! "BoxerFormat") [] [formatNode f])) :
    loadFormat T = some (loadedFormat f) := by
  unfold loadFormat loadedFormat
  dsimp only
  unfold formatNode at hT
  cases hc : f.config with
  | none =>
    rw [hc] at hT
    rw [Format.loadXml_null _ hT]; rfl
  | some c =>
    rw [hc] at hT
    rw [Format.loadXml_some (h.2 c hc).1 _ hT]; rfl

theorem loadedFormat_equal (hL : LawfulConfig L) {f : Format L} (h : f.storable) :
    Format.equal (some f) (some (loadedFormat f)) = true := by
  have hf := h.1
  unfold loadedFormat
  cases hc : f.config with
  | none =>
    rw [hc] at hf; rw [hf]
    simp [Format.equal, ptrEqual, Format.create2, Format.init, Format.empty, Format.eqFields, hL.equal_null, strEqStrict]
  | some c =>
    rw [hc] at hf; rw [hf]
    exact Format.equal_init hL (Format.loaded_equal hL (h.2 c hc)).1

theorem loadXml_of {f : Format L} {tocs apps : Option Files} (hf : f.storable) (ht : ∀ x, tocs = some x → ∀ y ∈ x.list, y.writable)
    (ha : ∀ x, apps = some x → ∀ y ∈ x.list, y.writable) (before : TechMeta L) {T t : Node}
    (hT : find T (b! "TechnicalMetadata") = some t) (hd : IsRead t (nodeOf f tocs apps)) :
    before.loadXml T = (true, ⟨some (loadedFormat f), (tocs.map Files.asLoaded).or before.tocs, (apps.map Files.asLoaded).or before.apps⟩) := by
  unfold loadXml
  rw [hT]
  dsimp only
  obtain ⟨b, h1, h2⟩ := isRead_find_some hd (find_format f tocs apps)
  rw [h1]
  dsimp only
  rw [loadFormat_of hf h2]
  have e1 : ∀ u : TechMeta L, loadTocs u (find t (b! "Tocs")) = (true, { u with tocs := (tocs.map Files.asLoaded).or u.tocs }) := by
    intro u
    unfold loadTocs
    cases tocs with
    | none => rw [isRead_find_none hd (find_tocs hf none apps)]; rfl
    | some x =>
      obtain ⟨b, h3, h4⟩ := isRead_find_some hd (find_tocs hf (some x) apps)
      rw [h3, Option.map_some, Files.load_wrapped (ht x rfl) h4]; rfl
  have e2 : ∀ u : TechMeta L, loadApps u (find t (b! "Applications")) = { u with apps := (apps.map Files.asLoaded).or u.apps } := by
    intro u
    unfold loadApps
    cases apps with
    | none => rw [isRead_find_none hd (find_apps hf tocs none)]; rfl
    | some x =>
      obtain ⟨b, h3, h4⟩ := isRead_find_some hd (find_apps hf tocs (some x))
      rw [h3, Option.map_some, Files.load_wrapped (ha x rfl) h4]; rfl
  rw [e1, e2]
  rfl

end TechMeta

namespace ControlData
variable {L : ConfigLib}

theorem find_admin (a : Admin) (t : Node) :
    find (.elem xmlDecl [] [a.node, t]) (b! "AdministrativeMetadata") = some a.node := by
  rw [find_eq_findL]; exact findL_self _ _ _ _

theorem find_tech (a : Admin) (f : Format L) (tocs apps) :
    find (.elem xmlDecl [] [a.node, TechMeta.nodeOf f tocs apps]) (b! "TechnicalMetadata") = some (TechMeta.nodeOf f tocs apps) := by
  rw [find_eq_findL, findL_cons, findL_none, Option.none_or]
  · exact findL_self _ _ _ _
  · intro hm
    unfold Admin.node Admin.parts at hm
    rw [namesOf_elem, namesOf_nil, List.append_nil] at hm
    rcases List.mem_cons.mp hm with h | hm
    · revert h; decide
    · simp only [namesOf_append, List.mem_append] at hm
      rcases hm with h | h | h | h | h | h <;> (have := textNode_names _ _ h; revert this; decide)

theorem loadXml_of {a : Admin} (hadm : a.storable) {f : Format L} {tocs apps : Option Files} (hf : f.storable)
    (ht : ∀ x, tocs = some x → ∀ y ∈ x.list, y.writable)
    (ha : ∀ x, apps = some x → ∀ y ∈ x.list, y.writable) (before : ControlData L) {T : Node}
    (hT : IsRead T (.elem xmlDecl [] [a.node, TechMeta.nodeOf f tocs apps])) :
    before.loadXml T = (true, ⟨some a, some ⟨some (TechMeta.loadedFormat f), tocs.map Files.asLoaded, apps.map Files.asLoaded⟩⟩) := by
  obtain ⟨d, h1, h2⟩ := isRead_find_some hT (find_admin a _)
  obtain ⟨e, h3, h4⟩ := isRead_find_some hT (find_tech a f tocs apps)
  unfold loadXml
  rw [h1]
  dsimp only
  rw [h3, Admin.loadXml_of hadm Admin.create h1 h2, TechMeta.loadXml_of hf ht ha TechMeta.create h3 h4]
  simp [TechMeta.create]

end ControlData
end Afs
