import Verif.Model.Refs
/-!
# What loading does to the objects

The `*_load_xml` functions create the parts they find in a document, load them, and hand them to
the object that is loaded.  What they find - which elements are there, which of them load, which
of them the containers accept - is a *plan*; the functions below follow the C code for every plan.
Third result: the references that nobody has any more (an object that is neither owned by
another one, nor freed, nor returned).  This list is bookkeeping; the C code has no such thing.

The values that are loaded are modelled in Model/Io/, Model/Admin.lean and Model/ControlData.lean.
-/
namespace Afs.Refs

/-- The heap, DTRUE or DFALSE, and the lost references. Modelling device for the `*_load_xml` functions, e.g. src/tocfiles.c:939-975. -/
structure Loaded where
  heap : Heap
  ok : Bool
  lost : List Nat

/-- A load that touches no other object: pages, sources, sections, administrative metadata, boxing formats
    (src/tocfilepreviewpage.c:703-781, src/tocdatafilemetadatasource.c:580-640, src/tocmetadatasource.c:818-900,
    src/toc/previewsection.c:587-650, src/administrativemetadata.c:660-720, src/controlframe/boxingformat.c:430-475). -/
def loadLeaf (h : Heap) (p : Nat) (ok : Bool) : Res Loaded :=
  match h.cells p with
  | none => .ub
  | some _ => .ok ⟨h, ok, []⟩

/-- The loop over the elements of a container: create an object of type `k`, load it, add it.  An
    object that is refused is freed; one that does not load is freed where `frees` is true and forgotten otherwise
    (src/tocfiles.c:949-973, src/tocdatafilemetadata.c:739-763). -/
def loadList {α : Type} (k : Kind) (frees : Bool) (load : Heap → Nat → α → Res Loaded) (p : Nat) : Heap → List (α × Bool) → Res Loaded
  | h, [] => .ok ⟨h, true, []⟩
  | h, (x, accepted) :: l => do
    let c := h.next
    let r ← load (h.alloc k []).1 c x
    if r.ok = false then
      if frees then do
        let h ← free r.heap c
        .ok ⟨h, false, r.lost⟩
      else .ok ⟨r.heap, false, c :: r.lost⟩
    else if accepted then do
      let h ← append r.heap p c
      let s ← loadList k frees load p h l
      .ok ⟨s.heap, s.ok, r.lost ++ s.lost⟩
    else do
      let h ← free r.heap c
      .ok ⟨h, false, r.lost⟩

/-- The loop behind the search for the root element; `none`: there is none (e.g. src/tocfilepreview.c:834-885). -/
def loadContainer {α : Type} (k : Kind) (frees : Bool) (load : Heap → Nat → α → Res Loaded) (h : Heap) (p : Nat) (plan : Option (List (α × Bool))) : Res Loaded :=
  match h.cells p, plan with
  | none, _ => .ub
  | some _, none => .ok ⟨h, false, []⟩
  | some _, some l => loadList k frees load p h l

/-- Assign `m` to the pointer of `p` that holds `old`, without freeing what it holds (e.g. src/tocdatareel.c:1219, src/technicalmetadata.c:528, 542, 563). -/
def overwrite (h : Heap) (p : Nat) (old : Option Nat) (m : Nat) : Res (Heap × List Nat) :=
  match old with
  | none => do
    let h ← append h p m
    .ok (h, [])
  | some o => do
    let h ← append (unlink h p o) p m
    .ok (h, [o])

/-- The elements of a list of pages, sources or sections: whether each loads and is accepted; `none`: the element that holds them is
    not there. Decisions of src/tocfilepreview.c:834-885. -/
abbrev Leaves := Option (List (Bool × Bool))

/-- `afs_toc_file_preview_load_xml` (src/tocfilepreview.c:826-885): a page that does not load is forgotten. -/
def loadPreview (h : Heap) (p : Nat) (plan : Leaves) : Res Loaded := loadContainer .page false loadLeaf h p plan

/-- `afs_toc_data_file_metadata_load_xml` (src/tocdatafilemetadata.c:720-765): a source that does not load is freed. -/
def loadFileMeta (h : Heap) (p : Nat) (plan : Leaves) : Res Loaded := loadContainer .fileMetaSource true loadLeaf h p plan

/-- `afs_toc_metadata_load_xml` (src/tocmetadata.c:686-740): a source that does not load is freed. -/
def loadTocMeta (h : Heap) (p : Nat) (plan : Leaves) : Res Loaded := loadContainer .metaSource true loadLeaf h p plan

/-- `afs_toc_preview_sections_load_xml` (src/toc/previewsections.c:655-700): a section that does not load is forgotten. -/
def loadSections (h : Heap) (p : Nat) (plan : Leaves) : Res Loaded := loadContainer .section_ false loadLeaf h p plan

/-- A part that is created, loaded and freed when it does not load; then it is assigned to the pointer of type `k`, whose old value is
    forgotten (src/tocfile.c:836-850, 853-865).  `none`: there is no element. -/
def loadPart {α : Type} (k : Kind) (load : Heap → Nat → α → Res Loaded) (h : Heap) (p : Nat) (plan : Option α) : Res Loaded :=
  match plan with
  | none => .ok ⟨h, true, []⟩
  | some x => do
    let m := h.next
    let r ← load (h.alloc k []).1 m x
    if r.ok = false then do
      let h ← free r.heap m
      .ok ⟨h, false, r.lost⟩
    else do
      let (h, o) ← overwrite r.heap p (part r.heap p k) m
      .ok ⟨h, true, r.lost ++ o⟩

/-- The elements of a file entry: the preview and the metadata, if there are any. Decisions of src/tocfile.c:792-910. -/
structure FilePlan where
  preview : Option Leaves
  metadata : Option Leaves

/-- `afs_toc_file_load_xml` (src/tocfile.c:792-910); `none`: no `file` element.  The data part touches no object. -/
def loadFile (h : Heap) (p : Nat) (plan : Option FilePlan) : Res Loaded :=
  match h.cells p, plan with
  | none, _ => .ub
  | some _, none => .ok ⟨h, false, []⟩
  | some _, some x => do
    let r ← loadPart .preview loadPreview h p x.preview
    if r.ok = false then .ok r
    else do
      let s ← loadPart .fileMeta loadFileMeta r.heap p x.metadata
      .ok ⟨s.heap, s.ok, r.lost ++ s.lost⟩

/-- The `file` elements. Decisions of src/tocfiles.c:939-975. -/
abbrev FilesPlan := List (Option FilePlan × Bool)

/-- `afs_toc_files_load_xml` (src/tocfiles.c:939-975): a file that does not load is forgotten. -/
def loadFiles (h : Heap) (p : Nat) (plan : FilesPlan) : Res Loaded := loadContainer .file false loadFile h p (some plan)

/-- A part that is created and assigned to the pointer that holds `old`, whose value is forgotten, and then loaded, without looking at
    the result here (src/tocdatareel.c:1219-1221, src/toc/previewlayoutdefinition.c:729-730, src/technicalmetadata.c:542-544). -/
def loadInto {α : Type} (k : Kind) (load : Heap → Nat → α → Res Loaded) (h : Heap) (p : Nat) (old : Option Nat) (x : α) : Res Loaded := do
  let m := h.next
  let (h, o) ← overwrite (h.alloc k []).1 p old m
  let r ← load h m x
  .ok ⟨r.heap, r.ok, o ++ r.lost⟩

/-- `afs_toc_data_reel_load_xml` (src/tocdatareel.c:1190-1230): `none`: no `reel` element or no `id`; `some none`: no `files`. -/
def loadReel (h : Heap) (p : Nat) (plan : Option (Option FilesPlan)) : Res Loaded :=
  match h.cells p, plan with
  | none, _ => .ub
  | some _, none => .ok ⟨h, false, []⟩
  | some _, some none => .ok ⟨h, true, []⟩
  | some _, some (some l) => loadInto .files loadFiles h p (part h p .files) l

/-- The `reel` elements. Decisions of src/tocdatareels.c:615-652. -/
abbrev ReelsPlan := List (Option (Option FilesPlan) × Bool)

/-- `afs_toc_data_reels_load_xml` (src/tocdatareels.c:615-652): a reel that does not load is forgotten. -/
def loadReels (h : Heap) (p : Nat) (plan : ReelsPlan) : Res Loaded := loadContainer .reel false loadReel h p (some plan)

/-- `afs_toc_preview_layout_definition_load_xml` (src/toc/previewlayoutdefinition.c:700-733); `none`: no `previewLayout`. -/
def loadLayout (h : Heap) (p : Nat) (plan : Option Leaves) : Res Loaded :=
  match h.cells p, plan with
  | none, _ => .ub
  | some _, none => .ok ⟨h, false, []⟩
  | some _, some l => loadInto .sections loadSections h p (part h p .sections) l

/-- The `previewLayout` elements. Decisions of src/toc/previewlayoutdefinitions.c:824-868. -/
abbrev LayoutsPlan := Option (List (Option Leaves × Bool))

/-- `afs_toc_preview_layout_definitions_load_xml` (src/toc/previewlayoutdefinitions.c:824-868): a definition that does not load is forgotten. -/
def loadLayouts (h : Heap) (p : Nat) (plan : LayoutsPlan) : Res Loaded := loadContainer .layoutDef false loadLayout h p plan

/-- A part that replaces the old one, which is freed (src/tocdata.c:1478-1494, 1507-1520, 1527-1540). -/
def loadReplace {α : Type} (k : Kind) (load : Heap → Nat → α → Res Loaded) (h : Heap) (p : Nat) (plan : Option α) : Res Loaded :=
  match plan with
  | none => .ok ⟨h, true, []⟩
  | some x => do
    let m := h.next
    let r ← load (h.alloc k []).1 m x
    if r.ok = false then do
      let h ← free r.heap m
      .ok ⟨h, false, r.lost⟩
    else do
      let h ← dropPart r.heap p k
      let h ← append h p m
      .ok ⟨h, true, r.lost⟩

/-- The elements of a table of contents. Decisions of src/tocdata.c:1416-1562. -/
structure TocPlan where
  metadata : Option Leaves
  layouts : Option LayoutsPlan
  reels : Option ReelsPlan

/-- "free the part that was not loaded" (src/tocdata.c:1543-1559). -/
def dropUnless (loaded : Bool) (h : Heap) (p : Nat) (k : Kind) : Res Heap := if loaded then .ok h else dropPart h p k

/-- `afs_toc_data_load_xml` (src/tocdata.c:1416-1562); `none`: no `Index` element. -/
def loadToc (h : Heap) (p : Nat) (plan : Option TocPlan) : Res Loaded :=
  match h.cells p, plan with
  | none, _ => .ub
  | some _, none => .ok ⟨h, false, []⟩
  | some _, some x => do
    let r ← loadReplace .tocMeta loadTocMeta h p x.metadata
    if r.ok = false then .ok r
    else do
      let s ← loadReplace .layoutDefs loadLayouts r.heap p x.layouts
      if s.ok = false then .ok ⟨s.heap, false, r.lost ++ s.lost⟩
      else do
        let t ← loadReplace .reels loadReels s.heap p x.reels
        if t.ok = false then .ok ⟨t.heap, false, r.lost ++ s.lost ++ t.lost⟩
        else do
          let h ← dropUnless x.metadata.isSome t.heap p .tocMeta
          let h ← dropUnless x.layouts.isSome h p .layoutDefs
          let h ← dropUnless x.reels.isSome h p .reels
          .ok ⟨h, true, r.lost ++ s.lost ++ t.lost⟩

/-- The elements of technical metadata: whether the format loads, the tables of contents, the applications.  `oldTocs` and
    `oldApps` are the pointers of the object, which own the same type of object. Decisions of src/technicalmetadata.c:507-572. -/
structure TechPlan where
  format : Bool
  tocs : Option FilesPlan
  apps : Option FilesPlan
  oldTocs : Option Nat
  oldApps : Option Nat

/-- `free(p->field); p->field = NULL` for a pointer that holds `m` (src/technicalmetadata.c:532-536, 548-553, 567-571). -/
def release (h : Heap) (p m : Nat) : Res Heap := free (unlink h p m) m

/-- The same under a condition, e.g. "if it did not load" (src/technicalmetadata.c:532-536, 548, 567-571; freeing NULL does nothing). -/
def releaseIf (b : Bool) (h : Heap) (p m : Nat) : Res Heap := if b then release h p m else .ok h

/-- `afs_technical_metadata_load_xml` (src/technicalmetadata.c:507-572); `none`: no `TechnicalMetadata` or no `BoxerFormat`. -/
def loadTech (h : Heap) (p : Nat) (plan : Option TechPlan) : Res Loaded :=
  match h.cells p, plan with
  | none, _ => .ub
  | some _, none => .ok ⟨h, false, []⟩
  | some _, some x => do
    let f := h.next
    let r ← loadInto .boxing loadLeaf h p (part h p .boxing) x.format
    let h ← releaseIf (!r.ok) r.heap p f
    let m := h.next
    match x.tocs with
    | none => loadApps x r.lost h p
    | some l => do
      let s ← loadInto .files loadFiles h p x.oldTocs l
      if s.ok then loadApps x (r.lost ++ s.lost) s.heap p
      else do
        let h ← releaseIf r.ok s.heap p f
        let h ← release h p m
        .ok ⟨h, false, r.lost ++ s.lost⟩
where
  /-- The applications (src/technicalmetadata.c:556-572). -/
  loadApps (x : TechPlan) (lost : List Nat) (h : Heap) (p : Nat) : Res Loaded :=
    match x.apps with
    | none => .ok ⟨h, true, lost⟩
    | some l => do
      let m := h.next
      let s ← loadInto .files loadFiles h p x.oldApps l
      let h ← releaseIf (!s.ok) s.heap p m
      .ok ⟨h, true, lost ++ s.lost⟩

/-- A part of control data: the old one is freed, a new one created and loaded; the result is not looked at (src/controldata.c:475-482, 489-496). -/
def loadFresh {α : Type} (k : Kind) (load : Heap → Nat → α → Res Loaded) (h : Heap) (p : Nat) (x : α) : Res Loaded := do
  let h ← dropPart h p k
  let m := h.next
  let h ← append (h.alloc k []).1 p m
  load h m x

/-- New technical metadata has neither list (src/technicalmetadata.c:60-111). -/
def TechPlan.fresh (x : TechPlan) : TechPlan := { x with oldTocs := none, oldApps := none }

/-- `afs_control_data_load_xml` (src/controldata.c:466-504): the two elements, if there are any; what loading the technical metadata finds. -/
def loadControl (h : Heap) (p : Nat) (admin : Bool) (tech : Option (Option TechPlan)) : Res Loaded :=
  match h.cells p with
  | none => .ub
  | some _ =>
    if admin = false then .ok ⟨h, false, []⟩
    else do
      let r ← loadFresh .admin loadLeaf h p true
      match tech with
      | none => .ok ⟨r.heap, false, r.lost⟩
      | some x => do
        let s ← loadFresh .tech loadTech r.heap p (x.map TechPlan.fresh)
        .ok ⟨s.heap, true, r.lost ++ s.lost⟩

end Afs.Refs
