import Verif.Model.RefsLoad
import Verif.Model.ControlData
import Verif.Model.Io.TocData
/-!
# What a document holds, for the functions of Model/RefsLoad.lean

The plan for a document: which elements the loading function finds, which of them load and which are accepted.  This is where the two
models of the same C functions meet: Model/RefsLoad.lean says what they do to objects, Model/Io/ what they do to values.
-/
namespace Afs.Refs
open Afs Afs.Xml

/-- The loop over the elements of a container (e.g. src/tocfiles.c:939-976): each element is loaded into a new object, and the object added; the
    loop ends with the first that does not load or is refused. -/
def planLoop {σ β α : Type} (load : Node → Bool × β) (sub : Node → α) (add : σ → β → Bool × σ) : σ → List Node → List (α × Bool)
  | _, [] => []
  | s, n :: ns =>
    if (load n).1 = false then [(sub n, true)]
    else if (add s (load n).2).1 = false then [(sub n, false)]
    else (sub n, true) :: planLoop load sub add (add s (load n).2).2 ns

/-- `afs_toc_file_preview_load_xml` (src/tocfilepreview.c:826-886). -/
def previewPlan (node : Node) : Leaves :=
  (selfOrFind node (b! "preview")).map fun n =>
    planLoop Page.create.loadXml (fun x => (Page.create.loadXml x).1) (fun p x => Preview.addPage p (some x))
      { Preview.create with dpi := (intElement n (b! "dpi")).getD Preview.create.dpi } (n.children.filter (named (b! "pages")))

/-- `afs_toc_data_file_metadata_load_xml` (src/tocdatafilemetadata.c:720-768). -/
def fileMetaPlan (node : Node) : Leaves :=
  (selfOrFind node (b! "metadata")).map fun n =>
    planLoop FileMetaSource.create.loadXml (fun x => (FileMetaSource.create.loadXml x).1) (fun m x => FileMeta.addSource m (some x))
      FileMeta.create (findAll n (b! "source"))

/-- `afs_toc_metadata_load_xml` (src/tocmetadata.c:686-740). -/
def tocMetaPlan (node : Node) : Leaves :=
  (selfOrFind node (b! "metadata")).map fun n =>
    planLoop MetaSource.create.loadXml (fun x => (MetaSource.create.loadXml x).1) (fun m x => TocMeta.addSource m (some x))
      TocMeta.create (findAll n (b! "source"))

/-- `afs_toc_preview_sections_load_xml` (src/toc/previewsections.c:655-699). -/
def sectionsPlan (node : Node) : Leaves :=
  (selfOrFind node (b! "sections")).map fun n =>
    planLoop Section.create.loadXml (fun x => (Section.create.loadXml x).1) (fun s x => Sections.append s (some x))
      Sections.create (findAll n (b! "section"))

/-- `afs_toc_file_load_xml` (src/tocfile.c:792-915). -/
def filePlan (node : Node) : Option FilePlan :=
  (selfOrFind node (b! "file")).map fun n => ⟨(find n (b! "preview")).map previewPlan, (find n (b! "metadata")).map fileMetaPlan⟩

/-- `afs_toc_files_load_xml` (src/tocfiles.c:939-976). -/
def filesPlan (node : Node) : FilesPlan :=
  planLoop File.create.loadXml filePlan (fun f x => Files.addToc f (some x)) Files.create (findAll node (b! "file"))

/-- `afs_toc_data_reel_load_xml` (src/tocdatareel.c:1189-1230). -/
def reelPlan (node : Node) : Option (Option FilesPlan) :=
  match selfOrFind node (b! "reel") with
  | none => none
  | some n => match find n (b! "id") with
    | none => none
    | some _ => some ((find n (b! "files")).map filesPlan)

/-- `afs_toc_data_reels_load_xml` (src/tocdatareels.c:614-653). -/
def reelsPlan (node : Node) : ReelsPlan :=
  planLoop Reel.create.loadXml reelPlan (fun r x => Reels.addReel r (some x)) Reels.create (Reels.loadNodes node)

/-- `afs_toc_preview_layout_definition_load_xml` (src/toc/previewlayoutdefinition.c:700-734). -/
def layoutPlan (node : Node) : Option Leaves := (selfOrFind node (b! "previewLayout")).map sectionsPlan

/-- `afs_toc_preview_layout_definitions_add_layout_definition` (src/toc/previewlayoutdefinitions.c:444-475) where it is defined. -/
def addLayout (d : LayoutDefs) (x : LayoutDef) : Bool × LayoutDefs :=
  match d.add (some x) with
  | .ok q => q
  | .ub => (false, d)

/-- `afs_toc_preview_layout_definitions_load_xml` (src/toc/previewlayoutdefinitions.c:824-868). -/
def layoutsPlan (node : Node) : LayoutsPlan :=
  (selfOrFind node (b! "layoutDefinitions")).map fun n =>
    planLoop LayoutDef.create.loadXml layoutPlan addLayout LayoutDefs.create (findAll n (b! "previewLayout"))

/-- `afs_toc_data_load_xml` (src/tocdata.c:1416-1562). -/
def tocPlan (node : Node) : Option TocPlan :=
  (selfOrFind node (b! "Index")).map fun n =>
    ⟨(findUnder n (b! "Index") (b! "metadata")).map tocMetaPlan, (find n (b! "layoutDefinitions")).map layoutsPlan,
     (find n (b! "reels")).map reelsPlan⟩

/-- `afs_technical_metadata_load_xml` on an object without parts (src/technicalmetadata.c:506-574). -/
def techPlan (L : ConfigLib) (node : Node) : Option TechPlan :=
  match find node (b! "TechnicalMetadata") with
  | none => none
  | some n => match find n (b! "BoxerFormat") with
    | none => none
    | some b => some ⟨((Format.create : Format L).loadXml b).1, (find n (b! "Tocs")).map filesPlan, (find n (b! "Applications")).map filesPlan, none, none⟩

/-- `afs_control_data_load_xml` (src/controldata.c:466-502): the technical metadata are there or not, with their plan. -/
def controlPlan (L : ConfigLib) (node : Node) : Bool × Option (Option TechPlan) :=
  ((find node (b! "AdministrativeMetadata")).isSome, (find node (b! "TechnicalMetadata")).map fun _ => techPlan L node)

end Afs.Refs
