import Verif.Model.Reel
import Verif.Model.TocMeta
/-!
# The whole table of contents (src/tocdata.c)
-/
namespace Afs

/-- `afs_toc_data` (inc/tocdata_c.h). Lines 25-36. -/
structure TocData where
  version : Option Bytes
  indexType : Option Bytes
  jobId : Option Bytes
  reelId : Option Bytes
  reels : Option Reels
  metadata : Option TocMeta
  layouts : Option LayoutDefs
deriving DecidableEq, Repr

/-- `strcmp(a, b) > 0` on non-NULL strings: unsigned bytes compared left to right, a proper
    prefix is smaller (used by src/tocdata.c:1818). -/
def strcmpGt : Bytes → Bytes → Bool
  | [], _ => false
  | _ :: _, [] => true
  | a :: as, b :: bs => if a = b then strcmpGt as bs else decide (a > b)

namespace TocData

/-- `AFS_TOC_INDEX_TYPE_JOB`, `AFS_TOC_INDEX_TYPE_REEL` (src/tocdata.c:28-29). -/
def INDEX_JOB : Bytes := b! "job"
/-- src/tocdata.c:29. -/
def INDEX_REEL : Bytes := b! "reel"

/-- `afs_toc_data_create2` (src/tocdata.c:155-170). -/
def create2 (version indexType jobId reelId : Option Bytes) : TocData :=
  ⟨strClone version, strClone indexType, strClone jobId, strClone reelId, none, none, none⟩

/-- `afs_toc_data_create` (src/tocdata.c:122-137): all fields NULL. -/
def create : TocData := ⟨none, none, none, none, none, none, none⟩

/-- `afs_toc_data_clone` (src/tocdata.c:216-230). -/
def clone (t : TocData) : TocData :=
  { create2 t.version t.indexType t.jobId t.reelId with
    reels := t.reels.map Reels.clone
    metadata := t.metadata.map TocMeta.clone
    layouts := t.layouts.map LayoutDefs.clone }

/-- `afs_toc_data_reel_count` (src/tocdata.c:860-868), non-NULL part. -/
def reelCount (t : TocData) : Nat := Reels.count t.reels

/-- `afs_toc_data_metadata_source_count` (src/tocdata.c:882-890), non-NULL part. -/
def metadataSourceCount (t : TocData) : Nat := TocMeta.sourcesCount t.metadata

/-- `afs_toc_data_preview_layout_definition_count` (src/tocdata.c:904-912), non-NULL part. -/
def layoutCount (t : TocData) : Nat := LayoutDefs.getCount t.layouts

/-- `afs_toc_data_equal`, non-NULL part (src/tocdata.c:281-292): containers also count as equal
    when both are empty, however emptiness is represented. -/
def eqFields (a b : TocData) : Bool :=
  strEq a.version b.version && strEq a.indexType b.indexType && strEq a.jobId b.jobId &&
  strEq a.reelId b.reelId &&
  (Reels.equal a.reels b.reels || (a.reelCount == 0 && b.reelCount == 0)) &&
  (TocMeta.equal a.metadata b.metadata ||
    (a.metadataSourceCount == 0 && b.metadataSourceCount == 0)) &&
  (LayoutDefs.equal a.layouts b.layouts || (a.layoutCount == 0 && b.layoutCount == 0))

/-- `afs_toc_data_equal` (src/tocdata.c:269-293). -/
def equal : Option TocData → Option TocData → Bool := ptrEqual eqFields

/-- The reels in order, NULL read as empty. NULL tests as in src/tocdata.c:1085-1110. -/
def reelList (t : TocData) : List Reel :=
  match t.reels with
  | none => []
  | some r => r.list

/-- `afs_toc_data_get_reel_by_index` (src/tocdata.c:307-315). -/
def reelByIndex (t : Option TocData) (i : Nat) : Option Reel :=
  match t with
  | none => none
  | some t => Reels.getReel t.reels i

/-- Loop of `afs_toc_data_get_reel_by_id` (src/tocdata.c:348-357): NULL and "" are the same id. -/
def findReel (id : Option Bytes) : List Reel → Option Reel
  | [] => none
  | r :: rs => if strEq r.id id = true then some r else findReel id rs

/-- `afs_toc_data_get_reel_by_id` (src/tocdata.c:329-358). -/
def reelById (t : Option TocData) (id : Option Bytes) : Option Reel :=
  match t with
  | none => none
  | some t => findReel id t.reelList

/-- Loop of `afs_toc_data_get_file_by_id` (src/tocdata.c:403-414). -/
def findFile (id : Int) : List Reel → Option File
  | [] => none
  | r :: rs =>
    match Reel.fileById (some r) id with
    | some f => some f
    | none => findFile id rs

/-- `afs_toc_data_get_file_by_id` (src/tocdata.c:394-415). -/
def fileById (t : Option TocData) (id : Int) : Option File :=
  match t with
  | none => none
  | some t => findFile id t.reelList

/-- Loop of `afs_toc_data_get_file_by_unique_id` (src/tocdata.c:443-454). -/
def findFileUnique (u : Option Bytes) : List Reel → Res (Option File)
  | [] => .ok none
  | r :: rs => do
    match ← Reel.fileByUniqueId (some r) u with
    | some f => return some f
    | none => findFileUnique u rs

/-- `afs_toc_data_get_file_by_unique_id` (src/tocdata.c:429-455). -/
def fileByUniqueId (t : Option TocData) (u : Option Bytes) : Res (Option File) :=
  if nullOrEmpty u then .ok none
  else
    match t with
    | none => .ok none
    | some t => findFileUnique u t.reelList

/-- `afs_toc_data_get_metadata_source` (src/tocdata.c:372-380). -/
def metadataSource (t : Option TocData) (i : Nat) : Option MetaSource :=
  match t with
  | none => none
  | some t => TocMeta.getSource t.metadata i

/-- `afs_toc_data_get_preview_layout_definition` (src/tocdata.c:469-477). -/
def layout (t : Option TocData) (i : Nat) : Option LayoutDef :=
  match t with
  | none => none
  | some t => LayoutDefs.byIndex t.layouts i

/-- Layout id of the first preview page of a file that takes part in the search of
    `afs_toc_data_get_used_preview_layout_definitions` (src/tocdata.c:539-554): `none` when the
    loop body does `continue` before reading it. -/
def usedLayoutId (f : File) : Option (Option Bytes) :=
  if f.isPreview = true ∧ f.isParent = false then
    match f.preview with
    | none => none
    | some p =>
      match p.pages with
      | none => none
      | some [] => none
      | some (q :: _) => some q.layoutId
  else none

/-- Body and loops of `afs_toc_data_get_used_preview_layout_definitions`
    (src/tocdata.c:520-582) over all files in reel order; `none` = `return NULL` after a failed
    add. -/
def usedLoop (defs : LayoutDefs) : LayoutDefs → List File → Res (Option LayoutDefs)
  | used, [] => .ok (some used)
  | used, f :: fs =>
    match usedLayoutId f with
    | none => usedLoop defs used fs
    | some lid => do
      if ← LayoutDefs.has (some used) lid then usedLoop defs used fs
      else
        match ← LayoutDefs.byId (some defs) lid with
        | none => usedLoop defs used fs
        | some d =>
          let r ← LayoutDefs.add used (some d.clone)
          if r.1 = false then return none
          else usedLoop defs r.2 fs

/-- Inner loop of `sort_preview_layout_definitions_by_id` (src/tocdata.c:1813-1824) on the
    reversed sorted prefix; `strcmp` on NULL ids is undefined behaviour. -/
def insertDefRev (x : LayoutDef) : List LayoutDef → Res (List LayoutDef)
  | [] => .ok [x]
  | p :: ps =>
    match p.id, x.id with
    | some pi, some xi =>
      if strcmpGt pi xi then do
        let r ← insertDefRev x ps
        return p :: r
      else .ok (x :: p :: ps)
    | _, _ => .ub

/-- Outer loop of `sort_preview_layout_definitions_by_id` (src/tocdata.c:1810-1825). -/
def sortDefsLoop : List LayoutDef → List LayoutDef → Res (List LayoutDef)
  | rev, [] => .ok rev.reverse
  | rev, x :: xs => do
    let rev' ← insertDefRev x rev
    sortDefsLoop rev' xs

/-- `sort_preview_layout_definitions_by_id` (src/tocdata.c:1799-1826). -/
def sortDefs (l : List LayoutDef) : Res (List LayoutDef) :=
  match l with
  | [] => .ok []
  | x :: xs => sortDefsLoop [x] xs

/-- `afs_toc_data_get_used_preview_layout_definitions` (src/tocdata.c:492-595). -/
def usedLayouts (t : Option TocData) : Res (Option LayoutDefs) :=
  match t with
  | none => .ok none
  | some t =>
    match t.layouts with
    | none => .ok none
    | some defs =>
      if LayoutDefs.getCount (some defs) = 0 then .ok none
      else if t.reelCount = 0 then .ok none
      else do
        match ← usedLoop defs LayoutDefs.create (t.reelList.flatMap Reel.list) with
        | none => return none
        | some u =>
          match u.defs with
          | none => return some u
          | some l => do
            let l' ← sortDefs l
            return some ⟨some l'⟩

/-- `afs_toc_data_set_version` … `_set_reel_id` (src/tocdata.c:608-703). -/
def setVersion (t : TocData) (s : Option Bytes) : TocData := { t with version := strClone s }
/-- `afs_toc_data_set_index_type` (src/tocdata.c:635-649). -/
def setIndexType (t : TocData) (s : Option Bytes) : TocData := { t with indexType := strClone s }
/-- `afs_toc_data_set_job_id` (src/tocdata.c:662-676). -/
def setJobId (t : TocData) (s : Option Bytes) : TocData := { t with jobId := strClone s }
/-- `afs_toc_data_set_reel_id` (src/tocdata.c:689-703). -/
def setReelId (t : TocData) (s : Option Bytes) : TocData := { t with reelId := strClone s }

/-- `afs_toc_data_add_reel` (src/tocdata.c:720-733): the container is created even when the
    reel is then rejected. -/
def addReel (t : TocData) (x : Option Reel) : Bool × TocData :=
  match x with
  | none => (false, t)
  | some x =>
    let rs := match t.reels with
      | none => Reels.create
      | some r => r
    let r := Reels.addReel rs (some x)
    (r.1, { t with reels := some r.2 })

/-- `afs_toc_data_add_metadata_source` (src/tocdata.c:750-763). -/
def addMetadataSource (t : TocData) (x : Option MetaSource) : Bool × TocData :=
  match x with
  | none => (false, t)
  | some x =>
    let m := match t.metadata with
      | none => TocMeta.create
      | some m => m
    let r := TocMeta.addSource m (some x)
    (r.1, { t with metadata := some r.2 })

/-- `afs_toc_data_add_preview_layout_definition` (src/tocdata.c:780-793). -/
def addLayout (t : TocData) (x : Option LayoutDef) : Res (Bool × TocData) :=
  match x with
  | none => .ok (false, t)
  | some x => do
    let d := match t.layouts with
      | none => LayoutDefs.create
      | some d => d
    let r ← LayoutDefs.add d (some x)
    return (r.1, { t with layouts := some r.2 })

/-- Loop of `afs_toc_data_add_preview_layout_definitions` (src/tocdata.c:834-845). -/
def addLayoutsLoop : TocData → List LayoutDef → Res (Bool × TocData)
  | t, [] => .ok (true, t)
  | t, d :: ds => do
    let r ← addLayout t (some d.clone)
    if r.1 = false then return (false, r.2)
    else addLayoutsLoop r.2 ds

/-- `afs_toc_data_add_preview_layout_definitions` (src/tocdata.c:810-846). -/
def addLayouts (t : TocData) (ds : Option LayoutDefs) : Res (Bool × TocData) :=
  match ds with
  | none => .ok (false, t)
  | some ds =>
    if LayoutDefs.isValid (some ds) = false then .ok (false, t)
    else if LayoutDefs.getCount (some ds) = 0 then .ok (false, t)
    else
      let t1 := match t.layouts with
        | none => { t with layouts := some LayoutDefs.create }
        | some _ => t
      addLayoutsLoop t1 (ds.defs.getD [])

/-- `afs_toc_data_file_count` (src/tocdata.c:926-945); unsigned sum. -/
def fileCount : Option TocData → Nat
  | none => 0
  | some t => u32 ((t.reelList.map fun r => Reel.fileCount (some r)).sum)

/-- Loop of `afs_toc_data_frame_count` (src/tocdata.c:971-977). -/
def frameLoop : List Reel → Nat → Res Nat
  | [], n => .ok n
  | r :: rs, n => do
    let c ← Reel.frameCount (some r) SECTION_DIGITAL
    frameLoop rs (u32 (n + c))

/-- `afs_toc_data_frame_count` (src/tocdata.c:959-978). -/
def frameCount : Option TocData → Res Nat
  | none => .ok 0
  | some t => frameLoop t.reelList 0

/-- `afs_toc_data_first_frame` (src/tocdata.c:992-1013): NULL reels → −1, no reels → 0, else
    the first reel's digital first frame. -/
def firstFrame : Option TocData → Int
  | none => -1
  | some t =>
    match t.reels with
    | none => -1
    | some r =>
      match r.list with
      | [] => 0
      | x :: _ => Reel.firstFrame (some x) SECTION_DIGITAL

/-- `afs_toc_data_last_frame` (src/tocdata.c:1027-1048). -/
def lastFrame : Option TocData → Res Int
  | none => .ok (-1)
  | some t =>
    match t.reels with
    | none => .ok (-1)
    | some r =>
      match r.list.getLast? with
      | none => .ok 0
      | some x => Reel.lastFrame (some x) SECTION_DIGITAL

/-- `afs_toc_data_is_valid` (src/tocdata.c:1062-1110), non-NULL part. -/
def isValid (t : TocData) : Bool :=
  if nullOrEmpty t.version then false
  else if nullOrEmpty t.jobId then false
  else if nullOrEmpty t.reelId then false
  else if orEmpty t.indexType ≠ INDEX_JOB ∧ orEmpty t.indexType ≠ INDEX_REEL then false
  else if Reels.isValid t.reels = false ∧ t.reels ≠ none then false
  else if LayoutDefs.isValid t.layouts = false ∧ t.layouts ≠ none then false
  else if TocMeta.sourcesCount t.metadata ≠ 0 ∧ TocMeta.isValid t.metadata = false then false
  else true

/-- `afs_toc_data_add_frame_offset` (src/tocdata.c:1126-1149). -/
def addFrameOffset (t : TocData) (offset section_ : Nat) : TocData :=
  match t.reels with
  | none => t
  | some r =>
    match r.reels with
    | none => t
    | some l => { t with reels := some ⟨some (l.map fun x => x.addFrameOffset offset section_)⟩ }

end TocData
end Afs
