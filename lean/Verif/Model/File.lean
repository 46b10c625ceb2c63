import Verif.Model.Preview
import Verif.Model.FileMeta
/-!
# File entries and file lists (src/tocfile.c, src/tocfiles.c)
-/
namespace Afs

/-- `AFS_TOC_FILE_PARENT` / `AFS_TOC_FILE_NO_PARENT` / `AFS_TOC_FILE_ID_UNDEFINED`
    (inc/tocfile.h:42-47). -/
def FILE_PARENT : Int := -1
/-- inc/tocfile.h:45. -/
def FILE_NO_PARENT : Int := -2
/-- inc/tocfile.h:46. -/
def FILE_ID_UNDEFINED : Int := -1
/-- `enum afs_toc_file_type` (inc/tocfile.h:27-33). -/
def TYPE_UNDEFINED : Nat := 0
/-- inc/tocfile.h:30. -/
def TYPE_DIGITAL : Nat := 1
/-- inc/tocfile.h:31. -/
def TYPE_PREVIEW : Nat := 2
/-- inc/tocfile.h:32. -/
def TYPE_ALL : Nat := 3

/-- `afs_toc_file` (inc/tocfile.h:50-69).  `types` is a bit mask (`int` in C); it is
    represented by its unsigned bit pattern. -/
structure File where
  name : Option Bytes
  date : Option Bytes
  checksum : Option Bytes
  size : Int
  id : Int
  startFrame : Int
  startByte : Int
  endFrame : Int
  endByte : Int
  uniqueId : Option Bytes
  parentId : Int
  types : Nat
  preview : Option Preview
  fileFormat : Option Bytes
  metadata : Option FileMeta
deriving DecidableEq, Repr

/-- `int += unsigned int` (src/tocfile.c:482-483, src/tocfiles.c:643-647): the sum is computed
    in `unsigned int` and converted back to `int`. -/
def addOff (f : Int) (offset : Nat) : Int := intOfU (uOfInt f + offset)

namespace File

/-- `afs_toc_file_create` / `_init` (src/tocfile.c:125-130, 205-230). -/
def create : File :=
  ⟨none, none, none, 0, FILE_ID_UNDEFINED, -1, -1, -1, -1, none, FILE_NO_PARENT, TYPE_UNDEFINED,
   none, none, none⟩

/-- `afs_toc_file_create2` / `_init2` (src/tocfile.c:157-193, 258-298): strings copied, the
    preview and metadata pointers stored. -/
def create2 (name date checksum : Option Bytes) (size id startFrame startByte endFrame endByte : Int)
    (uniqueId : Option Bytes) (parentId : Int) (types : Nat) (preview : Option Preview)
    (fileFormat : Option Bytes) (metadata : Option FileMeta) : File :=
  ⟨strClone name, strClone date, strClone checksum, size, id, startFrame, startByte, endFrame,
   endByte, strClone uniqueId, parentId, types, preview, strClone fileFormat, metadata⟩

/-- `afs_toc_file_clone` (src/tocfile.c:344-368). -/
def clone (f : File) : File :=
  create2 f.name f.date f.checksum f.size f.id f.startFrame f.startByte f.endFrame f.endByte
    f.uniqueId f.parentId f.types (f.preview.map Preview.clone) f.fileFormat
    (f.metadata.map FileMeta.clone)

/-- `afs_toc_file_equal`, non-NULL part (src/tocfile.c:419-438). -/
def eqFields (a b : File) : Bool :=
  strEq a.name b.name && strEq a.date b.date && strEq a.checksum b.checksum &&
  a.size == b.size && a.id == b.id && a.startFrame == b.startFrame &&
  a.startByte == b.startByte && a.endFrame == b.endFrame && a.endByte == b.endByte &&
  strEq a.uniqueId b.uniqueId && a.parentId == b.parentId && a.types == b.types &&
  Preview.equal a.preview b.preview && strEq a.fileFormat b.fileFormat &&
  FileMeta.equal a.metadata b.metadata

/-- `afs_toc_file_equal` (src/tocfile.c:407-439). -/
def equal : Option File → Option File → Bool := ptrEqual eqFields

/-- `afs_toc_file_not_equal` (src/tocfile.c:453-456). -/
def notEqual (a b : Option File) : Bool := if equal a b = true then false else true

/-- `afs_toc_file_add_frame_offset` (src/tocfile.c:469-484). -/
def addFrameOffset (f : File) (offset : Nat) : File :=
  if f.startFrame < 0 ∨ f.endFrame < 0 then f
  else { f with startFrame := addOff f.startFrame offset, endFrame := addOff f.endFrame offset }

/-- `afs_toc_file_add_type` (src/tocfile.c:497-506). -/
def addType (f : File) (t : Nat) : File := { f with types := f.types ||| t }

/-- `afs_toc_file_set_name` … `_set_file_format` (src/tocfile.c:519-641). -/
def setName (f : File) (s : Option Bytes) : File := { f with name := strClone s }
/-- `afs_toc_file_set_date` (src/tocfile.c:546-560). -/
def setDate (f : File) (s : Option Bytes) : File := { f with date := strClone s }
/-- `afs_toc_file_set_checksum` (src/tocfile.c:573-587). -/
def setChecksum (f : File) (s : Option Bytes) : File := { f with checksum := strClone s }
/-- `afs_toc_file_set_unique_id` (src/tocfile.c:600-614). -/
def setUniqueId (f : File) (s : Option Bytes) : File := { f with uniqueId := strClone s }
/-- `afs_toc_file_set_file_format` (src/tocfile.c:627-641). -/
def setFileFormat (f : File) (s : Option Bytes) : File := { f with fileFormat := strClone s }

/-- `afs_toc_file_set_preview` (src/tocfile.c:655-670): also sets the PREVIEW type bit. -/
def setPreview (f : File) (p : Option Preview) : File :=
  { f.addType TYPE_PREVIEW with preview := p.map Preview.clone }

/-- `afs_toc_file_set_metadata` (src/tocfile.c:683-697). -/
def setMetadata (f : File) (m : Option FileMeta) : File :=
  { f with metadata := m.map FileMeta.clone }

/-- `afs_toc_file_is_parent` (src/tocfile.c:1254-1268). -/
def isParent (f : File) : Bool := f.parentId == FILE_PARENT

/-- `afs_toc_file_has_parent` (src/tocfile.c:1200-1214). -/
def hasParent (f : File) : Bool := f.parentId != FILE_NO_PARENT && !f.isParent

/-- `afs_toc_file_is_standalone` (src/tocfile.c:1227-1241). -/
def isStandalone (f : File) : Bool := !f.isParent && !f.hasParent

/-- `afs_toc_file_is_digital` (src/tocfile.c:1281-1295). -/
def isDigital (f : File) : Bool := f.types &&& TYPE_DIGITAL != 0

/-- `afs_toc_file_is_preview` (src/tocfile.c:1308-1322). -/
def isPreview (f : File) : Bool := f.types &&& TYPE_PREVIEW != 0

/-- `afs_toc_file_has_metadata` (src/tocfile.c:1335-1349). -/
def hasMetadata (f : File) : Bool := FileMeta.sourcesCount f.metadata != 0

/-- `afs_toc_file_is_valid` (src/tocfile.c:1364-1422), non-NULL part. -/
def isValid (f : File) : Bool :=
  if f.id < -2 then false
  else if nullOrEmpty f.name || nullOrEmpty f.date then false
  else if f.isDigital = true ∧
      (f.startFrame < 0 ∨ f.startByte < 0 ∨ f.endFrame < f.startFrame ∨ f.checksum = none ∨
       (f.endFrame = f.startFrame ∧ f.endByte < f.startByte)) then false
  else if f.isPreview = true ∧ (f.preview = none ∨ Preview.isValid f.preview = false) then false
  else if f.hasMetadata = true ∧ FileMeta.isValid f.metadata = false then false
  else true

/-- `afs_toc_file_get_duration_frames` (src/tocfile.c:1435-1443); `int` arithmetic. -/
def durationFrames : Option File → Res Int
  | none => .ok 0
  | some f => do
    let d ← ckInt (f.endFrame - f.startFrame)
    ckInt (d + 1)

/-- `afs_toc_file_size` (src/tocfile.c:1456-1464). -/
def getSize : Option File → Int
  | none => 0
  | some f => f.size

end File

/-- `afs_toc_files` (inc/tocfiles.h). Lines 29-34. -/
structure Files where
  tocs : Option (List File)
deriving DecidableEq, Repr

namespace Files

/-- `afs_toc_files_create`: NULL vector. src/tocfiles.c:114-119, 151-161. -/
def create : Files := ⟨none⟩

/-- The stored files, NULL vector read as empty. Test for NULL as in src/tocfiles.c:389-407. -/
def list (f : Files) : List File := f.tocs.getD []

/-- `afs_toc_files_clone` (src/tocfiles.c:234-256). -/
def clone (f : Files) : Files := ⟨vecClone File.clone f.tocs⟩

/-- `afs_toc_files_equal`, non-NULL part (src/tocfiles.c:307-330). -/
def eqFields (a b : Files) : Bool := vecEqual File.eqFields a.tocs b.tocs

/-- `afs_toc_files_equal` (src/tocfiles.c:295-331). -/
def equal : Option Files → Option Files → Bool := ptrEqual eqFields

/-- `afs_toc_files_add_toc` (src/tocfiles.c:348-375). -/
def addToc (f : Files) (x : Option File) : Bool × Files :=
  match x with
  | none => (false, f)
  | some x => if !x.isValid then (false, f) else (true, ⟨vecAppend f.tocs x⟩)

/-- `afs_toc_files_get_toc` (src/tocfiles.c:389-407). -/
def getToc (f : Option Files) (i : Nat) : Option File :=
  match f with
  | none => none
  | some f => vecGet f.tocs i

/-- `afs_toc_files_get_tocs_count` (src/tocfiles.c:421-434). -/
def count : Option Files → Nat
  | none => 0
  | some f => vecSize f.tocs

/-- Search loop of `afs_toc_files_get_first_frame` (src/tocfiles.c:516-532): the first file of
    a requested type decides. -/
def firstLoop (type : Nat) : List File → Int
  | [] => -1
  | f :: fs =>
    if type &&& TYPE_DIGITAL ≠ 0 ∧ f.isDigital = true then f.startFrame
    else if type &&& TYPE_PREVIEW ≠ 0 ∧ f.isPreview = true then Preview.startFrame f.preview
    else firstLoop type fs

/-- `afs_toc_files_get_first_frame` (src/tocfiles.c:475-536). -/
def firstFrame (f : Option Files) (type : Nat) : Int :=
  match f with
  | none => -1
  | some f =>
    if f.list.length = 0 then -1
    else if type = TYPE_UNDEFINED then -1
    else if type = TYPE_ALL then
      let d := firstLoop TYPE_DIGITAL f.list
      let v := firstLoop TYPE_PREVIEW f.list
      if d ≠ -1 ∧ v ≠ -1 then min v d
      else if d ≠ -1 then d
      else if v ≠ -1 then v
      else -1
    else firstLoop type f.list

/-- Search loop of `afs_toc_files_get_last_frame` (src/tocfiles.c:587-606) over the reversed
    list.  `frameCount` is uninitialised when `afs_toc_file_preview_get_frames_count` returns
    early (NULL preview or NULL definitions): undefined behaviour. -/
def lastLoop (type : Nat) (defs : Option LayoutDefs) : List File → Res Int
  | [] => .ok (-1)
  | f :: fs =>
    if type &&& TYPE_DIGITAL ≠ 0 ∧ f.isDigital = true then .ok f.endFrame
    else if type &&& TYPE_PREVIEW ≠ 0 ∧ f.isPreview = true then
      match f.preview, defs with
      | some p, some ds => do
        let r ← Preview.framesCount (some p) (some ds)
        return intOfU (uOfInt (Preview.startFrame (some p)) + r.2 + (two32 - 1))
      | _, _ => .ub
    else lastLoop type defs fs

/-- One non-`ALL` query of `afs_toc_files_get_last_frame` (src/tocfiles.c:554-577, 585-609). -/
def lastFrame1 (f : Files) (type : Nat) (defs : Option LayoutDefs) : Res Int :=
  if f.list.length = 0 then .ok (-1)
  else if type = TYPE_PREVIEW ∧ defs = none then .ok (-1)
  else if type = TYPE_UNDEFINED then .ok (-1)
  else lastLoop type defs f.list.reverse

/-- `afs_toc_files_get_last_frame` (src/tocfiles.c:552-610). -/
def lastFrame (f : Option Files) (type : Nat) (defs : Option LayoutDefs) : Res Int :=
  match f with
  | none => .ok (-1)
  | some f =>
    if type = TYPE_ALL then
      if f.list.length = 0 then .ok (-1)
      else do
        let d ← lastFrame1 f TYPE_DIGITAL none
        let v ← lastFrame1 f TYPE_PREVIEW defs
        return max d v
    else lastFrame1 f type defs

/-- `afs_toc_files_get_duration_frames` (src/tocfiles.c:449-460). -/
def durationFrames (f : Option Files) (type : Nat) (defs : Option LayoutDefs) : Res Int := do
  let first := firstFrame f type
  let last ← lastFrame f type defs
  if first < 0 ∨ last < 0 then return 0
  else
    let d ← ckInt (last - first)
    ckInt (d + 1)

/-- Loop body of `afs_toc_files_add_frame_offset` (src/tocfiles.c:639-654): start and end frame
    are shifted independently. -/
def shiftFile (offset type : Nat) (f : File) : File :=
  let f1 : File :=
    if type &&& TYPE_DIGITAL ≠ 0 then
      { f with
        startFrame := if f.startFrame ≥ 0 then addOff f.startFrame offset else f.startFrame
        endFrame := if f.endFrame ≥ 0 then addOff f.endFrame offset else f.endFrame }
    else f
  if type &&& TYPE_PREVIEW ≠ 0 then
    { f1 with preview := f1.preview.map fun p => p.addFrameOffset offset }
  else f1

/-- `afs_toc_files_add_frame_offset` (src/tocfiles.c:625-656). -/
def addFrameOffset (f : Files) (offset type : Nat) : Files :=
  match f.tocs with
  | none => f
  | some l => ⟨some (l.map (shiftFile offset type))⟩

/-- `afs_toc_files_is_valid` (src/tocfiles.c:670-696). -/
def isValid : Option Files → Bool
  | none => false
  | some f =>
    match f.tocs with
    | none => true
    | some l => l.all File.isValid

end Files
end Afs
