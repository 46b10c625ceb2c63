import Verif.Model.Io.Preview
import Verif.Model.Io.Meta
import Verif.Model.File
/-!
# Saving and loading file entries and file lists (src/tocfile.c, src/tocfiles.c)

The white-space callbacks of these two files compare the parent's name without a NULL test
(src/tocfile.c:1544, src/tocfiles.c:1622); on a node without parent that is undefined behaviour.
The callback is asked first about the start node of the written tree
(thirdparty/minixml/src/mxml-file.c:2744), so writing a whole document indented is undefined
while writing `document->child` is not.
-/
namespace Afs
open Xml

mutual
/-- The nodes below a node in document order, each with the name of its parent
    (`mxmlGetParent`, mxml-get.c:268-282; parents of visited nodes are always elements). -/
def descUnder : Node → List (Bytes × Node)
  | .text _ => []
  | .elem n _ cs => descUnderList n cs
/-- The same for the children of an element named `p`. mxml-get.c:268-282. -/
def descUnderList (p : Bytes) : List Node → List (Bytes × Node)
  | [] => []
  | c :: cs => (p, c) :: (descUnder c ++ descUnderList p cs)
end

/-- The loop `for (n = find(top, top, name); n != NULL; n = find(n, top, name))` with a test on
    the name of the parent (src/tocfile.c:870-880, src/tocdata.c:1475-1499). -/
def findUnder (node : Node) (parent name : Bytes) : Option Node :=
  ((descUnder node).find? fun x => x.1 == parent && named name x.2).map Prod.snd

/-- Everything a non-compact save of a whole document does when the callback does not test for a
    missing parent: undefined on success of `*_save_xml`.
    `strcmp` on the name of `mxmlGetParent(node)` for the root, e.g. src/tocdatareels.c:666-798. -/
def unguarded {β : Type} (compact : Bool) (x : Option Node) (r : β) : Res β :=
  if compact = false ∧ x.isSome then .ub else .ok r

/-- `if (value != NULL) mxmlElementSetAttr(node, name, value)` (src/tocfile.c:1036-1039). -/
def setAttrOpt (n : Node) (name : Bytes) (v : Option Bytes) : Node :=
  match v with
  | none => n
  | some s => n.setAttr name (some s)

/-- A `*_save_xml` call on a node that leaves it alone when it fails. src/tocfile.c:1070-1080. -/
def addOpt (n : Node) (c : Option Node) : Node :=
  match c with
  | none => n
  | some c => n.addChild c

namespace File

/-- `save_data_v1` (src/tocfile.c:1476-1495): the nodes added. -/
def saveDataV1 (f : File) : List Node :=
  [int64Node (b! "size") f.size,
   ((Node.new (b! "start")).addChild (intNode (b! "frame") f.startFrame)).addChild (intNode (b! "byte") f.startByte),
   ((Node.new (b! "end")).addChild (intNode (b! "frame") f.endFrame)).addChild (intNode (b! "byte") f.endByte)]

/-- `save_data_v2` (src/tocfile.c:1498-1520): the node added. -/
def saveDataV2 (f : File) : Node :=
  let d := Node.new (b! "data")
  let d := (textNode (b! "checksum") f.checksum).foldl Node.addChild d
  let d := d.addChild (int64Node (b! "size") f.size)
  let s := Node.new (b! "start")
  let s := s.setAttr (b! "frame") (some (printInt06 f.startFrame))
  let s := s.setAttr (b! "byte") (some (printInt f.startByte))
  let e := Node.new (b! "end")
  let e := e.setAttr (b! "frame") (some (printInt06 f.endFrame))
  let e := e.setAttr (b! "byte") (some (printInt f.endByte))
  (d.addChild s).addChild e

/-- The element `afs_toc_file_save_xml` adds (src/tocfile.c:1026-1082).  The results of saving the
    preview and the metadata are ignored there. -/
def saveXml (f : File) (dataV1 : Bool) : Option Node :=
  if f.isValid = false then none
  else
    let n := Node.new (b! "file")
    let n := setAttrOpt n (b! "formatId") f.fileFormat
    let n := n.addChild (intNode (b! "id") f.id)
    let n := (textNode (b! "uniqueId") f.uniqueId).foldl Node.addChild n
    let n := (textNode (b! "name") f.name).foldl Node.addChild n
    let n := (textNode (b! "date") f.date).foldl Node.addChild n
    let n := if f.hasParent || f.isParent then n.addChild (intNode (b! "parentId") f.parentId) else n
    let n := if f.isDigital then
        (if dataV1 then f.saveDataV1.foldl Node.addChild n else n.addChild f.saveDataV2)
      else n
    let n := if f.isPreview then addOpt n (f.preview.bind Preview.saveXml) else n
    let n := if f.hasMetadata then addOpt n (FileMeta.saveXml f.metadata) else n
    some n

/-- `afs_toc_file_load_data_v1` (src/tocfile.c:929-963). -/
def loadDataV1 (f : File) (n : Node) : File :=
  let f := match find n (b! "size") with
    | none => f
    | some s => { f with size := strtol ((nodeTextSafe (some s) (b! "0")).getD []) }
  let f := { f with checksum := nodeTextSafe (find n (b! "checksum")) [] }
  let f := match find n (b! "start") with
    | none => f
    | some s => { f with
        startFrame := (intElement s (b! "frame")).getD f.startFrame
        startByte := (intElement s (b! "byte")).getD f.startByte }
  match find n (b! "end") with
  | none => f
  | some s => { f with
      endFrame := (intElement s (b! "frame")).getD f.endFrame
      endByte := (intElement s (b! "byte")).getD f.endByte }

/-- `afs_toc_file_load_data_v2` (src/tocfile.c:977-1011). -/
def loadDataV2 (f : File) (n : Node) : File :=
  let f := match find n (b! "size") with
    | none => f
    | some s => { f with size := strtol ((nodeTextSafe (some s) (b! "0")).getD []) }
  let f := { f with checksum := nodeTextSafe (find n (b! "checksum")) [] }
  let f := match find n (b! "start") with
    | none => f
    | some s => { f with
        startFrame := (intAttr s (b! "frame")).getD f.startFrame
        startByte := (intAttr s (b! "byte")).getD f.startByte }
  match find n (b! "end") with
  | none => f
  | some s => { f with
      endFrame := (intAttr s (b! "frame")).getD f.endFrame
      endByte := (intAttr s (b! "byte")).getD f.endByte }

/-- The part of `afs_toc_file_load_xml` about text fields and numbers (src/tocfile.c:808-834). -/
def loadFields (f : File) (n : Node) : File :=
  let f := { f with fileFormat := match strClone (n.getAttr (b! "formatId")) with
      | none => some (b! "undefined")
      | some s => some s }
  let f := match find n (b! "name") with
    | none => f
    | some x => { f with name := nodeText (some x) }
  let f := { f with id := (intElement n (b! "id")).getD f.id }
  let f := match find n (b! "uniqueId") with
    | none => f
    | some x => { f with uniqueId := nodeText (some x) }
  let f := match find n (b! "date") with
    | none => f
    | some x => { f with date := nodeText (some x) }
  { f with parentId := match intElement n (b! "parentId") with
      | some v => v
      | none => match intElement n (b! "parentid") with
        | some v => v
        | none => FILE_NO_PARENT }

/-- The preview part of `afs_toc_file_load_xml` (src/tocfile.c:836-851). -/
def loadPreview (f : File) (n : Node) : Bool × File :=
  match find n (b! "preview") with
  | none => (true, f)
  | some p =>
    let f := f.addType TYPE_PREVIEW
    let r := Preview.create.loadXml p
    if r.1 = false then (false, f) else (true, { f with preview := some r.2 })

/-- The metadata part of `afs_toc_file_load_xml` (src/tocfile.c:853-866). -/
def loadMetadata (f : File) (n : Node) : Bool × File :=
  match find n (b! "metadata") with
  | none => (true, f)
  | some p =>
    let r := FileMeta.create.loadXml p
    if r.1 = false then (false, f) else (true, { f with metadata := some r.2 })

/-- The data part of `afs_toc_file_load_xml` (src/tocfile.c:868-912). -/
def loadDataPart (f : File) (n : Node) : File :=
  match findUnder n (b! "file") (b! "data") with
  | some d => (f.loadDataV2 d).addType TYPE_DIGITAL
  | none =>
    let f := f.loadDataV1 n
    let f := if (find n (b! "size")).isSome || (find n (b! "start")).isSome || (find n (b! "end")).isSome
      then f.addType TYPE_DIGITAL else f
    if f.isValid = false then { f with types := TYPE_UNDEFINED } else f

/-- `afs_toc_file_load_xml` (src/tocfile.c:792-915). -/
def loadXml (f : File) (node : Node) : Bool × File :=
  match selfOrFind node (b! "file") with
  | none => (false, f)
  | some n =>
    let r := (f.loadFields n).loadPreview n
    if r.1 = false then r
    else
      let r := r.2.loadMetadata n
      if r.1 = false then r else (true, r.2.loadDataPart n)

/-- `whitespace_cb` (src/tocfile.c:1523-1626) on nodes with a parent. -/
def cb : SaveCb := fun anc n w =>
  let name := n.element.getD []
  let parent := anc.head?.getD []
  if name = b! "file" ∧ (w = .beforeOpen ∨ w = .beforeClose) then b! "\n"
  else if parent = b! "file" ∧ (w = .beforeOpen ∨ w = .beforeClose) then b! "\n    "
  else if parent = b! "file" ∧ name ≠ b! "start" ∧ name ≠ b! "end" ∧ name ≠ b! "preview" ∧
      w = .afterOpen ∧ name ≠ b! "data" ∧ name ≠ b! "metadata" then b! "\n        "
  else if (parent = b! "start" ∨ parent = b! "end") ∧ (w = .beforeOpen ∨ w = .beforeClose) then b! "\n        "
  else if (parent = b! "start" ∨ parent = b! "end") ∧ w = .afterOpen then b! "\n            "
  else if name = b! "pages" ∧ (w = .beforeOpen ∨ w = .beforeClose) then b! "\n        "
  else if parent = b! "data" ∧ (name = b! "checksum" ∨ name = b! "size" ∨ name = b! "start" ∨ name = b! "end") ∧
      (w = .beforeOpen ∨ w = .beforeClose) then b! "\n        "
  else if parent = b! "data" ∧ name = b! "size" ∧ w = .afterOpen then b! "\n            "
  else if parent = b! "data" ∧ name = b! "checksum" ∧ w = .afterOpen ∧ (nodeText (some n)).getD [] ≠ [] then
    b! "\n            "
  else if parent = b! "metadata" ∧ (w = .beforeOpen ∨ w = .beforeClose) then b! "\n        "
  else if parent = b! "source" ∧ (w = .beforeOpen ∨ w = .beforeClose) then b! "\n            "
  else if parent = b! "source" ∧ w = .afterOpen then b! "\n                "
  else []

/-- `afs_toc_file_save_string` (src/tocfile.c:1097-1128): without declaration; the callback's start
    node has the declaration as parent. -/
def saveString (f : File) (compact dataV1 : Bool) : Option Bytes := elemString cb compact (f.saveXml dataV1)
/-- `afs_toc_file_save_file` (src/tocfile.c:1144-1187): the file is opened first; the whole
    document is written, so indented output is undefined behaviour. -/
def saveFile (f : File) (compact dataV1 : Bool) : Res (Bool × Option Bytes) :=
  unguarded compact (f.saveXml dataV1) (docFile true cb compact (f.saveXml dataV1))
/-- `afs_toc_file_load_string` (src/tocfile.c:760-778). -/
def loadString (x : File) (s : Bytes) : Bool × File := loadFromString x.loadXml (false, x) s
/-- `afs_toc_file_load_file` (src/tocfile.c:711-746). -/
def loadFile (x : File) (s : Bytes) : Bool × File := loadFromFile x.loadXml (false, x) s

end File

namespace Files

/-- The element `afs_toc_files_save_xml` adds (src/tocfiles.c:815-841). -/
def saveXml (f : Files) : Option Node :=
  if Files.isValid (some f) = false then none
  else match f.list.mapM (fun x => File.saveXml x false) with
    | none => none
    | some l => some (.elem (b! "files") [] l)

/-- The loop of `afs_toc_files_load_xml` (src/tocfiles.c:949-973). -/
def loadLoop (f : Files) : List Node → Bool × Files
  | [] => (true, f)
  | n :: ns =>
    let r := File.create.loadXml n
    if r.1 = false then (false, f)
    else
      let q := f.addToc (some r.2)
      if q.1 = false then (false, f) else loadLoop q.2 ns

/-- `afs_toc_files_load_xml` (src/tocfiles.c:939-976). -/
def loadXml (f : Files) (node : Node) : Bool × Files := f.loadLoop (findAll node (b! "file"))

/-- `whitespace_cb` (src/tocfiles.c:1593-1669) on nodes with a parent. -/
def cb : SaveCb := cbOf fun name parent w =>
  if name = b! "files" ∧ (w = .beforeOpen ∨ w = .beforeClose) then b! "\n"
  else if name = b! "file" ∧ (w = .beforeOpen ∨ w = .beforeClose) then b! "\n    "
  else if parent = b! "file" ∧ name ≠ b! "data" ∧ name ≠ b! "preview" ∧ (w = .beforeOpen ∨ w = .beforeClose) then b! "\n        "
  else if parent = b! "file" ∧ name ≠ b! "data" ∧ name ≠ b! "preview" ∧ w = .afterOpen then b! "\n            "
  else if (name = b! "data" ∨ name = b! "preview") ∧ (w = .beforeOpen ∨ w = .beforeClose) then b! "\n        "
  else if parent = b! "data" ∧ (w = .beforeOpen ∨ w = .beforeClose) then b! "\n            "
  else if parent = b! "data" ∧ w = .afterOpen ∧ name ≠ b! "start" ∧ name ≠ b! "end" then b! "\n                "
  else if parent = b! "preview" ∧ w = .beforeOpen then b! "\n            "
  else []

/-- `afs_toc_files_save_string` (src/tocfiles.c:769-800): the whole document, so indented output
    is undefined behaviour. -/
def saveString (f : Files) (compact : Bool) : Res (Option Bytes) :=
  unguarded compact f.saveXml (docString cb compact f.saveXml)
/-- `afs_toc_files_save_file` (src/tocfiles.c:712-754). -/
def saveFile (f : Files) (compact : Bool) : Res (Bool × Option Bytes) :=
  unguarded compact f.saveXml (docFile false cb compact f.saveXml)
/-- `afs_toc_files_load_string` (src/tocfiles.c:906-924). -/
def loadString (x : Files) (s : Bytes) : Bool × Files := loadFromString x.loadXml (false, x) s
/-- `afs_toc_files_load_file` (src/tocfiles.c:856-891). -/
def loadFile (x : Files) (s : Bytes) : Bool × Files := loadFromFile x.loadXml (false, x) s

end Files
end Afs
