import Verif.Model.Io.Common
import Verif.Model.TocMeta
import Verif.Model.FileMeta
/-!
# Saving and loading metadata (src/tocmetadatasource.c, src/tocmetadata.c,
src/tocdatafilemetadatasource.c, src/tocdatafilemetadata.c)
-/
namespace Afs
open Xml

/-- Removal of the closing brackets `mxmlGetCDATA` leaves on the text
    (src/tocmetadatasource.c:866-878, src/tocdatafilemetadatasource.c:629-641).  For texts
    shorter than two characters the code looks at the characters before the text, which are the
    `[` of `![CDATA[`. -/
def stripBrackets (d : Bytes) : Bytes :=
  if d.drop (d.length - 2) = b! "]]" then d.take (d.length - 2) else d

/-- The walk over the children of the data node (src/tocmetadatasource.c:856-883,
    src/tocdatafilemetadatasource.c:619-646): contents of the first CDATA section. -/
def firstCData : List Node → Option Bytes
  | [] => none
  | n :: ns => match n.getCDATA with
    | some d => some (stripBrackets d)
    | none => firstCData ns

/-- The data stored from a data node, given the data the object already has
    (src/tocmetadatasource.c:855-888, src/tocdatafilemetadatasource.c:618-651). -/
def loadData (old : Option Bytes) (n : Node) : Option Bytes :=
  match firstCData n.children with
  | some d => some d
  | none => match old with
    | some d => some d
    | none => nodeText (some n)

namespace MetaSource

/-- The element `afs_toc_metadata_source_save_xml` adds (src/tocmetadatasource.c:670-698). -/
def saveXml (s : MetaSource) : Option Node :=
  if s.isValid = false then none
  else
    let n := Node.new (b! "source")
    let n := n.setAttr (b! "formatId") s.format
    let n := n.setAttr (b! "id") (some (printInt s.id))
    let n := n.setAttr (b! "fileId") (some (printInt s.fileId))
    let n := match s.data with
      | none => n
      | some d => n.addChild ((Node.new (b! "data")).addChild (Node.newCDATA d))
    let n := match s.tags with
      | none => n
      | some _ => (textNode (b! "tags") s.getTags).foldl Node.addChild n
    some n

/-- `afs_toc_metadata_source_load_xml` (src/tocmetadatasource.c:818-900). -/
def loadXml (s : MetaSource) (node : Node) : Bool × MetaSource :=
  match selfOrFind node (b! "source") with
  | none => (false, s)
  | some n =>
    let s := { s with format := strClone (n.getAttr (b! "formatId")) }
    match intAttr n (b! "id") with
    | none => (false, s)
    | some v =>
      let s := { s with id := v }
      match intAttr n (b! "fileId") with
      | none => (false, s)
      | some v =>
        let s := { s with fileId := v }
        let s := match find n (b! "data") with
          | none => s
          | some d => { s with data := loadData s.data d }
        let s := match find n (b! "tags") with
          | none => s
          | some t => s.setTags (nodeText (some t))
        (s.isValid, s)

/-- `whitespace_cb` (src/tocmetadatasource.c:1024-1063). -/
def cb : SaveCb := cbOf fun name parent w =>
  if name = b! "source" ∧ (w = .beforeOpen ∨ w = .beforeClose) then b! "\n"
  else if parent = b! "source" ∧ (w = .beforeOpen ∨ w = .beforeClose) then b! "\n    "
  else if (name = b! "data" ∨ name = b! "tags") ∧ w = .afterOpen then b! "\n        "
  else []

/-- `afs_toc_metadata_source_save_string` (src/tocmetadatasource.c:713-744). -/
def saveString (s : MetaSource) (compact : Bool) : Option Bytes := docString cb compact s.saveXml
/-- `afs_toc_metadata_source_save_file` (src/tocmetadatasource.c:760-803): validity is tested
    before the file is opened (762). -/
def saveFile (s : MetaSource) (compact : Bool) : Bool × Option Bytes :=
  if s.isValid = false then (false, none) else docFile true cb compact s.saveXml
/-- `afs_toc_metadata_source_load_string` (src/tocmetadatasource.c:915-933). -/
def loadString (x : MetaSource) (s : Bytes) : Bool × MetaSource := loadFromString x.loadXml (false, x) s
/-- `afs_toc_metadata_source_load_file` (src/tocmetadatasource.c:948-983). -/
def loadFile (x : MetaSource) (s : Bytes) : Bool × MetaSource := loadFromFile x.loadXml (false, x) s

end MetaSource

namespace TocMeta

/-- The element `afs_toc_metadata_save_xml` adds (src/tocmetadata.c:562-588). -/
def saveXml (m : Option TocMeta) : Option Node :=
  match m with
  | none => none
  | some m =>
    if TocMeta.isValid (some m) = false then none
    else
      match (m.sources.getD []).mapM MetaSource.saveXml with
      | none => none
      | some l => some (.elem (b! "metadata") [] l)

/-- The loop of `afs_toc_metadata_load_xml` (src/tocmetadata.c:712-737). -/
def loadLoop (m : TocMeta) : List Node → Bool × TocMeta
  | [] => (true, m)
  | n :: ns =>
    let r := MetaSource.create.loadXml n
    if r.1 = false then (false, m)
    else
      let q := m.addSource (some r.2)
      if q.1 = false then (false, m) else loadLoop q.2 ns

/-- `afs_toc_metadata_load_xml` (src/tocmetadata.c:686-740). -/
def loadXml (m : TocMeta) (node : Node) : Bool × TocMeta :=
  match selfOrFind node (b! "metadata") with
  | none => (false, m)
  | some n => loadLoop m (findAll n (b! "source"))

/-- `whitespace_cb` (src/tocmetadata.c:752-799). -/
def cb : SaveCb := cbOf fun name parent w =>
  if name = b! "metadata" ∧ (w = .beforeOpen ∨ w = .beforeClose) then b! "\n"
  else if name = b! "source" ∧ (w = .beforeOpen ∨ w = .beforeClose) then b! "\n    "
  else if parent = b! "source" ∧ (w = .beforeOpen ∨ w = .beforeClose) then b! "\n        "
  else if (name = b! "data" ∨ name = b! "tags") ∧ w = .afterOpen then b! "\n            "
  else []

/-- `afs_toc_metadata_save_string` (src/tocmetadata.c:513-546): without declaration. -/
def saveString (m : TocMeta) (compact : Bool) : Option Bytes := elemString cb compact (saveXml (some m))
/-- `afs_toc_metadata_save_file` (src/tocmetadata.c:456-498). -/
def saveFile (m : TocMeta) (compact : Bool) : Bool × Option Bytes := docFile false cb compact (saveXml (some m))
/-- `afs_toc_metadata_load_string` (src/tocmetadata.c:653-671). -/
def loadString (x : TocMeta) (s : Bytes) : Bool × TocMeta := loadFromString x.loadXml (false, x) s
/-- `afs_toc_metadata_load_file` (src/tocmetadata.c:603-638). -/
def loadFile (x : TocMeta) (s : Bytes) : Bool × TocMeta := loadFromFile x.loadXml (false, x) s

end TocMeta

namespace FileMetaSource

/-- The element `afs_toc_data_file_metadata_source_save_xml` adds
    (src/tocdatafilemetadatasource.c:455-480). -/
def saveXml (s : FileMetaSource) : Option Node :=
  if s.isValid = false then none
  else
    let n := Node.new (b! "source")
    let n := n.setAttr (b! "fileId") (some (printInt s.fileId))
    let n := n.setAttr (b! "sourceId") (some (printInt s.sourceId))
    let n := match s.data with
      | none => n
      | some d =>
        let dn := (Node.new (b! "data")).addChild (Node.newCDATA d)
        let dn := match s.formatId with
          | none => dn
          | some f => dn.setAttr (b! "formatId") (some f)
        n.addChild dn
    some n

/-- `afs_toc_data_file_metadata_source_load_xml` (src/tocdatafilemetadatasource.c:578-657). -/
def loadXml (s : FileMetaSource) (node : Node) : Bool × FileMetaSource :=
  match selfOrFind node (b! "source") with
  | none => (false, s)
  | some n =>
    match intAttr n (b! "fileId") with
    | none => (false, s)
    | some v =>
      let s := { s with fileId := v }
      let s := { s with sourceId := (intAttr n (b! "sourceId")).getD (-1) }
      let s := match find n (b! "data") with
        | none => s
        | some d =>
          let s := { s with data := loadData s.data d }
          { s with formatId := strClone (d.getAttr (b! "formatId")) }
      (s.isValid, s)

/-- `whitespace_cb` (src/tocdatafilemetadatasource.c:669-708). -/
def cb : SaveCb := cbOf fun name parent w =>
  if name = b! "source" ∧ (w = .beforeOpen ∨ w = .beforeClose) then b! "\n"
  else if parent = b! "source" ∧ (w = .beforeOpen ∨ w = .beforeClose) then b! "\n    "
  else if name = b! "data" ∧ w = .afterOpen then b! "\n        "
  else []

/-- `afs_toc_data_file_metadata_source_save_string` (src/tocdatafilemetadatasource.c:409-440). -/
def saveString (s : FileMetaSource) (compact : Bool) : Option Bytes := docString cb compact s.saveXml
/-- `afs_toc_data_file_metadata_source_save_file` (src/tocdatafilemetadatasource.c:350-394):
    validity is tested before the file is opened (352). -/
def saveFile (s : FileMetaSource) (compact : Bool) : Bool × Option Bytes :=
  if s.isValid = false then (false, none) else docFile true cb compact s.saveXml
/-- `afs_toc_data_file_metadata_source_load_string` (src/tocdatafilemetadatasource.c:545-563). -/
def loadString (x : FileMetaSource) (s : Bytes) : Bool × FileMetaSource := loadFromString x.loadXml (false, x) s
/-- `afs_toc_data_file_metadata_source_load_file` (src/tocdatafilemetadatasource.c:495-530). -/
def loadFile (x : FileMetaSource) (s : Bytes) : Bool × FileMetaSource := loadFromFile x.loadXml (false, x) s

end FileMetaSource

namespace FileMeta

/-- The element `afs_toc_data_file_metadata_save_xml` adds (src/tocdatafilemetadata.c:591-622). -/
def saveXml (m : Option FileMeta) : Option Node :=
  match m with
  | none => none
  | some m =>
    if FileMeta.isValid (some m) = false then none
    else
      match (m.sources.getD []).mapM FileMetaSource.saveXml with
      | none => none
      | some l => some (.elem (b! "metadata") [] l)

/-- The loop of `afs_toc_data_file_metadata_load_xml` (src/tocdatafilemetadata.c:739-765). -/
def loadLoop (m : FileMeta) : List Node → Bool × FileMeta
  | [] => (true, m)
  | n :: ns =>
    let r := FileMetaSource.create.loadXml n
    if r.1 = false then (false, m)
    else
      let q := m.addSource (some r.2)
      if q.1 = false then (false, m) else loadLoop q.2 ns

/-- `afs_toc_data_file_metadata_load_xml` (src/tocdatafilemetadata.c:720-768). -/
def loadXml (m : FileMeta) (node : Node) : Bool × FileMeta :=
  match selfOrFind node (b! "metadata") with
  | none => (false, m)
  | some n => loadLoop m (findAll n (b! "source"))

/-- `whitespace_cb` (src/tocdatafilemetadata.c:780-827). -/
def cb : SaveCb := cbOf fun name parent w =>
  if name = b! "metadata" ∧ (w = .beforeOpen ∨ w = .beforeClose) then b! "\n"
  else if name = b! "source" ∧ (w = .beforeOpen ∨ w = .beforeClose) then b! "\n    "
  else if parent = b! "source" ∧ (w = .beforeOpen ∨ w = .beforeClose) then b! "\n        "
  else if name = b! "data" ∧ w = .afterOpen then b! "\n            "
  else []

/-- `afs_toc_data_file_metadata_save_string` (src/tocdatafilemetadata.c:504-530): without
    declaration. -/
def saveString (m : FileMeta) (compact : Bool) : Option Bytes := elemString cb compact (saveXml (some m))
/-- `afs_toc_data_file_metadata_save_file` (src/tocdatafilemetadata.c:447-489). -/
def saveFile (m : FileMeta) (compact : Bool) : Bool × Option Bytes := docFile false cb compact (saveXml (some m))
/-- `afs_toc_data_file_metadata_load_string` (src/tocdatafilemetadata.c:687-705). -/
def loadString (x : FileMeta) (s : Bytes) : Bool × FileMeta := loadFromString x.loadXml (false, x) s
/-- `afs_toc_data_file_metadata_load_file` (src/tocdatafilemetadata.c:637-672). -/
def loadFile (x : FileMeta) (s : Bytes) : Bool × FileMeta := loadFromFile x.loadXml (false, x) s

end FileMeta
end Afs
