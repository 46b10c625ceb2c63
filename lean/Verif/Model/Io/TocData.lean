import Verif.Model.Io.File
import Verif.Model.Io.Layout
import Verif.Model.TocData
/-!
# Saving and loading reels, reel lists and the whole table of contents
(src/tocdatareel.c, src/tocdatareels.c, src/tocdata.c)

The white-space callbacks of these files test for missing ancestors, so indented output is
defined here.
-/
namespace Afs
open Xml

/-- `where == MXML_WS_BEFORE_OPEN || where == MXML_WS_BEFORE_CLOSE` (e.g. src/tocdata.c:1595). -/
abbrev wsBefore (w : Ws) : Prop := w = .beforeOpen ∨ w = .beforeClose

/-- The string literals `"\n"` followed by `k` blanks returned by the callbacks
    (e.g. src/tocdata.c:1597, 1605). -/
def indent (k : Nat) : Bytes := 10 :: List.replicate k 32

namespace Reel

/-- The element `afs_toc_data_reel_save_xml` adds (src/tocdatareel.c:1069-1091). -/
def saveXml (r : Reel) : Option Node :=
  if r.isValid = false then none
  else
    let n := (textNode (b! "id") r.id).foldl Node.addChild (Node.new (b! "reel"))
    match r.files with
    | none => some n
    | some f => (Files.saveXml f).map n.addChild

/-- `afs_toc_data_reel_load_xml` (src/tocdatareel.c:1189-1230).  On failure the fields set so far
    stay set. -/
def loadXml (r : Reel) (node : Node) : Bool × Reel :=
  match selfOrFind node (b! "reel") with
  | none => (false, r)
  | some n =>
    match find n (b! "id") with
    | none => (false, r)
    | some i =>
      let r := { r with id := nodeText (some i) }
      match find n (b! "files") with
      | none => (true, r)
      | some fn =>
        let q := Files.create.loadXml fn
        (q.1, { r with files := some q.2 })

/-- `whitespace_cb` (src/tocdatareel.c:1307-1441). -/
def cb : SaveCb := fun anc n w =>
  let name := n.element.getD []
  let parent := anc[0]?.getD []
  let grand := anc[1]?.getD []
  if name = b! "reel" ∧ wsBefore w then indent 0
  else if parent = b! "reel" ∧ name = b! "id" ∧ w = .afterOpen then indent 8
  else if parent = b! "reel" ∧ wsBefore w then indent 4
  else if name = b! "file" ∧ wsBefore w then indent 8
  else if parent = b! "file" ∧ name ≠ b! "data" ∧ name ≠ b! "preview" ∧ name ≠ b! "metadata" ∧ wsBefore w then indent 12
  else if parent = b! "file" ∧ name ≠ b! "data" ∧ name ≠ b! "preview" ∧ name ≠ b! "metadata" ∧ w = .afterOpen then indent 16
  else if name = b! "data" ∧ parent = b! "file" ∧ wsBefore w then indent 12
  else if parent = b! "data" ∧ grand = b! "file" ∧ wsBefore w then indent 16
  else if parent = b! "data" ∧ grand = b! "file" ∧ w = .afterOpen ∧ name ≠ b! "start" ∧ name ≠ b! "end" then indent 20
  else if name = b! "preview" ∧ parent = b! "file" ∧ wsBefore w then indent 12
  else if parent = b! "preview" ∧ w = .beforeOpen then indent 16
  else if name = b! "metadata" ∧ parent = b! "file" ∧ wsBefore w then indent 12
  else if parent = b! "metadata" ∧ wsBefore w then indent 16
  else if parent = b! "source" ∧ wsBefore w then indent 20
  else if parent = b! "data" ∧ grand = b! "source" ∧ w = .beforeOpen then indent 24
  else []

/-- `afs_toc_data_reel_save_string` (src/tocdatareel.c:1023-1054). -/
def saveString (r : Reel) (compact : Bool) : Option Bytes := docString cb compact r.saveXml
/-- `afs_toc_data_reel_save_file` (src/tocdatareel.c:965-1008): validity is tested before the file
    is opened. -/
def saveFile (r : Reel) (compact : Bool) : Bool × Option Bytes :=
  if r.isValid = false then (false, none) else docFile true cb compact r.saveXml
/-- `afs_toc_data_reel_load_string` (src/tocdatareel.c:1156-1174). -/
def loadString (x : Reel) (s : Bytes) : Bool × Reel := loadFromString x.loadXml (false, x) s
/-- `afs_toc_data_reel_load_file` (src/tocdatareel.c:1106-1141). -/
def loadFile (x : Reel) (s : Bytes) : Bool × Reel := loadFromFile x.loadXml (false, x) s

end Reel

namespace Reels

/-- The element `afs_toc_data_reels_save_xml` adds (src/tocdatareels.c:490-516). -/
def saveXml (r : Reels) : Option Node :=
  if Reels.isValid (some r) = false then none
  else match r.list.mapM Reel.saveXml with
    | none => none
    | some l => some (.elem (b! "reels") [] l)

/-- The nodes visited by the loop of `afs_toc_data_reels_load_xml` (src/tocdatareels.c:622-650).
    The first search stays within the `reels` element, the following ones go on through the rest of
    the node that was passed in (649). -/
def loadNodes (node : Node) : List Node :=
  if named (b! "reels") node then findAll node (b! "reel")
  else match find node (b! "reels") with
    | none => []
    | some r =>
      if (find r (b! "reel")).isNone then []
      else ((descendants node).dropWhile fun x => !named (b! "reels") x).filter (named (b! "reel"))

/-- The loop of `afs_toc_data_reels_load_xml` (src/tocdatareels.c:626-650). -/
def loadLoop (r : Reels) : List Node → Bool × Reels
  | [] => (true, r)
  | n :: ns =>
    let q := Reel.create.loadXml n
    if q.1 = false then (false, r)
    else
      let a := r.addReel (some q.2)
      if a.1 = false then (false, r) else loadLoop a.2 ns

/-- `afs_toc_data_reels_load_xml` (src/tocdatareels.c:614-653). -/
def loadXml (r : Reels) (node : Node) : Bool × Reels := r.loadLoop (loadNodes node)

/-- `whitespace_cb` (src/tocdatareels.c:666-798). -/
def cb : SaveCb := fun anc n w =>
  let name := n.element.getD []
  let parent := anc[0]?.getD []
  let grand := anc[1]?.getD []
  if name = b! "reels" ∧ wsBefore w then indent 0
  else if name = b! "reel" ∧ wsBefore w then indent 4
  else if name = b! "id" ∧ parent = b! "reel" ∧ wsBefore w then indent 8
  else if name = b! "id" ∧ parent = b! "reel" ∧ w = .afterOpen then indent 12
  else if name = b! "files" ∧ wsBefore w then indent 8
  else if name = b! "file" ∧ wsBefore w then indent 12
  else if parent = b! "file" ∧ name ≠ b! "data" ∧ name ≠ b! "preview" ∧ name ≠ b! "metadata" ∧ wsBefore w then indent 16
  else if parent = b! "file" ∧ name ≠ b! "data" ∧ name ≠ b! "preview" ∧ name ≠ b! "metadata" ∧ w = .afterOpen then indent 20
  else if ((name = b! "data" ∧ parent = b! "file") ∨ name = b! "preview" ∨ name = b! "metadata") ∧ wsBefore w then indent 16
  else if parent = b! "metadata" ∧ grand = b! "file" ∧ wsBefore w then indent 20
  else if parent = b! "source" ∧ grand = b! "metadata" ∧ wsBefore w then indent 24
  else if parent = b! "data" ∧ grand = b! "source" ∧ wsBefore w then indent 28
  else if parent = b! "data" ∧ grand = b! "file" ∧ wsBefore w then indent 20
  else if parent = b! "data" ∧ grand = b! "file" ∧ w = .afterOpen ∧ name ≠ b! "start" ∧ name ≠ b! "end" then indent 24
  else if parent = b! "preview" ∧ w = .beforeOpen then indent 20
  else []

/-- `afs_toc_data_reels_save_string` (src/tocdatareels.c:444-475). -/
def saveString (r : Reels) (compact : Bool) : Option Bytes := docString cb compact r.saveXml
/-- `afs_toc_data_reels_save_file` (src/tocdatareels.c:387-429). -/
def saveFile (r : Reels) (compact : Bool) : Bool × Option Bytes := docFile false cb compact r.saveXml
/-- `afs_toc_data_reels_load_string` (src/tocdatareels.c:581-599). -/
def loadString (x : Reels) (s : Bytes) : Bool × Reels := loadFromString x.loadXml (false, x) s
/-- `afs_toc_data_reels_load_file` (src/tocdatareels.c:531-566). -/
def loadFile (x : Reels) (s : Bytes) : Bool × Reels := loadFromFile x.loadXml (false, x) s

end Reels

namespace TocData

/-- A container is written if it has entries; `none` is the failure of its `*_save_xml`
    (src/tocdata.c:1293-1315). -/
def savePart (n : Node) (count : Nat) (x : Option Node) : Option Node :=
  if count = 0 then some n else x.map n.addChild

/-- The element `afs_toc_data_save_xml` adds (src/tocdata.c:1269-1318). -/
def saveXml (t : TocData) : Option Node :=
  if t.isValid = false then none
  else
    let n := setAttrOpt (Node.new (b! "Index")) (b! "version") t.version
    let n := (textNode (b! "indexType") t.indexType).foldl Node.addChild n
    let n := (textNode (b! "jobId") t.jobId).foldl Node.addChild n
    let n := (textNode (b! "reelId") t.reelId).foldl Node.addChild n
    (((savePart n (TocMeta.sourcesCount t.metadata) (TocMeta.saveXml t.metadata)).bind fun n =>
      savePart n (LayoutDefs.getCount t.layouts) (LayoutDefs.saveXml t.layouts)).bind fun n =>
      savePart n (Reels.count t.reels) (t.reels.bind Reels.saveXml))

/-- The text fields in `afs_toc_data_load_xml` (src/tocdata.c:1433-1471). -/
def loadFields (t : TocData) (n : Node) : TocData :=
  { t with
    version := strClone (n.getAttr (b! "version"))
    indexType := match find n (b! "indexType") with
      | none => t.indexType
      | some x => nodeText (some x)
    jobId := match find n (b! "jobId") with
      | none => t.jobId
      | some x => nodeText (some x)
    reelId := match find n (b! "reelId") with
      | none => t.reelId
      | some x => nodeText (some x) }

/-- Loading the metadata of the index, not of a file in it (src/tocdata.c:1473-1499); `none` in the
    second component when there is none, which sets the field to NULL in the end (1541-1545). -/
def loadMeta (n : Node) : Bool × Option TocMeta :=
  match findUnder n (b! "Index") (b! "metadata") with
  | none => (true, none)
  | some m => let r := TocMeta.create.loadXml m; (r.1, some r.2)

/-- Loading the layout definitions (src/tocdata.c:1501-1520, 1547-1551). -/
def loadLayouts (n : Node) : Res (Bool × Option LayoutDefs) :=
  match find n (b! "layoutDefinitions") with
  | none => .ok (true, none)
  | some m => do
    let r ← LayoutDefs.create.loadXml m
    return (r.1, some r.2)

/-- Loading the reels (src/tocdata.c:1522-1539, 1553-1557). -/
def loadReels (n : Node) : Bool × Option Reels :=
  match find n (b! "reels") with
  | none => (true, none)
  | some m => let r := Reels.create.loadXml m; (r.1, some r.2)

/-- The fields found are stored as soon as they are loaded, missing ones are set to NULL only at
    the end (src/tocdata.c:1489-1557): the object after a failure following the load of `new`. -/
def keepOld {α : Type} (new old : Option α) : Option α :=
  match new with
  | none => old
  | some x => some x

/-- `afs_toc_data_load_xml` (src/tocdata.c:1416-1562). -/
def loadXml (t : TocData) (node : Node) : Res (Bool × TocData) :=
  match selfOrFind node (b! "Index") with
  | none => .ok (false, t)
  | some n =>
    let t := t.loadFields n
    let m := loadMeta n
    if m.1 = false then .ok (false, t)
    else do
      let l ← loadLayouts n
      if l.1 = false then return (false, { t with metadata := keepOld m.2 t.metadata })
      else
        let r := loadReels n
        if r.1 = false then
          return (false, { t with metadata := keepOld m.2 t.metadata, layouts := keepOld l.2 t.layouts })
        else return (true, { t with metadata := m.2, layouts := l.2, reels := r.2 })

/-- `whitespace_cb` (src/tocdata.c:1575-1796). -/
def cb : SaveCb := fun anc n w =>
  let name := n.element.getD []
  let parent := anc[0]?.getD []
  let grand := anc[1]?.getD []
  let great := anc[2]?.getD []
  if name = b! "Index" ∧ wsBefore w then indent 0
  else if parent = b! "Index" ∧ wsBefore w then indent 4
  else if (name = b! "indexType" ∨ name = b! "jobId" ∨ name = b! "reelId") ∧ w = .afterOpen then indent 8
  else if name = b! "metadata" ∧ parent = b! "Index" ∧ wsBefore w then indent 4
  else if name = b! "source" ∧ parent = b! "metadata" ∧ grand = b! "Index" ∧ wsBefore w then indent 8
  else if parent = b! "source" ∧ grand = b! "metadata" ∧ great = b! "Index" ∧ wsBefore w then indent 12
  else if (name = b! "data" ∨ name = b! "tags") ∧ grand = b! "metadata" ∧ great = b! "Index" ∧ w = .afterOpen then indent 16
  else if name = b! "layoutDefinitions" ∧ wsBefore w then indent 4
  else if name = b! "previewLayout" ∧ wsBefore w then indent 8
  else if (name = b! "id" ∨ name = b! "name" ∨ name = b! "sections") ∧ parent = b! "previewLayout" ∧ wsBefore w then indent 12
  else if parent = b! "sections" ∧ wsBefore w then indent 16
  else if (name = b! "id" ∨ name = b! "name") ∧ parent = b! "previewLayout" ∧ w = .afterOpen then indent 16
  else if name = b! "reel" ∧ wsBefore w then indent 8
  else if parent = b! "reel" ∧ name = b! "id" ∧ wsBefore w then indent 12
  else if parent = b! "reel" ∧ name = b! "id" ∧ w = .afterOpen then indent 16
  else if name = b! "files" ∧ wsBefore w then indent 12
  else if name = b! "file" ∧ wsBefore w then indent 16
  else if parent = b! "file" ∧ name ≠ b! "data" ∧ name ≠ b! "preview" ∧ name ≠ b! "metadata" ∧ wsBefore w then indent 20
  else if parent = b! "file" ∧ name ≠ b! "data" ∧ name ≠ b! "preview" ∧ name ≠ b! "metadata" ∧ w = .afterOpen then indent 24
  else if name = b! "preview" ∧ wsBefore w then indent 20
  else if name = b! "metadata" ∧ parent = b! "file" ∧ wsBefore w then indent 20
  else if name = b! "source" ∧ parent = b! "metadata" ∧ grand = b! "file" ∧ wsBefore w then indent 24
  else if name = b! "data" ∧ parent = b! "source" ∧ grand = b! "metadata" ∧ great = b! "file" ∧ wsBefore w then indent 28
  else if name = b! "data" ∧ parent = b! "source" ∧ grand = b! "metadata" ∧ great = b! "file" ∧ w = .afterOpen then indent 32
  else if parent = b! "preview" ∧ w = .beforeOpen then indent 24
  else []

/-- `afs_toc_data_save_string` (src/tocdata.c:1223-1254). -/
def saveString (t : TocData) (compact : Bool) : Option Bytes := docString cb compact t.saveXml
/-- `afs_toc_data_save_file` (src/tocdata.c:1165-1208): validity is tested before the file is
    opened. -/
def saveFile (t : TocData) (compact : Bool) : Bool × Option Bytes :=
  if t.isValid = false then (false, none) else docFile true cb compact t.saveXml
/-- `afs_toc_data_load_string` (src/tocdata.c:1383-1401). -/
def loadString (x : TocData) (s : Bytes) : Res (Bool × TocData) := loadFromString x.loadXml (.ok (false, x)) s
/-- `afs_toc_data_load_file` (src/tocdata.c:1333-1368). -/
def loadFile (x : TocData) (s : Bytes) : Res (Bool × TocData) := loadFromFile x.loadXml (.ok (false, x)) s

end TocData
end Afs
