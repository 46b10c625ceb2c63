import Verif.Model.Io.SaveFile
/-!
# Saving and loading with the resources they use

The `*_save_file`, `*_save_string`, `*_load_file` and `*_load_string` functions of all objects, statement by statement as far as files
and XML documents are concerned: what is opened, created, written, read, closed and deleted, and in which order. The disk is a function
from names to contents; a failing `fopen` and failing writes are parameters of the calls. What the functions do to the trees and the
objects is the rest of the model (`saveXml`, `loadXml`, `Xml.saveFileOn`).
-/
namespace Afs.Session
open Afs Afs.Xml

/-- Files on disk, open `FILE`s by number (with the name of the file), documents by number.
    Stands for the C library and the heap of `mxml_node_t` (thirdparty/minixml/src/mxml-file.c:148-169, mxml-node.c:450-460). -/
structure Sys where
  disk : Bytes → Option Bytes
  handles : Nat → Option Bytes
  docs : Nat → Option Node
  next : Nat

/-- Nothing open. Not from the code. -/
def Sys.init (disk : Bytes → Option Bytes) : Sys := ⟨disk, fun _ => none, fun _ => none, 0⟩

/-- Programs over files and documents. Not from the code: sequencing of statements, e.g. src/administrativemetadata.c:433-476. -/
def M (α : Type) : Type := Sys → Res (α × Sys)

instance : Monad M where
  pure a := fun s => .ok (a, s)
  bind p k := fun s => match p s with
    | .ub => .ub
    | .ok (a, s') => k a s'

/-- A function changed in one place. Not from the code. Assignment, e.g. src/administrativemetadata.c:443. -/
def update {α β : Type} [DecidableEq α] (f : α → β) (a : α) (b : β) : α → β := fun x => if x = a then b else f x

/-- `fopen(name, "w+")`: the file is there and empty afterwards, if it can be opened (src/administrativemetadata.c:443). -/
def fopenWrite (canOpen : Bool) (name : Bytes) : M (Option Nat) := fun s =>
  if canOpen then .ok (some s.next, { s with disk := update s.disk name (some []), handles := update s.handles s.next (some name),
                                              next := s.next + 1 })
  else .ok (none, s)

/-- `fopen(name, "r")`: a file that is not there cannot be opened (src/administrativemetadata.c:585). -/
def fopenRead (canOpen : Bool) (name : Bytes) : M (Option Nat) := fun s =>
  if canOpen && (s.disk name).isSome then .ok (some s.next, { s with handles := update s.handles s.next (some name), next := s.next + 1 })
  else .ok (none, s)

/-- `fclose`; closing a file that is not open is undefined (src/administrativemetadata.c:472). -/
def fclose (h : Nat) : M Unit := fun s =>
  match s.handles h with
  | none => .ub
  | some _ => .ok ((), { s with handles := update s.handles h none })

/-- `mxmlNewXML("1.0")` (src/administrativemetadata.c:440). -/
def newXML : M Nat := fun s => .ok (s.next, { s with docs := update s.docs s.next (some Node.newXML), next := s.next + 1 })

/-- `mxmlDelete`; deleting a deleted document is undefined, NULL is ignored (src/administrativemetadata.c:456). -/
def mxmlDelete (d : Option Nat) : M Unit := fun s =>
  match d with
  | none => .ok ((), s)
  | some d => match s.docs d with
    | none => .ub
    | some _ => .ok ((), { s with docs := update s.docs d none })

/-- `*_save_xml(object, document)`: `tree` is the document with the elements of the object, `none` if the function refuses (what it
    leaves in the document then is not looked at any more) (src/administrativemetadata.c:453). -/
def fill (d : Nat) (tree : Option Node) : M Bool := fun s =>
  match s.docs d with
  | none => .ub
  | some _ => match tree with
    | none => .ok (false, s)
    | some t => .ok (true, { s with docs := update s.docs d (some t) })

/-- `mxmlSaveFile(document, file, callback)`; `write` is what it puts into the file (src/administrativemetadata.c:464-468). -/
def mxmlSaveFile (d h : Nat) (write : Node → Res Bytes) : M Unit := fun s =>
  match s.docs d, s.handles h with
  | some t, some name => match write t with
    | .ub => .ub
    | .ok b => .ok ((), { s with disk := update s.disk name (some ((s.disk name).getD [] ++ b)) })
  | _, _ => .ub

/-- `mxmlSaveAllocString(document, callback)` (src/administrativemetadata.c:512-516). -/
def mxmlSaveAllocString (d : Nat) (string : Node → Res (Option Bytes)) : M (Option Bytes) := fun s =>
  match s.docs d with
  | none => .ub
  | some t => match string t with
    | .ub => .ub
    | .ok r => .ok (r, s)

/-- The bytes `getc` delivers before it returns `EOF` (thirdparty/minixml/src/mxml-file.c:1094-1303): all of the file, or the first `k` when
    the disk cannot be read further.  A read error looks like the end of the file.  Simplified: an error is not followed by more bytes. -/
def readable (upTo : Option Nat) (file : Bytes) : Bytes :=
  match upTo with
  | none => file
  | some k => file.take k

/-- `mxmlLoadFile(NULL, file, MXML_OPAQUE_CALLBACK)` (src/administrativemetadata.c:595). -/
def mxmlLoadFile (h : Nat) (upTo : Option Nat) : M (Option Nat) := fun s =>
  match s.handles h with
  | none => .ub
  | some name => match Xml.loadFile (readable upTo ((s.disk name).getD [])) with
    | none => .ok (none, s)
    | some t => .ok (some s.next, { s with docs := update s.docs s.next (some t), next := s.next + 1 })

/-- `mxmlLoadString(NULL, in, MXML_OPAQUE_CALLBACK)` (src/administrativemetadata.c:634). -/
def mxmlLoadString (text : Bytes) : M (Option Nat) := fun s =>
  match Xml.loadString text with
  | none => .ok (none, s)
  | some t => .ok (some s.next, { s with docs := update s.docs s.next (some t), next := s.next + 1 })

/-- `*_load_xml(object, document)`: refuses NULL (src/administrativemetadata.c:605, 662-665). -/
def loadDoc {α : Type} (d : Option Nat) (load : Node → Res (Bool × α)) (old : α) : M (Bool × α) := fun s =>
  match d with
  | none => .ok ((false, old), s)
  | some d => match s.docs d with
    | none => .ub
    | some t => match load t with
      | .ub => .ub
      | .ok r => .ok (r, s)

/-! ### The shapes of the functions -/

/-- `*_save_file` that make the document, open the file and then fill the document. If the file cannot be opened the document is
    deleted by afs_toc_data_file_metadata_source_save_file only (`delete`).
    src/administrativemetadata.c:433-476, src/controlframe/boxingformat.c:525-575, src/toc/previewlayoutdefinitions.c:529-571,
    src/toc/previewsection.c:366-408, src/tocdata.c:1165-1208, src/tocdatafilemetadatasource.c:350-394, src/tocdatareel.c:965-1008,
    src/tocfile.c:1144-1187, src/tocfilepreviewpage.c:468-511, src/tocmetadatasource.c:760-803. -/
def saveDocOpenFill (delete allowed : Bool) (tree : Option Node) (write : Node → Res Bytes) (canOpen : Bool) (name : Bytes) : M Bool :=
  if allowed = false then pure false
  else do
    let d ← newXML
    let h ← fopenWrite canOpen name
    match h with
    | none => do
      mxmlDelete (if delete then some d else none)
      pure false
    | some h => do
      let ok ← fill d tree
      if ok = false then do
        fclose h
        mxmlDelete (some d)
        pure false
      else do
        mxmlSaveFile d h write
        fclose h
        mxmlDelete (some d)
        pure true

/-- `*_save_file` that make and fill the document before the file is opened.
    src/controldata.c:240-287, src/toc/previewlayoutdefinition.c:473-515, src/tocdatafilemetadata.c:447-489,
    src/tocdatareels.c:387-429, src/tocfilepreview.c:593-635, src/tocfiles.c:712-754, src/tocmetadata.c:456-498. -/
def saveDocFillOpen (allowed : Bool) (tree : Option Node) (write : Node → Res Bytes) (canOpen : Bool) (name : Bytes) : M Bool :=
  if allowed = false then pure false
  else do
    let d ← newXML
    let ok ← fill d tree
    if ok = false then do
      mxmlDelete (some d)
      pure false
    else do
      let h ← fopenWrite canOpen name
      match h with
      | none => pure false
      | some h => do
        mxmlSaveFile d h write
        fclose h
        mxmlDelete (some d)
        pure true

/-- `*_save_file` that open the file before the document is made.
    src/technicalmetadata.c:261-310, src/toc/previewsections.c:433-475. -/
def saveOpenDocFill (allowed : Bool) (tree : Option Node) (write : Node → Res Bytes) (canOpen : Bool) (name : Bytes) : M Bool :=
  if allowed = false then pure false
  else do
    let h ← fopenWrite canOpen name
    match h with
    | none => pure false
    | some h => do
      let d ← newXML
      let ok ← fill d tree
      if ok = false then do
        fclose h
        mxmlDelete (some d)
        pure false
      else do
        mxmlSaveFile d h write
        fclose h
        mxmlDelete (some d)
        pure true

/-- `*_save_string`. If the object refuses, all of them delete the document except those of pages and boxing formats (`delete`).
    src/administrativemetadata.c:491-522, src/controldata.c:302-338, src/controlframe/boxingformat.c:388-417,
    src/technicalmetadata.c:325-361, src/toc/previewlayoutdefinition.c:530-561, src/toc/previewlayoutdefinitions.c:586-617,
    src/toc/previewsection.c:423-454, src/toc/previewsections.c:490-521, src/tocdata.c:1223-1254, src/tocdatafilemetadata.c:504-530,
    src/tocdatafilemetadatasource.c:409-440, src/tocdatareel.c:1023-1054, src/tocdatareels.c:444-475, src/tocfile.c:1097-1128,
    src/tocfilepreview.c:650-681, src/tocfilepreviewpage.c:526-557, src/tocfiles.c:769-800, src/tocmetadata.c:513-546,
    src/tocmetadatasource.c:713-744. -/
def saveString (delete allowed : Bool) (tree : Option Node) (string : Node → Res (Option Bytes)) : M (Option Bytes) :=
  if allowed = false then pure none
  else do
    let d ← newXML
    let ok ← fill d tree
    if ok = false then do
      mxmlDelete (if delete then some d else none)
      pure none
    else do
      let r ← mxmlSaveAllocString d string
      mxmlDelete (some d)
      pure r

/-- `*_load_file`, the same for all objects.
    src/administrativemetadata.c:576-611, src/controldata.c:383-418, src/controlframe/boxingformat.c:590-624,
    src/technicalmetadata.c:423-458, src/toc/previewlayoutdefinition.c:617-652, src/toc/previewlayoutdefinitions.c:741-776,
    src/toc/previewsection.c:502-537, src/toc/previewsections.c:572-607, src/tocdata.c:1333-1368, src/tocdatafilemetadata.c:637-672,
    src/tocdatafilemetadatasource.c:495-530, src/tocdatareel.c:1106-1141, src/tocdatareels.c:531-566, src/tocfile.c:711-746,
    src/tocfilepreview.c:743-778, src/tocfilepreviewpage.c:618-653, src/tocfiles.c:856-891, src/tocmetadata.c:603-638,
    src/tocmetadatasource.c:948-983. -/
def loadFile {α : Type} (load : Node → Res (Bool × α)) (old : α) (canOpen : Bool) (upTo : Option Nat) (name : Bytes) : M (Bool × α) := do
  let h ← fopenRead canOpen name
  match h with
  | none => pure (false, old)
  | some h => do
    let d ← mxmlLoadFile h upTo
    if d = none then do
      fclose h
      mxmlDelete d
      pure (false, old)
    else do
      let r ← loadDoc d load old
      fclose h
      mxmlDelete d
      pure r

/-- `*_load_string`. After a failure the document is deleted by afs_boxing_format_load_string only (`delete`), which also accepts the
    empty string (`emptyToo`).
    src/administrativemetadata.c:626-644, src/controldata.c:433-451, src/controlframe/boxingformat.c:490-509,
    src/technicalmetadata.c:473-491, src/toc/previewlayoutdefinition.c:667-685, src/toc/previewlayoutdefinitions.c:791-809,
    src/toc/previewsection.c:552-570, src/toc/previewsections.c:622-640, src/tocdata.c:1383-1401, src/tocdatafilemetadata.c:687-705,
    src/tocdatafilemetadatasource.c:545-563, src/tocdatareel.c:1156-1174, src/tocdatareels.c:581-599, src/tocfile.c:760-778,
    src/tocfilepreview.c:793-811, src/tocfilepreviewpage.c:668-686, src/tocfiles.c:906-924, src/tocmetadata.c:653-671,
    src/tocmetadatasource.c:915-933. -/
def loadString {α : Type} (delete emptyToo : Bool) (load : Node → Res (Bool × α)) (old : α) (text : Bytes) : M (Bool × α) :=
  if text.length = 0 ∧ emptyToo = false then pure (false, old)
  else do
    let d ← mxmlLoadString text
    let r ← loadDoc d load old
    if r.1 = false then do
      mxmlDelete (if delete then d else none)
      pure r
    else do
      mxmlDelete d
      pure r

/-! ### The objects -/

/-- An object of any kind that can be saved. inc/: all structures; e.g. inc/administrativemetadata.h. -/
inductive Any (L : ConfigLib) where
  | «section» (x : Section)
  | sections (x : Sections)
  | layout (x : LayoutDef)
  | layouts (x : LayoutDefs)
  | page (x : Page)
  | preview (x : Preview)
  | metaSource (x : MetaSource)
  | tocMeta (x : TocMeta)
  | fileSource (x : FileMetaSource)
  | fileMeta (x : FileMeta)
  | file (x : File)
  | files (x : Files)
  | reel (x : Reel)
  | reels (x : Reels)
  | toc (x : TocData)
  | admin (x : Admin)
  | format (x : Format L)
  | tech (x : TechMeta L)
  | control (x : ControlData L)

variable {L : ConfigLib}

/-- A document with one element. `mxmlNewXML` and `mxmlNewElement` (src/administrativemetadata.c:440, 545). -/
def doc (n : Option Node) : Option Node := n.map Node.newXML.addChild

/-- `*_save_xml` into a new document; `v1` is the argument `data_v1` of afs_toc_file_save_xml.
    src/administrativemetadata.c:453, src/controldata.c:255, src/tocfile.c:1169. -/
def Any.tree (v1 : Bool) : Any L → Option Node
  | .section x => doc x.saveXml
  | .sections x => doc (Sections.saveXml (some x))
  | .layout x => doc x.saveXml
  | .layouts x => doc (LayoutDefs.saveXml (some x))
  | .page x => doc x.saveXml
  | .preview x => doc x.saveXml
  | .metaSource x => doc x.saveXml
  | .tocMeta x => doc (TocMeta.saveXml (some x))
  | .fileSource x => doc x.saveXml
  | .fileMeta x => doc (FileMeta.saveXml (some x))
  | .file x => doc (x.saveXml v1)
  | .files x => doc x.saveXml
  | .reel x => doc x.saveXml
  | .reels x => doc x.saveXml
  | .toc x => doc x.saveXml
  | .admin x => doc x.saveXml
  | .format x => doc x.saveXml
  | .tech x => doc x.saveXml
  | .control x => x.saveXml.map ControlData.document

/-- The callbacks for white space. src/administrativemetadata.c:734-770 and the other `whitespace_cb`. -/
def Any.cb : Any L → SaveCb
  | .section _ => Section.cb
  | .sections _ => Sections.cb
  | .layout _ => LayoutDef.cb
  | .layouts _ => LayoutDefs.cb
  | .page _ => Page.cb
  | .preview _ => Preview.cb
  | .metaSource _ => MetaSource.cb
  | .tocMeta _ => TocMeta.cb
  | .fileSource _ => FileMetaSource.cb
  | .fileMeta _ => FileMeta.cb
  | .file _ => File.cb
  | .files _ => Files.cb
  | .reel _ => Reel.cb
  | .reels _ => Reels.cb
  | .toc _ => TocData.cb
  | .admin _ => Admin.cb
  | .format _ => Format.cb
  | .tech _ => TechMeta.cb
  | .control _ => ControlData.cb

/-- What `mxmlSaveFile` writes. The callbacks of files and of lists of files are not defined for a whole document
    (src/tocfile.c:1173-1180, src/tocfiles.c:741-748). -/
def Any.write (x : Any L) (compact : Bool) (ok : Nat → Bool) (t : Node) : Res Bytes :=
  match x, compact with
  | .file _, false => .ub
  | .files _, false => .ub
  | x, compact => .ok (Xml.saveFileOn ok (if compact then noCb else x.cb) t).2

/-- What `mxmlSaveAllocString` gives: for layout definitions, metadata of a toc, metadata of a file and files the text of the first
    child of the document, otherwise of the document (src/toc/previewlayoutdefinitions.c:603-611, src/tocmetadata.c:531-541,
    src/tocdatafilemetadata.c:521-525, src/tocfile.c:1116-1123). -/
def Any.string (x : Any L) (compact : Bool) (t : Node) : Res (Option Bytes) :=
  let cb := if compact then noCb else x.cb
  match x, compact with
  | .files _, false => .ub
  | .layouts _, _ | .tocMeta _, _ | .fileMeta _, _ | .file _, _ => .ok ((t.children.head?).bind (saveAllocString cb [xmlDecl]))
  | _, _ => .ok (saveAllocString cb [] t)

/-- The test at the beginning of `*_save_file` (NULL pointers aside).
    src/toc/previewsection.c:368, src/toc/previewsections.c:435, src/toc/previewlayoutdefinitions.c:531, src/tocdata.c:1167,
    src/tocdatafilemetadatasource.c:352, src/tocdatareel.c:967, src/tocmetadatasource.c:762, src/technicalmetadata.c:268-272,
    src/controldata.c:247-251. -/
def Any.fileAllowed : Any L → Bool
  | .section x => x.isValid
  | .sections x => Sections.isValid (some x)
  | .layouts x => LayoutDefs.isValid (some x)
  | .metaSource x => x.isValid
  | .fileSource x => x.isValid
  | .reel x => x.isValid
  | .toc x => x.isValid
  | .tech x => x.complete
  | .control x => x.complete
  | _ => true

/-- The test at the beginning of `*_save_string` (src/technicalmetadata.c:333-336, src/controldata.c:310-313). -/
def Any.stringAllowed : Any L → Bool
  | .tech x => x.complete
  | .control x => x.complete
  | _ => true

/-- All `*_save_file` functions, with the shapes and lines above (src/administrativemetadata.c:433-476 and the others). -/
def Any.saveFile (x : Any L) (v1 compact canOpen : Bool) (ok : Nat → Bool) (name : Bytes) : M Bool :=
  match x with
  | .layout _ | .preview _ | .tocMeta _ | .fileMeta _ | .files _ | .reels _ | .control _ =>
    saveDocFillOpen x.fileAllowed (x.tree v1) (x.write compact ok) canOpen name
  | .sections _ | .tech _ => saveOpenDocFill x.fileAllowed (x.tree v1) (x.write compact ok) canOpen name
  | .fileSource _ => saveDocOpenFill true x.fileAllowed (x.tree v1) (x.write compact ok) canOpen name
  | _ => saveDocOpenFill false x.fileAllowed (x.tree v1) (x.write compact ok) canOpen name

/-- All `*_save_string` functions, with the lines above (src/administrativemetadata.c:491-522 and the others). -/
def Any.saveString (x : Any L) (v1 compact : Bool) : M (Option Bytes) :=
  match x with
  | .page _ | .format _ => Session.saveString false x.stringAllowed (x.tree v1) (x.string compact)
  | _ => Session.saveString true x.stringAllowed (x.tree v1) (x.string compact)

/-- All `*_load_xml` functions (src/administrativemetadata.c:659-697 and the others). -/
def Any.load : Any L → Node → Res (Bool × Any L)
  | .section x, n => .ok ((x.loadXml n).1, .section (x.loadXml n).2)
  | .sections x, n => .ok ((x.loadXml n).1, .sections (x.loadXml n).2)
  | .layout x, n => .ok ((x.loadXml n).1, .layout (x.loadXml n).2)
  | .layouts x, n => (x.loadXml n).bind fun r => .ok (r.1, .layouts r.2)
  | .page x, n => .ok ((x.loadXml n).1, .page (x.loadXml n).2)
  | .preview x, n => .ok ((x.loadXml n).1, .preview (x.loadXml n).2)
  | .metaSource x, n => .ok ((x.loadXml n).1, .metaSource (x.loadXml n).2)
  | .tocMeta x, n => .ok ((x.loadXml n).1, .tocMeta (x.loadXml n).2)
  | .fileSource x, n => .ok ((x.loadXml n).1, .fileSource (x.loadXml n).2)
  | .fileMeta x, n => .ok ((x.loadXml n).1, .fileMeta (x.loadXml n).2)
  | .file x, n => .ok ((x.loadXml n).1, .file (x.loadXml n).2)
  | .files x, n => .ok ((x.loadXml n).1, .files (x.loadXml n).2)
  | .reel x, n => .ok ((x.loadXml n).1, .reel (x.loadXml n).2)
  | .reels x, n => .ok ((x.loadXml n).1, .reels (x.loadXml n).2)
  | .toc x, n => (x.loadXml n).bind fun r => .ok (r.1, .toc r.2)
  | .admin x, n => .ok ((x.loadXml n).1, .admin (x.loadXml n).2)
  | .format x, n => .ok ((x.loadXml n).1, .format (x.loadXml n).2)
  | .tech x, n => .ok ((x.loadXml n).1, .tech (x.loadXml n).2)
  | .control x, n => .ok ((x.loadXml n).1, .control (x.loadXml n).2)

/-- All `*_load_string` functions, with the lines above (src/administrativemetadata.c:626-644 and the others). -/
def Any.loadString (x : Any L) (text : Bytes) : M (Bool × Any L) :=
  match x with
  | .format _ => Session.loadString true true x.load x text
  | _ => Session.loadString false false x.load x text

/-! ### Calls one after the other -/

/-- Calls a user makes; objects are named by number. `canOpen` and `ok` say what the system does during the call: whether `fopen`
    succeeds and which bytes are written. `new` stands for anything that makes an object without files, e.g.
    src/administrativemetadata.c:78-131. -/
inductive Call (L : ConfigLib) where
  | new (x : Any L)
  | saveFile (i : Nat) (name : Bytes) (v1 compact canOpen : Bool) (ok : Nat → Bool)
  | saveString (i : Nat) (v1 compact : Bool)
  | loadFile (i : Nat) (name : Bytes) (canOpen : Bool) (upTo : Option Nat)
  | loadString (i : Nat) (text : Bytes)

/-- What a call returns. The results of src/administrativemetadata.c:433, 491, 576, 626. -/
inductive Result where
  | nothing
  | flag (b : Bool)
  | text (t : Option Bytes)
deriving DecidableEq, Repr

/-- An object that must be there; using another is undefined. A pointer, e.g. src/administrativemetadata.c:433. -/
def theObj (o : List (Any L)) (i : Nat) : M (Any L) := fun s =>
  match o[i]? with
  | none => .ub
  | some x => .ok (x, s)

/-- One call. Dispatches to the functions above, e.g. src/administrativemetadata.c:433-644. -/
def call (o : List (Any L)) (c : Call L) : M (Result × List (Any L)) :=
  match c with
  | .new x => pure (.nothing, o ++ [x])
  | .saveFile i name v1 compact canOpen ok => do
    let x ← theObj o i
    let r ← x.saveFile v1 compact canOpen ok name
    pure (.flag r, o)
  | .saveString i v1 compact => do
    let x ← theObj o i
    let r ← x.saveString v1 compact
    pure (.text r, o)
  | .loadFile i name canOpen upTo => do
    let x ← theObj o i
    let r ← loadFile x.load x canOpen upTo name
    pure (.flag r.1, o.set i r.2)
  | .loadString i text => do
    let x ← theObj o i
    let r ← x.loadString text
    pure (.flag r.1, o.set i r.2)

/-- Calls one after the other, with their results. A history of calls of src/administrativemetadata.c:433-644 and the others. -/
def calls (o : List (Any L)) : List (Call L) → M (List Result × List (Any L))
  | [] => pure ([], o)
  | c :: cs => do
    let r ← call o c
    let rs ← calls r.2 cs
    pure (r.1 :: rs.1, rs.2)

end Afs.Session
