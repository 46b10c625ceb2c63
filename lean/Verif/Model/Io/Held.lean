import Verif.Model.Res
import Verif.Spec.Held
/-!
# The files and documents that saving and loading hold

The `*_save_file`, `*_save_string`, `*_load_file` and `*_load_string` functions again (Model/Io), now with the FILE and the document
as things that are made, used and given back.  Using or giving back a thing that is not held is undefined.  What is written and
whether an object loads are parameters.  Opening a file may fail; making a document does not.
-/
namespace Afs.Held
open Afs.Spec.Held

/-- An open FILE, or a document that was made by `mxmlNewXML` or read (src/tocdata.c:1172-1186). -/
inductive Thing where
  | file
  | document
deriving DecidableEq, Repr

/-- What is held, and the contents of the file the call is about (modelling device for src/tocdata.c:1165-1208). -/
structure World where
  things : List (Nat × Thing)
  next : Nat
  disk : Option Bytes

/-- A C computation on that (modelling device for src/tocdata.c:1165-1208). -/
abbrev M (α : Type) : Type := World → Res (α × World)

/-- Statements one after the other (modelling device for src/tocdata.c:1165-1208). -/
instance : Monad M where
  pure a := fun w => .ok (a, w)
  bind p k := fun w => match p w with
    | .ub => .ub
    | .ok (a, w') => k a w'

/-- A new thing (modelling device for src/tocdata.c:1172-1178). -/
def make (t : Thing) : M Nat := fun w => .ok (w.next, { w with things := (w.next, t) :: w.things, next := w.next + 1 })

/-- Giving a thing back: undefined if it is not held (modelling device for src/tocdata.c:1203-1205). -/
def give (t : Thing) (n : Nat) : M Unit := fun w =>
  if (n, t) ∈ w.things then .ok ((), { w with things := w.things.erase (n, t) }) else .ub

/-- Using a thing: undefined if it is not held (modelling device for src/tocdata.c:1190-1201). -/
def useIt (t : Thing) (n : Nat) : M Unit := fun w => if (n, t) ∈ w.things then .ok ((), w) else .ub

/-- `mxmlNewXML` (src/tocdata.c:1172). -/
def newXML : M Nat := make .document

/-- `mxmlDelete` of a document or NULL (src/tocdata.c:1186, 1357). -/
def mxmlDelete : Option Nat → M Unit
  | none => pure ()
  | some d => give .document d

/-- `fopen(file_name, "w+")`: NULL, or an empty file (src/tocdata.c:1175). -/
def openWrite (canOpen : Bool) : M (Option Nat) :=
  if canOpen then do
    let f ← make .file
    fun w => .ok (some f, { w with disk := some [] })
  else pure none

/-- `fopen(file_name, "r")` (src/tocdata.c:1342). -/
def openRead (canOpen : Bool) : M (Option Nat) :=
  if canOpen then do
    let f ← make .file
    pure (some f)
  else pure none

/-- `fclose` (src/tocdata.c:1203; `close_file`, src/sha1.c:275-281, src/sha256.c:228-234, which only logs if it fails). -/
def fclose (f : Nat) : M Unit := give .file f

/-- `*_save_xml` of the object into the document (src/tocdata.c:1184). -/
def saveXml (d : Nat) (text : Option Bytes) : M Bool := do
  useIt .document d
  pure text.isSome

/-- `mxmlSaveFile` (src/tocdata.c:1192-1201). -/
def mxmlSaveFile (d f : Nat) (text : Option Bytes) : M Unit := do
  useIt .document d
  useIt .file f
  fun w => .ok ((), { w with disk := text })

/-- The end of every `*_save_file`: write, close, delete (e.g. src/tocdata.c:1190-1207). -/
def writeOut (d f : Nat) (text : Option Bytes) : M Bool := do
  mxmlSaveFile d f text
  fclose f
  mxmlDelete (some d)
  pure true

/-- `afs_toc_preview_layout_definition_save_file` (src/toc/previewlayoutdefinition.c:473-515),
    `afs_toc_data_file_metadata_save_file` (src/tocdatafilemetadata.c:447-489), `afs_toc_data_reels_save_file` (src/tocdatareels.c:387-429),
    `afs_toc_file_preview_save_file` (src/tocfilepreview.c:593-635), `afs_toc_files_save_file` (src/tocfiles.c:712-754),
    `afs_toc_metadata_save_file` (src/tocmetadata.c:456-498), `afs_control_data_save_file` (src/controldata.c:240-287):
    make the document, save into it, open the file. -/
def saveThenOpen (args canOpen : Bool) (text : Option Bytes) : M Bool :=
  if args = false then pure false
  else do
    let d ← newXML
    let saved ← saveXml d text
    if saved = false then do
      mxmlDelete (some d)
      pure false
    else do
      let f ← openWrite canOpen
      match f with
      | none => pure false
      | some f => writeOut d f text

/-- What follows when document and file are there: save, or close and delete (e.g. src/tocdata.c:1184-1207). -/
def saveInto (d f : Nat) (text : Option Bytes) : M Bool := do
  let saved ← saveXml d text
  if saved = false then do
    fclose f
    mxmlDelete (some d)
    pure false
  else writeOut d f text

/-- `afs_toc_preview_layout_definitions_save_file` (src/toc/previewlayoutdefinitions.c:529-571), `afs_toc_preview_section_save_file`
    (src/toc/previewsection.c:366-408), `afs_toc_data_save_file` (src/tocdata.c:1165-1208), `afs_toc_data_reel_save_file`
    (src/tocdatareel.c:965-1008), `afs_toc_metadata_source_save_file` (src/tocmetadatasource.c:760-803),
    `afs_administrative_metadata_save_file` (src/administrativemetadata.c:433-476), `afs_toc_file_save_file` (src/tocfile.c:1144-1187),
    `afs_toc_file_preview_page_save_file` (src/tocfilepreviewpage.c:468-511), `afs_boxing_format_save_config_file`
    (src/controlframe/boxingformat.c:525-575): make the document, open the file, save.
    `deletes`: with the `mxmlDelete` that `afs_toc_data_file_metadata_source_save_file` (src/tocdatafilemetadatasource.c:350-394) has if
    the file cannot be opened. -/
def newThenOpen (deletes : Bool) (args canOpen : Bool) (text : Option Bytes) : M Bool :=
  if args = false then pure false
  else do
    let d ← newXML
    let f ← openWrite canOpen
    match f with
    | none => do
      mxmlDelete (if deletes then some d else none)
      pure false
    | some f => saveInto d f text

/-- `afs_toc_preview_sections_save_file` (src/toc/previewsections.c:433-475), `afs_technical_metadata_save_file`
    (src/technicalmetadata.c:261-310): open the file, make the document, save. -/
def openThenNew (args canOpen : Bool) (text : Option Bytes) : M Bool :=
  if args = false then pure false
  else do
    let f ← openWrite canOpen
    match f with
    | none => pure false
    | some f => do
      let d ← newXML
      saveInto d f text

/-- Which of these is the `*_save_file` of a kind (see there; src/tocdata.c:1165-1208). -/
def saveFile : Kind → Bool → Bool → Option Bytes → M Bool
  | .layout | .fileMetadata | .reels | .preview | .files | .metadata | .control => saveThenOpen
  | .sections | .technical => openThenNew
  | .fileMetaSource => newThenOpen true
  | .section | .layouts | .page | .metaSource | .file | .reel | .toc | .admin | .format => newThenOpen false

/-- `*_save_string` (e.g. src/tocdata.c:1223-1254); `deletes`: the document is deleted if the object cannot be saved.
    (`mxmlSaveAllocString` uses the document; the string is the caller's.) -/
def saveStringWith (deletes : Bool) (args : Bool) (text : Option Bytes) : M (Option Bytes) :=
  if args = false then pure none
  else do
    let d ← newXML
    let saved ← saveXml d text
    if saved = false then do
      mxmlDelete (if deletes then some d else none)
      pure none
    else do
      useIt .document d
      mxmlDelete (some d)
      pure text

/-- `afs_toc_file_preview_page_save_string` (src/tocfilepreviewpage.c:526-557) and `afs_boxing_format_save_string`
    (src/controlframe/boxingformat.c:388-417) do not delete it, the others do (src/toc/previewlayoutdefinition.c:530-561,
    src/toc/previewlayoutdefinitions.c:586-617, src/toc/previewsection.c:423-454, src/toc/previewsections.c:490-521,
    src/tocdatafilemetadatasource.c:409-440, src/tocfile.c:1097-1128, src/tocfilepreview.c:650-681, src/tocmetadata.c:513-546,
    src/tocmetadatasource.c:713-744, src/administrativemetadata.c:491-522, src/tocdata.c:1223-1254, src/tocdatareel.c:1023-1054,
    src/tocdatareels.c:444-475, src/tocfiles.c:769-800, src/controldata.c:302-338, src/technicalmetadata.c:325-361,
    src/tocdatafilemetadata.c:504-530). -/
def saveString : Kind → Bool → Option Bytes → M (Option Bytes)
  | .page | .format => saveStringWith false
  | _ => saveStringWith true

/-- `mxmlLoadFile` or `mxmlLoadString`: a document if the text is one (src/tocdata.c:1352, 1391). -/
def readDocument (document : Option Bool) : M (Option Nat) :=
  match document with
  | none => pure none
  | some _ => do
    let d ← make .document
    pure (some d)

/-- `*_load_xml` of a document or NULL (src/tocdata.c:1361, 1393). -/
def loadXml (d : Option Nat) (document : Option Bool) : M Bool :=
  match d with
  | none => pure false
  | some d => do
    useIt .document d
    pure (document == some true)

/-- `*_load_file`, the same text for all kinds (src/administrativemetadata.c:576-611, src/controldata.c:383-418,
    src/technicalmetadata.c:423-458, src/toc/previewlayoutdefinition.c:617-652, src/toc/previewlayoutdefinitions.c:741-776,
    src/toc/previewsection.c:502-537, src/toc/previewsections.c:572-607, src/tocdata.c:1333-1368, src/tocdatafilemetadata.c:637-672,
    src/tocdatafilemetadatasource.c:495-530, src/tocdatareel.c:1106-1141, src/tocdatareels.c:531-566, src/tocfile.c:711-746,
    src/tocfilepreview.c:743-778, src/tocfilepreviewpage.c:618-653, src/tocfiles.c:856-891, src/tocmetadata.c:603-638,
    src/tocmetadatasource.c:948-983, src/controlframe/boxingformat.c:590-624). -/
def loadFile (args canOpen : Bool) (document : Option Bool) : M Bool :=
  if args = false then pure false
  else do
    let f ← openRead canOpen
    match f with
    | none => pure false
    | some f => do
      useIt .file f
      let d ← readDocument document
      if d = none then do
        fclose f
        mxmlDelete d
        pure false
      else do
        let loaded ← loadXml d document
        fclose f
        mxmlDelete d
        pure loaded

/-- `*_load_string` (src/administrativemetadata.c:626-644, src/controldata.c:433-451, src/technicalmetadata.c:473-491,
    src/toc/previewlayoutdefinition.c:667-685, src/toc/previewlayoutdefinitions.c:791-809, src/toc/previewsection.c:552-570,
    src/toc/previewsections.c:622-640, src/tocdata.c:1383-1401, src/tocdatafilemetadata.c:687-705,
    src/tocdatafilemetadatasource.c:545-563, src/tocdatareel.c:1156-1174, src/tocdatareels.c:581-599, src/tocfile.c:760-778,
    src/tocfilepreview.c:793-811, src/tocfilepreviewpage.c:668-686, src/tocfiles.c:906-924, src/tocmetadata.c:653-671,
    src/tocmetadatasource.c:915-933); `deletes`: with the `mxmlDelete` that `afs_boxing_format_load_string`
    (src/controlframe/boxingformat.c:490-509) has if the format does not load. -/
def loadStringWith (deletes : Bool) (args : Bool) (document : Option Bool) : M Bool :=
  if args = false then pure false
  else do
    let d ← readDocument document
    let loaded ← loadXml d document
    if loaded = false then do
      mxmlDelete (if deletes then d else none)
      pure false
    else do
      mxmlDelete d
      pure true

/-- Which of these is the `*_load_string` of a kind (see there; src/controlframe/boxingformat.c:490-509). -/
def loadString : Kind → Bool → Option Bool → M Bool
  | .format => loadStringWith true
  | _ => loadStringWith false

/-- `afs_sha1_sum2` (src/sha1.c:102-127), `afs_sha256_sum2` (src/sha256.c:56-81); `sum` is what `sum2_private` answers
    (Model/ShaRead.lean). -/
def checksum (args canOpen : Bool) (sum : Option Bytes) : M (Option Bytes) :=
  if args = false then pure none
  else do
    let f ← openRead canOpen
    match f with
    | none => pure none
    | some f => do
      useIt .file f
      fclose f
      pure sum

/-- One call (see the functions above, e.g. src/tocdata.c:1165-1208). -/
def call : Call → M Answer
  | .saveFile k a o t => do
    let b ← saveFile k a o t
    pure (.done b)
  | .saveString k a t => do
    let s ← saveString k a t
    pure (.text s)
  | .loadFile _ a o d => do
    let b ← loadFile a o d
    pure (.done b)
  | .loadString k a d => do
    let b ← loadString k a d
    pure (.done b)
  | .checksum a o s => do
    let s ← checksum a o s
    pure (.text s)

/-- Calls one after the other (e.g. src/tocdata.c:1165-1208, then 1333-1368). -/
def calls : List Call → M (List Answer)
  | [] => pure []
  | c :: cs => do
    let a ← call c
    let as ← calls cs
    pure (a :: as)

end Afs.Held
