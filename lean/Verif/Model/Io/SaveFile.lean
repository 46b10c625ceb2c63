import Verif.Model.Xml.WriteFail
import Verif.Model.Io.TocData
import Verif.Model.ControlData
import Verif.Model.Admin
import Verif.Model.BoxingConfig
/-!
# Saving to a file when the disk may fail

For every kind of object: whether the file can be opened, which writes get through (`ok`), the old contents of the
file (`none`: there is none) - and what the function returns and the file holds afterwards.
-/
namespace Afs
open Xml

/-- `afs_toc_preview_section_save_file` (src/toc/previewsection.c:366-408). -/
def Section.saveFileOn (x : Section) (compact : Bool) (canOpen : Bool) (ok : Nat → Bool) (old : Option Bytes) : Bool × Option Bytes :=
  if x.isValid = false then (false, old) else docFileOn canOpen ok true cb compact x.saveXml old

/-- `afs_toc_preview_sections_save_file` (src/toc/previewsections.c:433-475). -/
def Sections.saveFileOn (x : Sections) (compact : Bool) (canOpen : Bool) (ok : Nat → Bool) (old : Option Bytes) : Bool × Option Bytes :=
  if isValid (some x) = false then (false, old) else docFileOn canOpen ok true cb compact (saveXml (some x)) old

/-- `afs_toc_preview_layout_definition_save_file` (src/toc/previewlayoutdefinition.c:473-515). -/
def LayoutDef.saveFileOn (x : LayoutDef) (compact : Bool) (canOpen : Bool) (ok : Nat → Bool) (old : Option Bytes) : Bool × Option Bytes :=
  docFileOn canOpen ok false cb compact x.saveXml old

/-- `afs_toc_preview_layout_definitions_save_file` (src/toc/previewlayoutdefinitions.c:529-571). -/
def LayoutDefs.saveFileOn (x : LayoutDefs) (compact : Bool) (canOpen : Bool) (ok : Nat → Bool) (old : Option Bytes) : Bool × Option Bytes :=
  if isValid (some x) = false then (false, old) else docFileOn canOpen ok true cb compact (saveXml (some x)) old

/-- `afs_toc_file_preview_page_save_file` (src/tocfilepreviewpage.c:468-511). -/
def Page.saveFileOn (x : Page) (compact : Bool) (canOpen : Bool) (ok : Nat → Bool) (old : Option Bytes) : Bool × Option Bytes :=
  docFileOn canOpen ok true cb compact x.saveXml old

/-- `afs_toc_file_preview_save_file` (src/tocfilepreview.c:593-635). -/
def Preview.saveFileOn (x : Preview) (compact : Bool) (canOpen : Bool) (ok : Nat → Bool) (old : Option Bytes) : Bool × Option Bytes :=
  docFileOn canOpen ok false cb compact x.saveXml old

/-- `afs_toc_metadata_source_save_file` (src/tocmetadatasource.c:760-803). -/
def MetaSource.saveFileOn (x : MetaSource) (compact : Bool) (canOpen : Bool) (ok : Nat → Bool) (old : Option Bytes) : Bool × Option Bytes :=
  if x.isValid = false then (false, old) else docFileOn canOpen ok true cb compact x.saveXml old

/-- `afs_toc_metadata_save_file` (src/tocmetadata.c:456-498). -/
def TocMeta.saveFileOn (x : TocMeta) (compact : Bool) (canOpen : Bool) (ok : Nat → Bool) (old : Option Bytes) : Bool × Option Bytes :=
  docFileOn canOpen ok false cb compact (saveXml (some x)) old

/-- `afs_toc_data_file_metadata_source_save_file` (src/tocdatafilemetadatasource.c:350-394). -/
def FileMetaSource.saveFileOn (x : FileMetaSource) (compact : Bool) (canOpen : Bool) (ok : Nat → Bool) (old : Option Bytes) : Bool × Option Bytes :=
  if x.isValid = false then (false, old) else docFileOn canOpen ok true cb compact x.saveXml old

/-- `afs_toc_data_file_metadata_save_file` (src/tocdatafilemetadata.c:447-489). -/
def FileMeta.saveFileOn (x : FileMeta) (compact : Bool) (canOpen : Bool) (ok : Nat → Bool) (old : Option Bytes) : Bool × Option Bytes :=
  docFileOn canOpen ok false cb compact (saveXml (some x)) old

/-- `afs_toc_file_save_file` (src/tocfile.c:1144-1187), compact. -/
def File.saveFileOn (x : File) (dataV1 : Bool) (canOpen : Bool) (ok : Nat → Bool) (old : Option Bytes) : Bool × Option Bytes :=
  docFileOn canOpen ok true cb true (x.saveXml dataV1) old

/-- `afs_toc_files_save_file` (src/tocfiles.c:712-754), compact. -/
def Files.saveFileOn (x : Files) (canOpen : Bool) (ok : Nat → Bool) (old : Option Bytes) : Bool × Option Bytes :=
  docFileOn canOpen ok false cb true x.saveXml old

/-- `afs_toc_data_reel_save_file` (src/tocdatareel.c:965-1008). -/
def Reel.saveFileOn (x : Reel) (compact : Bool) (canOpen : Bool) (ok : Nat → Bool) (old : Option Bytes) : Bool × Option Bytes :=
  if x.isValid = false then (false, old) else docFileOn canOpen ok true cb compact x.saveXml old

/-- `afs_toc_data_reels_save_file` (src/tocdatareels.c:387-429). -/
def Reels.saveFileOn (x : Reels) (compact : Bool) (canOpen : Bool) (ok : Nat → Bool) (old : Option Bytes) : Bool × Option Bytes :=
  docFileOn canOpen ok false cb compact x.saveXml old

/-- `afs_toc_data_save_file` (src/tocdata.c:1165-1208). -/
def TocData.saveFileOn (x : TocData) (compact : Bool) (canOpen : Bool) (ok : Nat → Bool) (old : Option Bytes) : Bool × Option Bytes :=
  if x.isValid = false then (false, old) else docFileOn canOpen ok true cb compact x.saveXml old

/-- `afs_administrative_metadata_save_file` (src/administrativemetadata.c:433-476). -/
def Admin.saveFileOn (x : Admin) (compact : Bool) (canOpen : Bool) (ok : Nat → Bool) (old : Option Bytes) : Bool × Option Bytes :=
  docFileOn canOpen ok true cb compact x.saveXml old

/-- `afs_boxing_format_save_config_file` (src/controlframe/boxingformat.c:525-575). -/
def Format.saveFileOn {L : ConfigLib} (x : Format L) (compact : Bool) (canOpen : Bool) (ok : Nat → Bool) (old : Option Bytes) : Bool × Option Bytes :=
  docFileOn canOpen ok true cb compact x.saveXml old

/-- `afs_technical_metadata_save_file` (src/technicalmetadata.c:261-310). -/
def TechMeta.saveFileOn {L : ConfigLib} (x : TechMeta L) (compact : Bool) (canOpen : Bool) (ok : Nat → Bool) (old : Option Bytes) : Bool × Option Bytes :=
  if x.complete = false then (false, old) else docFileOn canOpen ok true cb compact x.saveXml old

/-- `afs_control_data_save_file` (src/controldata.c:240-287). -/
def ControlData.saveFileOn {L : ConfigLib} (x : ControlData L) (compact : Bool) (canOpen : Bool) (ok : Nat → Bool) (old : Option Bytes) : Bool × Option Bytes :=
  if x.complete = false then (false, old)
  else match x.saveXml with
    | none => (false, old)
    | some ns => if canOpen then (true, some (Xml.saveFileOn ok (if compact then noCb else cb) (document ns)).2) else (false, old)

end Afs
