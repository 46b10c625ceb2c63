import Verif.Model.Io.TocData
/-!
# Administrative metadata (`src/administrativemetadata.c`)
-/
namespace Afs
open Xml

/-- `afs_administrative_metadata` (inc/administrativemetadata.h); `none` is NULL.
    inc/administrativemetadata.h:27-37 -/
structure Admin where
  reelId : Option Bytes
  printReelId : Option Bytes
  title : Option Bytes
  description : Option Bytes
  creator : Option Bytes
  creationDate : Option Bytes
deriving DecidableEq, Repr

/-- `a == b || (a && b && strcmp(a, b) == 0)` on the string fields of two objects
    (src/administrativemetadata.c:244-249, src/controlframe/boxingformat.c:276): the pointers of
    different objects are only the same when both are NULL. -/
def strEqStrict : Option Bytes → Option Bytes → Bool
  | none, none => true
  | some a, some b => a == b
  | _, _ => false

namespace Admin

/-- `afs_administrative_metadata_create` (src/administrativemetadata.c:78-92). -/
def create : Admin := ⟨none, none, none, none, none, none⟩

/-- `afs_administrative_metadata_create2` (src/administrativemetadata.c:112-131). -/
def create2 (reelId printReelId title description creator creationDate : Option Bytes) : Admin :=
  ⟨strClone reelId, strClone printReelId, strClone title, strClone description, strClone creator, strClone creationDate⟩

/-- `afs_administrative_metadata_clone` (src/administrativemetadata.c:176-193). -/
def clone (a : Admin) : Admin :=
  ⟨strClone a.reelId, strClone a.printReelId, strClone a.title, strClone a.description, strClone a.creator,
    strClone a.creationDate⟩

/-- The comparison of the fields (src/administrativemetadata.c:244-254). -/
def eqFields (a b : Admin) : Bool :=
  strEqStrict a.reelId b.reelId && strEqStrict a.printReelId b.printReelId && strEqStrict a.title b.title &&
  strEqStrict a.description b.description && strEqStrict a.creator b.creator && strEqStrict a.creationDate b.creationDate

/-- `afs_administrative_metadata_equal` (src/administrativemetadata.c:232-255). -/
def equal : Option Admin → Option Admin → Bool := ptrEqual eqFields

/-- `afs_administrative_metadata_set_reel_id` (src/administrativemetadata.c:268-282). -/
def setReelId (a : Admin) (s : Option Bytes) : Admin := { a with reelId := strClone s }
/-- `afs_administrative_metadata_set_print_reel_id` (src/administrativemetadata.c:295-309). -/
def setPrintReelId (a : Admin) (s : Option Bytes) : Admin := { a with printReelId := strClone s }
/-- `afs_administrative_metadata_set_title` (src/administrativemetadata.c:322-336). -/
def setTitle (a : Admin) (s : Option Bytes) : Admin := { a with title := strClone s }
/-- `afs_administrative_metadata_set_description` (src/administrativemetadata.c:349-363). -/
def setDescription (a : Admin) (s : Option Bytes) : Admin := { a with description := strClone s }
/-- `afs_administrative_metadata_set_creator` (src/administrativemetadata.c:376-390). -/
def setCreator (a : Admin) (s : Option Bytes) : Admin := { a with creator := strClone s }
/-- `afs_administrative_metadata_set_creation_date` (src/administrativemetadata.c:403-417). -/
def setCreationDate (a : Admin) (s : Option Bytes) : Admin := { a with creationDate := strClone s }

/-- The element `afs_administrative_metadata_save_xml` adds (src/administrativemetadata.c:537-561) with
    the tags of `get_tags_list` (709-731); it cannot fail. -/
def saveXml (a : Admin) : Option Node :=
  let n := Node.new (b! "AdministrativeMetadata")
  let n := (textNode (b! "ReelId") a.reelId).foldl Node.addChild n
  let n := (textNode (b! "PrintReelId") a.printReelId).foldl Node.addChild n
  let n := (textNode (b! "Title") a.title).foldl Node.addChild n
  let n := (textNode (b! "Description") a.description).foldl Node.addChild n
  let n := (textNode (b! "Creator") a.creator).foldl Node.addChild n
  some ((textNode (b! "CreationDate") a.creationDate).foldl Node.addChild n)

/-- One turn of the loop of `afs_administrative_metadata_load_xml`
    (src/administrativemetadata.c:678-691): NULL without the element, the empty string when the element
    has no text. -/
def tagText (n : Node) (tag : Bytes) : Option Bytes :=
  match find n tag with
  | none => none
  | some x => some ((nodeText (some x)).getD [])

/-- `afs_administrative_metadata_load_xml` (src/administrativemetadata.c:659-697) for a node that is
    not NULL.  The node itself is not looked at, only what is below it. -/
def loadXml (a : Admin) (node : Node) : Bool × Admin :=
  match find node (b! "AdministrativeMetadata") with
  | none => (false, a)
  | some n => (true,
    { reelId := tagText n (b! "ReelId")
      printReelId := tagText n (b! "PrintReelId")
      title := tagText n (b! "Title")
      description := tagText n (b! "Description")
      creator := tagText n (b! "Creator")
      creationDate := tagText n (b! "CreationDate") })

/-- `whitespace_cb` (src/administrativemetadata.c:734-770). -/
def cb : SaveCb := cbOf fun name parent w =>
  if name = b! "AdministrativeMetadata" ∧ wsBefore w then indent 0
  else if parent = b! "AdministrativeMetadata" ∧ wsBefore w then indent 4
  else if parent = b! "AdministrativeMetadata" ∧ w = .afterOpen then indent 8
  else []

/-- `afs_administrative_metadata_save_string` (src/administrativemetadata.c:491-522). -/
def saveString (a : Admin) (compact : Bool) : Option Bytes := docString cb compact a.saveXml
/-- `afs_administrative_metadata_save_file` (src/administrativemetadata.c:433-476). -/
def saveFile (a : Admin) (compact : Bool) : Bool × Option Bytes := docFile true cb compact a.saveXml
/-- `afs_administrative_metadata_load_string` (src/administrativemetadata.c:626-644). -/
def loadString (a : Admin) (s : Bytes) : Bool × Admin := loadFromString a.loadXml (false, a) s
/-- `afs_administrative_metadata_load_file` (src/administrativemetadata.c:576-611). -/
def loadFile (a : Admin) (s : Bytes) : Bool × Admin := loadFromFile a.loadXml (false, a) s

end Admin
end Afs
