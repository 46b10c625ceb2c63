import Verif.Model.BoxingConfig
/-!
# Technical metadata and control data (`src/technicalmetadata.c`, `src/controldata.c`)
-/
namespace Afs
open Xml

/-- `afs_technical_metadata` (inc/technicalmetadata.h). Lines 27-34. -/
structure TechMeta (L : ConfigLib) where
  format : Option (Format L)
  tocs : Option Files
  apps : Option Files

namespace TechMeta
variable {L : ConfigLib}

/-- `afs_technical_metadata_create` (src/technicalmetadata.c:73-84). -/
def create : TechMeta L := ⟨none, none, none⟩

/-- `afs_technical_metadata_create2` (src/technicalmetadata.c:100-111). -/
def create2 (tocs : Option Files) (format : Option (Format L)) : TechMeta L := ⟨format, tocs, none⟩

/-- `afs_technical_metadata_clone` (src/technicalmetadata.c:158-172): the boxing format is made again
    from its configuration. -/
def clone (t : TechMeta L) : TechMeta L :=
  ⟨t.format.map fun f => Format.create2 f.config, t.tocs.map Files.clone, t.apps.map Files.clone⟩

/-- The comparison of the fields (src/technicalmetadata.c:223-244): of the boxing formats only the
    configurations are compared. -/
def eqFields (a b : TechMeta L) : Bool :=
  ptrEqual (fun f g : Format L => L.isEqual f.config g.config) a.format b.format &&
  Files.equal a.tocs b.tocs && Files.equal a.apps b.apps

/-- `afs_technical_metadata_equal` (src/technicalmetadata.c:211-245). -/
def equal : Option (TechMeta L) → Option (TechMeta L) → Bool := ptrEqual eqFields

/-- "write the list in an element of that name, if there is a list" (src/technicalmetadata.c:393-406);
    `none` when `afs_toc_files_save_xml` fails. -/
def saveFiles (n : Node) (name : Bytes) (f : Option Files) : Option Node :=
  match f with
  | none => some n
  | some f => f.saveXml.map fun x => n.addChild ((Node.new name).addChild x)

/-- The element `afs_technical_metadata_save_xml` adds (src/technicalmetadata.c:376-408). -/
def saveXml (t : TechMeta L) : Option Node :=
  match t.format with
  | none => none
  | some f => f.saveXml.bind fun x =>
    (saveFiles ((Node.new (b! "TechnicalMetadata")).addChild ((Node.new (b! "BoxerFormat")).addChild x))
      (b! "Tocs") t.tocs).bind fun n => saveFiles n (b! "Applications") t.apps

/-- The boxing format in `afs_technical_metadata_load_xml` (src/technicalmetadata.c:528-536). -/
def loadFormat (b : Node) : Option (Format L) :=
  let r := Format.loadXml (L := L) Format.create b
  if r.1 = false then none else some r.2

/-- The tables of contents in `afs_technical_metadata_load_xml` (src/technicalmetadata.c:538-554): when
    they cannot be loaded the boxing format is dropped as well. -/
def loadTocs (t : TechMeta L) (x : Option Node) : Bool × TechMeta L :=
  match x.map Files.create.loadXml with
  | none => (true, t)
  | some (false, _) => (false, { t with format := none, tocs := none })
  | some (true, f) => (true, { t with tocs := some f })

/-- The applications in `afs_technical_metadata_load_xml` (src/technicalmetadata.c:556-571). -/
def loadApps (t : TechMeta L) (x : Option Node) : TechMeta L :=
  match x.map Files.create.loadXml with
  | none => t
  | some (false, _) => { t with apps := none }
  | some (true, f) => { t with apps := some f }

/-- `afs_technical_metadata_load_xml` (src/technicalmetadata.c:506-574) for a node that is not NULL.
    A `Tocs` element that cannot be loaded makes it fail, an `Applications` element does not. -/
def loadXml (t : TechMeta L) (node : Node) : Bool × TechMeta L :=
  match find node (b! "TechnicalMetadata") with
  | none => (false, t)
  | some n =>
    match find n (b! "BoxerFormat") with
    | none => (false, t)
    | some b =>
      let r := loadTocs { t with format := loadFormat b } (find n (b! "Tocs"))
      if r.1 = false then r else (true, loadApps r.2 (find n (b! "Applications")))

/-- `whitespace_cb` (src/technicalmetadata.c:583-741). -/
def cb : SaveCb := fun anc n w =>
  let name := n.element.getD []
  let parent := anc[0]?.getD []
  let grand := anc[1]?.getD []
  if name = b! "TechnicalMetadata" ∧ wsBefore w then indent 0
  else if name = b! "work" ∧ wsBefore w then indent 8
  else if name = b! "class" ∧ wsBefore w then indent 12
  else if parent = b! "class" ∧ wsBefore w then indent 16
  else if (name = b! "BoxerFormat" ∨ name = b! "Tocs" ∨ name = b! "Applications") ∧ wsBefore w then indent 4
  else if name = b! "files" ∧ wsBefore w then indent 8
  else if name = b! "file" ∧ wsBefore w then indent 12
  else if parent = b! "file" ∧ name ≠ b! "data" ∧ name ≠ b! "preview" ∧ name ≠ b! "metadata" ∧ wsBefore w then indent 16
  else if parent = b! "file" ∧ name ≠ b! "data" ∧ name ≠ b! "preview" ∧ name ≠ b! "metadata" ∧ w = .afterOpen then indent 20
  else if name = b! "data" ∧ parent = b! "file" ∧ wsBefore w then indent 16
  else if parent = b! "data" ∧ grand = b! "file" ∧ wsBefore w then indent 20
  else if parent = b! "data" ∧ grand = b! "file" ∧ w = .afterOpen ∧ name ≠ b! "start" ∧ name ≠ b! "end" then indent 24
  else if name = b! "preview" ∧ parent = b! "file" ∧ wsBefore w then indent 16
  else if parent = b! "preview" ∧ w = .beforeOpen then indent 20
  else if name = b! "metadata" ∧ parent = b! "file" ∧ wsBefore w then indent 16
  else if parent = b! "metadata" ∧ wsBefore w then indent 20
  else if parent = b! "source" ∧ wsBefore w then indent 24
  else if parent = b! "data" ∧ grand = b! "source" ∧ w = .beforeOpen then indent 28
  else []

/-- The test before saving (src/technicalmetadata.c:268-271, 333-336). -/
def complete (t : TechMeta L) : Bool := t.tocs.isSome && t.format.isSome

/-- `afs_technical_metadata_save_string` (src/technicalmetadata.c:325-361). -/
def saveString (t : TechMeta L) (compact : Bool) : Option Bytes :=
  if t.complete = false then none else docString cb compact t.saveXml
/-- `afs_technical_metadata_save_file` (src/technicalmetadata.c:261-310). -/
def saveFile (t : TechMeta L) (compact : Bool) : Bool × Option Bytes :=
  if t.complete = false then (false, none) else docFile true cb compact t.saveXml
/-- `afs_technical_metadata_load_string` (src/technicalmetadata.c:473-491). -/
def loadString (t : TechMeta L) (s : Bytes) : Bool × TechMeta L := loadFromString t.loadXml (false, t) s
/-- `afs_technical_metadata_load_file` (src/technicalmetadata.c:423-458). -/
def loadFile (t : TechMeta L) (s : Bytes) : Bool × TechMeta L := loadFromFile t.loadXml (false, t) s

end TechMeta

/-- `afs_control_data` (inc/controldata.h). Lines 29-35. -/
structure ControlData (L : ConfigLib) where
  admin : Option Admin
  tech : Option (TechMeta L)

namespace ControlData
variable {L : ConfigLib}

/-- `afs_control_data_create` (src/controldata.c:74-84). -/
def create : ControlData L := ⟨none, none⟩

/-- `afs_control_data_create2` (src/controldata.c:100-110). -/
def create2 (a : Option Admin) (t : Option (TechMeta L)) : ControlData L := ⟨a, t⟩

/-- `afs_control_data_clone` (src/controldata.c:153-166). -/
def clone (c : ControlData L) : ControlData L := ⟨c.admin.map Admin.clone, c.tech.map TechMeta.clone⟩

/-- The comparison of the parts (src/controldata.c:217-223). -/
def eqFields (a b : ControlData L) : Bool := Admin.equal a.admin b.admin && TechMeta.equal a.tech b.tech

/-- `afs_control_data_equal` (src/controldata.c:205-224). -/
def equal : Option (ControlData L) → Option (ControlData L) → Bool := ptrEqual eqFields

/-- The two elements `afs_control_data_save_xml` adds (src/controldata.c:353-368). -/
def saveXml (c : ControlData L) : Option (List Node) :=
  (c.admin.bind Admin.saveXml).bind fun a => (c.tech.bind TechMeta.saveXml).map fun t => [a, t]

/-- `afs_control_data_load_xml` (src/controldata.c:466-502) for a node that is not NULL.  What
    `afs_technical_metadata_load_xml` returns is not looked at (494). -/
def loadXml (c : ControlData L) (node : Node) : Bool × ControlData L :=
  match find node (b! "AdministrativeMetadata") with
  | none => (false, c)
  | some _ =>
    let c := { c with admin := some (Admin.create.loadXml node).2 }
    match find node (b! "TechnicalMetadata") with
    | none => (false, c)
    | some _ => (true, { c with tech := some (TechMeta.loadXml TechMeta.create node).2 })

/-- `whitespace_cb` (src/controldata.c:514-584).  It reads the name of the parent without a test for
    a missing parent, but returns before that for the declaration, the only node without parent:
    at 524 before it and at 546 after it. -/
def cb : SaveCb := fun anc n w =>
  let name := n.element.getD []
  let parent := anc[0]?.getD []
  let top := parent = b! "AdministrativeMetadata" ∨ parent = b! "TechnicalMetadata"
  if w = .beforeOpen then
    if name.head? = some 63 then []
    else if top then indent 4
    else if parent = b! "Tocs" ∨ name = b! "work" then indent 8
    else if name = b! "class" ∨ parent = b! "file" then indent 12
    else if name = b! "property" ∨ parent = b! "data" ∨ parent = b! "preview" then indent 16
    else indent 0
  else if w = .afterOpen then
    if n.getOpaque = none then []
    else if top then indent 8
    else if parent = b! "file" then indent 16
    else if parent = b! "data" then indent 20
    else []
  else if w = .beforeClose then
    if top then indent 4
    else if parent = b! "Tocs" ∨ name = b! "work" then indent 8
    else if name = b! "class" ∨ parent = b! "file" then indent 12
    else if parent = b! "data" then indent 16
    else indent 0
  else []

/-- The document with the given elements (src/controldata.c:252-258, 315-321). -/
def document (ns : List Node) : Node := ns.foldl Node.addChild Node.newXML

/-- The test before saving (src/controldata.c:247-250, 310-313). -/
def complete (c : ControlData L) : Bool := c.admin.isSome && c.tech.isSome

/-- `afs_control_data_save_string` (src/controldata.c:302-338). -/
def saveString (c : ControlData L) (compact : Bool) : Option Bytes :=
  if c.complete = false then none
  else match c.saveXml with
    | none => none
    | some ns => saveAllocString (if compact then noCb else cb) [] (document ns)

/-- `afs_control_data_save_file` (src/controldata.c:240-287): the file is opened last. -/
def saveFile (c : ControlData L) (compact : Bool) : Bool × Option Bytes :=
  if c.complete = false then (false, none)
  else match c.saveXml with
    | none => (false, none)
    | some ns => (true, some (saveText (if compact then noCb else cb) [] (document ns)))

/-- `afs_control_data_load_string` (src/controldata.c:433-451). -/
def loadString (c : ControlData L) (s : Bytes) : Bool × ControlData L := loadFromString c.loadXml (false, c) s
/-- `afs_control_data_load_file` (src/controldata.c:383-418). -/
def loadFile (c : ControlData L) (s : Bytes) : Bool × ControlData L := loadFromFile c.loadXml (false, c) s

end ControlData
end Afs
