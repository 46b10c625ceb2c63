import Verif.Model.Io.Common
import Verif.Model.Layout
/-!
# Saving and loading layouts (src/toc/previewsection.c, previewsections.c,
previewlayoutdefinition.c, previewlayoutdefinitions.c)
-/
namespace Afs
open Xml

namespace Section

/-- The element `afs_toc_preview_section_save_xml` adds (src/toc/previewsection.c:469-487);
    attributes are set one after the other with `%u`. -/
def saveXml (s : Section) : Option Node :=
  if s.isValid = false then none
  else
    let n := Node.new (b! "section")
    let n := n.setAttr (b! "id") (some (printNat s.id))
    let n := n.setAttr (b! "x") (some (printNat s.x))
    let n := n.setAttr (b! "y") (some (printNat s.y))
    let n := n.setAttr (b! "w") (some (printNat s.width))
    let n := n.setAttr (b! "h") (some (printNat s.height))
    let n := n.setAttr (b! "rotation") (some (printNat s.rotation))
    some n

/-- `afs_toc_preview_section_load_xml` (src/toc/previewsection.c:585-635): the attributes are
    stored one by one until one is missing. -/
def loadXml (s : Section) (node : Node) : Bool × Section :=
  match selfOrFind node (b! "section") with
  | none => (false, s)
  | some n =>
    match uintAttr n (b! "id") with
    | none => (false, s)
    | some v =>
      let s := { s with id := v }
      match uintAttr n (b! "x") with
      | none => (false, s)
      | some v =>
        let s := { s with x := v }
        match uintAttr n (b! "y") with
        | none => (false, s)
        | some v =>
          let s := { s with y := v }
          match uintAttr n (b! "w") with
          | none => (false, s)
          | some v =>
            let s := { s with width := v }
            match uintAttr n (b! "h") with
            | none => (false, s)
            | some v =>
              let s := { s with height := v }
              match uintAttr n (b! "rotation") with
              | none => (false, s)
              | some v =>
                let s := { s with rotation := v }
                (s.isValid, s)

/-- `whitespace_cb` (src/toc/previewsection.c:647-668). -/
def cb : SaveCb := cbOf fun name _ w => if name = b! "section" ∧ w = .beforeOpen then b! "\n" else []

/-- `afs_toc_preview_section_save_string` (src/toc/previewsection.c:423-454). -/
def saveString (s : Section) (compact : Bool) : Option Bytes := docString cb compact s.saveXml
/-- `afs_toc_preview_section_save_file` (src/toc/previewsection.c:366-408): validity is tested
    before the file is opened (368). -/
def saveFile (s : Section) (compact : Bool) : Bool × Option Bytes :=
  if s.isValid = false then (false, none) else docFile true cb compact s.saveXml
/-- `afs_toc_preview_section_load_string` (src/toc/previewsection.c:552-570). -/
def loadString (x : Section) (s : Bytes) : Bool × Section := loadFromString x.loadXml (false, x) s
/-- `afs_toc_preview_section_load_file` (src/toc/previewsection.c:502-537). -/
def loadFile (x : Section) (s : Bytes) : Bool × Section := loadFromFile x.loadXml (false, x) s

end Section

namespace Sections

/-- The element `afs_toc_preview_sections_save_xml` adds (src/toc/previewsections.c:536-557). -/
def saveXml (s : Option Sections) : Option Node :=
  match s with
  | none => none
  | some s =>
    if Sections.isValid (some s) = false then none
    else
      match (s.sections.getD []).mapM Section.saveXml with
      | none => none
      | some l => some (.elem (b! "sections") [] l)

/-- The loop of `afs_toc_preview_sections_load_xml` (src/toc/previewsections.c:670-696). -/
def loadLoop (s : Sections) : List Node → Bool × Sections
  | [] => (true, s)
  | n :: ns =>
    let r := Section.create.loadXml n
    if r.1 = false then (false, s)
    else
      let q := s.append (some r.2)
      if q.1 = false then (false, s) else loadLoop q.2 ns

/-- `afs_toc_preview_sections_load_xml` (src/toc/previewsections.c:655-699). -/
def loadXml (s : Sections) (node : Node) : Bool × Sections :=
  match selfOrFind node (b! "sections") with
  | none => (false, s)
  | some n => loadLoop s (findAll n (b! "section"))

/-- `whitespace_cb` (src/toc/previewsections.c:711-732). -/
def cb : SaveCb := cbOf fun name _ w => if name = b! "section" ∧ w = .beforeOpen then b! "\n" else []

/-- `afs_toc_preview_sections_save_string` (src/toc/previewsections.c:490-521). -/
def saveString (s : Sections) (compact : Bool) : Option Bytes := docString cb compact (saveXml (some s))
/-- `afs_toc_preview_sections_save_file` (src/toc/previewsections.c:433-475): validity is tested
    before the file is opened (435). -/
def saveFile (s : Sections) (compact : Bool) : Bool × Option Bytes :=
  if isValid (some s) = false then (false, none) else docFile true cb compact (saveXml (some s))
/-- `afs_toc_preview_sections_load_string` (src/toc/previewsections.c:622-640). -/
def loadString (x : Sections) (s : Bytes) : Bool × Sections := loadFromString x.loadXml (false, x) s
/-- `afs_toc_preview_sections_load_file` (src/toc/previewsections.c:572-607). -/
def loadFile (x : Sections) (s : Bytes) : Bool × Sections := loadFromFile x.loadXml (false, x) s

end Sections

namespace LayoutDef

/-- The element `afs_toc_preview_layout_definition_save_xml` adds
    (src/toc/previewlayoutdefinition.c:577-602). -/
def saveXml (d : LayoutDef) : Option Node :=
  if d.isValid = false then none
  else
    match Sections.saveXml d.sections with
    | none => none
    | some n => some (.elem (b! "previewLayout") [] (textNode (b! "id") d.id ++ textNode (b! "name") d.name ++ [n]))

/-- `afs_toc_preview_layout_definition_load_xml` (src/toc/previewlayoutdefinition.c:700-734). -/
def loadXml (d : LayoutDef) (node : Node) : Bool × LayoutDef :=
  match selfOrFind node (b! "previewLayout") with
  | none => (false, d)
  | some n =>
    let d := { d with id := nodeText (find n (b! "id")) }
    let d := { d with name := nodeText (find n (b! "name")) }
    let r := Sections.create.loadXml n
    (r.1, { d with sections := some r.2 })

/-- `whitespace_cb` (src/toc/previewlayoutdefinition.c:746-793). -/
def cb : SaveCb := cbOf fun name parent w =>
  if name = b! "previewLayout" ∧ (w = .beforeOpen ∨ w = .beforeClose) then b! "\n"
  else if (name = b! "id" ∨ name = b! "name" ∨ name = b! "sections") ∧ (w = .beforeOpen ∨ w = .beforeClose) then b! "\n    "
  else if parent = b! "sections" ∧ (w = .beforeOpen ∨ w = .beforeClose) then b! "\n        "
  else if (name = b! "id" ∨ name = b! "name") ∧ w = .afterOpen then b! "\n        "
  else []

/-- `afs_toc_preview_layout_definition_save_string` (src/toc/previewlayoutdefinition.c:530-561). -/
def saveString (d : LayoutDef) (compact : Bool) : Option Bytes := docString cb compact d.saveXml
/-- `afs_toc_preview_layout_definition_save_file` (src/toc/previewlayoutdefinition.c:473-515). -/
def saveFile (d : LayoutDef) (compact : Bool) : Bool × Option Bytes := docFile false cb compact d.saveXml
/-- `afs_toc_preview_layout_definition_load_string` (src/toc/previewlayoutdefinition.c:667-685). -/
def loadString (x : LayoutDef) (s : Bytes) : Bool × LayoutDef := loadFromString x.loadXml (false, x) s
/-- `afs_toc_preview_layout_definition_load_file` (src/toc/previewlayoutdefinition.c:617-652). -/
def loadFile (x : LayoutDef) (s : Bytes) : Bool × LayoutDef := loadFromFile x.loadXml (false, x) s

end LayoutDef

namespace LayoutDefs

/-- The element `afs_toc_preview_layout_definitions_save_xml` adds
    (src/toc/previewlayoutdefinitions.c:705-726). -/
def saveXml (d : Option LayoutDefs) : Option Node :=
  match d with
  | none => none
  | some d =>
    if LayoutDefs.isValid (some d) = false then none
    else
      match (d.defs.getD []).mapM LayoutDef.saveXml with
      | none => none
      | some l => some (.elem (b! "layoutDefinitions") [] l)

/-- The loop of `afs_toc_preview_layout_definitions_load_xml`
    (src/toc/previewlayoutdefinitions.c:839-865). -/
def loadLoop (d : LayoutDefs) : List Node → Res (Bool × LayoutDefs)
  | [] => .ok (true, d)
  | n :: ns =>
    let r := LayoutDef.create.loadXml n
    if r.1 = false then .ok (false, d)
    else do
      let q ← d.add (some r.2)
      if q.1 = false then return (false, d) else loadLoop q.2 ns

/-- `afs_toc_preview_layout_definitions_load_xml` (src/toc/previewlayoutdefinitions.c:824-868). -/
def loadXml (d : LayoutDefs) (node : Node) : Res (Bool × LayoutDefs) :=
  match selfOrFind node (b! "layoutDefinitions") with
  | none => .ok (false, d)
  | some n => loadLoop d (findAll n (b! "previewLayout"))

/-- `whitespace_cb` (src/toc/previewlayoutdefinitions.c:939-994). -/
def cb : SaveCb := cbOf fun name parent w =>
  if name = b! "layoutDefinitions" ∧ (w = .beforeOpen ∨ w = .beforeClose) then b! "\n"
  else if name = b! "previewLayout" ∧ (w = .beforeOpen ∨ w = .beforeClose) then b! "\n    "
  else if (name = b! "id" ∨ name = b! "name" ∨ name = b! "sections") ∧ (w = .beforeOpen ∨ w = .beforeClose) then b! "\n        "
  else if parent = b! "sections" ∧ (w = .beforeOpen ∨ w = .beforeClose) then b! "\n            "
  else if (name = b! "id" ∨ name = b! "name") ∧ w = .afterOpen then b! "\n            "
  else []

/-- `afs_toc_preview_layout_definitions_save_string` (src/toc/previewlayoutdefinitions.c:586-617):
    without declaration. -/
def saveString (d : LayoutDefs) (compact : Bool) : Option Bytes := elemString cb compact (saveXml (some d))
/-- `afs_toc_preview_layout_definitions_save_file` (src/toc/previewlayoutdefinitions.c:529-571):
    validity is tested before the file is opened (531). -/
def saveFile (d : LayoutDefs) (compact : Bool) : Bool × Option Bytes :=
  if isValid (some d) = false then (false, none) else docFile true cb compact (saveXml (some d))
/-- `afs_toc_preview_layout_definitions_load_string` (src/toc/previewlayoutdefinitions.c:791-809). -/
def loadString (x : LayoutDefs) (s : Bytes) : Res (Bool × LayoutDefs) := loadFromString x.loadXml (.ok (false, x)) s
/-- `afs_toc_preview_layout_definitions_load_file` (src/toc/previewlayoutdefinitions.c:741-776). -/
def loadFile (x : LayoutDefs) (s : Bytes) : Res (Bool × LayoutDefs) := loadFromFile x.loadXml (.ok (false, x)) s

end LayoutDefs
end Afs
