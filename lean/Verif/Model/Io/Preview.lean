import Verif.Model.Io.Common
import Verif.Model.Preview
/-!
# Saving and loading previews (src/tocfilepreviewpage.c, src/tocfilepreview.c)
-/
namespace Afs
open Xml

/-- `mxmlElementSetAttrf(node, name, "%u", v)`.
    mxml-attr.c:205-240; calls in src/tocfilepreviewpage.c:588-590. -/
def setU (node : Node) (name : Bytes) (v : Nat) : Node := node.setAttr name (some (printNat v))

namespace Page

/-- The element `afs_toc_file_preview_page_save_xml` adds (src/tocfilepreviewpage.c:572-603). -/
def saveXml (p : Page) : Option Node :=
  let n := Node.new (b! "pages")
  let n := match p.layoutId with
    | none => n
    | some l => n.setAttr (b! "layoutId") (some l)
  let n := setU n (b! "frame") p.startFrame
  let n := setU n (b! "section") p.startSection
  let n := setU n (b! "count") p.sectionCount
  let n := if p.dimX ≠ 0 ∧ p.dimY ≠ 0 then
      n.setAttr (b! "dimension") (some (printNat p.dimX ++ [120] ++ printNat p.dimY)) else n
  let n := if p.ovX ≠ 0 ∧ p.ovY ≠ 0 then
      n.setAttr (b! "overlap") (some (printNat p.ovX ++ [120] ++ printNat p.ovY)) else n
  some n

/-- `extract_xy_from_string` (src/tocfilepreviewpage.c:757-780): `none` for DFALSE. -/
def extractXY (text : Option Bytes) : Option (Nat × Nat) :=
  match text with
  | none => some (0, 0)
  | some t => if t.length = 0 then some (0, 0) else scanUxU t

/-- What `extract_xy_from_string` has stored in `*x` when it fails: `sscanf` stores the first number if it finds one
    (src/tocfilepreviewpage.c:755-780). -/
def storedX (text : Option Bytes) : Option Nat :=
  match text with
  | none => none
  | some t => (scanU t).map fun r => r.1

/-- `afs_toc_file_preview_page_load_xml` (src/tocfilepreviewpage.c:701-744). -/
def loadXml (p : Page) (node : Node) : Bool × Page :=
  match selfOrFind node (b! "pages") with
  | none => (false, p)
  | some n =>
    let p := { p with layoutId := strClone (n.getAttr (b! "layoutId")) }
    let p := { p with startFrame := ((intAttr n (b! "frame")).map uOfInt).getD p.startFrame }
    let p := { p with startSection := ((intAttr n (b! "section")).map uOfInt).getD p.startSection }
    let p := { p with sectionCount := ((intAttr n (b! "count")).map uOfInt).getD p.sectionCount }
    match extractXY (n.getAttr (b! "dimension")) with
    | none => (false, { p with dimX := (storedX (n.getAttr (b! "dimension"))).getD p.dimX })
    | some (x, y) =>
      let p := { p with dimX := x, dimY := y }
      match extractXY (n.getAttr (b! "overlap")) with
      | none => (false, { p with ovX := (storedX (n.getAttr (b! "overlap"))).getD p.ovX })
      | some (x, y) => (true, { p with ovX := x, ovY := y })

/-- `whitespace_cb` (src/tocfilepreviewpage.c:783-808). -/
def cb : SaveCb := cbOf fun name _ w =>
  if name = b! "pages" ∧ w = .beforeOpen then b! "\n    " else []

/-- `afs_toc_file_preview_page_save_string` (src/tocfilepreviewpage.c:526-557). -/
def saveString (p : Page) (compact : Bool) : Option Bytes := docString cb compact p.saveXml

/-- `afs_toc_file_preview_page_save_file` (src/tocfilepreviewpage.c:468-511). -/
def saveFile (p : Page) (compact : Bool) : Bool × Option Bytes := docFile true cb compact p.saveXml

/-- `afs_toc_file_preview_page_load_string` (src/tocfilepreviewpage.c:668-686). -/
def loadString (p : Page) (s : Bytes) : Bool × Page := loadFromString p.loadXml (false, p) s

/-- `afs_toc_file_preview_page_load_file` (src/tocfilepreviewpage.c:618-653). -/
def loadFile (p : Page) (s : Bytes) : Bool × Page := loadFromFile p.loadXml (false, p) s

end Page

namespace Preview

/-- The element `afs_toc_file_preview_save_xml` adds (src/tocfilepreview.c:696-728). -/
def saveXml (p : Preview) : Option Node :=
  if Preview.isValid (some p) = false then none
  else
    match (p.pages.getD []).mapM Page.saveXml with
    | none => none
    | some pages =>
      some (.elem (b! "preview") [] ((if p.dpi ≥ 0 then [intNode (b! "dpi") p.dpi] else []) ++ pages))

/-- The child loop of `afs_toc_file_preview_load_xml` (src/tocfilepreview.c:850-883). -/
def loadPages (p : Preview) : List Node → Bool × Preview
  | [] => (true, p)
  | .text _ :: ns => loadPages p ns
  | .elem n as cs :: ns =>
    if n = b! "pages" then
      let r := Page.create.loadXml (.elem n as cs)
      if r.1 = false then (false, p)
      else
        let q := p.addPage (some r.2)
        if q.1 = false then (false, p) else loadPages q.2 ns
    else loadPages p ns

/-- `afs_toc_file_preview_load_xml` (src/tocfilepreview.c:826-886). -/
def loadXml (p : Preview) (node : Node) : Bool × Preview :=
  match selfOrFind node (b! "preview") with
  | none => (false, p)
  | some n =>
    loadPages { p with dpi := (intElement n (b! "dpi")).getD p.dpi } n.children

/-- `whitespace_cb` (src/tocfilepreview.c:898-931). -/
def cb : SaveCb := cbOf fun name _ w =>
  if name = b! "preview" ∧ (w = .beforeOpen ∨ w = .beforeClose) then b! "\n"
  else if (name = b! "pages" ∨ name = b! "dpi") ∧ w = .beforeOpen then b! "\n    "
  else []

/-- `afs_toc_file_preview_save_string` (src/tocfilepreview.c:650-681). -/
def saveString (p : Preview) (compact : Bool) : Option Bytes := docString cb compact p.saveXml

/-- `afs_toc_file_preview_save_file` (src/tocfilepreview.c:593-635). -/
def saveFile (p : Preview) (compact : Bool) : Bool × Option Bytes := docFile false cb compact p.saveXml

/-- `afs_toc_file_preview_load_string` (src/tocfilepreview.c:793-811). -/
def loadString (p : Preview) (s : Bytes) : Bool × Preview := loadFromString p.loadXml (false, p) s

/-- `afs_toc_file_preview_load_file` (src/tocfilepreview.c:743-778). -/
def loadFile (p : Preview) (s : Bytes) : Bool × Preview := loadFromFile p.loadXml (false, p) s

end Preview
end Afs
