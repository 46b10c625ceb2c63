import Verif.Model.Object
import Verif.Model.Res
/-!
# Preview sections and layout definitions
(src/toc/previewsection.c, previewsections.c, previewlayoutdefinition.c,
previewlayoutdefinitions.c)
-/
namespace Afs

/-- `afs_toc_preview_section` (inc/toc/previewsection.h); all fields `unsigned int`.
    Lines 29-39. -/
structure Section where
  id : Nat
  x : Nat
  y : Nat
  width : Nat
  height : Nat
  rotation : Nat
deriving DecidableEq, Repr

namespace Section

/-- `afs_toc_preview_section_create` (src/toc/previewsection.c:65-71). -/
def create : Section := ⟨0, 0, 0, 0, 0, 0⟩

/-- `afs_toc_preview_section_clone` (src/toc/previewsection.c:170-187). -/
def clone (s : Section) : Section := ⟨s.id, s.x, s.y, s.width, s.height, s.rotation⟩

/-- `afs_toc_preview_section_equal`, non-NULL part (src/toc/previewsection.c:237-242). -/
def eqFields (a b : Section) : Bool :=
  a.id == b.id && a.x == b.x && a.y == b.y && a.width == b.width && a.height == b.height &&
  a.rotation == b.rotation

/-- `afs_toc_preview_section_equal` (src/toc/previewsection.c:225-243). -/
def equal : Option Section → Option Section → Bool := ptrEqual eqFields

/-- `afs_toc_preview_section_is_valid` (src/toc/previewsection.c:257-279), non-NULL part. -/
def isValid (s : Section) : Bool :=
  if s.rotation ≠ 0 ∧ s.rotation ≠ 90 ∧ s.rotation ≠ 180 ∧ s.rotation ≠ 270 then false
  else if s.width = 0 ∨ s.height = 0 then false
  else true

/-- `afs_toc_preview_section_content_width` (src/toc/previewsection.c:293-302). -/
def contentWidth (s : Section) : Nat :=
  if s.rotation % 90 ≠ 0 then 0 else if s.rotation % 180 = 0 then s.width else s.height

/-- `afs_toc_preview_section_content_height` (src/toc/previewsection.c:316-325). -/
def contentHeight (s : Section) : Nat :=
  if s.rotation % 90 ≠ 0 then 0 else if s.rotation % 180 = 0 then s.height else s.width

/-- The unsigned expression `p + n - 1` of src/toc/previewsection.c:346-349 (wraps). -/
def lastOf (p n : Nat) : Nat := u32 (p + n + (two32 - 1))

/-- `afs_toc_preview_section_is_overlap` (src/toc/previewsection.c:339-350). -/
def isOverlap (a b : Section) : Bool :=
  if !a.isValid || !b.isValid then false
  else
    decide (a.x ≤ lastOf b.x b.width) && decide (lastOf a.x a.width ≥ b.x) &&
    decide (a.y ≤ lastOf b.y b.height) && decide (lastOf a.y a.height ≥ b.y)

end Section

/-- `afs_toc_preview_sections` (inc/toc/previewsections.h). Lines 29-34. -/
structure Sections where
  sections : Option (List Section)
deriving DecidableEq, Repr

namespace Sections

/-- `afs_toc_preview_sections_create`: NULL vector. src/toc/previewsections.c:66-72. -/
def create : Sections := ⟨none⟩

/-- `afs_toc_preview_sections_clone` (src/toc/previewsections.c:142-165). -/
def clone (s : Sections) : Sections := ⟨vecClone Section.clone s.sections⟩

/-- `afs_toc_preview_sections_equal`, non-NULL part (src/toc/previewsections.c:216-242). -/
def eqFields (a b : Sections) : Bool := vecEqual Section.eqFields a.sections b.sections

/-- `afs_toc_preview_sections_equal` (src/toc/previewsections.c:204-243). -/
def equal : Option Sections → Option Sections → Bool := ptrEqual eqFields

/-- Nested loops of `afs_toc_preview_sections_is_valid` (src/toc/previewsections.c:274-293):
    each section valid and not overlapping any later one. -/
def validLoop : List Section → Bool
  | [] => true
  | s :: rest => s.isValid && rest.all (fun t => !Section.isOverlap s t) && validLoop rest

/-- `afs_toc_preview_sections_is_valid` (src/toc/previewsections.c:257-296): NULL or empty
    vectors are invalid. -/
def isValid : Option Sections → Bool
  | none => false
  | some ⟨none⟩ => false
  | some ⟨some l⟩ => if l.length = 0 then false else validLoop l

/-- `afs_toc_preview_sections_size` (src/toc/previewsections.c:310-323). -/
def size : Option Sections → Nat
  | none => 0
  | some s => vecSize s.sections

/-- `afs_toc_preview_sections_get` (src/toc/previewsections.c:399-417). -/
def get (s : Option Sections) (i : Nat) : Option Section :=
  match s with
  | none => none
  | some s => vecGet s.sections i

/-- The admission loop of `afs_toc_preview_sections_append` (src/toc/previewsections.c:352-368)
    and `afs_toc_preview_layout_definition_add_section`
    (src/toc/previewlayoutdefinition.c:398-414). -/
def admissible (x : Section) : List Section → Bool
  | [] => true
  | c :: cs => if c.id = x.id then false else if Section.isOverlap c x then false else admissible x cs

/-- `afs_toc_preview_sections_append` (src/toc/previewsections.c:340-385). -/
def append (s : Sections) (x : Option Section) : Bool × Sections :=
  match x with
  | none => (false, s)
  | some x =>
    if !x.isValid then (false, s)
    else if !admissible x (s.sections.getD []) then (false, s)
    else (true, ⟨vecAppend s.sections x⟩)

end Sections

/-- `afs_toc_preview_layout_definition` (inc/toc/previewlayoutdefinition.h). Lines 24-31. -/
structure LayoutDef where
  id : Option Bytes
  name : Option Bytes
  sections : Option Sections
deriving DecidableEq, Repr

namespace LayoutDef

/-- `afs_toc_preview_layout_definition_create` (src/toc/previewlayoutdefinition.c:66-72). -/
def create : LayoutDef := ⟨none, none, none⟩

/-- `afs_toc_preview_layout_definition_create2`
    (src/toc/previewlayoutdefinition.c:88-95, 153-164). -/
def create2 (id name : Option Bytes) : LayoutDef := ⟨strClone id, strClone name, none⟩

/-- `afs_toc_preview_layout_definition_clone` (src/toc/previewlayoutdefinition.c:231-244). -/
def clone (d : LayoutDef) : LayoutDef :=
  { create2 d.id d.name with sections := d.sections.map Sections.clone }

/-- `afs_toc_preview_layout_definition_equal`, non-NULL part
    (src/toc/previewlayoutdefinition.c:296-305). -/
def eqFields (a b : LayoutDef) : Bool :=
  Sections.equal a.sections b.sections && strEq a.id b.id && strEq a.name b.name

/-- `afs_toc_preview_layout_definition_equal` (src/toc/previewlayoutdefinition.c:284-306). -/
def equal : Option LayoutDef → Option LayoutDef → Bool := ptrEqual eqFields

/-- `afs_toc_preview_layout_definition_is_valid` (src/toc/previewlayoutdefinition.c:320-336),
    non-NULL part. -/
def isValid (d : LayoutDef) : Bool :=
  if nullOrEmpty d.id || nullOrEmpty d.name || !Sections.isValid d.sections then false else true

/-- `afs_toc_preview_layout_definition_get_section_count`
    (src/toc/previewlayoutdefinition.c:350-355). -/
def sectionCount (d : LayoutDef) : Nat :=
  match d.sections with
  | none => 0
  | some s => Sections.size (some s)

/-- `afs_toc_preview_layout_definition_get_section`
    (src/toc/previewlayoutdefinition.c:369-374). -/
def getSection (d : LayoutDef) (i : Nat) : Option Section :=
  match d.sections with
  | none => none
  | some s => Sections.get (some s) i

/-- The sections stored in a definition, NULL read as empty (used by the admission loop of
    src/toc/previewlayoutdefinition.c:398-414 through `getSection`). -/
def sectionList (d : LayoutDef) : List Section :=
  match d.sections with
  | none => []
  | some s => s.sections.getD []

/-- `afs_toc_preview_layout_definition_add_section`
    (src/toc/previewlayoutdefinition.c:391-422). -/
def addSection (d : LayoutDef) (x : Option Section) : Bool × LayoutDef :=
  match x with
  | none => (false, d)
  | some x =>
    if !x.isValid then (false, d)
    else if !Sections.admissible x d.sectionList then (false, d)
    else
      let secs := match d.sections with
        | none => Sections.create
        | some s => s
      let r := Sections.append secs (some x)
      (r.1, { d with sections := some r.2 })

/-- `afs_toc_preview_layout_definition_is_section_size_equal`
    (src/toc/previewlayoutdefinition.c:438-457). -/
def isSectionSizeEqual (d : LayoutDef) : Bool :=
  match d.sectionList with
  | [] => true
  | f :: rest => rest.all fun c => f.width == c.width && f.height == c.height

end LayoutDef

/-- `afs_toc_preview_layout_definitions` (inc/toc/previewlayoutdefinitions.h). Lines 26-31. -/
structure LayoutDefs where
  defs : Option (List LayoutDef)
deriving DecidableEq, Repr

namespace LayoutDefs

/-- `afs_toc_preview_layout_definitions_create`: NULL vector.
    src/toc/previewlayoutdefinitions.c:85-91. -/
def create : LayoutDefs := ⟨none⟩

/-- `afs_toc_preview_layout_definitions_clone` (src/toc/previewlayoutdefinitions.c:142-165). -/
def clone (d : LayoutDefs) : LayoutDefs := ⟨vecClone LayoutDef.clone d.defs⟩

/-- `afs_toc_preview_layout_definitions_equal`, non-NULL part
    (src/toc/previewlayoutdefinitions.c:217-243). -/
def eqFields (a b : LayoutDefs) : Bool := vecEqual LayoutDef.eqFields a.defs b.defs

/-- `afs_toc_preview_layout_definitions_equal` (src/toc/previewlayoutdefinitions.c:205-244). -/
def equal : Option LayoutDefs → Option LayoutDefs → Bool := ptrEqual eqFields

/-- `afs_toc_preview_layout_definitions_is_valid` (src/toc/previewlayoutdefinitions.c:258-284):
    NULL object invalid, NULL or empty vector valid. -/
def isValid : Option LayoutDefs → Bool
  | none => false
  | some ⟨none⟩ => true
  | some ⟨some l⟩ => l.all LayoutDef.isValid

/-- `afs_toc_preview_layout_definitions_get_count`
    (src/toc/previewlayoutdefinitions.c:298-311). -/
def getCount : Option LayoutDefs → Nat
  | none => 0
  | some d => vecSize d.defs

/-- `afs_toc_preview_layout_definitions_get_layout_definition_by_index`
    (src/toc/previewlayoutdefinitions.c:325-343). -/
def byIndex (d : Option LayoutDefs) (i : Nat) : Option LayoutDef :=
  match d with
  | none => none
  | some d => vecGet d.defs i

/-- Search loop of the two lookups and of `has_layout_definition`
    (src/toc/previewlayoutdefinitions.c:374-384, 416-426, 502-512): `strcmp` on a stored NULL
    key is undefined behaviour. -/
def findKey (key : LayoutDef → Option Bytes) (k : Bytes) : List LayoutDef → Res (Option LayoutDef)
  | [] => .ok none
  | d :: ds => do
    if ← strcmpEq (key d) (some k) then return some d else findKey key k ds

/-- `afs_toc_preview_layout_definitions_get_layout_definition_by_id`
    (src/toc/previewlayoutdefinitions.c:357-385). -/
def byId (d : Option LayoutDefs) (id : Option Bytes) : Res (Option LayoutDef) :=
  match d, id with
  | some d, some k => if k.length = 0 then .ok none else findKey LayoutDef.id k (d.defs.getD [])
  | _, _ => .ok none

/-- `afs_toc_preview_layout_definitions_get_layout_definition_by_name`
    (src/toc/previewlayoutdefinitions.c:399-427). -/
def byName (d : Option LayoutDefs) (name : Option Bytes) : Res (Option LayoutDef) :=
  match d, name with
  | some d, some k => if k.length = 0 then .ok none else findKey LayoutDef.name k (d.defs.getD [])
  | _, _ => .ok none

/-- `afs_toc_preview_layout_definitions_has_layout_definition`
    (src/toc/previewlayoutdefinitions.c:485-513). -/
def has (d : Option LayoutDefs) (id : Option Bytes) : Res Bool := do
  let r ← match d, id with
    | some d, some k => if k.length = 0 then .ok none else findKey LayoutDef.id k (d.defs.getD [])
    | _, _ => .ok none
  return r.isSome

/-- `afs_toc_preview_layout_definitions_add_layout_definition`
    (src/toc/previewlayoutdefinitions.c:444-471). -/
def add (d : LayoutDefs) (x : Option LayoutDef) : Res (Bool × LayoutDefs) :=
  match x with
  | none => .ok (false, d)
  | some x =>
    if !x.isValid then .ok (false, d)
    else do
      if ← has (some d) x.id then return (false, d)
      else return (true, ⟨vecAppend d.defs x⟩)

end LayoutDefs
end Afs
