import Verif.Model.Layout
/-!
# File previews (src/tocfilepreviewpage.c, src/tocfilepreview.c)
-/
namespace Afs

/-- `afs_toc_file_preview_page` (inc/tocfilepreviewpage.h:26-38); numeric fields are
    `unsigned int`. -/
structure Page where
  layoutId : Option Bytes
  startFrame : Nat
  startSection : Nat
  sectionCount : Nat
  dimX : Nat
  dimY : Nat
  ovX : Nat
  ovY : Nat
deriving DecidableEq, Repr

namespace Page

/-- `afs_toc_file_preview_page_create` / `_init` (src/tocfilepreviewpage.c:131-148). -/
def create : Page := ⟨none, 0, 0, 0, 0, 0, 0, 0⟩

/-- `afs_toc_file_preview_page_create2` (src/tocfilepreviewpage.c:105-118, 169-195). -/
def create2 (l : Option Bytes) (f s n dx dy ox oy : Nat) : Page :=
  ⟨strClone l, f, s, n, dx, dy, ox, oy⟩

/-- `afs_toc_file_preview_page_clone` (src/tocfilepreviewpage.c:235-252). -/
def clone (p : Page) : Page :=
  create2 p.layoutId p.startFrame p.startSection p.sectionCount p.dimX p.dimY p.ovX p.ovY

/-- `afs_toc_file_preview_page_equal`, non-NULL part (src/tocfilepreviewpage.c:303-315). -/
def eqFields (a b : Page) : Bool :=
  strEq a.layoutId b.layoutId && a.startFrame == b.startFrame &&
  a.startSection == b.startSection && a.sectionCount == b.sectionCount &&
  a.dimX == b.dimX && a.dimY == b.dimY && a.ovX == b.ovX && a.ovY == b.ovY

/-- `afs_toc_file_preview_page_equal` (src/tocfilepreviewpage.c:291-316). -/
def equal : Option Page → Option Page → Bool := ptrEqual eqFields

/-- `afs_toc_file_preview_page_is_valid` (src/tocfilepreviewpage.c:330-347), non-NULL part. -/
def isValid (p : Page) : Bool :=
  !nullOrEmpty p.layoutId && p.sectionCount != 0 && decide (p.ovX ≤ p.dimX) && decide (p.ovY ≤ p.dimY)

/-- `afs_toc_file_preview_page_get_frames_count` (src/tocfilepreviewpage.c:363-409), non-NULL
    `frames_count`.  Result: return value and `*frames_count`. -/
def framesCount (p : Option Page) (defs : Option LayoutDefs) : Res (Bool × Nat) :=
  match p, defs with
  | some p, some ds =>
    match p.layoutId with
    | none => .ok (false, 0)
    | some _ => do
      match ← LayoutDefs.byId (some ds) p.layoutId with
      | none => return (false, 0)
      | some d =>
        let cap := u32 d.sectionCount
        if cap = 0 then return (false, 0)
        else if p.sectionCount = 0 then return (true, 0)
        else
          let n := u32 (p.startSection + p.sectionCount) / cap
          if u32 (p.startSection + p.sectionCount) % cap ≠ 0 then return (true, n + 1)
          else return (true, n)
  | _, _ => .ok (false, 0)

/-- `afs_toc_file_preview_page_get_sections_on_frame` (src/tocfilepreviewpage.c:426-452):
    `none` when it returns DFALSE (`*sections` untouched); signed overflow in the `int`
    expression is undefined behaviour.  Casts to `int` of values ≥ 2^31 wrap. -/
def sectionsOnFrame (p : Option Page) (frame : Nat) (defs : Option LayoutDefs) :
    Res (Option Nat) :=
  match p, defs with
  | some p, some ds =>
    match p.layoutId with
    | none => .ok none
    | some _ => do
      match ← LayoutDefs.byId (some ds) p.layoutId with
      | none => return none
      | some d =>
        let cap := intOfU d.sectionCount
        let total ← ckInt (intOfU p.sectionCount + intOfU p.startSection)
        let before ← ckInt (cap * max 0 (intOfU frame))
        let a ← ckInt (total - before)
        let b ← ckInt (intOfU p.startSection - before)
        return some (uOfInt (max (min a cap) 0 - max (min b cap) 0))
  | _, _ => .ok none

end Page

/-- `afs_toc_file_preview` (inc/tocfilepreview.h:27-34). -/
structure Preview where
  pages : Option (List Page)
  dpi : Int
deriving DecidableEq, Repr

namespace Preview

/-- `afs_toc_file_preview_create` / `_init` (src/tocfilepreview.c:70-75, 108-119). -/
def create : Preview := ⟨none, -1⟩

/-- `afs_toc_file_preview_create2` (src/tocfilepreview.c:90-95, 133-144). -/
def create2 (pages : Option (List Page)) : Preview := ⟨pages, -1⟩

/-- `afs_toc_file_preview_clone` (src/tocfilepreview.c:193-219). -/
def clone (p : Preview) : Preview :=
  match p.pages with
  | none => { create with dpi := p.dpi }
  | some l => { create2 (some (l.map Page.clone)) with dpi := p.dpi }

/-- `afs_toc_file_preview_equal`, non-NULL part (src/tocfilepreview.c:270-293). -/
def eqFields (a b : Preview) : Bool :=
  vecEqual Page.eqFields a.pages b.pages && a.dpi == b.dpi

/-- `afs_toc_file_preview_equal` (src/tocfilepreview.c:258-294). -/
def equal : Option Preview → Option Preview → Bool := ptrEqual eqFields

/-- `afs_toc_file_preview_add_page` (src/tocfilepreview.c:311-338). -/
def addPage (p : Preview) (x : Option Page) : Bool × Preview :=
  match x with
  | none => (false, p)
  | some x => if !x.isValid then (false, p) else (true, { p with pages := vecAppend p.pages x })

/-- `afs_toc_file_preview_get_page` (src/tocfilepreview.c:352-370). -/
def getPage (p : Option Preview) (i : Nat) : Option Page :=
  match p with
  | none => none
  | some p => vecGet p.pages i

/-- `afs_toc_file_preview_get_page_count` (src/tocfilepreview.c:384-397). -/
def pageCount : Option Preview → Nat
  | none => 0
  | some p => vecSize p.pages

/-- `afs_toc_file_preview_get_start_frame` (src/tocfilepreview.c:411-429): −1 without pages,
    else the first page's start frame converted to `int`. -/
def startFrame : Option Preview → Int
  | none => -1
  | some p =>
    match p.pages with
    | none => -1
    | some [] => -1
    | some (q :: _) => intOfU q.startFrame

/-- `afs_toc_file_preview_add_frame_offset` (src/tocfilepreview.c:443-459): unsigned addition
    on every page. -/
def addFrameOffset (p : Preview) (offset : Nat) : Preview :=
  match p.pages with
  | none => p
  | some l => { p with pages := some (l.map fun q => { q with startFrame := u32 (q.startFrame + offset) }) }

/-- `afs_toc_file_preview_set_dpi` (src/tocfilepreview.c:473-481). -/
def setDpi (p : Preview) (dpi : Int) : Preview := { p with dpi := dpi }

/-- `afs_toc_file_preview_is_valid` (src/tocfilepreview.c:495-521). -/
def isValid : Option Preview → Bool
  | none => false
  | some p =>
    match p.pages with
    | none => false
    | some l => if l.length = 0 then false else l.all Page.isValid

/-- Page loop of `afs_toc_file_preview_get_frames_count` (src/tocfilepreview.c:549-569):
    `none` = early `return DFALSE`. -/
def framesLoop (defs : LayoutDefs) : List Page → Nat → Nat → Res (Option (Nat × Nat))
  | [], first, last => .ok (some (first, last))
  | q :: qs, first, last => do
    let r ← Page.framesCount (some q) (some defs)
    if r.1 = false then return none
    else if r.2 > 0 then
      framesLoop defs qs (min first q.startFrame) (max last (u32 (q.startFrame + r.2 + (two32 - 1))))
    else framesLoop defs qs first last

/-- `afs_toc_file_preview_get_frames_count` (src/tocfilepreview.c:537-577): return value and
    `*frames_count` (0 on the failing paths after the first check). -/
def framesCount (p : Option Preview) (defs : Option LayoutDefs) : Res (Bool × Nat) :=
  match p, defs with
  | some p, some ds => do
    match ← framesLoop ds (p.pages.getD []) 2147483647 0 with
    | none => return (false, 0)
    | some (first, last) =>
      if first ≠ 2147483647 then return (true, u32 (last + (two32 - first) + 1))
      else return (true, 0)
  | _, _ => .ok (false, 0)

end Preview
end Afs
