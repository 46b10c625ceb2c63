import Verif.Model.Res
/-!
# Reference counts and ownership

Every object of the library carries a `reference_count`.  This file models the heap of
those objects – their kind, their count and the objects they own – and the functions that
change it: `*_create`, `*_create2`, `*_get_new_reference`, `*_free`, `*_clone`, the `add`
functions and `afs_toc_file_set_preview` / `_set_metadata`.

Simplifications.  The plain data of an object (strings, numbers) is left out: it is owned
by exactly one object, copied by `boxing_string_clone` and freed with it (its values are
modelled in the other files).  An address is a number that is never handed out twice, so a
use of an address that has been freed is always seen.  Whether an `add` call accepts its
argument depends on the plain data (see `Model/Layout.lean` etc.); here the outcome is a
parameter and the theorems hold for every outcome.  NULL arguments make every function
return at once without an effect and are left out, except for the part given to
`afs_toc_file_set_preview`.  `gvector_free` (boxing library) is assumed to free the vector
and not what its elements point to; all callers set the elements to NULL first.
-/
namespace Afs.Refs

/-- The object types with a `reference_count` (one per `reference_count = 1` in src/). -/
inductive Kind where
  | frameRange | frameRanges
  | page | preview
  | fileMetaSource | fileMeta
  | file | files | reel | reels
  | metaSource | tocMeta
  | section_ | sections | layoutDef | layoutDefs
  | tocData
  | admin | boxing | tech | control
deriving DecidableEq, Repr

/-- Which object types an object of each type can own: the pointer fields and vectors of
    the structs in inc/ that are released by the `*_free` functions
    (src/frameranges.c:97, src/tocfilepreview.c:171, src/tocdatafilemetadata.c:166,
    src/tocfile.c:325-327, src/tocfiles.c:212, src/tocdatareel.c:133,
    src/tocdatareels.c:114, src/tocmetadata.c:175, src/toc/previewsections.c:118,
    src/toc/previewlayoutdefinition.c:213, src/toc/previewlayoutdefinitions.c:118,
    src/tocdata.c:197-199, src/technicalmetadata.c:134-138, src/controldata.c:133-135). -/
def Kind.owns : Kind → Kind → Bool
  | .frameRanges, .frameRange => true
  | .preview, .page => true
  | .fileMeta, .fileMetaSource => true
  | .file, .preview => true
  | .file, .fileMeta => true
  | .files, .file => true
  | .reel, .files => true
  | .reels, .reel => true
  | .tocMeta, .metaSource => true
  | .sections, .section_ => true
  | .layoutDef, .sections => true
  | .layoutDefs, .layoutDef => true
  | .tocData, .reels => true
  | .tocData, .tocMeta => true
  | .tocData, .layoutDefs => true
  | .tech, .boxing => true
  | .tech, .files => true
  | .control, .admin => true
  | .control, .tech => true
  | _, _ => false

/-- One allocated object: its type, its `reference_count` and the objects it owns.
    Simplification: pointer fields and vectors are one list, so the order in which `*_free`
    releases two parts of different types may differ from the C code.
    The structures of inc/, e.g. inc/tocfile.h:50-69. -/
structure Cell where
  kind : Kind
  rc : Int
  kids : List Nat
deriving DecidableEq, Repr

/-- The heap: `cells a = none` when nothing is allocated at `a` (never was, or was freed).
    Modelling device (malloc/free, e.g. src/tocfile.c:125-130). -/
structure Heap where
  cells : Nat → Option Cell
  next : Nat

/-- The heap before the first call (modelling device for malloc, e.g. src/tocfile.c:125-130). -/
def Heap.empty : Heap := ⟨fun _ => none, 0⟩

/-- Write a cell. E.g. src/tocfile.c:383-393. -/
def Heap.set (h : Heap) (a : Nat) (c : Cell) : Heap :=
  { h with cells := fun x => if x = a then some c else h.cells x }

/-- C `free(a)`. E.g. the last line of src/framerange.c:105-118. -/
def Heap.remove (h : Heap) (a : Nat) : Heap :=
  { h with cells := fun x => if x = a then none else h.cells x }

/-- `malloc` of an object owning `kids`, with `reference_count = 1`
    (e.g. src/framerange.c:64-69, src/tocfile.c:125-130, src/tocdata.c:122-137,
    src/technicalmetadata.c:100-111, src/controldata.c:100-110). -/
def Heap.alloc (h : Heap) (k : Kind) (kids : List Nat) : Heap × Nat :=
  ({ cells := fun x => if x = h.next then some ⟨k, 1, kids⟩ else h.cells x
     next := h.next + 1 }, h.next)

/-- `*_get_new_reference` (src/framerange.c:156-166, src/frameranges.c:159-169, src/tocfile.c:383-393, src/tocfiles.c:271-281,
    src/tocfilepreview.c:234-244, src/tocfilepreviewpage.c:267-277, src/tocdatafilemetadata.c:225-235,
    src/tocdatafilemetadatasource.c:206-216, src/tocdatareel.c:178-188, src/tocdatareels.c:173-183, src/tocmetadata.c:234-244,
    src/tocmetadatasource.c:490-500, src/toc/previewsection.c:202-211, src/toc/previewsections.c:180-190,
    src/toc/previewlayoutdefinition.c:259-270, src/toc/previewlayoutdefinitions.c:180-191, src/tocdata.c:245-255,
    src/administrativemetadata.c:208-218, src/technicalmetadata.c:187-197, src/controldata.c:181-191,
    src/controlframe/boxingformat.c:239-249; all of the same shape): the count goes up by one; using a freed object is undefined behaviour, and so is overflow. -/
def newRef (h : Heap) (a : Nat) : Res Heap :=
  match h.cells a with
  | none => .ub
  | some c => do
    let rc ← ckInt (c.rc + 1)
    .ok (h.set a { c with rc := rc })

/-- The test after the decrement: `reference_count <= 0`, or `== 0` in the four layout
    types (src/toc/previewsection.c:152, previewsections.c:112,
    previewlayoutdefinition.c:209, previewlayoutdefinitions.c:112). -/
def dies (k : Kind) (rc : Int) : Bool :=
  match k with
  | .section_ | .sections | .layoutDef | .layoutDefs => rc == 0
  | _ => rc ≤ 0

/-- Nesting depth of the object types plus one: control → tech → files → file → preview →
    page and tocData → reels → reel → files → file → preview → page.
    Structures of inc/, e.g. inc/tocfile.h:50-69. -/
def maxDepth : Nat := 8

/-- `*_free` (src/framerange.c:105-118, src/frameranges.c:82-107,
    src/tocfilepreviewpage.c:207-221, src/tocfilepreview.c:156-179,
    src/tocdatafilemetadatasource.c:146-161, src/tocdatafilemetadata.c:151-174,
    src/tocfile.c:310-330, src/tocfiles.c:197-220, src/tocdatareel.c:121-136,
    src/tocdatareels.c:99-122, src/tocmetadatasource.c:407-432, src/tocmetadata.c:160-183,
    src/toc/previewsection.c:143-156, src/toc/previewsections.c:103-128,
    src/toc/previewlayoutdefinition.c:203-217, src/toc/previewlayoutdefinitions.c:103-128,
    src/tocdata.c:182-202, src/administrativemetadata.c:143-162,
    src/technicalmetadata.c:123-144, src/controldata.c:122-139,
    src/controlframe/boxingformat.c:173-187): decrement, and when the count says so release
    every owned object and then the object itself.  The first argument bounds the C call
    depth; running out of it counts as undefined behaviour, so a theorem that the result is
    `ok` also says that `maxDepth` was enough. -/
def freeObj : Nat → Heap → Nat → Res Heap
  | 0, _, _ => .ub
  | n + 1, h, a =>
    match h.cells a with
    | none => .ub
    | some c => do
      let rc ← ckInt (c.rc - 1)
      let h := h.set a { c with rc := rc }
      if dies c.kind rc then do
        let h ← c.kids.foldlM (freeObj n) h
        match h.cells a with
        | none => .ub
        | some _ => .ok (h.remove a)
      else .ok h

/-- A call of the `*_free` function of the object's type.
    E.g. src/framerange.c:105-118, src/tocfile.c:310-331. -/
def free (h : Heap) (a : Nat) : Res Heap := freeObj maxDepth h a

/-- `*_clone` (src/framerange.c:132-141, src/frameranges.c:121-144,
    src/tocfilepreviewpage.c:235-252, src/tocfilepreview.c:193-219,
    src/tocdatafilemetadatasource.c:175-191, src/tocdatafilemetadata.c:188-210,
    src/tocfile.c:344-368, src/tocfiles.c:234-256, src/tocdatareel.c:150-163,
    src/tocdatareels.c:136-158, src/tocmetadatasource.c:446-475, src/tocmetadata.c:197-219,
    src/toc/previewsection.c:170-187, src/toc/previewsections.c:142-165,
    src/toc/previewlayoutdefinition.c:231-244, src/toc/previewlayoutdefinitions.c:142-165,
    src/tocdata.c:216-230, src/administrativemetadata.c:176-193,
    src/technicalmetadata.c:158-172, src/controldata.c:153-166,
    src/controlframe/boxingformat.c:201-224): a new object of the same type owning clones of
    what the original owns.  Simplification: the new parent is allocated after its parts
    (an address is only a name).  First argument as in `freeObj`. -/
def cloneObj : Nat → Heap → Nat → Res (Heap × Nat)
  | 0, _, _ => .ub
  | n + 1, h, a =>
    match h.cells a with
    | none => .ub
    | some c => do
      let (h, kids) ← c.kids.foldlM (fun (s : Heap × List Nat) k => do
        let (h, k') ← cloneObj n s.1 k
        .ok (h, s.2 ++ [k'])) (h, [])
      .ok (h.alloc c.kind kids)

/-- A call of the `*_clone` function of the object's type.
    E.g. src/framerange.c:132-141, src/tocfile.c:344-368. -/
def clone (h : Heap) (a : Nat) : Res (Heap × Nat) := cloneObj maxDepth h a

/-- The append at the end of the `add` functions of the containers: the container now owns
    the object, whose count is unchanged (src/frameranges.c:297-319,
    src/tocfilepreview.c:311-338, src/tocdatafilemetadata.c:305-332,
    src/tocfiles.c:348-375, src/tocdatareels.c:250-277, src/tocmetadata.c:314-341,
    src/toc/previewsections.c:340-385, src/toc/previewlayoutdefinitions.c:444-471). -/
def append (h : Heap) (p c : Nat) : Res Heap :=
  match h.cells p with
  | none => .ub
  | some cell => .ok (h.set p { cell with kids := cell.kids ++ [c] })

/-- `add` of a container: both objects are looked at, then the argument is appended or
    refused (same functions as `append`). E.g. src/tocfiles.c:348-374. -/
def add (h : Heap) (p c : Nat) (accepted : Bool) : Res Heap :=
  match h.cells p, h.cells c with
  | some _, some _ => if accepted then append h p c else .ok h
  | _, _ => .ub

/-- The part of type `k` of object `p`, `none` when that pointer is NULL.
    E.g. `toc_data_file->preview`, inc/tocfile.h:50-69. -/
def part (h : Heap) (p : Nat) (k : Kind) : Option Nat :=
  match h.cells p with
  | none => none
  | some cell => cell.kids.find? fun a => match h.cells a with
      | some c => c.kind == k
      | none => false

/-- How an `add` through an inner container ends. E.g. src/tocdata.c:730-800. -/
inductive Outcome where
  /-- refused before the inner container is created (src/tocdatareel.c:272-275,
      src/toc/previewlayoutdefinition.c:393-414) -/
  | refused
  /-- refused by the inner container, which has been created when it was NULL
      (src/tocdata.c:727-732, 757-762, 787-792) -/
  | refusedByInner
  | accepted
deriving DecidableEq, Repr

/-- "create the inner container of type `k` when it is NULL" (src/tocdata.c:727-730,
    757-760, 787-790, src/tocdatareel.c:277-280,
    src/toc/previewlayoutdefinition.c:416-419). -/
def ensurePart (h : Heap) (p : Nat) (k : Kind) : Res (Heap × Nat) :=
  match h.cells p with
  | none => .ub
  | some cell =>
    match part h p k with
    | some m => .ok (h, m)
    | none =>
      let (h, m) := h.alloc k []
      .ok (h.set p { cell with kids := cell.kids ++ [m] }, m)

/-- `afs_toc_data_reel_add_file` (src/tocdatareel.c:265-297),
    `afs_toc_preview_layout_definition_add_section`
    (src/toc/previewlayoutdefinition.c:391-422), `afs_toc_data_add_reel`,
    `_add_metadata_source`, `_add_preview_layout_definition` (src/tocdata.c:720-793):
    the argument goes into the inner container of type `k` of `p`. -/
def addInner (h : Heap) (p : Nat) (k : Kind) (c : Nat) (o : Outcome) : Res Heap :=
  match h.cells p, h.cells c with
  | some _, some _ =>
    match o with
    | .refused => .ok h
    | .refusedByInner => do
      let (h, _) ← ensurePart h p k
      .ok h
    | .accepted => do
      let (h, m) ← ensurePart h p k
      append h m c
  | _, _ => .ub

/-- The file with its pointer to the part `old` cleared. E.g. src/tocfile.c:655-670. -/
def unlink (h : Heap) (f : Nat) (old : Nat) : Heap :=
  match h.cells f with
  | none => h
  | some cell => h.set f { cell with kids := cell.kids.erase old }

/-- "free the old part if there is one" (src/tocfile.c:663-666, 691-694).  Simplification:
    the C code lets the pointer dangle until the new part is assigned; here it is cleared
    before the old part is freed.  Nothing reads it in between. -/
def dropPart (h : Heap) (f : Nat) (k : Kind) : Res Heap :=
  match part h f k with
  | none => .ok h
  | some old => free (unlink h f old) old

/-- `afs_toc_file_set_preview(f, x)` / `afs_toc_file_set_metadata(f, x)`
    (src/tocfile.c:655-670, 683-697), `k` being the type of the part: the old part is freed,
    then `x` is cloned (NULL → NULL) and the clone becomes the part. -/
def setPart (h : Heap) (f : Nat) (k : Kind) (x : Option Nat) : Res Heap :=
  match h.cells f with
  | none => .ub
  | some _ => do
    let h ← dropPart h f k
    match x with
    | none => .ok h
    | some x => do
      let (h, n) ← clone h x
      append h f n

/-- The loop of `afs_toc_data_add_preview_layout_definitions` (src/tocdata.c:834-845): clone
    the next definition, add the clone, and when it is refused free it and stop.  The last
    list says which additions the inner container accepts. -/
def addClones (h : Heap) (t : Nat) : List Nat → List Bool → Res (Heap × Bool)
  | [], _ => .ok (h, true)
  | d :: ds, oks => do
    let (h, c) ← clone h d
    match oks with
    | true :: oks => do
      let h ← addInner h t .layoutDefs c .accepted
      addClones h t ds oks
    | _ => do
      let h ← addInner h t .layoutDefs c .refusedByInner
      let h ← free h c
      .ok (h, false)

/-- `afs_toc_data_add_preview_layout_definitions(t, d)` (src/tocdata.c:810-846) after its
    validity check: an empty list of definitions is refused before anything happens.
    The number of definitions is read before the loop (line 822) and the loop only appends
    to a vector, so reading the elements at once, as here, is the same even when `d` is the
    list `t` itself owns. -/
def addLayouts (h : Heap) (t d : Nat) (oks : List Bool) : Res Heap :=
  match h.cells t, h.cells d with
  | some _, some cell =>
    if cell.kids.isEmpty then .ok h else do
      let (h, _) ← ensurePart h t .layoutDefs
      let (h, _) ← addClones h t cell.kids oks
      .ok h
  | _, _ => .ub

end Afs.Refs
