import Verif.Model.Res
import Verif.Model.Xml.Node
import Verif.Model.Xml.Write
/-!
# Node trees as linked cells (thirdparty/minixml/src/mxml-node.c, mxml-search.c, mxml-file.c)

`Model/Xml/Node.lean` treats a tree as a value.  Here a tree is what it is in memory: cells with
`parent`, `child`, `last_child`, `prev` and `next` pointers.  A pointer is `none` (NULL) or an
address; using an address where nothing is allocated is undefined behaviour (`Res.ub`).  The
allocator may hand out any address that is free, also one used before.

Simplifications: the strings and the attribute array of a node belong to that node alone and are
one value (`Data`), allocated and freed with it; node types other than elements and opaque text
are left out; `malloc` succeeds.
-/
namespace Afs.Links
open Afs Afs.Xml

/-- `node->type` and `node->value` (thirdparty/minixml/inc/mxml.h:91-100, 133-141). -/
inductive Data where
  | elem (name : Bytes) (attrs : List (Bytes × Option Bytes))
  | text (s : Bytes)
deriving DecidableEq, Repr

/-- `struct mxml_node_s` (thirdparty/minixml/inc/mxml.h:143-154). -/
structure Cell where
  parent : Option Nat
  child : Option Nat
  last : Option Nat
  prev : Option Nat
  next : Option Nat
  refs : Int
  data : Data
deriving DecidableEq, Repr

/-- The memory: `none` where nothing is allocated.
    Modelling device for malloc/free (mxml-node.c:725-810). -/
abbrev Heap := Nat → Option Cell

/-- A store. Any assignment to a field, e.g. mxml-node.c:45-168. -/
def Heap.set (h : Heap) (a : Nat) (c : Cell) : Heap := fun x => if x = a then some c else h x

/-- `free`. mxml-node.c:725-777. -/
def Heap.del (h : Heap) (a : Nat) : Heap := fun x => if x = a then none else h x

/-- Dereferencing a pointer. E.g. mxml-get.c:268-282. -/
def get (h : Heap) (a : Nat) : Res Cell :=
  match h a with
  | none => .ub
  | some c => .ok c

/-- Dereferencing a pointer that may be NULL. E.g. mxml-search.c:209-236. -/
def deref (h : Heap) (p : Option Nat) : Res Cell :=
  match p with
  | none => .ub
  | some a => get h a

/-- Assigning to a field of `*p`. E.g. mxml-node.c:45-168. -/
def upd (h : Heap) (p : Option Nat) (f : Cell → Cell) : Res Heap :=
  match p with
  | none => .ub
  | some a => do
    let c ← get h a
    .ok (h.set a (f c))

/-- `mxmlRemove`, 624-627: the pointer to the node from its left. -/
def removeLeft (h : Heap) (n : Nat) : Res Heap := do
  let c ← get h n
  if c.prev.isSome then upd h c.prev (fun d => { d with next := c.next })
  else upd h c.parent (fun d => { d with child := c.next })

/-- `mxmlRemove`, 629-632: the pointer to the node from its right. -/
def removeRight (h : Heap) (n : Nat) : Res Heap := do
  let c ← get h n
  if c.next.isSome then upd h c.next (fun d => { d with prev := c.prev })
  else upd h c.parent (fun d => { d with last := c.prev })

/-- `mxmlRemove` (mxml-node.c:593-650). -/
def remove (h : Heap) (node : Option Nat) : Res Heap :=
  match node with
  | none => .ok h
  | some n => do
    let c ← get h n
    if c.parent.isNone then .ok h
    else do
      let h ← removeLeft h n
      let h ← removeRight h n
      upd h (some n) (fun d => { d with parent := none, prev := none, next := none })

/-- `MXML_ADD_BEFORE` and `MXML_ADD_AFTER` (thirdparty/minixml/inc/mxml.h:72-74). -/
def ADD_BEFORE : Int := 0
/-- mxml.h:73. -/
def ADD_AFTER : Int := 1

/-- `!child || child == edge || child->parent != parent` (mxml-node.c:89, 123). -/
def atEdge (h : Heap) (p : Nat) (child edge : Option Nat) : Res Bool :=
  match child with
  | none => .ok true
  | some x =>
    if some x = edge then .ok true
    else do
      let c ← get h x
      .ok (decide (c.parent ≠ some p))

/-- `mxmlAdd`, 88-120. -/
def addBefore (h : Heap) (p : Nat) (child : Option Nat) (n : Nat) : Res Heap := do
  let pc ← get h p
  let e ← atEdge h p child pc.child
  if e then do
    let h ← upd h (some n) (fun d => { d with next := pc.child })
    let pc ← get h p
    let h ← if pc.child.isSome then upd h pc.child (fun d => { d with prev := some n })
            else upd h (some p) (fun d => { d with last := some n })
    upd h (some p) (fun d => { d with child := some n })
  else do
    let h ← upd h (some n) (fun d => { d with next := child })
    let c ← deref h child
    let h ← upd h (some n) (fun d => { d with prev := c.prev })
    let c ← deref h child
    let h ← if c.prev.isSome then upd h c.prev (fun d => { d with next := some n })
            else upd h (some p) (fun d => { d with child := some n })
    upd h child (fun d => { d with prev := some n })

/-- `mxmlAdd`, 122-155. -/
def addAfter (h : Heap) (p : Nat) (child : Option Nat) (n : Nat) : Res Heap := do
  let pc ← get h p
  let e ← atEdge h p child pc.last
  if e then do
    let h ← upd h (some n) (fun d => { d with parent := some p, prev := pc.last })
    let pc ← get h p
    let h ← if pc.last.isSome then upd h pc.last (fun d => { d with next := some n })
            else upd h (some p) (fun d => { d with child := some n })
    upd h (some p) (fun d => { d with last := some n })
  else do
    let h ← upd h (some n) (fun d => { d with prev := child })
    let c ← deref h child
    let h ← upd h (some n) (fun d => { d with next := c.next })
    let c ← deref h child
    let h ← if c.next.isSome then upd h c.next (fun d => { d with prev := some n })
            else upd h (some p) (fun d => { d with last := some n })
    upd h child (fun d => { d with next := some n })

/-- `mxmlAdd`, 77-78: a node that has a parent is taken out there first. -/
def detach (h : Heap) (n : Nat) : Res Heap := do
  let c ← get h n
  if c.parent.isSome then remove h (some n) else .ok h

/-- `mxmlAdd` (mxml-node.c:44-168). -/
def add (h : Heap) (parent : Option Nat) (place : Int) (child : Option Nat) (node : Option Nat) :
    Res Heap :=
  match parent, node with
  | some p, some n => do
    let h ← detach h n
    let h ← upd h (some n) (fun d => { d with parent := some p })
    if place = ADD_BEFORE then addBefore h p child n
    else if place = ADD_AFTER then addAfter h p child n
    else .ok h
  | _, _ => .ok h

/-- A cell as `calloc` and `mxml_new` leave it (mxml-node.c:799-817). -/
def fresh (d : Data) : Cell := ⟨none, none, none, none, none, 1, d⟩

/-- `mxml_new` (mxml-node.c:784-831) with the `mxmlNew…` functions built on it (286-313, 363-390,
    432-459, 662-672); `a` is the address `calloc` returned. -/
def new (h : Heap) (a : Nat) (parent : Option Nat) (d : Data) : Res Heap :=
  let h := h.set a (fresh d)
  if parent.isSome then add h parent ADD_AFTER none (some a) else .ok h

/-- `mxml_free` (mxml-node.c:724-777). -/
def free (h : Heap) (a : Nat) : Res Heap := do
  let _ ← get h a
  .ok (h.del a)

/-- The loop of `mxmlDelete` (mxml-node.c:206-237), at most `k` rounds; `log` collects the nodes
    given to `mxml_free`.  `none`: not finished yet. -/
def deleteLoop (node : Nat) : Nat → Heap → Option Nat → List Nat → Option (Res (Heap × List Nat))
  | _, h, none, log => some (.ok (h, log))
  | 0, _, some _, _ => none
  | k + 1, h, some cur, log =>
    match h cur with
    | none => some .ub
    | some c =>
      if c.child.isSome then deleteLoop node k (h.set cur { c with child := none }) c.child log
      else
        let next := if c.next.isSome then c.next
          else if c.parent = some node then none else c.parent
        deleteLoop node k (h.del cur) next (log ++ [cur])

/-- What remains of `mxmlDelete` behind the loop (mxml-node.c:243). -/
def deleteLast (node : Nat) : Option (Res (Heap × List Nat)) → Option (Res (Heap × List Nat))
  | none => none
  | some .ub => some .ub
  | some (.ok (h, log)) =>
    match free h node with
    | .ub => some .ub
    | .ok h => some (.ok (h, log ++ [node]))

/-- `mxmlDelete` (mxml-node.c:178-244) with at most `k` rounds of its loop: the memory afterwards
    and the nodes freed, in that order. -/
def delete (k : Nat) (h : Heap) (node : Option Nat) : Option (Res (Heap × List Nat)) :=
  match node with
  | none => some (.ok (h, []))
  | some n =>
    match remove h (some n) with
    | .ub => some .ub
    | .ok h =>
      match h n with
      | none => some .ub
      | some c => deleteLast n (deleteLoop n k h c.child [])

/-- `mxmlRetain` (mxml-node.c:708-715). -/
def retain (h : Heap) (node : Option Nat) : Res (Heap × Int) :=
  match node with
  | none => .ok (h, -1)
  | some n => do
    let c ← get h n
    let r ← ckInt (c.refs + 1)
    let h ← upd h (some n) (fun d => { d with refs := r })
    .ok (h, r)

/-- `mxmlRelease` (mxml-node.c:684-699). -/
def release (k : Nat) (h : Heap) (node : Option Nat) : Option (Res (Heap × List Nat × Int)) :=
  match node with
  | none => some (.ok (h, [], -1))
  | some n =>
    match h n with
    | none => some .ub
    | some c =>
      match ckInt (c.refs - 1) with
      | .ub => some .ub
      | .ok r =>
        let h := h.set n { c with refs := r }
        if r ≤ 0 then
          match delete k h (some n) with
          | none => none
          | some .ub => some .ub
          | some (.ok (h, log)) => some (.ok (h, log, 0))
        else some (.ok (h, [], r))

/-! ### Looking at links (mxml-get.c) -/

/-- The link `f` of `*node`, NULL for NULL. mxml-get.c:121-310. -/
def look (f : Cell → Option Nat) (h : Heap) (node : Option Nat) : Res (Option Nat) :=
  match node with
  | none => .ok none
  | some n => do
    let c ← get h n
    .ok (f c)

/-- `node->type == MXML_ELEMENT`. mxml.h:76-90. -/
def Data.isElem : Data → Bool
  | .elem _ _ => true
  | .text _ => false

/-- `mxmlGetFirstChild` (mxml-get.c:121-136): NULL unless the node is an element. -/
def getFirstChild (h : Heap) (node : Option Nat) : Res (Option Nat) :=
  look (fun c => if c.data.isElem then c.child else none) h node

/-- `mxmlGetLastChild` (mxml-get.c:182-197). -/
def getLastChild (h : Heap) (node : Option Nat) : Res (Option Nat) :=
  look (fun c => if c.data.isElem then c.last else none) h node

/-- `mxmlGetNextSibling` (mxml-get.c:208-223). -/
def getNextSibling (h : Heap) (node : Option Nat) : Res (Option Nat) := look Cell.next h node

/-- `mxmlGetPrevSibling` (mxml-get.c:294-309). -/
def getPrevSibling (h : Heap) (node : Option Nat) : Res (Option Nat) := look Cell.prev h node

/-- `mxmlGetParent` (mxml-get.c:268-283). -/
def getParent (h : Heap) (node : Option Nat) : Res (Option Nat) := look Cell.parent h node

/-- `for (n = …; n != NULL; n = step(n))`, at most `k` rounds: the nodes seen.
    (The loops over children of src/tocfilepreview.c:850-883 and src/controlframe/boxingformat.c:457-468,
    648-675 have this form.) -/
def chain (step : Option Nat → Res (Option Nat)) : Nat → Option Nat → Option (Res (List Nat))
  | _, none => some (.ok [])
  | 0, some _ => none
  | k + 1, some n =>
    match step (some n) with
    | .ub => some .ub
    | .ok m =>
      match chain step k m with
      | none => none
      | some .ub => some .ub
      | some (.ok l) => some (.ok (n :: l))

/-! ### Walking (mxml-search.c) -/

/-- The loop of `mxmlWalkNext` (mxml-search.c:225-231), at most `k` rounds. -/
def climbUp (h : Heap) (top : Option Nat) : Nat → Nat → Option (Res (Option Nat))
  | 0, _ => none
  | k + 1, n =>
    match h n with
    | none => some .ub
    | some c =>
      if c.next.isSome then some (.ok c.next)
      else
        match c.parent with
        | none => some (.ok none)
        | some p => if some p = top then some (.ok none) else climbUp h top k p

/-- `mxmlWalkNext` (mxml-search.c:208-235); `descend` is the C truth value of the argument. -/
def walkNext (k : Nat) (h : Heap) (node top : Option Nat) (descend : Bool) : Option (Res (Option Nat)) :=
  match node with
  | none => some (.ok none)
  | some n =>
    match h n with
    | none => some .ub
    | some c =>
      if c.child.isSome && descend then some (.ok c.child)
      else if some n = top then some (.ok none)
      else if c.next.isSome then some (.ok c.next)
      else
        match c.parent with
        | none => some (.ok none)
        | some p => if some p = top then some (.ok none) else climbUp h top k p

/-- The loop of `mxmlWalkPrev` (mxml-search.c:263-266), at most `k` rounds. -/
def lastDown (h : Heap) : Nat → Nat → Option (Res (Option Nat))
  | 0, _ => none
  | k + 1, n =>
    match h n with
    | none => some .ub
    | some c =>
      match c.last with
      | none => some (.ok (some n))
      | some l => lastDown h k l

/-- `mxmlWalkPrev` (mxml-search.c:246-275). -/
def walkPrev (k : Nat) (h : Heap) (node top : Option Nat) (descend : Bool) : Option (Res (Option Nat)) :=
  match node with
  | none => some (.ok none)
  | some n =>
    if some n = top then some (.ok none)
    else
      match h n with
      | none => some .ub
      | some c =>
        match c.prev with
        | some q =>
          match h q with
          | none => some .ub
          | some d =>
            match d.last with
            | none => some (.ok (some q))
            | some l => if descend then lastDown h k l else some (.ok (some q))
        | none => if c.parent ≠ top then some (.ok c.parent) else some (.ok none)

/-- The test of `mxmlFindElement` (mxml-search.c:73-97). -/
def isMatch (name attr value : Option Bytes) : Data → Bool
  | .text _ => false
  | .elem n as =>
    (match name with
      | none => true
      | some m => n == m) &&
    (match attr with
      | none => true
      | some a =>
        match Node.findAttr a as with
        | none => false
        | some v =>
          match value with
          | none => true
          | some w => w == v)

/-- `MXML_DESCEND`, `MXML_NO_DESCEND` and `MXML_DESCEND_FIRST` (thirdparty/minixml/inc/mxml.h:63-65). -/
def DESCEND : Int := 1
/-- mxml.h:64. -/
def NO_DESCEND : Int := 0
/-- mxml.h:65. -/
def DESCEND_FIRST : Int := -1

/-- The loop of `mxmlFindElement` (mxml-search.c:67-109), at most `k` rounds; each walk may take
    `k` rounds as well. -/
def findLoop (f : Data → Bool) (h : Heap) (top : Option Nat) (descend : Int) :
    Nat → Option Nat → Option (Res (Option Nat))
  | _, none => some (.ok none)
  | 0, some _ => none
  | k + 1, some n =>
    match h n with
    | none => some .ub
    | some c =>
      if f c.data then some (.ok (some n))
      else if descend = DESCEND then
        match walkNext k h (some n) top true with
        | none => none
        | some .ub => some .ub
        | some (.ok m) => findLoop f h top descend k m
      else findLoop f h top descend k c.next

/-- `mxmlFindElement` (mxml-search.c:39-110). -/
def findElement (k : Nat) (h : Heap) (node top : Option Nat) (name attr value : Option Bytes)
    (descend : Int) : Option (Res (Option Nat)) :=
  if node.isNone || top.isNone || (attr.isNone && value.isSome) then some (.ok none)
  else
    match walkNext k h node top (decide (descend ≠ 0)) with
    | none => none
    | some .ub => some .ub
    | some (.ok m) => findLoop (isMatch name attr value) h top descend k m

/-! ### Writing (mxml-file.c) -/

/-- A save callback given a node pointer. mxml-file.c:3042-3073. -/
abbrev PtrCb := Nat → Ws → Bytes

/-- `node->value.element.name`; for an opaque node the same pointer is its text
    (thirdparty/minixml/inc/mxml.h:112-141: both are the first member of the union). -/
def Data.name : Data → Bytes
  | .elem n _ => n
  | .text s => s

/-- What `mxml_write_node` emits when it comes to a node (mxml-file.c:2741-2926). -/
def openText (cb : PtrCb) (a : Nat) (hasChild : Bool) : Data → Bytes
  | .text s => writeString s
  | .elem n attrs =>
    cb a .beforeOpen ++ [60] ++ writeOpenName n ++ attrs.flatMap writeAttr ++
      (if hasChild then [62] else if isDirective n then [62] else [32, 47, 62]) ++ cb a .afterOpen

/-- The column behind that text (same lines). mxml-file.c:2716-2960. -/
def openCol (cb : PtrCb) (a : Nat) (hasChild : Bool) (col : Nat) : Data → Nat
  | .text s => col + s.length
  | .elem n attrs =>
    colWs (colAttrs (colWs col (cb a .beforeOpen) + n.length + 1) attrs +
      (if hasChild then 1 else if isDirective n then 1 else 3)) (cb a .afterOpen)

/-- What it emits when it leaves a parent (mxml-file.c:2971-2988). -/
def closeText (cb : PtrCb) (a : Nat) (d : Data) : Bytes :=
  if isDirective d.name then []
  else cb a .beforeClose ++ [60, 47] ++ writeString d.name ++ [62] ++ cb a .afterClose

/-- The column behind that. mxml-file.c:2960-2995. -/
def closeCol (cb : PtrCb) (a : Nat) (col : Nat) (d : Data) : Nat :=
  if isDirective d.name then col
  else colWs (colWs col (cb a .beforeClose) + d.name.length + 3) (cb a .afterClose)

/-- Where `mxml_write_node` is: at the head of its `for` loop with `current`, or at the head of its
    inner `while` loop. mxml-file.c:2716-2995. -/
inductive At1 where
  | visit (current : Option Nat)
  | climb (current : Nat)

/-- The loops of `mxml_write_node` (mxml-file.c:2735-2991), at most `k` rounds of both; the text and
    the column so far. -/
def writeLoop (cb : PtrCb) (h : Heap) (node : Nat) :
    Nat → At1 → Bytes → Nat → Option (Res (Bytes × Nat))
  | _, .visit none, out, col => some (.ok (out, col))
  | 0, _, _, _ => none
  | k + 1, .visit (some cur), out, col =>
    match h cur with
    | none => some .ub
    | some c =>
      writeLoop cb h node k (if c.child.isSome then .visit c.child else .climb cur)
        (out ++ openText cb cur c.child.isSome c.data) (openCol cb cur c.child.isSome col c.data)
  | k + 1, .climb cur, out, col =>
    match h cur with
    | none => some .ub
    | some c =>
      if c.next.isSome then writeLoop cb h node k (.visit c.next) out col
      else if cur = node then writeLoop cb h node k (.visit none) out col
      else
        match c.parent with
        | none => some .ub
        | some p =>
          match h p with
          | none => some .ub
          | some d =>
            writeLoop cb h node k (.climb p) (out ++ closeText cb p d.data) (closeCol cb p col d.data)

end Afs.Links
