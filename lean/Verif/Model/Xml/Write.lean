import Verif.Model.Xml.Node
import Verif.Model.Xml.Entity
/-!
# The XML writer (thirdparty/minixml/src/mxml-file.c:2640-3073 and 213-404)

Every save function of src/ calls `mxmlSetWrapMargin(0)` first, so lines are never wrapped.
Start nodes have no siblings.
-/
namespace Afs.Xml
open Afs

/-- `MXML_WS_BEFORE_OPEN` … `MXML_WS_AFTER_CLOSE` (mxml.h). Lines 67-70. -/
inductive Ws where
  | beforeOpen | afterOpen | beforeClose | afterClose
deriving DecidableEq, Repr

/-- A whitespace callback: it sees the element and the names of its ancestors (innermost
    first); NULL is the empty string.  All callbacks of src/ look at nothing else.
    Called in mxml-file.c:3042-3073. -/
abbrev SaveCb := List Bytes → Node → Ws → Bytes

/-- `MXML_NO_CALLBACK`. mxml.h:50. -/
def noCb : SaveCb := fun _ _ _ => []

/-- `mxml_write_string` (mxml-file.c:3001-3034). -/
def writeString : Bytes → Bytes
  | [] => []
  | c :: cs =>
    match entityName c with
    | some n => [38] ++ n ++ [59] ++ writeString cs
    | none => c :: writeString cs

/-- Loop of `mxml_write_name` for a quoted name (2661-2683). -/
def writeQuoted (q : UInt8) : Bytes → Bytes
  | [] => []
  | c :: cs =>
    if c = q then []
    else
      match entityName c with
      | some n => [38] ++ n ++ [59] ++ writeQuoted q cs
      | none => c :: writeQuoted q cs

/-- `mxml_write_name` (2640-2708). -/
def writeName : Bytes → Bytes
  | [] => []
  | q :: cs => if q = 34 ∨ q = 39 then q :: writeQuoted q cs ++ [q] else q :: cs

/-- The name after `<` (2748-2764): written as it is for `?…`, `!--…` and `![CDATA[…`. -/
def writeOpenName (n : Bytes) : Bytes :=
  if n.head? = some 63 ∨ n.take 3 = b! "!--" ∨ n.take 8 = Node.cdataOpen then n else writeName n

/-- One attribute (2772-2805). -/
def writeAttr (a : Bytes × Option Bytes) : Bytes :=
  [32] ++ writeName a.1 ++
    match a.2 with
    | none => []
    | some v => [61, 34] ++ writeString v ++ [34]

/-- `name[0] == '!' || name[0] == '?'` (2823-2824, 2971-2972). -/
def isDirective (n : Bytes) : Bool := n.head? == some 33 || n.head? == some 63

mutual
/-- `mxml_write_node` (2715-2994) for a start node without siblings: the loop visits the node,
    its children, and writes the close tag on the way up. -/
def writeNode (cb : SaveCb) (anc : List Bytes) : Node → Bytes
  | .text s => writeString s
  | .elem n attrs [] =>
    cb anc (.elem n attrs []) .beforeOpen ++ [60] ++ writeOpenName n ++ attrs.flatMap writeAttr ++
      (if isDirective n then [62] else [32, 47, 62]) ++ cb anc (.elem n attrs []) .afterOpen
  | .elem n attrs (c :: cs) =>
    cb anc (.elem n attrs (c :: cs)) .beforeOpen ++ [60] ++ writeOpenName n ++ attrs.flatMap writeAttr ++ [62] ++
      cb anc (.elem n attrs (c :: cs)) .afterOpen ++ writeNodes cb (n :: anc) (c :: cs) ++
      (if isDirective n then []
       else cb anc (.elem n attrs (c :: cs)) .beforeClose ++ [60, 47] ++ writeString n ++ [62] ++ cb anc (.elem n attrs (c :: cs)) .afterClose)
/-- The children of a node one after the other. mxml-file.c:2716-2995. -/
def writeNodes (cb : SaveCb) (anc : List Bytes) : List Node → Bytes
  | [] => []
  | c :: cs => writeNode cb anc c ++ writeNodes cb anc cs
end

/-- `mxml_write_ws` (3041-3073), the new column; `MXML_TAB` is 8. -/
def colWs (col : Nat) : Bytes → Nat
  | [] => col
  | c :: cs =>
    colWs (if c = 10 then 0 else if c = 9 then (col + 8) - (col + 8) % 8 else col + 1) cs

/-- Column after the attributes (2768-2808). -/
def colAttrs (col : Nat) : List (Bytes × Option Bytes) → Nat
  | [] => col
  | (n, v) :: as =>
    colAttrs (col + 1 + n.length + (match v with | none => 0 | some v => v.length + 3)) as

mutual
/-- The `col` value `mxml_write_node` returns (2735-2993). -/
def colNode (cb : SaveCb) (anc : List Bytes) (col : Nat) : Node → Nat
  | .text s => col + s.length
  | .elem n attrs [] =>
    colWs (colAttrs (colWs col (cb anc (.elem n attrs []) .beforeOpen) + n.length + 1) attrs +
      (if isDirective n then 1 else 3)) (cb anc (.elem n attrs []) .afterOpen)
  | .elem n attrs (c :: cs) =>
    let col1 := colWs (colAttrs (colWs col (cb anc (.elem n attrs (c :: cs)) .beforeOpen) + n.length + 1) attrs + 1)
      (cb anc (.elem n attrs (c :: cs)) .afterOpen)
    let col2 := colNodes cb (n :: anc) col1 (c :: cs)
    if isDirective n then col2
    else colWs (colWs col2 (cb anc (.elem n attrs (c :: cs)) .beforeClose) + n.length + 3) (cb anc (.elem n attrs (c :: cs)) .afterClose)
/-- The columns behind the children of a node (mxml-file.c:2716-2995). -/
def colNodes (cb : SaveCb) (anc : List Bytes) (col : Nat) : List Node → Nat
  | [] => col
  | c :: cs => colNodes cb anc (colNode cb anc col c) cs
end

/-- Everything `mxmlSaveFile` / `mxmlSaveString` emit (322-348, 365-404): the node, and a newline
    unless the column is 0.  `anc` are the names of the start node's ancestors. -/
def saveText (cb : SaveCb) (anc : List Bytes) (n : Node) : Bytes :=
  writeNode cb anc n ++ (if colNode cb anc 0 n > 0 then [10] else [])

/-- `mxml_string_putc` (2617-2633): `ptr[0]`, `ptr[1]`, `ptr[2]` as the bytes stored so far, the
    buffer size and the number of characters offered. -/
structure StrBuf where
  stored : Bytes
  size : Nat
  count : Nat

/-- `mxml_string_putc` (2617-2633). -/
def StrBuf.putc (b : StrBuf) (c : UInt8) : StrBuf :=
  if b.stored.length < b.size then { b with stored := b.stored ++ [c], count := b.count + 1 }
  else { b with count := b.count + 1 }

/-- `mxmlSaveString` (365-404): the NUL-terminated contents of the buffer and the return value
    (assumed below 2^31).  `bufsize ≥ 1`. -/
def saveString (cb : SaveCb) (anc : List Bytes) (n : Node) (bufsize : Nat) : Bytes × Nat :=
  let b := (saveText cb anc n).foldl StrBuf.putc ⟨[], bufsize, 0⟩
  (if b.stored.length = b.size then b.stored.take (bufsize - 1) else b.stored, b.count)

/-- `mxmlSaveAllocString` (213-261). -/
def saveAllocString (cb : SaveCb) (anc : List Bytes) (n : Node) : Option Bytes :=
  let (buffer, bytes) := saveString cb anc n 8192
  if bytes = 0 then none
  else if bytes < 8191 then some buffer
  else
    let (s, bytes2) := saveString cb anc n (bytes + 1)
    if bytes2 ≠ bytes then none else some s

end Afs.Xml
