import Verif.Model.Numbers
import Verif.Model.Xml.Node
/-!
# src/xmlutils.c
-/
namespace Afs
open Xml

/-- The characters trimmed (src/xmlutils.c:144, 150): newline, carriage return, space. -/
def isTrimByte (c : UInt8) : Bool := c == 10 || c == 13 || c == 32

/-- `afs_xmlutils_string_cut` (src/xmlutils.c:80-118): the characters from `start` to before
    `stop`; indices outside the string leave it unchanged. -/
def stringCut (s : Bytes) (start stop : Nat) : Bytes :=
  if start > stop then s
  else if start = stop then []
  else if start ≥ s.length ∨ stop > s.length then s
  else if start = 0 ∧ stop = s.length then s
  else (List.range (stop - start)).map fun i => s.getD (i + start) 0

/-- First loop of `afs_xmlutils_string_trim` (143-147): index of the first kept character. -/
def trimStart : Bytes → Nat
  | [] => 0
  | c :: cs => if isTrimByte c then trimStart cs + 1 else 0

/-- Second loop (149-153): decrease the end index while the character before it is trimmed
    (`string[end - 1]` is the head of the reversed prefix of that length). -/
def trimEnd (s : Bytes) (start : Nat) : Nat → Nat
  | 0 => 0
  | stop + 1 =>
    if isTrimByte (s.getD stop 0) ∧ stop + 1 > start then trimEnd s start stop else stop + 1

/-- `afs_xmlutils_string_trim` (src/xmlutils.c:129-156). -/
def stringTrim (s : Bytes) : Bytes :=
  if s.length = 0 then s
  else stringCut s (trimStart s) (trimEnd s (trimStart s) s.length)

/-- `afs_xmlutils_set_node_text` (src/xmlutils.c:57-68). -/
def setNodeText (text : Option Bytes) (node : Node) : Node :=
  match text with
  | none => node
  | some t => if t.length ≠ 0 then node.addChild (.text t) else node

/-- `afs_xmlutils_get_node_text` (src/xmlutils.c:170-194).  `mxmlGetText` (182) only knows
    `MXML_TEXT` nodes, which are never loaded here, and gives NULL. -/
def nodeText : Option Node → Option Bytes
  | none => none
  | some n => n.getOpaque.map stringTrim

/-- `afs_xmlutils_get_node_text_safe` (src/xmlutils.c:208-216). -/
def nodeTextSafe (n : Option Node) (default : Bytes) : Option Bytes :=
  match nodeText n with
  | none => some default
  | some t => some t

/-- `afs_xmlutils_get_integer_attribute` (src/xmlutils.c:231-246): the number, `none` when the
    storage is left alone. -/
def intAttr (n : Node) (name : Bytes) : Option Int := (n.getAttr name).map atoi

/-- `afs_xmlutils_get_unsigned_integer_attribute` (src/xmlutils.c:263-278). -/
def uintAttr (n : Node) (name : Bytes) : Option Nat := (n.getAttr name).map fun s => uOfInt (atoi s)

/-- `afs_xmlutils_add_new_text_node` (src/xmlutils.c:293-302): the nodes appended to the parent. -/
def textNode (name : Bytes) (text : Option Bytes) : List Node :=
  match text with
  | none => []
  | some t => [setNodeText (some t) (Node.new name)]

/-- `afs_xmlutils_add_new_int_node` (src/xmlutils.c:317-330). -/
def intNode (name : Bytes) (v : Int) : Node := setNodeText (some (printInt v)) (Node.new name)

/-- `afs_xmlutils_add_new_uint64_node` (src/xmlutils.c:345-358): prints with `%lld`. -/
def int64Node (name : Bytes) (v : Int) : Node := setNodeText (some (printInt v)) (Node.new name)

/-- `afs_xmlutils_get_integer_element` (src/xmlutils.c:374-398): `none` when the storage is left
    alone. -/
def intElement (n : Node) (name : Bytes) : Option Int := (nodeText (find n name)).map atoi

/-- `if (strcmp(mxmlGetElement(node), name) == 0) … else mxmlFindElement(node, node, name, …)`,
    the start of most `*_load_xml` functions (e.g. src/tocfilepreviewpage.c:711-718).  The node
    is always an element: loaders are called on documents and on found elements. -/
def selfOrFind (n : Node) (name : Bytes) : Option Node :=
  if named name n then some n else find n name

end Afs
