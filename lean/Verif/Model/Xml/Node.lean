import Verif.Model.Basic
/-!
# XML trees of the bundled mini-XML library (thirdparty/minixml/src)

Node types the library meets are elements (`MXML_ELEMENT`; comments, CDATA sections,
processing instructions and declarations are elements with a special name) and opaque text
(`MXML_OPAQUE`): every load call of src/ passes `MXML_OPAQUE_CALLBACK` and every text is
created with `mxmlNewOpaque` (src/xmlutils.c:66).  The other node types are not modelled.
Parent, sibling and child pointers are the list structure of the tree.
-/
namespace Afs.Xml
open Afs

/-- `mxml_node_t` (thirdparty/minixml/inc/mxml.h).  An attribute value may be NULL.
    Lines 108-156. -/
inductive Node where
  | elem (name : Bytes) (attrs : List (Bytes × Option Bytes)) (children : List Node)
  | text (s : Bytes)
deriving Repr, BEq

/-- The name `mxmlNewXML("1.0")` gives its node (mxml-node.c:662-672). -/
def xmlDecl : Bytes := b! "?xml version=\"1.0\" encoding=\"utf-8\"?"

namespace Node

/-- `mxmlGetElement` (mxml-get.c:94-109). -/
def element : Node → Option Bytes
  | elem n _ _ => some n
  | text _ => none

/-- `node->child` and its `next` chain. mxml.h:143-156. -/
def children : Node → List Node
  | elem _ _ cs => cs
  | text _ => []

/-- The attribute array of an element. mxml.h:108-130. -/
def attrs : Node → List (Bytes × Option Bytes)
  | elem _ as _ => as
  | text _ => []

/-- Loop of `mxmlElementGetAttr` (mxml-attr.c:125-140). -/
def findAttr (name : Bytes) : List (Bytes × Option Bytes) → Option Bytes
  | [] => none
  | (n, v) :: as => if n = name then v else findAttr name as

/-- `mxmlElementGetAttr` (mxml-attr.c:101-151): NULL for other node types. -/
def getAttr (node : Node) (name : Bytes) : Option Bytes := findAttr name node.attrs

/-- `mxml_set_attr` (mxml-attr.c:247-309): replace the first attribute of that name, else append. -/
def setAttrList (name : Bytes) (value : Option Bytes) :
    List (Bytes × Option Bytes) → List (Bytes × Option Bytes)
  | [] => [(name, value)]
  | (n, v) :: as => if n = name then (n, value) :: as else (n, v) :: setAttrList name value as

/-- `mxmlElementSetAttr` (mxml-attr.c:163-190). -/
def setAttr (node : Node) (name : Bytes) (value : Option Bytes) : Node :=
  match node with
  | elem n as cs => elem n (setAttrList name value as) cs
  | text s => text s

/-- `mxmlAdd(parent, MXML_ADD_AFTER, MXML_ADD_TO_PARENT, node)` as done by `mxml_new`
    (mxml-node.c:823-824, 120-137): append at the end of the child list. -/
def addChild (node child : Node) : Node :=
  match node with
  | elem n as cs => elem n as (cs ++ [child])
  | text s => text s

/-- `mxmlNewElement` without parent (mxml-node.c:363-390). -/
def new (name : Bytes) : Node := elem name [] []

/-- `"![CDATA["`. mxml-node.c:287-313, mxml-file.c:1627-1640. -/
def cdataOpen : Bytes := b! "![CDATA["

/-- `"]]"`. mxml-file.c:1671-1690. -/
def cdataClose : Bytes := b! "]]"

/-- `mxmlNewCDATA` without parent (mxml-node.c:286-313). -/
def newCDATA (data : Bytes) : Node := elem (cdataOpen ++ data ++ cdataClose) [] []

/-- `mxmlNewXML("1.0")` (mxml-node.c:662-672). -/
def newXML : Node := elem xmlDecl [] []

/-- `mxmlGetCDATA` (mxml-get.c:33-49): the name after `![CDATA[`, closing brackets included. -/
def getCDATA : Node → Option Bytes
  | elem n _ _ => if n.take 8 = cdataOpen then some (n.drop 8) else none
  | text _ => none

/-- `mxmlGetOpaque` (mxml-get.c:235-257): own text, or that of the first child. -/
def getOpaque : Node → Option Bytes
  | text s => some s
  | elem _ _ (text s :: _) => some s
  | elem _ _ _ => none

end Node

/-! ### Search -/

mutual
/-- The strict descendants of a node in document order.  Used for `mxmlFindElement(…,
    MXML_DESCEND)` (mxml-search.c:39-110), which starts at the first child of `top` and follows
    `mxmlWalkNext` (208-235).  That the pointer walk visits exactly this list is theorem C38. -/
def descendants : Node → List Node
  | .elem _ _ cs => descendantsList cs
  | .text _ => []
/-- The nodes of a child list, each followed by its own descendants. mxml-search.c:209-236. -/
def descendantsList : List Node → List Node
  | [] => []
  | n :: ns => n :: (descendants n ++ descendantsList ns)
end

/-- The test of `mxmlFindElement` without attribute (mxml-search.c:73-82). -/
def named (name : Bytes) (n : Node) : Bool := n.element == some name

/-- `mxmlFindElement(node, node, name, NULL, NULL, MXML_DESCEND)`: the first strict descendant
    element with that name (mxml-search.c:39-110). -/
def find (node : Node) (name : Bytes) : Option Node := (descendants node).find? (named name)

/-- The loop `for (n = find(node, node, name); n; n = find(n, node, name))` used by all list
    loaders (e.g. src/tocfiles.c:952-970): every strict descendant with that name, in document
    order. -/
def findAll (node : Node) (name : Bytes) : List Node := (descendants node).filter (named name)

end Afs.Xml
