import Verif.Model.Xml.Walk
/-!
# Searching with attributes, levels and paths
(`mxmlFindElement` with all its parameters, `mxmlFindPath`; thirdparty/minixml/src/mxml-search.c)
-/
namespace Afs.Xml
open Afs

/-- `MXML_NO_DESCEND`, `MXML_DESCEND`, `MXML_DESCEND_FIRST` (thirdparty/minixml/inc/mxml.h:57-59). -/
inductive Level where
  | no
  | all
  | first
deriving DecidableEq, Repr

/-- The test of a node (thirdparty/minixml/src/mxml-search.c:67-92). -/
def matching (name attr value : Option Bytes) (n : Node) : Bool :=
  match n.element with
  | none => false
  | some e =>
    (name.isNone || name == some e) &&
      match attr with
      | none => true
      | some a =>
        match Node.findAttr a n.attrs with
        | none => false
        | some t => value.isNone || value == some t

/-- `mxmlWalkNext` without descending (thirdparty/minixml/src/mxml-search.c:213-234). -/
def walkOver (c : Cursor) : Option Cursor :=
  if c.isTop then none
  else match c.nexts with
    | x :: xs => some ⟨x, xs, c.ups, false⟩
    | [] => climb c.ups

/-- The loop when it goes through the whole tree (thirdparty/minixml/src/mxml-search.c:64-104), from behind `c`. -/
def searchAll (p : Node → Bool) (c : Cursor) : Option Cursor :=
  match h : walkNext c with
  | none => none
  | some d => if p d.node then some d else searchAll p d
termination_by c.rest.length
decreasing_by
  have := walkNext_rest c
  rw [h] at this
  rw [this]
  simp

/-- The loop when it goes along the siblings (thirdparty/minixml/src/mxml-search.c:64-104), from `c` on. -/
def searchLevel (p : Node → Bool) (node : Node) (nexts : List Node) (ups : List (List Node)) : Option Cursor :=
  if p node then some ⟨node, nexts, ups, false⟩
  else match nexts with
    | [] => none
    | x :: xs => searchLevel p x xs ups

/-- `mxmlFindElement` (thirdparty/minixml/src/mxml-search.c:39-107); neither node is NULL. -/
def findElementBy (c : Cursor) (name attr value : Option Bytes) (level : Level) : Option Cursor :=
  if attr.isNone && value.isSome then none
  else
    match level with
    | .all => searchAll (matching name attr value) c
    | .first =>
      match walkNext c with
      | none => none
      | some d => searchLevel (matching name attr value) d.node d.nexts d.ups
    | .no =>
      match walkOver c with
      | none => none
      | some d => searchLevel (matching name attr value) d.node d.nexts d.ups

/-- What is in front of the next `/` of a path (thirdparty/minixml/src/mxml-search.c:166-167). -/
def component (path : Bytes) : Bytes := path.takeWhile (· ≠ 47)

/-- Whether a path goes on with the wildcard (thirdparty/minixml/src/mxml-search.c:154). -/
def wild (path : Bytes) : Bool := path.take 2 == b! "*/"

/-- The path behind the wildcard, if there is one (thirdparty/minixml/src/mxml-search.c:154-160). -/
def skipWild (path : Bytes) : Bytes := if wild path then path.drop 2 else path

theorem skipWild_length (path : Bytes) : (skipWild path).length ≤ path.length := by
  unfold skipWild
  split <;> simp

/-- The loop of `mxmlFindPath` (thirdparty/minixml/src/mxml-search.c:148-187). -/
def followPath (node : Node) (path : Bytes) : Option Node :=
  if h : path = [] then some node
  else if component (skipWild path) = [] ∨ 256 ≤ (component (skipWild path)).length then none
  else
    match findElementBy (.top node) (some (component (skipWild path))) none none
        (if wild path then .all else .first) with
    | none => none
    | some d => followPath d.node ((skipWild path).drop ((component (skipWild path)).length + 1))
termination_by path.length
decreasing_by
  have : 0 < path.length := List.length_pos_iff.mpr h
  have := skipWild_length path
  simp only [List.length_drop]
  omega

/-- The node or its first child, if that is no element (thirdparty/minixml/src/mxml-search.c:193-196). -/
def inside (n : Node) : Node :=
  match n.children with
  | .text s :: _ => .text s
  | _ => n

/-- `mxmlFindPath` (thirdparty/minixml/src/mxml-search.c:126-197); neither argument is NULL. -/
def findPath (top : Node) (path : Bytes) : Option Node :=
  if path = [] then none else (followPath top path).map inside

end Afs.Xml
