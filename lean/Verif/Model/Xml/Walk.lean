import Verif.Model.Xml.Node
/-!
# Walking a tree: `mxmlWalkNext`, `mxmlFindElement`
(thirdparty/minixml/src/mxml-search.c)

A node pointer inside a tree is modelled by the node, the `next` chain behind it, and the
`next` chains behind its ancestors below `top` (innermost first).
-/
namespace Afs.Xml
open Afs

/-- A pointer to a node below (or equal to) `top`. mxml-search.c:209-236. -/
structure Cursor where
  node : Node
  /-- `node->next`, `node->next->next`, … -/
  nexts : List Node
  /-- the same for `node->parent`, `node->parent->parent`, … as long as they are not `top` -/
  ups : List (List Node)
  /-- `node == top` -/
  isTop : Bool

/-- The pointer to `top` itself. mxml-search.c:209-236. -/
def Cursor.top (t : Node) : Cursor := ⟨t, [], [], true⟩

/-- The `while (!node->next)` loop of `mxmlWalkNext` (mxml-search.c:222-230), from the parent on. -/
def climb : List (List Node) → Option Cursor
  | [] => none
  | [] :: us => climb us
  | (x :: xs) :: us => some ⟨x, xs, us, false⟩

/-- `mxmlWalkNext(node, top, MXML_DESCEND)` (mxml-search.c:208-235). -/
def walkNext (c : Cursor) : Option Cursor :=
  match c.node.children with
  | x :: xs => some ⟨x, xs, if c.isTop then [] else c.nexts :: c.ups, false⟩
  | [] =>
    if c.isTop then none
    else match c.nexts with
      | x :: xs => some ⟨x, xs, c.ups, false⟩
      | [] => climb c.ups

/-- Nodes still to be visited from a position (termination measure of the search loop).
    For mxml-search.c:40-115. -/
def Cursor.rest (c : Cursor) : List Node :=
  descendants c.node ++ (if c.isTop then [] else descendantsList c.nexts ++ c.ups.flatMap descendantsList)

theorem climb_rest (us : List (List Node)) :
    us.flatMap descendantsList = match climb us with
      | none => []
      | some c => c.node :: c.rest := by
  induction us with
  | nil => rfl
  | cons u us ih =>
    cases u with
    | nil => rw [List.flatMap_cons, descendantsList, List.nil_append, ih, climb]
    | cons x xs =>
      rw [List.flatMap_cons, descendantsList, climb]
      simp [Cursor.rest]

theorem walkNext_rest (c : Cursor) :
    c.rest = match walkNext c with
      | none => []
      | some d => d.node :: d.rest := by
  obtain ⟨n, nx, us, tp⟩ := c
  unfold walkNext
  have hd : descendants n = descendantsList n.children := by
    cases n with
    | elem a b cs => rw [descendants, Node.children]
    | text s => rw [descendants, Node.children, descendantsList]
  cases hn : n.children with
  | cons x xs =>
    simp only [Cursor.rest, hd, hn]
    rw [descendantsList]
    cases tp <;> simp
  | nil =>
    simp only [Cursor.rest, hd, hn]
    rw [descendantsList]
    cases tp with
    | true => simp
    | false =>
      cases nx with
      | cons x xs => simp [descendantsList]
      | nil =>
        simp only [descendantsList, List.nil_append, Bool.false_eq_true, if_false]
        exact climb_rest us

/-- `mxmlFindElement(node, top, name, NULL, NULL, MXML_DESCEND)` (mxml-search.c:39-110). -/
def findElement (c : Cursor) (name : Bytes) : Option Cursor :=
  match h : walkNext c with
  | none => none
  | some d => if named name d.node then some d else findElement d name
termination_by c.rest.length
decreasing_by
  have := walkNext_rest c
  rw [h] at this
  rw [this]
  simp

/-- The loop `for (n = find(top, top, name); n != NULL; n = find(n, top, name))` of the list
    loaders (e.g. src/tocfiles.c:952-970): the nodes it sees. -/
def findLoop (c : Cursor) (name : Bytes) : List Node :=
  match findElement c name with
  | none => []
  | some d => if d.rest.length < c.rest.length then d.node :: findLoop d name else [d.node]
termination_by c.rest.length

end Afs.Xml
