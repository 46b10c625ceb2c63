import Verif.Model.Xml.Index
/-!
# Sorting an index
(`index_sort`; thirdparty/minixml/src/mxml-index.c:582-654)

Loops and recursion of which it is not clear from their form that they end have a bound on the rounds; the result
is `none` if it is not enough.
-/
namespace Afs.Xml.Index
open Afs Xml

/-- `ind->nodes[i]` (thirdparty/minixml/src/mxml-index.c:602). -/
def node (l : List Key) (i : Nat) : Key := l.getD i ([], [])

/-- Swapping two nodes (thirdparty/minixml/src/mxml-index.c:627-629, 640-641). -/
def swap (l : List Key) (i j : Nat) : List Key := (l.set i (node l j)).set j (node l i)

/-- Right while the left node is at most the pivot (thirdparty/minixml/src/mxml-index.c:609-611). -/
def moveRight (attr : Bool) (l : List Key) (pivot : Key) (right t : Nat) : Nat :=
  if t < right ∧ compare attr (node l t) pivot ≠ .gt then moveRight attr l pivot right (t + 1) else t
termination_by right - t

/-- Left while the right node is above the pivot (thirdparty/minixml/src/mxml-index.c:617-619). -/
def moveLeft (attr : Bool) (l : List Key) (pivot : Key) (left t : Nat) : Nat :=
  if left < t ∧ compare attr (node l t) pivot = .gt then moveLeft attr l pivot left (t - 1) else t
termination_by t

/-- The `for` loop, at most `k` rounds: the nodes and `tempr` (thirdparty/minixml/src/mxml-index.c:603-631). -/
def partition (attr : Bool) (pivot : Key) (left right : Nat) :
    Nat → List Key → Nat → Nat → Option (List Key × Nat)
  | 0, _, _, _ => none
  | k + 1, l, tl, tr =>
    if tl < tr then
      let tl' := moveRight attr l pivot right tl
      let tr' := moveLeft attr l pivot left tr
      if tl' < tr' then partition attr pivot left right k (swap l tl' tr') tl' tr'
      else some (l, tr')
    else some (l, tr)

/-- The pivot is put to its place (thirdparty/minixml/src/mxml-index.c:638-642). -/
def place (attr : Bool) (l : List Key) (pivot : Key) (left tr : Nat) : List Key :=
  if compare attr pivot (node l tr) = .gt then (l.set left (node l tr)).set tr pivot else l

/-- `index_sort`, at most `k` deep; the rounds of its outer loop are counted as calls
    (thirdparty/minixml/src/mxml-index.c:582-654). -/
def sort (attr : Bool) : Nat → List Key → Nat → Nat → Option (List Key)
  | 0, _, _, _ => none
  | k + 1, l, left, right =>
    match partition attr (node l left) left right (right - left + 1) l left right with
    | none => none
    | some (l1, tr) =>
      let l2 := place attr l1 (node l left) left tr
      match (if left + 1 < tr then sort attr k l2 left (tr - 1) else some l2) with
      | none => none
      | some l3 => if tr + 1 < right then sort attr k l3 (tr + 1) right else some l3

/-- Sorting the nodes of a new index (thirdparty/minixml/src/mxml-index.c:421-422), at most `k` deep. -/
def sorted (attr : Bool) (k : Nat) (l : List Key) : Option (List Key) :=
  if 1 < l.length then sort attr k l 0 (l.length - 1) else some l

end Afs.Xml.Index
