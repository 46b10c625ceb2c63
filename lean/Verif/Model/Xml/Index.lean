import Verif.Model.Xml.Entity
/-!
# Searching in an index of elements
(`mxmlIndexFind`, `mxmlIndexEnum`, `mxmlIndexReset`; thirdparty/minixml/src/mxml-index.c)

Simplified: looking outside the array is not an error here; of each indexed element only the name and the value of the indexed attribute are kept (the second one
does not matter in an index without attribute); a node is its place in the array.
-/
namespace Afs.Xml.Index
open Afs Xml

/-- Name and value of the indexed attribute (thirdparty/minixml/src/mxml-index.c:510-525). -/
abbrev Key := Bytes × Bytes

/-- `index_compare` (thirdparty/minixml/src/mxml-index.c:500-532). -/
def compare (attr : Bool) (a b : Key) : Ordering :=
  match strcmpOrd a.1 b.1 with
  | .eq => if attr then strcmpOrd a.2 b.2 else .eq
  | d => d

/-- `index_find` (thirdparty/minixml/src/mxml-index.c:539-573). -/
def test (element value : Option Bytes) (n : Key) : Ordering :=
  match (match element with | some e => strcmpOrd e n.1 | none => .eq) with
  | .eq => match value with | some v => strcmpOrd v n.2 | none => .eq
  | d => d

/-- The loop back to the first match (thirdparty/minixml/src/mxml-index.c:187-189). -/
def moveBack (f : Nat → Ordering) : Nat → Nat
  | 0 => 0
  | c + 1 => if f c = .eq then moveBack f c else c + 1

/-- The binary search and the loop over what is left (thirdparty/minixml/src/mxml-index.c:162-236). -/
def search (f : Nat → Ordering) (first last : Nat) : Option Nat :=
  if 1 < last - first then
    match f ((first + last) / 2) with
    | .eq => some (moveBack f ((first + last) / 2))
    | .lt => search f first ((first + last) / 2)
    | .gt => search f ((first + last) / 2) last
  else if f first = .eq then some first
  else if f last = .eq then some last
  else none
termination_by last - first
decreasing_by all_goals omega

/-- `mxmlIndexEnum`: the place of the node and the new `cur_node` (thirdparty/minixml/src/mxml-index.c:70-88). -/
def enum (nodes : List Key) (cur : Nat) : Option Nat × Nat :=
  if cur < nodes.length then (some cur, cur + 1) else (none, cur)

/-- `mxmlIndexFind` with `cur_node == cur`: the place of the node and the new `cur_node`
    (thirdparty/minixml/src/mxml-index.c:100-270). -/
def find (attr : Bool) (nodes : List Key) (element value : Option Bytes) (cur : Nat) : Option Nat × Nat :=
  if attr = false ∧ value.isSome then (none, cur)
  else if element = none ∧ value = none then enum nodes cur
  else if nodes.length = 0 then (none, cur)
  else if cur = 0 then
    match search (fun i => test element value (nodes.getD i ([], []))) 0 (nodes.length - 1) with
    | some i => (some i, i + 1)
    | none => (none, nodes.length)
  else if cur < nodes.length ∧ test element value (nodes.getD cur ([], [])) = .eq then (some cur, cur + 1)
  else (none, nodes.length)

end Afs.Xml.Index
