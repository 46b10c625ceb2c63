import Verif.Model.Basic
/-!
# What repeated searches find
-/
namespace Afs.Spec.Index
open Afs

/-- Searching again and again from a state gives these places, in this order, and then nothing. -/
inductive Finds (find : Nat → Option Nat × Nat) : Nat → List Nat → Prop
  | stop {s s' : Nat} : find s = (none, s') → Finds find s []
  | found {s s' i : Nat} {l : List Nat} : find s = (some i, s') → Finds find s' l → Finds find s (i :: l)

/-- Whether an element has the name and the attribute the value, as far as they are given. -/
def matching (element value : Option Bytes) (n : Bytes × Bytes) : Bool :=
  (element.isNone || element == some n.1) && (value.isNone || value == some n.2)

/-- The places of the elements that match. -/
def places (nodes : List (Bytes × Bytes)) (element value : Option Bytes) : List Nat :=
  (List.range nodes.length).filter fun i => matching element value (nodes.getD i ([], []))

end Afs.Spec.Index
