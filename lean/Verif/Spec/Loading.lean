import Verif.Model.Xml.Node
/-!
# Specification: loading a list element by element
-/
namespace Afs.Spec
open Afs Xml

/-- A list `old` was extended from the elements `ns`: a number of elements from the front was read
    by `load` (each of them with success), admitted to the list so far and appended in order; reading stopped only at the end or
    at an element that does not load or is not admitted to the list; and the result is success
    exactly if every element was appended. -/
def LoadedInOrder {A : Type} (load : Node → Bool × A) (admit : List A → A → Bool) (ns : List Node)
    (old new : List A) (result : Bool) : Prop :=
  ∃ k, k ≤ ns.length ∧ new = old ++ (ns.take k).map (fun n => (load n).2) ∧
    (∀ n ∈ ns.take k, (load n).1 = true) ∧
    (∀ i n, i < k → ns[i]? = some n → admit (old ++ (ns.take i).map fun n => (load n).2) (load n).2 = true) ∧
    (∀ n, ns[k]? = some n → (load n).1 = false ∨ admit new (load n).2 = false) ∧
    (result = true ↔ k = ns.length)

end Afs.Spec
