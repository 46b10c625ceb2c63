import Verif.Model.Xml.Node
/-!
# Equality of XML trees is decidable
-/
namespace Afs.Xml
open Afs

mutual
/-- Comparison of two trees. -/
def nodeEq : Node → Node → Bool
  | .text s, .text t => decide (s = t)
  | .elem n as cs, .elem m bs ds => decide (n = m) && decide (as = bs) && nodesEq cs ds
  | .text _, .elem _ _ _ => false
  | .elem _ _ _, .text _ => false
/-- Comparison of two lists of trees. -/
def nodesEq : List Node → List Node → Bool
  | [], [] => true
  | c :: cs, d :: ds => nodeEq c d && nodesEq cs ds
  | [], _ :: _ => false
  | _ :: _, [] => false
end

mutual
theorem nodeEq_iff : ∀ a b : Node, nodeEq a b = true ↔ a = b
  | .text s, .text t => by simp [nodeEq]
  | .elem n as cs, .elem m bs ds => by
    rw [nodeEq, Bool.and_eq_true, Bool.and_eq_true, nodesEq_iff cs ds]
    simp [and_assoc]
  | .text _, .elem _ _ _ => by simp [nodeEq]
  | .elem _ _ _, .text _ => by simp [nodeEq]
theorem nodesEq_iff : ∀ a b : List Node, nodesEq a b = true ↔ a = b
  | [], [] => by simp [nodesEq]
  | c :: cs, d :: ds => by
    rw [nodesEq, Bool.and_eq_true, nodeEq_iff c d, nodesEq_iff cs ds]
    simp
  | [], _ :: _ => by simp [nodesEq]
  | _ :: _, [] => by simp [nodesEq]
end

instance : DecidableEq Node := fun a b => decidable_of_iff _ (nodeEq_iff a b)

end Afs.Xml
