import Verif.Spec.Shape
/-!
# Calls that cannot be seen from somewhere else

For property C76.  A call names the objects it works on; some of them it only reads (to copy them).
-/
namespace Afs.Spec
open Afs.Refs

/-- The objects a call of the library is given to change, to give up or to keep: not those that it only copies. -/
def Call.targets : Call → List Nat
  | .create _ parts => parts
  | .newRef a => [a]
  | .free a => [a]
  | .clone _ => []
  | .add p c _ => [p, c]
  | .addInner p _ c _ => [p, c]
  | .setPart f _ _ => [f]
  | .addLayouts t _ _ => [t]

/-- The same for programs that load; a load is given the object to load into. -/
def LCall.targets : LCall → List Nat
  | .base c => c.targets
  | .load l => [l.object]

/-- The objects of a set are all in use already, and no object outside owns one of them. -/
structure Sealed (h : Heap) (S : Nat → Prop) : Prop where
  live : ∀ x, S x → Live h x
  apart : ∀ x c, h.cells x = some c → ¬ S x → ∀ k ∈ c.kids, ¬ S k

/-- Every call of the program is given objects outside the set. -/
def Outside (S : Nat → Prop) (cs : List LCall) : Prop := ∀ c ∈ cs, ∀ a ∈ c.targets, ¬ S a

/-- The objects of a set are in `h'` exactly what they are in `h`: same kind, same count, same parts. -/
def Unmoved (S : Nat → Prop) (h h' : Heap) : Prop := ∀ x, S x → h'.cells x = h.cells x

end Afs.Spec
