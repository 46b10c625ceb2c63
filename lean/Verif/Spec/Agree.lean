import Verif.Model.Res
import Verif.Spec.Content
/-!
# Specification: equal objects give the same answers
-/
namespace Afs.Spec
open Afs

/-- Two computations that may be undefined (a string that is NULL where the code reads it): where both are defined their results are the same. -/
def Agree {α : Type} (same : α → α → Prop) (r s : Res α) : Prop := ∀ v w, r = .ok v → s = .ok w → same v w

/-- Which files of a list have a checksum that is not NULL. -/
def checksums (l : List File) : List Bool := l.map fun f => f.checksum.isSome

end Afs.Spec
