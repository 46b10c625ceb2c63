import Verif.Spec.Xml
/-!
# Files cut short
-/
namespace Afs.Spec
open Afs

/-- The first line of every file the library writes. -/
def declaration : Bytes := b! "<?xml version=\"1.0\" encoding=\"utf-8\"?>"

/-- The text ends exactly behind the name in the start tag of the outermost element `n`. -/
def EndsBehindName (n : Bytes) (t : Bytes) : Prop :=
  ∃ w : Bytes, (∀ c ∈ w, c = 32 ∨ c = 9 ∨ c = 10 ∨ c = 13) ∧ t = declaration ++ w ++ [60] ++ n

/-- The text ends there or earlier. -/
def StopsByName (n : Bytes) (t : Bytes) : Prop :=
  ∃ w : Bytes, (∀ c ∈ w, c = 32 ∨ c = 9 ∨ c = 10 ∨ c = 13) ∧ t <+: declaration ++ w ++ [60] ++ n

end Afs.Spec
