import Verif.Model.Basic
/-!
# Shapes shared by all `*_equal`, `*_clone`, `*_add_*` and `*_get_*` functions

Every object type of the library repeats the same few control-flow shapes; they are
written once here and instantiated field by field in the other model files.
-/
namespace Afs

/-- The NULL prologue of every `*_equal` function
    (e.g. src/framerange.c:182-190): both NULL → true, one NULL → false. -/
def ptrEqual {α : Type} (eq : α → α → Bool) : Option α → Option α → Bool
  | none, none => true
  | none, some _ => false
  | some _, none => false
  | some a, some b => eq a b

/-- Size comparison followed by the element loop of the container `*_equal` functions
    (e.g. src/frameranges.c:205-221).  Simplification: "sizes differ → false, otherwise
    compare index by index" is written as one structural recursion. -/
def listEqual {α : Type} (eq : α → α → Bool) : List α → List α → Bool
  | [], [] => true
  | x :: xs, y :: ys => eq x y && listEqual eq xs ys
  | _, _ => false

/-- A vector field compared with the NULL rules of src/frameranges.c:195-221
    (both NULL → equal, one NULL → different). -/
def vecEqual {α : Type} (eq : α → α → Bool) : Option (List α) → Option (List α) → Bool :=
  ptrEqual (listEqual eq)

/-- `boxing_string_clone` (boxing library, not in /repo): copies the string, NULL → NULL.
    Calls e.g. src/tocdata.c:608-700. -/
def strClone (s : Option Bytes) : Option Bytes := s

/-- `strcmp(a ? a : "", b ? b : "") == 0` (e.g. src/tocdatareel.c:214). -/
def strEq (a b : Option Bytes) : Bool := orEmpty a == orEmpty b

/-- Size of a possibly NULL vector, 0 for NULL (e.g. src/frameranges.c:236-249). -/
def vecSize {α : Type} (v : Option (List α)) : Nat := (v.getD []).length

/-- Element `i` of a possibly NULL vector, NULL when out of range
    (e.g. src/frameranges.c:263-281). -/
def vecGet {α : Type} (v : Option (List α)) (i : Nat) : Option α :=
  match v with
  | none => none
  | some l => if i ≥ l.length then none else l[i]?

/-- "create the vector if NULL, then `gvector_append_data`"
    (e.g. src/frameranges.c:304-311). -/
def vecAppend {α : Type} (v : Option (List α)) (x : α) : Option (List α) :=
  match v with
  | none => some [x]
  | some l => some (l ++ [x])

/-- The clone loop of the container types: a vector of the same size, element `i` the
    clone of element `i`; NULL stays NULL (e.g. src/frameranges.c:129-143). -/
def vecClone {α : Type} (cl : α → α) (v : Option (List α)) : Option (List α) :=
  match v with
  | none => none
  | some l => some (l.map cl)

end Afs
