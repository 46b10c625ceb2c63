import Verif.Model.TocData
/-!
# Specification: append-only list containers
-/
namespace Afs.Spec
open Afs

/-- Running a sequence of add calls (`none` = the caller passes NULL). -/
def run {S A : Type} (add : S → Option A → Bool × S) (s : S) (ops : List (Option A)) : S :=
  ops.foldl (fun s x => (add s x).2) s

/-- What an append-only list holds after a sequence of adds, if `ok items x` decides whether `x`
    is admitted to a list already holding `items`. -/
def accepted {A : Type} (ok : List A → A → Bool) : List A → List (Option A) → List A
  | items, [] => items
  | items, none :: ops => accepted ok items ops
  | items, some x :: ops => accepted ok (if ok items x then items ++ [x] else items) ops

/-- `add`, `count` and `get` behave like an append-only list with admission rule `ok`:
    the result tells whether the item was admitted, an admitted item goes to the end, a refused
    one changes nothing, `count` is the length and `get i` the i-th item or NULL. -/
structure AppendOnlyList {S A : Type} (add : S → Option A → Bool × S) (items : S → List A)
    (count : S → Nat) (get : S → Nat → Option A) (ok : List A → A → Bool) : Prop where
  null_refused : ∀ s, add s none = (false, s)
  result : ∀ s x, (add s (some x)).1 = ok (items s) x
  admitted : ∀ s x, ok (items s) x = true → items (add s (some x)).2 = items s ++ [x]
  refused : ∀ s x, ok (items s) x = false → items (add s (some x)).2 = items s
  count_eq : ∀ s, count s = (items s).length
  get_eq : ∀ s i, get s i = (items s)[i]?

/-- A refused add leaves the whole object untouched (not only its list). -/
def RefusedAddIsNoop {S A : Type} (add : S → Option A → Bool × S) : Prop :=
  ∀ s x, (add s x).1 = false → (add s x).2 = s

/-- A pixel of the frame belongs to a section (mathematical integers, no wrap-around). -/
def HasPixel (s : Section) (px py : Nat) : Prop :=
  s.x ≤ px ∧ px < s.x + s.width ∧ s.y ≤ py ∧ py < s.y + s.height

/-- The section ends inside the 32-bit coordinate space. -/
def Fits (s : Section) : Prop := s.x + s.width ≤ 4294967296 ∧ s.y + s.height ≤ 4294967296

end Afs.Spec
