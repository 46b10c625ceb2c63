import Verif.Model.Basic
/-!
# Undefined behaviour as an outcome

`Res α` is the outcome of a C computation that may run into undefined behaviour
(`strcmp` on NULL, signed overflow, reading outside a buffer): `ub` is a separate result,
so a theorem `f x = .ok v` also says that the call is free of undefined behaviour.
-/
namespace Afs

/-- A C computation that may be undefined, e.g. `strcmp(x, NULL)` in src/tocdatareel.c:394-425 (modelling device). -/
inductive Res (α : Type) where
  | ub : Res α
  | ok (a : α) : Res α
deriving DecidableEq, Repr

namespace Res

/-- Statements one after the other, e.g. src/tocdatareel.c:394-425 (modelling device). -/
def bind {α β : Type} (x : Res α) (f : α → Res β) : Res β :=
  match x with
  | ub => ub
  | ok a => f a

/-- `do` notation for that (modelling device, e.g. src/tocdatareel.c:394-425). -/
instance : Monad Res where
  pure := Res.ok
  bind := Res.bind

@[simp] theorem pure_eq {α : Type} (a : α) : (pure a : Res α) = .ok a := rfl
@[simp] theorem ok_bind {α β : Type} (a : α) (f : α → Res β) : ((Res.ok a) >>= f) = f a := rfl
@[simp] theorem ub_bind {α β : Type} (f : α → Res β) : ((Res.ub : Res α) >>= f) = .ub := rfl
@[simp] theorem map_ok {α β : Type} (a : α) (f : α → β) : (f <$> (Res.ok a)) = .ok (f a) := rfl
@[simp] theorem map_ub {α β : Type} (f : α → β) : (f <$> (Res.ub : Res α)) = .ub := rfl

end Res

/-- A value of C type `int`: anything outside the 32-bit range is signed overflow (UB). -/
def ckInt (i : Int) : Res Int := if INT_MIN ≤ i ∧ i ≤ INT_MAX then .ok i else .ub

/-- A value of C type `boxing_int64` / `long long`. -/
def ckInt64 (i : Int) : Res Int :=
  if -9223372036854775808 ≤ i ∧ i ≤ 9223372036854775807 then .ok i else .ub

/-- `strcmp(a, b) == 0` with no NULL guard: UB when an argument is NULL
    (e.g. src/tocdatareel.c:420, src/toc/previewlayoutdefinitions.c:378). -/
def strcmpEq (a b : Option Bytes) : Res Bool :=
  match a, b with
  | some a, some b => .ok (a == b)
  | _, _ => .ub

end Afs
