import Verif.Model.Basic
/-!
# A register of functions that know named characters
-/
namespace Afs.Spec.EntityCallbacks
open Afs

/-- What a program asks for. -/
inductive Call where
  | add (cb : Nat)
  | remove (cb : Nat)
  | value (name : Bytes)

/-- What it is told: 0 or -1 for a function to be added, the character or -1 for a name. -/
inductive Answer where
  | added (result : Int)
  | removed
  | value (character : Int)
deriving DecidableEq, Repr

/-- The first registered function that knows the name is asked. -/
def ask (run : Nat → Bytes → Int) (name : Bytes) (register : List Nat) : Int :=
  match register.find? fun cb => 0 ≤ run cb name with
  | none => -1
  | some cb => run cb name

/-- At most 100 functions are registered, in the order in which they were added; one may be registered more than once. -/
def does (run : Nat → Bytes → Int) (register : List Nat) : Call → Answer × List Nat
  | .add cb => if register.length < 100 then (.added 0, register ++ [cb]) else (.added (-1), register)
  | .remove cb => (.removed, register.erase cb)
  | .value name => (.value (ask run name register), register)

/-- The answers to a history of calls. -/
def answers (run : Nat → Bytes → Int) : List Nat → List Call → List Answer
  | _, [] => []
  | register, c :: cs => (does run register c).1 :: answers run (does run register c).2 cs

end Afs.Spec.EntityCallbacks
