import Verif.Model.ZeroMem

/-!
# What is expected of pointers to zero reference frames and marks

No addresses here: what each pointer of the caller stands for, what every call does to it, and how many blocks of memory that takes.
-/

namespace Afs.Spec.ZeroMem

open Afs.ZeroMem (Call)

/-- What a pointer stands for: NULL, something released, a mark made for a frame of a width and a height (`none`: not set yet), a frame
    the caller made and did not set yet, or a frame of a width and a height. -/
inductive Val where
  | null
  | gone
  | mark (s : Option (Nat × Nat))
  | raw
  | frame (width height : Nat)
deriving DecidableEq, Repr

/-- The frame is large enough for a mark. -/
def Fits (w h : Nat) : Prop := 2 ≤ w ∧ 12 ≤ h

instance (w h : Nat) : Decidable (Fits w h) := inferInstanceAs (Decidable (_ ∧ _))

/-- The sizes are values of `unsigned int`. -/
def Sizes (w h : Nat) : Prop := w < 4294967296 ∧ h < 4294967296

instance (w h : Nat) : Decidable (Sizes w h) := inferInstanceAs (Decidable (_ ∧ _))

/-- What a call does to the pointers, when memory does not run out, and how many marks nobody can reach any more.
    `none`: the call is not allowed (released pointers, pointers of the wrong kind, members not set). -/
def step (vs : List Val) : Call → Option (List Val × Nat)
  | .newMark => some (vs ++ [.mark none], 0)
  | .newFrame => some (vs ++ [.raw], 0)
  | .markCreate w h =>
    if Sizes w h then some (vs ++ [if Fits w h then .mark (some (w, h)) else .null], 0) else none
  | .frameCreate w h =>
    if Sizes w h then some (vs ++ [if Fits w h then .frame w h else .null], 0) else none
  | .markInit i w h =>
    if Sizes w h then
      match vs[i]? with
      | some .null => some (vs, 0)
      | some (.mark s) => some (vs.set i (.mark (if Fits w h then some (w, h) else s)), 0)
      | _ => none
    else none
  | .frameInit i w h =>
    if Sizes w h then
      match vs[i]? with
      | some .null => some (vs, 0)
      | some .raw => some (vs.set i (if Fits w h then .frame w h else .raw), 0)
      | some (.frame _ _) => if Fits w h then some (vs.set i (.frame w h), 1) else some (vs, 0)
      | _ => none
    else none
  | .markFree i =>
    match vs[i]? with
    | some .null => some (vs, 0)
    | some (.mark _) => some (vs.set i .gone, 0)
    | _ => none
  | .frameFree i =>
    match vs[i]? with
    | some .null => some (vs, 0)
    | some (.frame _ _) => some (vs.set i .gone, 0)
    | _ => none
  | .image i fresh =>
    match vs[i]? with
    | some .null => some (vs, 0)
    | some (.frame w h) =>
      match fresh w h with
      | none => some (vs, 0)
      | some d => if d.length = w * h then some (vs, 0) else none
    | _ => none

/-- What a call leaves when memory ran out: a new pointer is NULL, the rest as it was. -/
def failed (vs : List Val) : Call → List Val
  | .newMark | .newFrame | .markCreate _ _ | .frameCreate _ _ => vs ++ [.null]
  | _ => vs

/-- Calls one after the other; the number of marks that cannot be reached any more adds up. -/
def run (vs : List Val) : List Call → Option (List Val × Nat)
  | [] => some (vs, 0)
  | c :: cs =>
    match step vs c with
    | none => none
    | some (vs', n) => (run vs' cs).map fun r => (r.1, n + r.2)

/-- The number of blocks behind a pointer: a frame and its mark are two. -/
def blocks : Val → Nat
  | .null | .gone => 0
  | .mark _ | .raw => 1
  | .frame _ _ => 2

/-- All of them. -/
def total (vs : List Val) : Nat := (vs.map blocks).sum

/-- Exactly `n` blocks are in use. -/
def InUse (m : Afs.ZeroMem.Mem) (n : Nat) : Prop :=
  ∃ l : List Nat, l.Nodup ∧ l.length = n ∧ ∀ a, a ∈ l ↔ m.at_ a ≠ none

/-- Memory does not run out: as long as the memory in use is finite, there is an address that is not in use. -/
def Works (env : Afs.ZeroMem.Allocator) : Prop :=
  ∀ n at_, (∃ l : List Nat, ∀ a, at_ a ≠ none → a ∈ l) → ∃ a, env n at_ = some a ∧ at_ a = none

end Afs.Spec.ZeroMem
