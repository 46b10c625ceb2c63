import Verif.Model.Basic
/-!
# The number of a numeric character reference `&#…;`
-/
namespace Afs.Spec
open Afs

/-- The digits: `0`–`9`, `a`–`z` and `A`–`Z` (10 to 35). -/
def digitOf (c : UInt8) : Option Nat :=
  if 48 ≤ c.toNat ∧ c.toNat ≤ 57 then some (c.toNat - 48)
  else if 97 ≤ c.toNat ∧ c.toNat ≤ 122 then some (c.toNat - 97 + 10)
  else if 65 ≤ c.toNat ∧ c.toNat ≤ 90 then some (c.toNat - 65 + 10)
  else none

/-- A sequence of digits in a base, and its value. -/
inductive Digits (base : Nat) : Bytes → Nat → Prop
  | nil : Digits base [] 0
  | snoc {ds v c d} : Digits base ds v → digitOf c = some d → d < base → Digits base (ds ++ [c]) (v * base + d)

/-- The value of all the digits a text begins with (0 if there are none). -/
def Leading (base : Nat) (s : Bytes) (v : Nat) : Prop :=
  ∃ ds tail, s = ds ++ tail ∧ Digits base ds v ∧ ∀ c ∈ tail.head?, ∀ d, digitOf c = some d → base ≤ d

/-- `0x` or `0X` and a hexadecimal digit. -/
def HexStart (s : Bytes) : Prop :=
  ∃ x d r, s = 48 :: x :: d :: r ∧ (x = 120 ∨ x = 88) ∧ ∃ v, digitOf d = some v ∧ v < 16

/-- The number that follows `&#`: decimal, or hexadecimal after an `x`, where C also allows `0x` once more. -/
inductive RefNumber : Bytes → Nat → Prop
  | dec {s v} : s.head? ≠ some 120 → Leading 10 s v → RefNumber s v
  | hex {s v} : ¬ HexStart s → Leading 16 s v → RefNumber (120 :: s) v
  | hex0x {x s v} : HexStart (48 :: x :: s) → Leading 16 s v → RefNumber (120 :: 48 :: x :: s) v

/-- The character of a number: numbers above 2⁶³-1 count as 2⁶³-1, the rest is cut to 32 bits; what is then negative, or a control
    character other than tab, line feed and carriage return, is none. -/
def charOfNumber (v : Nat) : Option Nat :=
  let w := min v (2 ^ 63 - 1) % 2 ^ 32
  if 2 ^ 31 ≤ w then none
  else if w < 32 ∧ w ≠ 9 ∧ w ≠ 10 ∧ w ≠ 13 then none
  else some w

end Afs.Spec
