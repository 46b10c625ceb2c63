import Verif.Model.Basic
/-! # Decimal numerals -/
namespace Afs.Spec
open Afs

/-- Value of a string of digits. -/
def digitsValue (s : Bytes) : Nat := s.foldl (fun v c => v * 10 + (c.toNat - 48)) 0

/-- `s` is the usual decimal numeral of `n`: digits only, no superfluous leading zero. -/
def Decimal (n : Nat) (s : Bytes) : Prop :=
  s ≠ [] ∧ (∀ c ∈ s, 48 ≤ c ∧ c ≤ 57) ∧ digitsValue s = n ∧ (s.head? = some 48 → s = [48])

end Afs.Spec
