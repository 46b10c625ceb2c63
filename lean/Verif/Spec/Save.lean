import Verif.Spec.Xml
/-!
# Which texts survive being stored as element text
-/
namespace Afs.Spec
open Afs

/-- No space, line feed or carriage return at either end. -/
def Trimmed (s : Bytes) : Prop :=
  ∀ c, s.head? = some c ∨ s.getLast? = some c → c ≠ 32 ∧ c ≠ 10 ∧ c ≠ 13

/-- A text field that can be stored as element text: absent, or clean, not empty and trimmed. -/
def TextField (s : Option Bytes) : Prop := ∀ t, s = some t → CleanText t ∧ t ≠ [] ∧ Trimmed t

/-- A text field that can be stored as an attribute: absent or clean. -/
def AttrField (s : Option Bytes) : Prop := ∀ t, s = some t → CleanText t

/-- C `int`. -/
def IsInt (i : Int) : Prop := -2147483648 ≤ i ∧ i ≤ 2147483647

/-- C `unsigned int`. -/
def IsUInt (n : Nat) : Prop := n < 4294967296

/-- `boxing_int64`. -/
def IsInt64 (i : Int) : Prop := -9223372036854775808 ≤ i ∧ i ≤ 9223372036854775807

instance (i : Int) : Decidable (IsInt i) := by unfold IsInt; infer_instance
instance (i : Nat) : Decidable (IsUInt i) := by unfold IsUInt; infer_instance
instance (i : Int) : Decidable (IsInt64 i) := by unfold IsInt64; infer_instance

end Afs.Spec
