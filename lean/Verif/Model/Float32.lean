import Mathlib.Data.Int.Log
import Mathlib.Algebra.Order.Round
import Mathlib.Data.Rat.Floor
import Verif.Model.Res
/-!
# Single precision arithmetic

The zero reference mark is computed with C `float`s (src/zeroreferenceframe.c:126-137).
A `float` is modelled by the rational number it stands for; an operation is the exact
rational operation followed by `f32`, the rounding of IEEE 754 binary32 (round to nearest,
ties to even).  `f32` does not model overflow to infinity nor subnormals: the theorems of
`Props/C29_ZeroReference.lean` (`C29_floats_normal`) show that every intermediate value stays
in the range of normal numbers, so nothing is lost.  Assumes `FLT_EVAL_METHOD = 0` and no
contraction into fused operations (the defaults on x86-64).
-/
namespace Afs

/-- The nearest integer, ties to the even one (IEEE 754 round-half-even). -/
def roundEven (q : ℚ) : ℤ :=
  if q - ⌊q⌋ < 1 / 2 then ⌊q⌋
  else if 1 / 2 < q - ⌊q⌋ then ⌊q⌋ + 1
  else if ⌊q⌋ % 2 = 0 then ⌊q⌋ else ⌊q⌋ + 1

/-- The spacing of the binary32 numbers around `x`: 24 significant bits. -/
def ulp (x : ℚ) : ℚ := 2 ^ (Int.log 2 x - 23)

/-- The binary32 number nearest to a positive rational (0 for anything else: the code only
    computes positive values). -/
def f32 (x : ℚ) : ℚ := if 0 < x then roundEven (x / ulp x) * ulp x else 0

/-- `(unsigned int)f` for a `float`: truncation; undefined when the result does not fit.
    Used for src/zeroreferenceframe.c:97-164, 196-259. -/
def f32ToU (x : ℚ) : Res Nat :=
  if -1 < x ∧ x < 4294967296 then .ok ⌊x⌋.toNat else .ub

end Afs
