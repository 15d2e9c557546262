import Verif.Model.Ap
import Mathlib.Algebra.Order.Archimedean.Real.Basic
import Mathlib.Algebra.Order.Round
/-!
# Floating point: finite values as real numbers, one rounding function per type

Every operation is the exact result on real numbers followed by a rounding.  Which function rounds is a parameter;
`Spec/Float.lean` says what is assumed of it.  Infinities and NaNs are not represented: the theorems are about finite
results.
-/
namespace Verif

/-- The rounding to `float` and to `double`. -/
structure Rounding where
  f32 : ℝ → ℝ
  f64 : ℝ → ℝ

/-- `round` of `<cmath>`: to the nearest integer, halves away from zero; exact. -/
noncomputable def cround (x : ℝ) : ℤ := if 0 ≤ x then ⌊x + 1 / 2⌋ else ⌈x - 1 / 2⌉

/-- Conversion of a floating-point number to an integer type drops the fraction. -/
noncomputable def ctrunc (x : ℝ) : ℤ := if 0 ≤ x then ⌊x⌋ else ⌈x⌉

/-- Conversion to `int16_t`; undefined when the value is not representable ([conv.fpint]). -/
def toI16 (n : ℤ) : Run (BitVec 16) := if -32768 ≤ n ∧ n ≤ 32767 then .ok (BitVec.ofInt 16 n) else .error .intOverflow
/-- Conversion to `uint16_t`. -/
def toU16 (n : ℤ) : Run (BitVec 16) := if 0 ≤ n ∧ n ≤ 65535 then .ok (BitVec.ofInt 16 n) else .error .intOverflow
/-- Conversion to `int32_t`. -/
def toI32 (n : ℤ) : Run (BitVec 32) := if -2147483648 ≤ n ∧ n ≤ 2147483647 then .ok (BitVec.ofInt 32 n) else .error .intOverflow

end Verif
