import Verif.Model.Float
/-! # What is assumed of the floating-point types: IEEE 754 rounding to nearest -/
namespace Verif.Spec

/-- The finite numbers of a binary format with `p` digits: `m * 2^e`, `|m| < 2^p`, `emin ≤ e ≤ emax`. -/
def IsFP (p : ℕ) (emin emax : ℤ) (x : ℝ) : Prop :=
  ∃ m e : ℤ, |m| < 2 ^ p ∧ emin ≤ e ∧ e ≤ emax ∧ x = m * (2 : ℝ) ^ e

/-- The finite `float`s (binary32). -/
def IsFloat : ℝ → Prop := IsFP 24 (-149) 104
/-- The finite `double`s (binary64). -/
def IsDouble : ℝ → Prop := IsFP 53 (-1074) 971

/-- `f` gives, for every number up to `2^k`, a closest one of the format (with any rule for ties). -/
def Nearest (S : ℝ → Prop) (k : ℕ) (f : ℝ → ℝ) : Prop :=
  ∀ x, |x| ≤ 2 ^ k → S (f x) ∧ ∀ y, S y → |f x - x| ≤ |y - x|

/-- Rounding to nearest for both types. -/
structure IEEE (R : Rounding) : Prop where
  f32 : Nearest IsFloat 127 R.f32
  f64 : Nearest IsDouble 1023 R.f64

end Verif.Spec
