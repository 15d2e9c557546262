import Verif.Spec.Float
import Mathlib.Analysis.SpecialFunctions.Trigonometric.Basic
/-! # Discretisation: what the integers should be -/
namespace Verif.Spec

/-- `n` is `x` rounded to the nearest integer, halves away from zero. -/
def IsRound (n : ℤ) (x : ℝ) : Prop := |(n : ℝ) - x| < 1 / 2 ∨ (|(n : ℝ) - x| = 1 / 2 ∧ |x| < |(n : ℝ)|)

/-- `n` is `x` cut to an integer. -/
def IsTrunc (n : ℤ) (x : ℝ) : Prop := |(n : ℝ)| ≤ |x| ∧ |(n : ℝ) - x| < 1 ∧ 0 ≤ (n : ℝ) * x

/-- `n` is `x` in units of `unit`, to half a unit and 21 binary digits. -/
def Quantised (unit : ℝ) (n : ℤ) (x : ℝ) : Prop := |n * unit - x| ≤ unit / 2 + |x| / 2 ^ 21

/-- `x` is the number `v` to 22 binary digits. -/
def Reads (x v : ℝ) : Prop := |x - v| ≤ |v| / 2 ^ 22

/-- The unit of eta and phi: a quarter of a degree. -/
noncomputable def quarterDegree : ℝ := Real.pi / 720

/-- `n` is the angle `phi` up to whole turns: fewer than 1440 units, with the sign of `phi`; up to half a turn, `phi` itself. -/
def IsAngle (n : ℤ) (phi : ℝ) : Prop :=
  |n| < 1440 ∧ ∃ k : ℤ, Quantised quarterDegree (n + 1440 * k) phi ∧ 0 ≤ n * k ∧ (|phi| ≤ Real.pi → k = 0 ∧ |n| ≤ 720)

end Verif.Spec
