import Verif.Model.PuppiTable
/-! # What is assumed of the floating-point arithmetic, and the exact weight -/
namespace Verif.Spec

/-- Zero, or far from overflow and underflow. -/
def Normal (x : ℝ) : Prop := x = 0 ∨ (1 / 2 ^ 100 ≤ |x| ∧ |x| ≤ 2 ^ 100)

/-- Relative accuracy: half a unit in the last place for `float` and `double` (any IEEE implementation in
round-to-nearest mode), 8 double units for `sqrt` and `pow`, 4 `float` units for `log` (so that it does not
matter whether the `float` or the `double` version is called); 1 is a `float`. -/
structure Accurate (F : FloatImpl) : Prop where
  one : F.f32 1 = 1
  f32 : ∀ x, Normal x → |F.f32 x - x| ≤ |x| / 2 ^ 24
  f64 : ∀ x, Normal x → |F.f64 x - x| ≤ |x| / 2 ^ 53
  log : ∀ x, 1 ≤ x → x ≤ 2 ^ 100 → |F.log x - Real.log x| ≤ Real.log x / 2 ^ 22
  sqrt : ∀ x, 0 ≤ x → Normal x → |F.sqrt x - Real.sqrt x| ≤ Real.sqrt x / 2 ^ 50
  pow : ∀ x, 1 ≤ x → x ≤ 2 ^ 20 → |F.pow x 4 - x ^ 4| ≤ x ^ 4 / 2 ^ 50

/-- The formula of `erf_approx` in exact arithmetic. -/
noncomputable def erfApprox (x : ℝ) : ℝ :=
  1 - 1 / (1 + 0.278393 * x + 0.230389 * x ^ 2 + 0.000972 * x ^ 3 + 0.078108 * x ^ 4) ^ 4

/-- The weight of table entry `i` in exact arithmetic: `erfApprox` of the significance of `log(1024 i + 1)` above
a median of 10 with an rms of 2, divided by √2; zero below the median. -/
noncomputable def exactWeight (i : ℕ) : ℝ :=
  let alpha := Real.log (1024 * i + 1)
  if alpha < 10 then 0 else erfApprox ((alpha - 10) / 2 / Real.sqrt 2)

end Verif.Spec
