import Verif.Model.Puppi
import Mathlib.Analysis.SpecialFunctions.Log.Basic
/-!
# The PUPPI weight table — puppi/firmware/simple_puppi.h:13-44

The table is computed with `float` and `double` arithmetic and the functions `log`, `sqrt` and `pow` of the C
library.  The model works on real numbers with these operations as parameters, so that nothing is assumed about
how they round; what is needed of them is stated in `Verif.Spec.PuppiTable`.
-/
namespace Verif

/-- A floating-point implementation: the value stored when a real result is rounded to `float` or `double`, and
the library functions (on doubles). -/
structure FloatImpl where
  f32 : ℝ → ℝ
  f64 : ℝ → ℝ
  log : ℝ → ℝ
  sqrt : ℝ → ℝ
  pow : ℝ → ℝ → ℝ

namespace FloatImpl
variable (F : FloatImpl)

/-- `denom` of `erf_approx` — puppi/firmware/simple_puppi.h:14.  The literals are doubles, so all operations are
double and only the result is a `float`. -/
noncomputable def denom (arg : ℝ) : ℝ :=
  let t1 := F.f64 (F.f64 0.278393 * arg)
  let t2 := F.f64 (F.f64 (F.f64 0.230389 * arg) * arg)
  let t3 := F.f64 (F.f64 (F.f64 (F.f64 0.000972 * arg) * arg) * arg)
  let t4 := F.f64 (F.f64 (F.f64 (F.f64 (F.f64 0.078108 * arg) * arg) * arg) * arg)
  F.f32 (F.f64 (F.f64 (F.f64 (F.f64 (1 + t1) + t2) + t3) + t4))

/-- `erf_approx` — puppi/firmware/simple_puppi.h:13-17 -/
noncomputable def erf_approx (arg : ℝ) : ℝ :=
  F.f32 (F.f64 (1 - F.f64 (1 / F.pow (F.denom arg) 4)))

/-- The argument of `erf_approx` as a function of `alpha` — puppi/firmware/simple_puppi.h:26-28 -/
noncomputable def sqrtSigmas (alpha : ℝ) : ℝ :=
  let d := F.f32 (alpha - 10)
  let sigmas := F.f32 (F.f32 (d * d) / F.f32 (2 * 2))
  F.f32 (F.sqrt (F.f64 (sigmas / 2)))

/-- `weight_function_float` after `alpha` — puppi/firmware/simple_puppi.h:26-31 -/
noncomputable def weight_of_alpha (alpha : ℝ) : ℝ :=
  let weight := F.erf_approx (F.sqrtSigmas alpha)
  let weight := if alpha < 10 then 0 else weight
  F.f32 (F.f64 (weight * 256))

/-- `alpha` — puppi/firmware/simple_puppi.h:25 -/
noncomputable def alpha (eToAlphaF : ℝ) : ℝ := F.f32 (F.log (F.f32 (eToAlphaF + 1)))

/-- `weight_function_float` — puppi/firmware/simple_puppi.h:20-33 -/
noncomputable def weight_function_float (eToAlphaF : ℝ) : ℝ := F.weight_of_alpha (F.alpha eToAlphaF)

/-- `lut_puppiweight_init<weight_t,PUPPI_TABLE_SIZE>` — puppi/firmware/simple_puppi.h:35-44; the conversion to
`ap_uint<8>` drops the fraction and keeps the low 8 bits -/
noncomputable def lut_puppiweight_init : PuppiTable := fun ii =>
  let eToAlpha := F.f32 ((ii.val * 1024 : ℕ) : ℝ)
  let w := F.weight_function_float eToAlpha
  reg 8 (if w < 0 then ⌈w⌉ else ⌊w⌋)

end FloatImpl
end Verif
