import Verif.Spec.Puppi
import Verif.Spec.PuppiTable
/-! # PUPPI in real numbers -/
open scoped BigOperators
namespace Verif.Spec

/-- `2^15 pt²/dR²` of a charged candidate and a neutral, as a real number; distances below `√32` count as `√32`. -/
noncomputable def idealTerm (pt2 : ℝ) (ne : PFNeutralObj) (c : PFChargedObj) : ℝ :=
  32768 * pt2 / max (dist2 c.hwEta c.hwPhi ne.hwEta ne.hwPhi : ℝ) 32

/-- The sum over the charged candidates of the vertex in the cone, with `q pt²` in place of `pt²`. -/
noncomputable def idealSum {NT : Nat} (q : ℝ → ℝ) (pfch : Fin NT → PFChargedObj) (Z0 : Z0) (ne : PFNeutralObj) : ℝ :=
  ∑ t, if PuppiNear Z0 ne (pfch t) then idealTerm (q ((pfch t).hwPt.toInt ^ 2 : ℝ)) ne (pfch t) else 0

/-- The weight for a real sum: `erfApprox` of the significance of `log(sum + 1)` above a median of 10 with an rms of
2, zero below the median, and one above the end of the table. -/
noncomputable def idealWeight (sum : ℝ) : ℝ :=
  if 1174 * 1024 ≤ sum then 1
  else if Real.log (sum + 1) < 10 then 0 else erfApprox ((Real.log (sum + 1) - 10) / 2 / Real.sqrt 2)

/-- What is certainly kept of `pt²`: all but 32 units (2 GeV²), up to the 17 bits (512 GeV). -/
noncomputable def keptPt2 (pt2 : ℝ) : ℝ := max 0 (min pt2 4194304 - 32)

end Verif.Spec
