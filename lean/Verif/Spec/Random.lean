import Verif.Model.Data
import Mathlib.Algebra.Order.Group.Unbundled.Int
/-! # What a generated event should look like -/
namespace Verif.Spec

/-- A track in the ranges the generator of the vertex bench aims at: pt 2 to `ptMax`/4 GeV, one radian of eta and phi,
`z0` (in counts) from `zLo` to `zHi`. -/
structure SvPhysical (ptMax zLo zHi : Int) (t : TkObj) : Prop where
  pt : 8 ≤ t.hwPt.toInt ∧ t.hwPt.toInt ≤ ptMax
  err : 16 ≤ t.hwPtErr.toInt ∧ t.hwPtErr.toInt ≤ 120
  eta : |t.hwEta.toInt| ≤ 231
  phi : |t.hwPhi.toInt| ≤ 231
  z0 : zLo ≤ t.hwZ0.toInt ∧ t.hwZ0.toInt ≤ zHi

/-- An empty slot. -/
def SvEmpty (t : TkObj) : Prop := t.hwPt = 0 ∧ t.hwPtErr = 0 ∧ t.hwEta = 0 ∧ t.hwPhi = 0 ∧ t.hwZ0 = 0

/-- An event of `npu` pile-up tracks, then `npv` tracks of the vertex, then empty slots. -/
structure SvEventOK {N : Nat} (NPV npu npv : Nat) (track : Arr N TkObj) : Prop where
  npu_ge : (N - NPV) / 2 ≤ npu
  npu_lt : npu < N - NPV
  npv_ge : NPV / 2 ≤ npv
  npv_lt : npv < NPV
  pu : ∀ i : Fin N, i.val < npu → SvPhysical 88 0 160 (track i)
  pv : ∀ i : Fin N, npu ≤ i.val → i.val < npu + npv → SvPhysical 408 (-10) 170 (track i)
  empty : ∀ i : Fin N, npu + npv ≤ i.val → SvEmpty (track i)

end Verif.Spec
