import Verif.Spec.PF
/-! # What PUPPI computes -/
namespace Verif.Spec

/-- The charged candidate is compatible with the vertex and inside the cone of the neutral. -/
def PuppiNear (Z0 : Z0) (ne : PFNeutralObj) (c : PFChargedObj) : Prop :=
  (Z0.toInt - c.hwZ0.toInt).natAbs ≤ 256 ∧ dist2 c.hwEta c.hwPhi ne.hwEta ne.hwPhi ≤ 8404

instance (Z0 : Z0) (ne : PFNeutralObj) (c : PFChargedObj) : Decidable (PuppiNear Z0 ne c) :=
  inferInstanceAs (Decidable (_ ∧ _))

/-- `pt²/dR²` in integer units: `min(pt²/32, 2^17-1)` times `2^15 / (dR²/32)`. -/
def puppiTerm (ne : PFNeutralObj) (c : PFChargedObj) : Int :=
  min (c.hwPt.toInt ^ 2 / 32) 131071 * (32768 / max 1 (dist2 c.hwEta c.hwPhi ne.hwEta ne.hwPhi / 32))

/-- The sum over the charged candidates. -/
def puppiSum {NT : Nat} (pfch : Fin NT → PFChargedObj) (Z0 : Z0) (ne : PFNeutralObj) : Int :=
  ∑ t, if PuppiNear Z0 ne (pfch t) then puppiTerm ne (pfch t) else 0

/-- The PUPPI pt for a given sum: 0 below the table, the full pt above it. -/
def puppiPt (table : Fin 1174 → BitVec 8) (sum pt : Int) : Int :=
  if sum < 1024 then 0
  else if h : sum < 1174 * 1024 then pt * (table ⟨(sum / 1024).toNat, by omega⟩).toNat / 256
  else pt

end Verif.Spec
