import Verif.Spec.Symmetry
/-! # Results that do not depend on leftover memory -/
namespace Verif.Spec
variable {NT NE NS NM : Nat}

/-- Neutral particles that agree in everything PF computes (all but `hwPtPuppi`). -/
structure SameButPuppi (a b : PFNeutralObj) : Prop where
  pt : a.hwPt = b.hwPt
  eta : a.hwEta = b.hwEta
  phi : a.hwPhi = b.hwPhi
  id : a.hwId = b.hwId

/-- Neutral particles that agree, or are both empty. -/
structure SameParticle (a b : PFNeutralObj) : Prop where
  pt : a.hwPt = b.hwPt
  eta : a.hwPt ≠ 0 → a.hwEta = b.hwEta
  phi : a.hwPt ≠ 0 → a.hwPhi = b.hwPhi
  id : a.hwPt ≠ 0 → a.hwId = b.hwId

/-- The same lists of particles; `R` compares the neutral ones. -/
structure SameLists (R : PFNeutralObj → PFNeutralObj → Prop) (o o' : PFOutputs NT NE NS NM) : Prop where
  charged : o.outch = o'.outch
  photon : ∀ i, SameButPuppi (o.outpho i) (o'.outpho i)
  neutral : ∀ i, R (o.outne i) (o'.outne i)
  muon : o.outmu = o'.outmu

end Verif.Spec
