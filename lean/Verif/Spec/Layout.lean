import Verif.Model.Data
/-!
# Channel layout, written down arithmetically

The interface document one would hand to the board firmware: each object takes two 32-bit words,
fields are digits in disjoint bit ranges.  Nothing here refers to the packing code.
-/
namespace Verif.Spec

/-- pt in bits 15..0, pt error in bits 31..16. -/
def ptErrWord (pt err : Pt) : Nat := pt.toNat + 2 ^ 16 * err.toNat
/-- eta in bits 9..0, phi in bits 19..10. -/
def etaPhiWord (eta phi : EtaPhi) : Nat := eta.toNat + 2 ^ 10 * phi.toNat
/-- pt in bits 15..0, id in bits 18..16. -/
def ptIdWord (pt : Pt) (id : ParticleId) : Nat := pt.toNat + 2 ^ 16 * id.toNat

def emWords (o : EmCaloObj) : Nat × Nat := (ptErrWord o.hwPt o.hwPtErr, etaPhiWord o.hwEta o.hwPhi)
/-- EM flag in bit 20. -/
def hadWords (o : HadCaloObj) : Nat × Nat :=
  (ptErrWord o.hwPt o.hwEmPt, etaPhiWord o.hwEta o.hwPhi + 2 ^ 20 * o.hwIsEM.toNat)
/-- z0 in bits 29..20, quality in bit 30. -/
def tkWords (o : TkObj) : Nat × Nat :=
  (ptErrWord o.hwPt o.hwPtErr,
   etaPhiWord o.hwEta o.hwPhi + 2 ^ 20 * o.hwZ0.toNat + 2 ^ 30 * o.hwTightQuality.toNat)
def muWords (o : MuObj) : Nat × Nat := (ptErrWord o.hwPt o.hwPtErr, etaPhiWord o.hwEta o.hwPhi)
def chargedWords (o : PFChargedObj) : Nat × Nat :=
  (ptIdWord o.hwPt o.hwId, etaPhiWord o.hwEta o.hwPhi + 2 ^ 20 * o.hwZ0.toNat)
def neutralWords (o : PFNeutralObj) : Nat × Nat :=
  (ptIdWord o.hwPt o.hwId, etaPhiWord o.hwEta o.hwPhi)

/-- The two words of an object start at channel `k`. -/
def WordsAt {N : Nat} (d : Fin N → Word) (k : Nat) (w : Nat × Nat) : Prop :=
  (∃ h : k < N, (d ⟨k, h⟩).toNat = w.1) ∧ (∃ h : k + 1 < N, (d ⟨k + 1, h⟩).toNat = w.2)

end Verif.Spec
