import Verif.Spec.PF
import Mathlib.Data.Rat.Cast.Order
import Mathlib.Algebra.Order.Field.Rat
/-!
# Linking tracks to calorimeter clusters with exact numbers

The code adds to the squared distance the squared pt deficit in units of the pt error, times the squared radius of the cone, with an integer
reciprocal of the squared error.  Here is the same metric without rounding.
-/
namespace Verif.Spec

/-- By how much the cluster falls short of the track. -/
def deficit (t : TkObj) (c : HadCaloObj) : Int := max 0 (t.hwPt.toInt - c.hwPt.toInt)

/-- `dR² + R² (deficit/err)²`, exactly; `R² = 756`.  (With no error there is no deficit, and the term is 0.) -/
def idealMetric (t : TkObj) (c : HadCaloObj) : ℚ :=
  dist2 t.hwEta t.hwPhi c.hwEta c.hwPhi + 756 * ((deficit t c : ℚ) / t.hwPtErr.toInt) ^ 2

/-- What the cluster must satisfy to be linked: more than the track pt minus two errors, in the cone. -/
def InWindow (t : TkObj) (c : HadCaloObj) : Prop :=
  max 0 (t.hwPt.toInt - 2 * t.hwPtErr.toInt) < c.hwPt.toInt ∧ dist2 t.hwEta t.hwPhi c.hwEta c.hwPhi < 756

/-- Cluster `h` is the best for the track, but for `slack`. -/
def BestUpTo {NC : Nat} (slack : ℚ) (t : TkObj) (calo : Fin NC → HadCaloObj) (h : Fin NC) : Prop :=
  InWindow t (calo h) ∧ ∀ h', InWindow t (calo h') → idealMetric t (calo h) < idealMetric t (calo h') + slack

end Verif.Spec
