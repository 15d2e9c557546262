import Verif.Spec.Single
import Verif.Spec.Puppi
/-!
# PUPPI in events with at most one object of each kind
-/
namespace Verif.Spec.Single
variable (s : Single)

/-- The track counts for a neutral in direction (`eta`, `phi`): it is kept, comes from the vertex and is in the cone. -/
def counts (z : Z0) (eta phi : EtaPhi) : Prop :=
  s.kept ∧ (z.toInt - s.T.hwZ0.toInt).natAbs ≤ 256 ∧ dist2 s.T.hwEta s.T.hwPhi eta phi ≤ 8404
instance (z : Z0) (eta phi : EtaPhi) : Decidable (s.counts z eta phi) := by unfold counts; infer_instance

/-- `pt²/dR²` of the track, in the units of PUPPI. -/
def alpha (z : Z0) (eta phi : EtaPhi) : Int :=
  if s.counts z eta phi then min (s.p ^ 2 / 32) 131071 * (32768 / max 1 (dist2 s.T.hwEta s.T.hwPhi eta phi / 32)) else 0

/-- The neutrals with their PUPPI pts. -/
def puppi (NS : Nat) (table : Fin 1174 → BitVec 8) (z : Z0) : List (Seen × Int) :=
  (s.photons ++ s.neutrals.take NS).map fun x => (x, puppiPt table (s.alpha z x.2.1 x.2.2.1) x.1)

end Verif.Spec.Single
