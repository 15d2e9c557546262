import Verif.Spec.Detector
import Verif.Spec.Puppi
/-!
# PUPPI in the whole detector

The PUPPI sum of a neutral at a direction, over all tracks of the detector; no regions.  Only `Central` speaks of a region.
-/
open scoped BigOperators
namespace Verif.Spec

/-- The track is compatible with the vertex and inside the PUPPI cone (radius 0.4, 91.7 units) around the direction. -/
def DetNear (Z0 : Z0) (p : Pos) (s : Fin 12) (t : TkObj) : Prop :=
  (Z0.toInt - t.hwZ0.toInt).natAbs ≤ 256 ∧ detDist2 (posOf s t) p ≤ 8404

instance (Z0 : Z0) (p : Pos) (s : Fin 12) (t : TkObj) : Decidable (DetNear Z0 p s t) := inferInstanceAs (Decidable (_ ∧ _))

/-- `pt²/dR²` of a track. -/
def detTerm (p : Pos) (s : Fin 12) (t : TkObj) : Int :=
  min (t.hwPt.toInt ^ 2 / 32) 131071 * (32768 / max 1 (detDist2 (posOf s t) p / 32))

/-- The sum over the tracks of the detector. -/
def detPuppiSum (arr : Fin 12 → List TkObj) (Z0 : Z0) (p : Pos) : Int :=
  ∑ s, ((arr s).map fun t => if 0 < t.hwPt.toInt ∧ DetNear Z0 p s t then detTerm p s t else 0).sum

/-- The part of a region that is farther than the PUPPI cone from the edges shared with another region. -/
def Central (ie : Fin 3) (ip : Fin 6) (p : Pos) : Prop :=
  (ie = 0 → p.eta ≤ -148) ∧ (ie = 1 → -80 ≤ p.eta ∧ p.eta ≤ 80) ∧ (ie = 2 → 148 ≤ p.eta) ∧
    -88 ≤ (p.phi - 120 * (2 * ip.val + 1)).bmod 1440 ∧ (p.phi - 120 * (2 * ip.val + 1)).bmod 1440 ≤ 88

/-- The direction is in the region. -/
def Covers (ie : Fin 3) (ip : Fin 6) (p : Pos) : Prop :=
  etaLo ie ≤ p.eta ∧ p.eta ≤ etaHi ie ∧
    -180 ≤ (p.phi - 120 * (2 * ip.val + 1)).bmod 1440 ∧ (p.phi - 120 * (2 * ip.val + 1)).bmod 1440 ≤ 180

/-- The charged candidates are tracks of the region, or null. -/
def ChargedOf {NT : Nat} (tk : Fin NT → TkObj) (ch : Fin NT → PFChargedObj) : Prop :=
  ∀ i, ch i = ⟨0, 0, 0, 0, 0⟩ ∨
    ((ch i).hwPt = (tk i).hwPt ∧ (ch i).hwEta = (tk i).hwEta ∧ (ch i).hwPhi = (tk i).hwPhi ∧ (ch i).hwZ0 = (tk i).hwZ0)

/-- The neutral is at the direction of the object `o` of sector `s`, in the coordinates of the region. -/
def AtPlace {T : Type} [RegObj T] (ie : Fin 3) (ip : Fin 6) (s : Fin 12) (o : T) (ne : PFNeutralObj) : Prop :=
  ne.hwEta = RegObj.eta (place ie ip s o) ∧ ne.hwPhi = RegObj.phi (place ie ip s o)

end Verif.Spec
