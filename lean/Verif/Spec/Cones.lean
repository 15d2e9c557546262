import Verif.Spec.Discrete
import Verif.Spec.PF
import Mathlib.Analysis.Real.Sqrt
/-!
# Distances in radians

The distance of two directions is `ΔR = √(Δη² + Δφ²)`.  The coordinates of the firmware are in quarters of a degree.
-/
namespace Verif.Spec
variable {NT NC NE NM : Nat}

/-- A direction given by real numbers, `eta` and `phi` in radians. -/
abbrev RealDir := ℝ × ℝ

/-- Distance of two directions. -/
noncomputable def deltaR (a b : RealDir) : ℝ := Real.sqrt ((a.1 - b.1) ^ 2 + (a.2 - b.2) ^ 2)

/-- Distance of two directions of the firmware, in radians; both coordinates are periodic. -/
noncomputable def gridDeltaR (eta1 phi1 eta2 phi2 : EtaPhi) : ℝ :=
  Real.sqrt ((circ eta1 eta2 * quarterDegree) ^ 2 + (circ phi1 phi2 * quarterDegree) ^ 2)

/-- The words stand for the direction, which is within 1.1 of the centre of the region in both coordinates. -/
structure Stands (eta phi : EtaPhi) (d : RealDir) : Prop where
  eta : Quantised quarterDegree eta.toInt d.1
  phi : Quantised quarterDegree phi.toInt d.2
  etaMax : |d.1| ≤ 1.1
  phiMax : |d.2| ≤ 1.1

/-- The directions of the objects of an event. -/
structure Directions (NT NC NE NM : Nat) where
  track : Fin NT → RealDir
  had : Fin NC → RealDir
  em : Fin NE → RealDir
  mu : Fin NM → RealDir

/-- The event has these directions. -/
structure HasDirections (inp : PFInputs NT NC NE NM) (d : Directions NT NC NE NM) : Prop where
  track : ∀ t, Stands (inp.track t).hwEta (inp.track t).hwPhi (d.track t)
  had : ∀ h, Stands (inp.hadcalo h).hwEta (inp.hadcalo h).hwPhi (d.had h)
  em : ∀ e, Stands (inp.emcalo e).hwEta (inp.emcalo e).hwPhi (d.em e)
  mu : ∀ m, Stands (inp.mu m).hwEta (inp.mu m).hwPhi (d.mu m)

end Verif.Spec
