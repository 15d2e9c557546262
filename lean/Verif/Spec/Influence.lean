import Verif.Spec.PF
import Mathlib.Analysis.Real.Sqrt
/-!
# Events that agree around a point

Two events are compared slot by slot.  They agree within `R` of a point if every slot holds the same object in both, or
holds in both something that is `R` or more away from the point, or empty.
-/
namespace Verif.Spec
variable {NT NC NE NM : Nat}

/-- A direction: `eta` and `phi`. -/
abbrev Dir := EtaPhi × EtaPhi

/-- Distance of two directions. -/
noncomputable def gap (p q : Dir) : ℝ := Real.sqrt (dist2 p.1 p.2 q.1 q.2 : ℤ)

/-- The track is empty or at least `R` away. -/
def TrackOut (R : ℝ) (p : Dir) (t : TkObj) : Prop :=
  (t.hwPt.toInt = 0 ∧ t.hwPtErr.toInt = 0) ∨ R ≤ gap p (t.hwEta, t.hwPhi)
/-- The calorimeter cluster is empty or at least `R` away. -/
def HadOut (R : ℝ) (p : Dir) (h : HadCaloObj) : Prop :=
  (h.hwPt.toInt = 0 ∧ h.hwEmPt.toInt = 0) ∨ R ≤ gap p (h.hwEta, h.hwPhi)
/-- The muon is empty or at least `R` away. -/
def MuonOut (R : ℝ) (p : Dir) (m : MuObj) : Prop := m.hwPt.toInt = 0 ∨ R ≤ gap p (m.hwEta, m.hwPhi)
/-- The EM cluster is at least `R` away.  An empty EM slot attracts tracks like any other cluster. -/
def EmOut (R : ℝ) (p : Dir) (e : EmCaloObj) : Prop := R ≤ gap p (e.hwEta, e.hwPhi)

/-- The two events agree within `R` of `p`. -/
structure SameWithin (R : ℝ) (p : Dir) (inp inp' : PFInputs NT NC NE NM) : Prop where
  track : ∀ t, inp.track t = inp'.track t ∨ (TrackOut R p (inp.track t) ∧ TrackOut R p (inp'.track t))
  had : ∀ h, inp.hadcalo h = inp'.hadcalo h ∨ (HadOut R p (inp.hadcalo h) ∧ HadOut R p (inp'.hadcalo h))
  em : ∀ e, inp.emcalo e = inp'.emcalo e ∨ (EmOut R p (inp.emcalo e) ∧ EmOut R p (inp'.emcalo e))
  mu : ∀ m, inp.mu m = inp'.mu m ∨ (MuonOut R p (inp.mu m) ∧ MuonOut R p (inp'.mu m))

/-- How far a muon candidate looks: one muon link. -/
noncomputable def muonReach : ℝ := Real.sqrt 2101
/-- How far a photon candidate looks: a link to a track, from there to a muon, and to another track. -/
noncomputable def photonReach : ℝ := Real.sqrt 84 + 2 * Real.sqrt 2101
/-- How far a charged candidate looks: a link to a calorimeter cluster, from there to an EM cluster, and on from there. -/
noncomputable def chargedReach : ℝ := Real.sqrt 756 + Real.sqrt 525 + photonReach
/-- How far a neutral candidate looks: a link to a track, and on from there. -/
noncomputable def neutralReach : ℝ := Real.sqrt 756 + chargedReach
/-- How far the PUPPI pt of a candidate looks: the PUPPI cone, and on from the charged candidates in it. -/
noncomputable def puppiReach : ℝ := Real.sqrt 8404 + chargedReach

end Verif.Spec
