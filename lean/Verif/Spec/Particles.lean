import Verif.Spec.Single
import Verif.Spec.Dump
import Verif.Model.PFRef
import Verif.Model.Discrete
import Verif.Spec.Cones
/-!
# Particles before and after particle flow

A region of the input format with at most one object of each kind, and the particles that the firmware's candidates are converted to.
-/
namespace Verif.Spec

/-- The objects of a region with at most one object of each kind. -/
def regionSingle (r : InputRegion) : Single where
  T := (r.track.head?.map fw_track).getD TkObj.clear
  C := (r.emcalo.head?.map fw_em).getD EmCaloObj.clear
  H := (r.calo.head?.map fw_had).getD HadCaloObj.clear
  M := (r.muon.head?.map fw_mu).getD MuObj.clear

/-- The region has at most one object of each kind, the track if there is one is no null track, and no empty EM slot (at the centre) takes the track. -/
structure RegionOne (r : InputRegion) : Prop where
  track : r.track.length ≤ 1
  em : r.emcalo.length ≤ 1
  calo : r.calo.length ≤ 1
  mu : r.muon.length ≤ 1
  pt : ∀ t ∈ r.track, 0 < t.hwPt.toInt
  far : r.track ≠ [] → r.emcalo ≠ [] → 84 ≤ dist2 (regionSingle r).T.hwEta (regionSingle r).T.hwPhi 0 0 ∨
    dist2 (regionSingle r).T.hwEta (regionSingle r).T.hwPhi (regionSingle r).C.hwEta (regionSingle r).C.hwPhi ≤
      dist2 (regionSingle r).T.hwEta (regionSingle r).T.hwPhi 0 0

/-- What is read of a particle: type (0 charged hadron, 1 electron, 2 neutral hadron, 3 photon, 4 muon), pt, eta, phi, and its track if it has one. -/
abbrev ParticleView := Nat × Int × Int × Int × Option PropagatedTrack
def particleView (x : PFParticle) : ParticleView :=
  (x.hwId.toNat, x.hwPt.toInt, x.hwEta.toInt, x.hwPhi.toInt, if 0 < x.track.hwPt.toInt then some x.track else none)

/-- The particles of an event with one object of each kind; `t` is the track. -/
def Single.particles (s : Single) (t : Option PropagatedTrack) : List ParticleView :=
  (if s.kept then [(if s.electron then 1 else if s.mu then 4 else 0, s.p, s.T.hwEta.toInt, s.T.hwPhi.toInt, t)] else []) ++
  (if s.photon = 0 then [] else [(3, s.photon, s.C.hwEta.toInt, s.C.hwPhi.toInt, none)]) ++
  (if s.neutral = 0 then [] else [(2, s.neutral, s.H.hwEta.toInt, s.H.hwPhi.toInt, none)])

/-- The candidates, converted to particles one list after the other, whatever was in the memory of the locals, are such a list. -/
def ConvertTo {NT NE NS NM : Nat} (r : InputRegion) (out : PFOutputs NT NE NS NM) (P : List PFParticle → Prop) : Prop :=
  ∀ junkT junkE junkS, ∃ l, (do
    let a ← dpf_chargeds junkT out.outch r.track []
    (.ok (dpf_neutrals junkS out.outne (dpf_neutrals junkE out.outpho a)) : Run (List PFParticle))) = .ok l ∧ P l

/-- Firmware and reference both make such particles of a region, for arrays of these sizes and whatever was in memory. -/
def RegionGives (NT NC NE NM NS : Nat) (r : InputRegion) (P : List PFParticle → Prop) : Prop :=
  (∀ (old : PFOutputs NT NE NS NM) mem, ∃ out, pfalgo3_full (regionInputs NT NC NE NM r) old mem = .ok out ∧ ConvertTo r out P) ∧
  (∀ (old : PFOutputs NT NE NS NM) mem, ∃ out, pfalgo3_full_ref (regionInputs NT NC NE NM r) old mem = .ok out ∧ ConvertTo r out P)

/-- The particle has this type, this pt to `e` GeV, and this direction to 0.0022 in eta and in phi. -/
structure AboutParticle (R : Rounding) (x : PFParticle) (id : Nat) (pt eta phi e : ℝ) : Prop where
  id : x.hwId.toNat = id
  pt : |R.floatPt x.hwPt - pt| ≤ e
  eta : |R.floatEtaPhi x.hwEta - eta| ≤ 0.0022
  phi : |R.floatEtaPhi x.hwPhi - phi| ≤ 0.0022

/-- A cluster filled from these numbers: pt, its electromagnetic part, error (GeV), eta and phi. -/
structure RealCluster (R : Rounding) (c : CaloCluster) (pt emPt err eta phi : ℝ) (em : Bool) : Prop where
  fill : ∃ flags, R.fillCluster pt emPt err eta phi em flags = .ok c
  float : ∀ x ∈ [pt, emPt, err], IsFloat x ∧ |x| ≤ 8191
  eta : |eta| ≤ 1.1
  phi : |phi| ≤ 1.1

/-- A track filled from these numbers: pt, error at the calorimeter (GeV), eta and phi. -/
structure RealTrack (R : Rounding) (t : PropagatedTrack) (pt err eta phi : ℝ) : Prop where
  fill : ∃ t0 ptErr flags, IsFloat ptErr ∧ |ptErr| ≤ 8191 ∧ R.fillPropagated t0 pt ptErr err eta phi flags = .ok t
  float : ∀ x ∈ [pt, err], IsFloat x ∧ |x| ≤ 8191
  eta : |eta| ≤ 1.1
  phi : |phi| ≤ 1.1

/-- A muon filled from these numbers. -/
structure RealMuon (R : Rounding) (m : Muon) (pt eta phi : ℝ) : Prop where
  fill : ∃ charge flags, R.fillMuon pt eta phi charge flags = .ok m
  float : IsFloat pt ∧ |pt| ≤ 8191
  eta : |eta| ≤ 1.1
  phi : |phi| ≤ 1.1

end Verif.Spec
