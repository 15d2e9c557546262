import Verif.Spec.GroupsCones
import Verif.Spec.GroupsList
/-!
# Regions made of isolated particles of all kinds

A piece is a region with at most one object of each kind and their directions.
-/
namespace Verif.Spec
open Rounding

/-- At most one object of each kind, with the directions that their words stand for. -/
structure RegionPiece where
  r : InputRegion
  one : RegionOne r
  calo : ∀ h ∈ r.calo, h.hwPt.toInt ≠ 0
  mu : ∀ m ∈ r.muon, m.hwPt.toInt ≠ 0
  dt : RealDir
  dh : RealDir
  de : RealDir
  dm : RealDir
  st : ∀ t ∈ r.track, Stands (fw_track t).hwEta (fw_track t).hwPhi dt
  sh : ∀ h ∈ r.calo, Stands (fw_had h).hwEta (fw_had h).hwPhi dh
  se : ∀ e ∈ r.emcalo, Stands (fw_em e).hwEta (fw_em e).hwPhi de
  sm : ∀ m ∈ r.muon, Stands (fw_mu m).hwEta (fw_mu m).hwPhi dm

/-- The objects of two pieces are apart: tracks and muons by 0.2062, tracks and EM clusters by 0.0462, EM and calorimeter clusters by 0.1062, tracks and
calorimeter clusters by 0.1262. -/
structure PiecesApart (p q : RegionPiece) : Prop where
  muTk : p.r.muon ≠ [] → q.r.track ≠ [] → 0.2062 ≤ deltaR p.dm q.dt
  tkEm : p.r.track ≠ [] → q.r.emcalo ≠ [] → 0.0462 ≤ deltaR p.dt q.de
  emHad : p.r.emcalo ≠ [] → q.r.calo ≠ [] → 0.1062 ≤ deltaR p.de q.dh
  tkHad : p.r.track ≠ [] → q.r.calo ≠ [] → 0.1262 ≤ deltaR p.dt q.dh

/-- A region with `NE` slots for EM clusters has the objects of the pieces and no others; different pieces are apart; and if EM slots are left empty (they
stand at the centre), tracks and calorimeter clusters are away from the centre. -/
structure MadeOf (NE : Nat) (r : InputRegion) (ps : List RegionPiece) : Prop where
  track : r.track = ps.flatMap fun p => p.r.track
  calo : r.calo = ps.flatMap fun p => p.r.calo
  em : r.emcalo = ps.flatMap fun p => p.r.emcalo
  mu : r.muon = ps.flatMap fun p => p.r.muon
  apart : ∀ i j (hi : i < ps.length) (hj : j < ps.length), i ≠ j → PiecesApart ps[i] ps[j]
  centre : r.emcalo.length < NE → ∀ p ∈ ps, (p.r.track ≠ [] → 0.0462 ≤ deltaR p.dt (0, 0)) ∧ (p.r.calo ≠ [] → 0.1062 ≤ deltaR (0, 0) p.dh)

/-- The objects of a region are physical and their sums fit, in the units of the words (a quarter of a GeV). -/
structure RegionPhysical (r : InputRegion) : Prop where
  track : ∀ t ∈ r.track, 0 ≤ t.hwPt.toInt ∧ 0 ≤ t.hwCaloPtErr.toInt ∧ t.hwCaloPtErr.toInt ≤ 16384
  em : ∀ c ∈ r.emcalo, 0 ≤ c.hwPt.toInt ∧ c.hwPtErr.toInt ^ 2 ≤ 536870911
  calo : ∀ h ∈ r.calo, 0 ≤ h.hwPt.toInt ∧ 0 ≤ h.hwEmPt.toInt
  trackSum : (r.track.map fun t => t.hwPt.toInt).sum ≤ 32767
  emSum : (r.emcalo.map fun c => c.hwPt.toInt).sum ≤ 32767
  errSum : 3 * (r.track.map fun t => t.hwCaloPtErr.toInt ^ 2).sum ≤ 2 * 2147483647

/-- An isolated particle, in GeV and radians, and what is to come out for it (the types are 0 charged hadron, 1 electron, 2 neutral hadron, 3 photon, 4 muon). -/
inductive Isolated (R : Rounding) (p : RegionPiece) : (List PFParticle → Prop) → Prop
  /-- A photon and the calorimeter cluster it is in, with little else in the cluster. -/
  | photon {c h : CaloCluster} {pt emPt σ Q emQ errQ : ℝ} {b em : Bool} (ht : p.r.track = []) (hm : p.r.muon = []) (hc : p.r.emcalo = [c]) (hh : p.r.calo = [h])
      (C : RealCluster R c pt emPt σ p.de.1 p.de.2 b) (H : RealCluster R h Q emQ errQ p.dh.1 p.dh.2 em)
      (hpt : 1 / 8 ≤ pt) (hσ : |σ| ≤ 5792) (hQ : 0 ≤ Q) (hemQ : pt / 2 + 0.2 ≤ emQ) (hd : deltaR p.de p.dh ≤ 0.0938) (hx : 16 * (Q - pt) + 4.2 ≤ Q) :
      Isolated R p fun l => ∃ x, l = [x] ∧ AboutParticle R x 3 pt p.de.1 p.de.2 (1 / 8) ∧ pfCharge x = 0
  /-- A photon and its calorimeter cluster, with a clear rest. -/
  | photonRest {c h : CaloCluster} {pt emPt σ Q emQ errQ : ℝ} {b em : Bool} (ht : p.r.track = []) (hm : p.r.muon = []) (hc : p.r.emcalo = [c]) (hh : p.r.calo = [h])
      (C : RealCluster R c pt emPt σ p.de.1 p.de.2 b) (H : RealCluster R h Q emQ errQ p.dh.1 p.dh.2 em)
      (hpt : 1 / 8 ≤ pt) (hσ : |σ| ≤ 5792) (hQ : 0 ≤ Q) (hemQ : pt / 2 + 0.2 ≤ emQ) (hd : deltaR p.de p.dh ≤ 0.0938)
      (hx : Q + 4.2 ≤ 16 * (Q - pt)) (hy : em = true → emQ + 2.2 ≤ 8 * (emQ - pt)) :
      Isolated R p fun l => ∃ x y, l = [x, y] ∧ AboutParticle R x 3 pt p.de.1 p.de.2 (1 / 8) ∧ pfCharge x = 0 ∧
        AboutParticle R y 2 (Q - pt) p.dh.1 p.dh.2 (1 / 4) ∧ pfCharge y = 0
  /-- A photon with no calorimeter cluster. -/
  | photonAlone {c : CaloCluster} {pt emPt σ : ℝ} {b : Bool} (ht : p.r.track = []) (hm : p.r.muon = []) (hc : p.r.emcalo = [c]) (hh : p.r.calo = [])
      (C : RealCluster R c pt emPt σ p.de.1 p.de.2 b) (hpt : 1 / 8 ≤ pt) (hσ : |σ| ≤ 5792) :
      Isolated R p fun l => ∃ x, l = [x] ∧ AboutParticle R x 3 pt p.de.1 p.de.2 (1 / 8) ∧ pfCharge x = 0
  /-- A neutral hadron. -/
  | neutral {h : CaloCluster} {Q emQ errQ : ℝ} {em : Bool} (ht : p.r.track = []) (hm : p.r.muon = []) (hc : p.r.emcalo = []) (hh : p.r.calo = [h])
      (H : RealCluster R h Q emQ errQ p.dh.1 p.dh.2 em) (hQ : 1 / 8 ≤ Q) (hemQ : 0 ≤ emQ) (hem : em = true → 1 / 8 ≤ emQ) :
      Isolated R p fun l => ∃ x, l = [x] ∧ AboutParticle R x 2 Q p.dh.1 p.dh.2 (1 / 8) ∧ pfCharge x = 0
  /-- A charged hadron whose cluster has no excess. -/
  | hadron {t : PropagatedTrack} {h : CaloCluster} {pt err Q emQ errQ : ℝ} {em : Bool} (ht : p.r.track = [t]) (hm : p.r.muon = []) (hc : p.r.emcalo = []) (hh : p.r.calo = [h])
      (T : RealTrack R t pt err p.dt.1 p.dt.2) (H : RealCluster R h Q emQ errQ p.dh.1 p.dh.2 em)
      (hpt : 1 / 8 ≤ pt) (he : 0 ≤ err ∧ err ≤ 4095) (hQ : 1 / 8 ≤ Q) (hemQ : 0 ≤ emQ) (hem : em = true → 1 / 8 ≤ emQ)
      (hlow : pt - 2 * err + 0.51 ≤ Q) (hd : deltaR p.dt p.dh ≤ 0.1138) (hx : Q - pt ≤ 1.22 * err - 0.41) :
      Isolated R p fun l => ∃ x, l = [x] ∧ AboutParticle R x 0 pt p.dt.1 p.dt.2 (1 / 8) ∧ x.track = t
  /-- A charged hadron whose cluster has a clear excess. -/
  | hadronRest {t : PropagatedTrack} {h : CaloCluster} {pt err Q emQ errQ : ℝ} {em : Bool} (ht : p.r.track = [t]) (hm : p.r.muon = []) (hc : p.r.emcalo = []) (hh : p.r.calo = [h])
      (T : RealTrack R t pt err p.dt.1 p.dt.2) (H : RealCluster R h Q emQ errQ p.dh.1 p.dh.2 em)
      (hpt : 1 / 8 ≤ pt) (he : 0 ≤ err ∧ err ≤ 4095) (hQ : 1 / 8 ≤ Q) (hemQ : 0 ≤ emQ) (hem : em = true → 1 / 8 ≤ emQ)
      (hlow : pt - 2 * err + 0.51 ≤ Q) (hd : deltaR p.dt p.dh ≤ 0.1138) (hx : 1.23 * err + 0.41 ≤ Q - pt) :
      Isolated R p fun l => ∃ x y, l = [x, y] ∧ AboutParticle R x 0 pt p.dt.1 p.dt.2 (1 / 8) ∧ x.track = t ∧
        AboutParticle R y 2 (Q - pt) p.dh.1 p.dh.2 (1 / 4) ∧ pfCharge y = 0
  /-- An electron. -/
  | electron {t : PropagatedTrack} {c : CaloCluster} {pt err E emE σ : ℝ} {b : Bool} (ht : p.r.track = [t]) (hm : p.r.muon = []) (hc : p.r.emcalo = [c]) (hh : p.r.calo = [])
      (T : RealTrack R t pt err p.dt.1 p.dt.2) (C : RealCluster R c E emE σ p.de.1 p.de.2 b)
      (hpt : 1 / 8 ≤ pt) (he : 0 ≤ err ∧ err ≤ 4095) (hE0 : 0 ≤ E) (hσ0 : 0 ≤ σ) (hσ : σ ≤ 5792)
      (hd : deltaR p.dt p.de ≤ 0.0338) (hd0 : 0.0462 ≤ deltaR p.dt (0, 0))
      (hx : 0.26 ≤ E - pt ∧ E - pt ≤ 1.22 * σ - 0.41 ∨ 0.26 ≤ pt - E ∧ pt - E ≤ 2 * σ - 0.55) :
      Isolated R p fun l => ∃ x, l = [x] ∧ AboutParticle R x 1 pt p.dt.1 p.dt.2 (1 / 8) ∧ x.track = t
  /-- An electron whose cluster has a clear excess. -/
  | electronRest {t : PropagatedTrack} {c : CaloCluster} {pt err E emE σ : ℝ} {b : Bool} (ht : p.r.track = [t]) (hm : p.r.muon = []) (hc : p.r.emcalo = [c]) (hh : p.r.calo = [])
      (T : RealTrack R t pt err p.dt.1 p.dt.2) (C : RealCluster R c E emE σ p.de.1 p.de.2 b)
      (hpt : 1 / 8 ≤ pt) (he : 0 ≤ err ∧ err ≤ 4095) (hE0 : 0 ≤ E) (hσ0 : 0 ≤ σ) (hσ : σ ≤ 5792)
      (hd : deltaR p.dt p.de ≤ 0.0338) (hd0 : 0.0462 ≤ deltaR p.dt (0, 0)) (hx : 1.23 * σ + 0.41 ≤ E - pt) :
      Isolated R p fun l => ∃ x y, l = [x, y] ∧ AboutParticle R x 1 pt p.dt.1 p.dt.2 (1 / 8) ∧ x.track = t ∧
        AboutParticle R y 3 (E - pt) p.de.1 p.de.2 (1 / 4) ∧ pfCharge y = 0
  /-- A muon. -/
  | muon {t : PropagatedTrack} {m : Muon} {pt err μ : ℝ} (ht : p.r.track = [t]) (hm : p.r.muon = [m]) (hc : p.r.emcalo = []) (hh : p.r.calo = [])
      (T : RealTrack R t pt err p.dt.1 p.dt.2) (M : RealMuon R m μ p.dm.1 p.dm.2)
      (hpt : 1 / 8 ≤ pt) (he : 0 ≤ err ∧ err ≤ 4095) (hμ : |μ - pt| ≤ μ / 2 - 0.69) (hd : deltaR p.dm p.dt ≤ 0.1938) :
      Isolated R p fun l => ∃ x, l = [x] ∧ AboutParticle R x 4 pt p.dt.1 p.dt.2 (1 / 8) ∧ x.track = t

end Verif.Spec
