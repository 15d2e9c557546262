import Verif.Spec.Groups
import Verif.Spec.Particles
/-!
# The particles of a region of well separated particles
-/
namespace Verif.Spec
open Rounding
variable {NT NC NE NM : Nat} {R : Rounding}

/-- The track of a group of objects of a region. -/
def groupTrack (r : InputRegion) (g : Group NT NC NE NM) : Option PropagatedTrack := g.track.bind fun t => r.track[t.val]?

/-- The objects of a group, as a region of their own. -/
def groupRegion (r : InputRegion) (g : Group NT NC NE NM) : InputRegion :=
  { r with
    track := (groupTrack r g).toList
    calo := (g.had.bind fun h => r.calo[h.val]?).toList
    emcalo := (g.em.bind fun e => r.emcalo[e.val]?).toList
    muon := (g.mu.bind fun m => r.muon[m.val]?).toList }

/-- The region falls apart into these groups, for firmware and reference. -/
structure RegionGroups (NT NC NE NM : Nat) (r : InputRegion) (gs : List (Group NT NC NE NM)) : Prop where
  physical : Physical (regionInputs NT NC NE NM r)
  empty : ∀ t, ((regionInputs NT NC NE NM r).track t).hwPt.toInt = 0 → ((regionInputs NT NC NE NM r).track t).hwPtErr.toInt = 0
  grouped : Grouped (regionInputs NT NC NE NM r) gs
  alone : ∀ g ∈ gs, Alone refVariant (regionInputs NT NC NE NM r) g

/-! ### Hadrons in GeV and radians -/

/-- A charged hadron: a track of `pt` GeV with this error and direction, and the cluster of `Q` GeV it ends in. -/
structure Hadron (R : Rounding) where
  t : PropagatedTrack
  h : CaloCluster
  pt : ℝ
  err : ℝ
  dir : RealDir
  Q : ℝ
  emQ : ℝ
  errQ : ℝ
  dirQ : RealDir
  em : Bool
  T : RealTrack R t pt err dir.1 dir.2
  H : RealCluster R h Q emQ errQ dirQ.1 dirQ.2 em
  hpt : 1 / 8 ≤ pt
  herr : 0 ≤ err ∧ err ≤ 4095
  hQ : 1 / 8 ≤ Q
  hemQ : 0 ≤ emQ
  hem : em = true → 1 / 8 ≤ emQ
  low : pt - 2 * err + 0.51 ≤ Q
  near : deltaR dir dirQ ≤ 0.1138

/-- These are the particles of the hadron: a charged one, and a neutral one if the excess of the cluster is clear. -/
structure GivesHadron (a : Hadron R) (l : List PFParticle) : Prop where
  none : a.Q - a.pt ≤ 1.22 * a.err - 0.41 → ∃ x, l = [x] ∧ AboutParticle R x 0 a.pt a.dir.1 a.dir.2 (1 / 8) ∧ x.track = a.t
  excess : 1.23 * a.err + 0.41 ≤ a.Q - a.pt → ∃ x y, l = [x, y] ∧ AboutParticle R x 0 a.pt a.dir.1 a.dir.2 (1 / 8) ∧ x.track = a.t ∧
    AboutParticle R y 2 (a.Q - a.pt) a.dirQ.1 a.dirQ.2 (1 / 4) ∧ pfCharge y = 0

/-- Which of the two it is, is clear. -/
def Hadron.Clear (a : Hadron R) : Prop := a.Q - a.pt ≤ 1.22 * a.err - 0.41 ∨ 1.23 * a.err + 0.41 ≤ a.Q - a.pt

/-- The region has these hadrons and nothing else; each track is 0.1262 from the clusters of the others; and tracks are 0.0462, clusters 0.1062 from the centre
of the region, where the empty EM slots are. -/
structure HadronRegion (r : InputRegion) (hs : List (Hadron R)) : Prop where
  track : r.track = hs.map Hadron.t
  calo : r.calo = hs.map Hadron.h
  em : r.emcalo = []
  mu : r.muon = []
  clear : ∀ a ∈ hs, a.Clear
  apart : ∀ i j (hi : i < hs.length) (hj : j < hs.length), i ≠ j → 0.1262 ≤ deltaR hs[i].dir hs[j].dirQ
  centre : ∀ a ∈ hs, 0.0462 ≤ deltaR a.dir (0, 0) ∧ 0.1062 ≤ deltaR (0, 0) a.dirQ

end Verif.Spec
