import Verif.Model.Data
import Mathlib.Algebra.BigOperators.Fin
/-!
# Declarative specification of the particle-flow algorithm

Written over unbounded integers, without loops or registers, from the description of the algorithm:
link muons to tracks, tracks to EM clusters, EM clusters to calorimeter clusters, tracks to what is
left of the calorimeter clusters, and keep the significant energy excesses.
Nothing here refers to the model of the code.
-/
open Classical
open scoped BigOperators

namespace Verif.Spec

/-- `i` is the first index minimising `f` among the indices satisfying `P`. -/
def FirstMin {n : Nat} (P : Fin n → Prop) (f : Fin n → Int) (i : Fin n) : Prop :=
  P i ∧ ∀ j, P j → f i ≤ f j ∧ (j < i → f i < f j)

/-- Difference of two 10-bit coordinates, on the circle. -/
def circ (x y : EtaPhi) : Int := (x.toInt - y.toInt).bmod 1024

/-- Squared distance of two directions. -/
def dist2 (eta1 phi1 eta2 phi2 : EtaPhi) : Int := circ eta1 eta2 ^ 2 + circ phi1 phi2 ^ 2

/-- The two design choices in which the firmware and the reference differ. -/
structure Variant where
  /-- does a linked hadron-like EM cluster protect a calorimeter cluster from the EM-remainder rule? -/
  protect : Bool
  /-- pt-error dependent scale of the pt term of the track-calorimeter metric (in 1/256) -/
  scale : Int → Int

variable {NT NC NE NM : Nat} (inp : PFInputs NT NC NE NM)

/-! ### Muons -/

def muDist2 (m : Fin NM) (t : Fin NT) : Int :=
  dist2 (inp.mu m).hwEta (inp.mu m).hwPhi (inp.track t).hwEta (inp.track t).hwPhi
def muDpt (m : Fin NM) (t : Fin NT) : Int :=
  ((inp.mu m).hwPt.toInt - (inp.track t).hwPt.toInt).natAbs

/-- Track `t` is the match of muon `m`. -/
def MuMatch (m : Fin NM) (t : Fin NT) : Prop :=
  0 < (inp.mu m).hwPt.toInt ∧
  FirstMin (fun t => muDist2 inp m t < 2101 ∧ muDpt inp m t < (inp.mu m).hwPt.toInt / 2)
    (muDpt inp m) t

/-- Track `t` is claimed by some muon. -/
def IsMu (t : Fin NT) : Prop := ∃ m, MuMatch inp m t

/-! ### Tracks and EM clusters -/

def tkEmDist2 (t : Fin NT) (c : Fin NE) : Int :=
  dist2 (inp.track t).hwEta (inp.track t).hwPhi (inp.emcalo c).hwEta (inp.emcalo c).hwPhi

/-- EM cluster `c` is the nearest one to (non-muon) track `t`. -/
def EmMatch (t : Fin NT) (c : Fin NE) : Prop :=
  ¬ IsMu inp t ∧ FirstMin (fun c => tkEmDist2 inp t c < 84) (tkEmDist2 inp t) c

/-- Track pt linked to an EM cluster. -/
noncomputable def emTrackPt (c : Fin NE) : Int :=
  ∑ t, if EmMatch inp t c then (inp.track t).hwPt.toInt else 0

/-- Cluster pt minus track pt. -/
noncomputable def emDiff (c : Fin NE) : Int := (inp.emcalo c).hwPt.toInt - emTrackPt inp c
/-- Squared pt error of the cluster. -/
def emErr2 (c : Fin NE) : Int := (inp.emcalo c).hwPtErr.toInt ^ 2

/-- The cluster looks electromagnetic: no track, or an excess, or a deficit below two sigma. -/
def IsEM (c : Fin NE) : Prop :=
  emTrackPt inp c = 0 ∨ 0 < emDiff inp c ∨ (emDiff inp c < 0 ∧ emDiff inp c ^ 2 < 4 * emErr2 inp c)

/-- Photon pt: the cluster if no track, otherwise a significant (squared > 1.5 sigma²) excess. -/
noncomputable def photonPt (c : Fin NE) : Int :=
  if emTrackPt inp c = 0 then (inp.emcalo c).hwPt.toInt
  else if 0 < emDiff inp c ∧ 3 * emErr2 inp c < 2 * emDiff inp c ^ 2 then emDiff inp c else 0

/-- The track is an electron: its EM cluster looks electromagnetic. -/
def IsEle (t : Fin NT) : Prop := ∃ c, EmMatch inp t c ∧ IsEM inp c

/-! ### EM clusters and calorimeter clusters -/

def emHadDist2 (e : Fin NE) (h : Fin NC) : Int :=
  dist2 (inp.emcalo e).hwEta (inp.emcalo e).hwPhi (inp.hadcalo h).hwEta (inp.hadcalo h).hwPhi

/-- Calorimeter cluster `h` is the nearest one to EM cluster `e` with enough EM energy. -/
def HadMatch (e : Fin NE) (h : Fin NC) : Prop :=
  FirstMin (fun h => (inp.emcalo e).hwPt.toInt / 2 < (inp.hadcalo h).hwEmPt.toInt ∧
    emHadDist2 inp e h < 525) (emHadDist2 inp e) h

/-- EM energy to subtract from a calorimeter cluster. -/
noncomputable def emSub (h : Fin NC) : Int :=
  ∑ e, if HadMatch inp e h ∧ IsEM inp e then (inp.emcalo e).hwPt.toInt else 0

/-- A hadron-like EM cluster is linked. -/
def HasHadronicEM (h : Fin NC) : Prop := ∃ e, HadMatch inp e h ∧ ¬ IsEM inp e

/-- Negligible remainder: at most 1/16 of the pt, or (for EM-flagged clusters, unless protected) at
most 1/8 of the EM pt. -/
def Removed (v : Variant) (h : Fin NC) : Prop :=
  16 * ((inp.hadcalo h).hwPt.toInt - emSub inp h) ≤ (inp.hadcalo h).hwPt.toInt ∨
  ((inp.hadcalo h).hwIsEM = true ∧
    8 * ((inp.hadcalo h).hwEmPt.toInt - emSub inp h) ≤ (inp.hadcalo h).hwEmPt.toInt ∧
    ¬ (v.protect = true ∧ HasHadronicEM inp h))

/-- What is left of a calorimeter cluster. -/
noncomputable def hadPt (v : Variant) (h : Fin NC) : Int :=
  if Removed inp v h then 0 else (inp.hadcalo h).hwPt.toInt - emSub inp h

/-! ### Tracks and calorimeter clusters -/

def tkHadDist2 (t : Fin NT) (h : Fin NC) : Int :=
  dist2 (inp.track t).hwEta (inp.track t).hwPhi (inp.hadcalo h).hwEta (inp.hadcalo h).hwPhi

/-- A cluster compatible with the track: close, and not more than two sigma below in pt. -/
def Compatible (v : Variant) (t : Fin NT) (h : Fin NC) : Prop :=
  max 0 ((inp.track t).hwPt.toInt - 2 * (inp.track t).hwPtErr.toInt) < hadPt inp v h ∧
  tkHadDist2 inp t h < 756

/-- The metric: distance plus the scaled squared pt deficit. -/
noncomputable def metric (v : Variant) (t : Fin NT) (h : Fin NC) : Int :=
  tkHadDist2 inp t h +
    (max 0 ((inp.track t).hwPt.toInt - hadPt inp v h)) ^ 2 * v.scale (inp.track t).hwPtErr.toInt / 256

/-- Calorimeter cluster `h` is the best compatible one for track `t`. -/
def CaloMatch (v : Variant) (t : Fin NT) (h : Fin NC) : Prop :=
  FirstMin (Compatible inp v t) (metric inp v t) h

/-- Hadron tracks linked to a calorimeter cluster. -/
def HadronLink (v : Variant) (t : Fin NT) (h : Fin NC) : Prop :=
  CaloMatch inp v t h ∧ ¬ IsEle inp t ∧ ¬ IsMu inp t

noncomputable def caloTrackPt (v : Variant) (h : Fin NC) : Int :=
  ∑ t, if HadronLink inp v t h then (inp.track t).hwPt.toInt else 0
noncomputable def caloTrackErr2 (v : Variant) (h : Fin NC) : Int :=
  ∑ t, if HadronLink inp v t h then (inp.track t).hwPtErr.toInt ^ 2 else 0
noncomputable def caloDiff (v : Variant) (h : Fin NC) : Int := hadPt inp v h - caloTrackPt inp v h

/-- Neutral hadron pt: the cluster if no track, otherwise a significant excess. -/
noncomputable def neutralPt (v : Variant) (h : Fin NC) : Int :=
  if caloTrackPt inp v h = 0 then hadPt inp v h
  else if 0 < caloDiff inp v h ∧ 3 * caloTrackErr2 inp v h < 2 * caloDiff inp v h ^ 2 then
    caloDiff inp v h
  else 0

/-! ### Charged particles -/

/-- pt below which a track needs no calorimeter confirmation. -/
def lowPt (t : Fin NT) : Prop :=
  (inp.track t).hwPt.toInt < if (inp.track t).hwTightQuality then 80 else 40

/-- The track is kept. -/
def Kept (v : Variant) (t : Fin NT) : Prop :=
  IsMu inp t ∨ IsEle inp t ∨ lowPt inp t ∨ ∃ h, CaloMatch inp v t h

/-- The charged candidate of a track. -/
noncomputable def chargedOut (v : Variant) (t : Fin NT) : PFChargedObj :=
  if Kept inp v t then
    { hwPt := (inp.track t).hwPt, hwEta := (inp.track t).hwEta, hwPhi := (inp.track t).hwPhi,
      hwId := if IsEle inp t then 3 else if IsMu inp t then 4 else 0,
      hwZ0 := (inp.track t).hwZ0 }
  else { hwPt := 0, hwEta := 0, hwPhi := 0, hwId := 0, hwZ0 := 0 }

/-- The muon candidate of a muon: its matched track. -/
def MuOut (m : Fin NM) (o : PFChargedObj) : Prop :=
  (∀ t, MuMatch inp m t → o =
    { hwPt := (inp.track t).hwPt, hwEta := (inp.track t).hwEta, hwPhi := (inp.track t).hwPhi,
      hwId := 4, hwZ0 := (inp.track t).hwZ0 }) ∧
  ((¬ ∃ t, MuMatch inp m t) → o = { hwPt := 0, hwEta := 0, hwPhi := 0, hwId := 0, hwZ0 := 0 })

/-- A neutral candidate `o` of the given pt, position and id; all zero if the pt is zero. -/
def NeutralOut (pt : Int) (eta phi : EtaPhi) (id : ParticleId) (o : PFNeutralObj) : Prop :=
  o.hwPt.toInt = pt ∧
  (pt ≠ 0 → o.hwEta = eta ∧ o.hwPhi = phi ∧ o.hwId = id) ∧
  (pt = 0 → o.hwEta = 0 ∧ o.hwPhi = 0 ∧ o.hwId = 0)

/-- Inputs whose pts are handled exactly: physical values, sums that fit the 16-bit registers. -/
structure Sane (v : Variant) : Prop where
  trackPt : ∀ t, 0 ≤ (inp.track t).hwPt.toInt
  trackErr : ∀ t, 0 ≤ (inp.track t).hwPtErr.toInt
  window : ∀ t, -32768 ≤ (inp.track t).hwPt.toInt - 2 * (inp.track t).hwPtErr.toInt
  emPt : ∀ c, 0 ≤ (inp.emcalo c).hwPt.toInt
  hadPt : ∀ h, 0 ≤ (inp.hadcalo h).hwPt.toInt
  hadEmPt : ∀ h, 0 ≤ (inp.hadcalo h).hwEmPt.toInt
  emSum : ∀ c, emTrackPt inp c ≤ 32767
  subSum : ∀ h, emSub inp h ≤ 32767
  hadSum : ∀ h, caloTrackPt inp v h ≤ 32767

/-- Inputs on which the arithmetic is exact: sane ones whose squared errors fit an `int`. -/
structure Valid (v : Variant) : Prop extends Sane inp v where
  emErr : ∀ c, emTrackPt inp c ≠ 0 → 4 * emErr2 inp c ≤ 2147483647
  hadErr : ∀ h, 3 * caloTrackErr2 inp v h ≤ 2 * 2147483647

/-- A simple sufficient condition that can be read off the inputs: non-negative values, the total
track pt and the total EM pt of the region below 2^15, and errors that square into an `int`. -/
structure Physical : Prop where
  trackPt : ∀ t, 0 ≤ (inp.track t).hwPt.toInt
  trackErr : ∀ t, 0 ≤ (inp.track t).hwPtErr.toInt
  trackErrMax : ∀ t, (inp.track t).hwPtErr.toInt ≤ 16384
  emPt : ∀ c, 0 ≤ (inp.emcalo c).hwPt.toInt
  emErrMax : ∀ c, (inp.emcalo c).hwPtErr.toInt ^ 2 ≤ 536870911
  hadPt : ∀ h, 0 ≤ (inp.hadcalo h).hwPt.toInt
  hadEmPt : ∀ h, 0 ≤ (inp.hadcalo h).hwEmPt.toInt
  trackSum : (∑ t, (inp.track t).hwPt.toInt) ≤ 32767
  emSum : (∑ c, (inp.emcalo c).hwPt.toInt) ≤ 32767
  trackErrSum : 3 * (∑ t, (inp.track t).hwPtErr.toInt ^ 2) ≤ 2 * 2147483647

end Verif.Spec

namespace Verif.Spec

/-- Scale of the reference: `756·256 / max(1, err²)`. -/
def refScale (err : Int) : Int := 193536 / max 1 (err ^ 2)

/-- Scale of the firmware table: the same, capped to 17 bits, and 0 from 512 on. -/
def fwScale (err : Int) : Int := if err < 512 then min 131071 (refScale err) else 0

/-- What the firmware implements: no protection, capped scale. -/
def fwVariant : Variant := ⟨false, fwScale⟩
/-- What the reference implements: protection, uncapped scale. -/
def refVariant : Variant := ⟨true, refScale⟩

end Verif.Spec

namespace Verif.Spec
variable {NT NC NE NM : Nat} (inp : PFInputs NT NC NE NM)

/-- The events on which the two variants cannot differ. -/
structure VariantsCoincide : Prop where
  /-- protection never matters: a cluster with a hadron-like EM cluster is not at stake in the
  EM-remainder rule (not flagged EM, or removed anyway, or enough EM energy left) -/
  keep : ∀ h, HasHadronicEM inp h → (inp.hadcalo h).hwIsEM = true →
    16 * ((inp.hadcalo h).hwPt.toInt - emSub inp h) ≤ (inp.hadcalo h).hwPt.toInt ∨
    (inp.hadcalo h).hwEmPt.toInt < 8 * ((inp.hadcalo h).hwEmPt.toInt - emSub inp h)
  /-- the cap of the scale never matters: a track of pt error 1 has no pt deficit with respect to any
  compatible cluster, or has at most one compatible cluster -/
  scale : ∀ t, (inp.track t).hwPtErr.toInt = 1 →
    (∀ h, Compatible inp fwVariant t h → (inp.track t).hwPt.toInt ≤ hadPt inp fwVariant h) ∨
    (∀ h h', Compatible inp fwVariant t h → Compatible inp fwVariant t h' → h = h')

end Verif.Spec

namespace Verif.Spec
variable {NT NC NE NM : Nat} (inp : PFInputs NT NC NE NM)

/-- What can be seen of a neutral candidate: pt, position and id; nothing if the pt is null. -/
abbrev Seen := Int × EtaPhi × EtaPhi × ParticleId

/-- What is seen of the neutral candidate of a calorimeter cluster. -/
noncomputable def neutralSeen (v : Variant) (h : Fin NC) : Seen :=
  if neutralPt inp v h = 0 then (0, 0, 0, 0) else (neutralPt inp v h, (inp.hadcalo h).hwEta, (inp.hadcalo h).hwPhi, 1)

end Verif.Spec
