import Verif.Spec.PF
/-!
# Events with at most one object of each kind

What particle flow makes of a track `T`, an EM cluster `C`, a calorimeter cluster `H` and a muon `M`, in closed form.  Null objects stand for absent ones.
-/
namespace Verif.Spec

/-- The objects of an event with one of each kind. -/
structure Single where
  T : TkObj
  C : EmCaloObj
  H : HadCaloObj
  M : MuObj

namespace Single
variable (s : Single)

abbrev p : Int := s.T.hwPt.toInt
abbrev err : Int := s.T.hwPtErr.toInt
abbrev E : Int := s.C.hwPt.toInt
abbrev q : Int := s.H.hwPt.toInt

/-- The track is the muon's. -/
def mu : Prop := 0 < s.M.hwPt.toInt ∧ dist2 s.M.hwEta s.M.hwPhi s.T.hwEta s.T.hwPhi < 2101 ∧ ((s.M.hwPt.toInt - s.p).natAbs : Int) < s.M.hwPt.toInt / 2
/-- The track is at the EM cluster. -/
def nearEm : Prop := ¬ s.mu ∧ dist2 s.T.hwEta s.T.hwPhi s.C.hwEta s.C.hwPhi < 84
instance : Decidable s.mu := by unfold mu; infer_instance
instance : Decidable s.nearEm := by unfold nearEm; infer_instance
/-- Track pt in the EM cluster. -/
def inEm : Int := if s.nearEm then s.p else 0
/-- The EM cluster is no hadron's: no track, an excess, or a deficit below two errors. -/
def isEM : Prop := s.inEm = 0 ∨ s.inEm < s.E ∨ (s.E < s.inEm ∧ (s.E - s.inEm) ^ 2 < 4 * s.C.hwPtErr.toInt ^ 2)
instance : Decidable s.isEM := by unfold isEM; infer_instance
def electron : Prop := s.nearEm ∧ s.isEM
instance : Decidable s.electron := by unfold electron; infer_instance
/-- pt of the photon. -/
def photon : Int :=
  if s.inEm = 0 then s.E else if s.inEm < s.E ∧ 3 * s.C.hwPtErr.toInt ^ 2 < 2 * (s.E - s.inEm) ^ 2 then s.E - s.inEm else 0
/-- The EM cluster is part of the calorimeter cluster. -/
def inHad : Prop := s.E / 2 < s.H.hwEmPt.toInt ∧ dist2 s.C.hwEta s.C.hwPhi s.H.hwEta s.H.hwPhi < 525
instance : Decidable s.inHad := by unfold inHad; infer_instance
/-- What is subtracted from the calorimeter cluster. -/
def sub : Int := if s.inHad ∧ s.isEM then s.E else 0
/-- Nothing but noise would be left: a sixteenth of the pt, or an eighth of the EM pt of a cluster flagged as EM. -/
def noise : Prop :=
  16 * (s.q - s.sub) ≤ s.q ∨ (s.H.hwIsEM = true ∧ 8 * (s.H.hwEmPt.toInt - s.sub) ≤ s.H.hwEmPt.toInt)
instance : Decidable s.noise := by unfold noise; infer_instance
/-- What is left of the calorimeter cluster. -/
def rest : Int := if s.noise then 0 else s.q - s.sub
/-- The track ends in what is left. -/
def ends : Prop := max 0 (s.p - 2 * s.err) < s.rest ∧ dist2 s.T.hwEta s.T.hwPhi s.H.hwEta s.H.hwPhi < 756
instance : Decidable s.ends := by unfold ends; infer_instance
/-- pt of the neutral hadron. -/
def neutral : Int :=
  if s.ends ∧ ¬ s.electron ∧ ¬ s.mu ∧ s.p ≠ 0 then (if s.p < s.rest ∧ 3 * s.err ^ 2 < 2 * (s.rest - s.p) ^ 2 then s.rest - s.p else 0) else s.rest
/-- The track is kept. -/
def kept : Prop := s.p ≠ 0 ∧ (s.mu ∨ s.electron ∨ (s.p < if s.T.hwTightQuality then 80 else 40) ∨ s.ends)
instance : Decidable s.kept := by unfold kept; infer_instance

/-- The candidates. -/
def charged : List PFChargedObj :=
  if s.kept then [⟨s.T.hwPt, s.T.hwEta, s.T.hwPhi, if s.electron then 3 else if s.mu then 4 else 0, s.T.hwZ0⟩] else []
def photons : List Seen := if s.photon = 0 then [] else [(s.photon, s.C.hwEta, s.C.hwPhi, 2)]
def neutrals : List Seen := if s.neutral = 0 then [] else [(s.neutral, s.H.hwEta, s.H.hwPhi, 1)]
def muons : List PFChargedObj := if s.mu then [⟨s.T.hwPt, s.T.hwEta, s.T.hwPhi, 4, s.T.hwZ0⟩] else []

/-- Values for which the arithmetic is exact. -/
structure Good : Prop where
  p : 0 ≤ s.p
  err : 0 ≤ s.err ∧ s.err ≤ 16384
  E : 0 ≤ s.E
  σ : s.C.hwPtErr.toInt ^ 2 ≤ 536870911
  q : 0 ≤ s.q
  em : 0 ≤ s.H.hwEmPt.toInt

end Single

/-- The event has these objects, in any slots, and nothing else; and no other slot of an EM cluster, though empty, takes the track. -/
structure OneEach {NT NC NE NM : Nat} (inp : PFInputs NT NC NE NM) (s : Single) (t0 : Fin NT) (c0 : Fin NE) (h0 : Fin NC) (m0 : Fin NM) : Prop where
  T : inp.track t0 = s.T
  C : inp.emcalo c0 = s.C
  H : inp.hadcalo h0 = s.H
  M : inp.mu m0 = s.M
  track : ∀ t, t ≠ t0 → (inp.track t).hwPt.toInt = 0 ∧ (inp.track t).hwPtErr.toInt = 0
  em : ∀ c, c ≠ c0 → (inp.emcalo c).hwPt.toInt = 0
  had : ∀ h, h ≠ h0 → (inp.hadcalo h).hwPt.toInt = 0 ∧ (inp.hadcalo h).hwEmPt.toInt = 0
  mu : ∀ m, m ≠ m0 → (inp.mu m).hwPt.toInt ≤ 0
  far : s.p ≠ 0 → ∀ c, c ≠ c0 → 84 ≤ dist2 s.T.hwEta s.T.hwPhi (inp.emcalo c).hwEta (inp.emcalo c).hwPhi ∨
    dist2 s.T.hwEta s.T.hwPhi s.C.hwEta s.C.hwPhi < dist2 s.T.hwEta s.T.hwPhi (inp.emcalo c).hwEta (inp.emcalo c).hwPhi ∨
    (dist2 s.T.hwEta s.T.hwPhi s.C.hwEta s.C.hwPhi = dist2 s.T.hwEta s.T.hwPhi (inp.emcalo c).hwEta (inp.emcalo c).hwPhi ∧ c0 < c)
  noTrack : s.p = 0 → s.err = 0

end Verif.Spec
