import Verif.Spec.Region
/-!
# Positions in the detector

The detector is a cylinder: eta is a coordinate, phi goes round with 1440 units per turn.  Sector `s` is centred at
`120·s`; the objects it sends carry phi relative to that centre.  Nothing here refers to regions, except the two
definitions that say which part of the detector a region is responsible for.
-/
namespace Verif.Spec

/-- A direction. -/
structure Pos where
  eta : Int
  phi : Int
  deriving DecidableEq

/-- Squared distance of two directions. -/
def detDist2 (a b : Pos) : Int := (a.eta - b.eta) ^ 2 + ((a.phi - b.phi).bmod 1440) ^ 2

/-- Where an object sent by sector `s` is. -/
def posOf {T : Type} [RegObj T] (s : Fin 12) (o : T) : Pos :=
  ⟨(RegObj.eta o).toInt, 120 * s.val + (RegObj.phi o).toInt⟩

/-- An object a sector can send: inside the detector, inside the sector, not null. -/
def Proper {T : Type} [RegObj T] (o : T) : Prop :=
  0 < ptOf o ∧ -342 ≤ (RegObj.eta o).toInt ∧ (RegObj.eta o).toInt ≤ 342 ∧
    -60 ≤ (RegObj.phi o).toInt ∧ (RegObj.phi o).toInt ≤ 60

/-- What sector `s` sends: the words of its fibres, taken in turn. -/
def arrivals {T : Type} {NFPS : Nat} (NSEC : Nat) (fib : Arr (NFPS * N_IN_SECTORS) (List T)) (s : Fin 12) : List T :=
  interleave NFPS (NSEC / NFPS) (fun f => fib (fiberIdx s f))

/-- The part of the detector for which region (`ie`, `ip`) is responsible: up to half way into the overlap in eta,
two sectors wide in phi. -/
def Fiducial (ie : Fin 3) (ip : Fin 6) (p : Pos) : Prop :=
  (ie = 0 → p.eta ≤ -114) ∧ (ie = 1 → -114 ≤ p.eta ∧ p.eta ≤ 114) ∧ (ie = 2 → 114 ≤ p.eta) ∧
    -120 ≤ (p.phi - 120 * (2 * ip.val + 1)).bmod 1440 ∧ (p.phi - 120 * (2 * ip.val + 1)).bmod 1440 ≤ 120

/-- The object of sector `s` in the coordinates of region (`ie`, `ip`). -/
def place {T : Type} [RegObj T] (ie : Fin 3) (ip : Fin 6) (s : Fin 12) (o : T) : T :=
  RegObj.setPhi (RegObj.setEta o (BitVec.ofInt 10 ((RegObj.eta o).toInt - etaC ie)))
    (BitVec.ofInt 10 (relPhi ip s (RegObj.phi o).toInt))

/-- The object of sector `s` is inside region (`ie`, `ip`). -/
def Inside {T : Type} [RegObj T] (ie : Fin 3) (ip : Fin 6) (s : Fin 12) (o : T) : Prop :=
  inSlice ie o = true ∧ -180 ≤ relPhi ip s (RegObj.phi o).toInt ∧ relPhi ip s (RegObj.phi o).toInt ≤ 180

/-- The objects of positive pt in the eta window of the region. -/
def window {T : Type} [RegObj T] (ie : Fin 3) (l : List T) : List T := l.filter fun o => decide (0 < ptOf o) && inSlice ie o

/-- The region does not receive more than it can hold: not more than `nse` objects from any of its sectors, not more
than `nreg` in all. -/
def Fits {T : Type} [RegObj T] (nse nreg : Nat) (ie : Fin 3) (ip : Fin 6) (arr : Fin 12 → List T) : Prop :=
  (window ie (arr ⟨2 * ip.val, by omega⟩)).length ≤ nse ∧
  (window ie (arr ⟨2 * ip.val + 1, by omega⟩)).length ≤ nse ∧
  (window ie (arr ⟨(2 * ip.val + 2) % 12, by omega⟩)).length ≤ nse ∧
  (window ie (arr ⟨2 * ip.val, by omega⟩)).length + (window ie (arr ⟨2 * ip.val + 1, by omega⟩)).length +
    (window ie (arr ⟨(2 * ip.val + 2) % 12, by omega⟩)).length ≤ nreg

/-- pt mismatch of a track and a muon. -/
def ptGap (mu : MuObj) (t : TkObj) : Int := ((mu.hwPt.toInt - t.hwPt.toInt).natAbs : Int)

/-- The track could be that of the muon: close by, and of similar pt. -/
def CouldBe (sm : Fin 12) (mu : MuObj) (st : Fin 12) (t : TkObj) : Prop :=
  detDist2 (posOf sm mu) (posOf st t) < 2101 ∧ ptGap mu t < mu.hwPt.toInt / 2

/-- The calorimeter cluster could contain the EM cluster: close by, and with enough EM energy. -/
def CouldHold (se : Fin 12) (e : EmCaloObj) (sh : Fin 12) (h : HadCaloObj) : Prop :=
  detDist2 (posOf se e) (posOf sh h) < 525 ∧ e.hwPt.toInt / 2 < h.hwEmPt.toInt

/-- The track could end in the calorimeter cluster: close by, and the cluster has enough energy. -/
def CouldEnd (st : Fin 12) (t : TkObj) (sh : Fin 12) (h : HadCaloObj) : Prop :=
  detDist2 (posOf st t) (posOf sh h) < 756 ∧ max 0 (t.hwPt.toInt - 2 * t.hwPtErr.toInt) < h.hwPt.toInt

/-- How badly they match: the squared distance, plus the squared energy missing in the cluster in units of the
resolution of the track (`scale` as a function of the resolution). -/
def endMismatch (scale : Int → Int) (st : Fin 12) (t : TkObj) (sh : Fin 12) (h : HadCaloObj) : Int :=
  detDist2 (posOf st t) (posOf sh h) + (max 0 (t.hwPt.toInt - h.hwPt.toInt)) ^ 2 * scale t.hwPtErr.toInt / 256

end Verif.Spec
