import Verif.Model.Regionizer
import Mathlib.Data.List.Sort
/-! # What the regions contain -/
namespace Verif.Spec

section
variable {T : Type} [RegObj T]

/-- pt of an object -/
def ptOf (o : T) : Int := (RegObj.pt o).toInt

/-- Decreasing pt. -/
def byPt (a b : T) : Prop := ptOf b ≤ ptOf a

instance : DecidableRel (byPt (T := T)) := fun _ _ => inferInstanceAs (Decidable (_ ≤ _))

/-- The (at most) `n` objects of positive pt with the highest pt, earlier ones first among equals
(insertion sort is stable). -/
def best (n : Nat) (l : List T) : List T :=
  ((l.filter fun o => decide (0 < ptOf o)).insertionSort byPt).take n

/-- `n` slots: the objects, then nulls. -/
def pad (n : Nat) (l : List T) : List T := (l ++ List.replicate n RegObj.clear).take n

/-- Lower edge, upper edge and centre of the eta slices. -/
def etaLo (ie : Fin 3) : Int := if ie = 0 then -342 else if ie = 1 then -171 else 57
@[inherit_doc etaLo] def etaHi (ie : Fin 3) : Int := if ie = 0 then -57 else if ie = 1 then 171 else 342
@[inherit_doc etaLo] def etaC (ie : Fin 3) : Int := if ie = 0 then -171 else if ie = 1 then 0 else 171

/-- The object is in the slice. -/
def inSlice (ie : Fin 3) (o : T) : Bool :=
  decide (etaLo ie ≤ (RegObj.eta o).toInt ∧ (RegObj.eta o).toInt ≤ etaHi ie)

/-- The object with eta relative to the centre of the slice. -/
def etaRel (ie : Fin 3) (o : T) : T := RegObj.setEta o (BitVec.ofInt 10 ((RegObj.eta o).toInt - etaC ie))

/-- The object with phi moved by `d`. -/
def phiMove (d : Int) (o : T) : T := RegObj.setPhi o (BitVec.ofInt 10 ((RegObj.phi o).toInt + d))

/-- Objects kept for an eta slice of a sector, given all objects received by the sector. -/
def slice (nse : Nat) (ie : Fin 3) (arrivals : List T) : List T :=
  best nse ((arrivals.filter (inSlice ie)).map (etaRel ie))

/-- Objects competing for region (`ie`, `ip`): those of sectors `2ip`, `2ip+1`, `2ip+2`. -/
def candidates (nse : Nat) (ie : Fin 3) (ip : Fin 6) (arrivals : Fin 12 → List T) : List T :=
  (slice nse ie (arrivals ⟨2 * ip.val, by omega⟩)).map (phiMove (-120)) ++
  (slice nse ie (arrivals ⟨2 * ip.val + 1, by omega⟩)).map (phiMove 0) ++
  (slice nse ie (arrivals ⟨(2 * ip.val + 2) % 12, by omega⟩)).map (phiMove 120)

/-- Content of region (`ie`, `ip`). -/
def region (nreg nse : Nat) (ie : Fin 3) (ip : Fin 6) (arrivals : Fin 12 → List T) : List T :=
  best nreg (candidates nse ie ip arrivals)

end

/-- Objects received by a sector with `nf` fibers, `n` objects read from each: one from each fiber in turn. -/
def interleave {T : Type} (nf n : Nat) (fiber : Fin nf → List T) : List T :=
  (List.range n).flatMap fun io => (List.finRange nf).flatMap fun f => ((fiber f).drop io).take 1

/-- Sectors are centred every 30 degrees (120 units); region `ip` is centred on sector `2ip+1`; a turn is 1440 units.
Phi of an object of sector `ics` relative to the centre of region `ip`, between -720 and 719. -/
def relPhi (ip : Fin 6) (ics : Fin 12) (phi : Int) : Int :=
  (120 * ics.val + phi - 120 * (2 * ip.val + 1) + 720) % 1440 - 720

/-- A muon of sector `ics` in the coordinates of region (`ie`, `ip`). -/
def muToRegion (ie : Fin 3) (ip : Fin 6) (ics : Fin 12) (mu : MuObj) : MuObj :=
  { mu with hwEta := BitVec.ofInt 10 (mu.hwEta.toInt - etaC ie),
            hwPhi := BitVec.ofInt 10 (relPhi ip ics mu.hwPhi.toInt) }

/-- Positions of the muons of positive pt. -/
def muIndices {n : Nat} (inn : Fin 12 → Fin n → MuObj) : List (Fin 12 × Fin n) :=
  ((List.finRange 12).flatMap fun ics => (List.finRange n).map fun io => (ics, io)).filter
    fun p => decide (0 < (inn p.1 p.2).hwPt.toInt)

end Verif.Spec
