import Verif.Model.Data
import Mathlib.Algebra.BigOperators.Fin
/-! # Vertex histograms -/
namespace Verif.Spec
open scoped BigOperators
variable {NS NTK : Nat}

/-- The z bin of a track: 8 counts per bin, bin 0 starts at -288, 72 bins; `none` outside. -/
def zBin (z0 : Int) : Option Nat :=
  if -288 ≤ z0 ∧ z0 < 288 then some ((z0 + 288) / 8).toNat else none

/-- What a track adds to its bin: half its pt, at most 100. -/
def vtxPt (pt : Int) : Int := min 100 (pt / 2)

/-- Contents of a bin after the given (bin, pt) entries: the sum, saturated at 511. -/
def binContent (entries : List (Option Nat × Int)) (b : Nat) : Int :=
  min 511 ((entries.map fun e => if e.1 = some b then vtxPt e.2 else 0).sum)

/-- `b` is the first maximum of `v`. -/
def FirstMax {n : Nat} (v : Fin n → Int) (b : Fin n) : Prop :=
  ∀ b', v b' ≤ v b ∧ (b' < b → v b' < v b)

/-- Contents of a bin of a packed histogram. -/
def packedBin (w : Arr 36 (BitVec 18)) (b : Nat) : Int :=
  if h : b / 2 < 36 then
    if b % 2 = 0 then ((w ⟨b / 2, h⟩).toNat / 512 : Nat) else ((w ⟨b / 2, h⟩).toNat % 512 : Nat)
  else 0

/-- Total of a bin over the sectors. -/
def packedTotal (hist : Arr NS (Arr 36 (BitVec 18))) (b : Nat) : Int :=
  ∑ is, packedBin (hist is) b

/-- The tracks of a sector as entries of the specification. -/
def trackEntries (tracks : Arr NTK TkObj) : List (Option Nat × Int) :=
  (List.finRange NTK).map fun it => (zBin (tracks it).hwZ0.toInt, (tracks it).hwPt.toInt)

/-! ### The 15-bin vertex finder -/

/-- The bin a track of `simple_vtx` falls in: 20 counts per bin from 0, truncated to 5 signed bits,
negative bins folded into bin 0.  Bin 15 does not exist. -/
def svBin (z0 : Int) : Nat :=
  if z0 < -512 then 0 else
  if z0 ≤ -360 then ((z0 + 640 + 19) / 20).toNat else
  if z0 ≤ -340 then 15 else
  if z0 < 20 then 0 else
  if z0 < 320 then (z0 / 20).toNat else 0

/-- Sum of the capped pts of the tracks of a bin. -/
def svSum {N : Nat} (track : Arr N TkObj) (b : Nat) : Int :=
  ∑ i, if svBin (track i).hwZ0.toInt = b then min 200 (track i).hwPt.toInt else 0

/-- Number of tracks of a bin. -/
def svCount {N : Nat} (track : Arr N TkObj) (b : Nat) : Int :=
  ∑ i, if svBin (track i).hwZ0.toInt = b then 1 else 0

/-- Number of tracks of positive pt of a bin. -/
def svCountPos {N : Nat} (track : Arr N TkObj) (b : Nat) : Int :=
  ∑ i, if svBin (track i).hwZ0.toInt = b ∧ 0 < (track i).hwPt.toInt then 1 else 0

end Verif.Spec
