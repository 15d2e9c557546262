import Verif.Spec.OneMoreLink
/-!
# One more muon on a muon link

The four muon sectors are centred on sectors 1, 4, 7 and 10 and are 360 units (90 degrees) wide; a region is 360 units wide too,
and is centred on an odd sector.
-/
namespace Verif.Spec

/-- Phi of a muon of muon sector `s` relative to the centre of region `ip`, between -720 and 719. -/
def muRel (ip : Fin 6) (s : Fin 4) (phi : Int) : Int :=
  (120 * (3 * s.val + 1) + phi - 120 * (2 * ip.val + 1) + 720) % 1440 - 720

/-- The muon is in the region; a region has its upper edge but not its lower one, and the lower edge of a muon sector is counted as the unit next to it. -/
def MuInside (ip : Fin 6) (s : Fin 4) (phi : Int) : Prop := -180 < muRel ip s (max (-179) phi) ∧ muRel ip s (max (-179) phi) ≤ 180

/-- A muon of muon sector `s` in the coordinates of region (`ie`, `ip`). -/
def muPlace (ie : Fin 3) (ip : Fin 6) (s : Fin 4) (mu : MuObj) : MuObj :=
  { mu with hwEta := BitVec.ofInt 10 (mu.hwEta.toInt - etaC ie), hwPhi := BitVec.ofInt 10 (muRel ip s mu.hwPhi.toInt) }

/-- Sector `s` sends the muon `o` in addition, among the words of positive pt; the others send the same. -/
structure OneMoreMuonWord {K : Nat} (words words' : Fin K → List MuObj) (s : Fin K) (o : MuObj) : Prop where
  others : ∀ s', s' ≠ s → words' s' = words s'
  word : ∃ l₁ l₂, (words s).filter (fun x => decide (0 < ptOf x)) = l₁ ++ l₂ ∧ (words' s).filter (fun x => decide (0 < ptOf x)) = l₁ ++ o :: l₂
  pos : 0 < ptOf o

/-- A slot of sector `ics` that was free holds the muon `o`; all others hold the same. -/
structure OneMoreMuonIn {n : Nat} (inn inn' : Fin 12 → Fin n → MuObj) (ics : Fin 12) (io : Fin n) (o : MuObj) : Prop where
  others : ∀ i j, (i, j) ≠ (ics, io) → inn' i j = inn i j
  here : inn' ics io = o
  free : ptOf (inn ics io) ≤ 0
  pos : 0 < ptOf o

/-- Number of muons of positive pt in the three sectors merged into muon sector `s`. -/
def muonsIn {n : Nat} (inn : Fin 12 → Fin n → MuObj) (s : Fin 4) : Nat :=
  ((muIndices inn).filter fun p => decide (p.1.val / 3 = s.val)).length

end Verif.Spec
