import Verif.Spec.OneMoreLink
import Verif.Spec.PF
/-!
# One more track among the tracks of a region

The tracks of a region are in order of pt, so a new track moves others to the next slot.  The charged candidates are compared as lists.
-/
namespace Verif.Spec
variable {NT NC NE NM : Nat}

/-- The charged candidates, in the order of their slots. -/
def chargedList {NE NS NM : Nat} (out : PFOutputs NT NE NS NM) : List PFChargedObj := (List.ofFn out.outch).filter fun x => decide (x.hwPt ≠ 0)

/-- The charged hadron made of a track. -/
def hadronOf (t : TkObj) : PFChargedObj := { hwPt := t.hwPt, hwEta := t.hwEta, hwPhi := t.hwPhi, hwId := 0, hwZ0 := t.hwZ0 }

/-- `inp'` is `inp` with a track in slot `i`, the tracks of slots `i` to `j - 1` one slot later; slot `j` was empty.  No muon and no EM cluster
can be linked to the new track. -/
structure TrackJoins (inp inp' : PFInputs NT NC NE NM) (i j : Fin NT) : Prop where
  had : inp'.hadcalo = inp.hadcalo
  em : inp'.emcalo = inp.emcalo
  mu : inp'.mu = inp.mu
  le : i ≤ j
  before : ∀ k, k < i → inp'.track k = inp.track k
  moved : ∀ k k' : Fin NT, i ≤ k → k < j → k'.val = k.val + 1 → inp'.track k' = inp.track k
  after : ∀ k, j < k → inp'.track k = inp.track k
  freePt : (inp.track j).hwPt.toInt = 0
  freeErr : (inp.track j).hwPtErr.toInt = 0
  pos : 0 < (inp'.track i).hwPt.toInt
  noMuon : ∀ m, ¬ (muDist2 inp' m i < 2101 ∧ muDpt inp' m i < (inp'.mu m).hwPt.toInt / 2)
  noEm : ∀ c, 84 ≤ tkEmDist2 inp' i c

end Verif.Spec
