import Verif.Spec.WithoutMuons
/-!
# One more muon among those of a region

The muons of a region are in order of pt, so a new muon moves others to the next slot.  The muon candidates are compared as lists.
-/
namespace Verif.Spec
variable {NT NC NE NM : Nat}

/-- The muon candidates, in the order of their slots. -/
def muonList {NE NS NM : Nat} (out : PFOutputs NT NE NS NM) : List PFChargedObj := (List.ofFn out.outmu).filter fun x => decide (x.hwPt ≠ 0)

/-- `inp'` is `inp` with a muon in slot `i`, the muons of slots `i` to `j - 1` one slot later; slot `j` was empty. -/
structure MuonPut (inp inp' : PFInputs NT NC NE NM) (i j : Fin NM) : Prop where
  had : inp'.hadcalo = inp.hadcalo
  em : inp'.emcalo = inp.emcalo
  track : inp'.track = inp.track
  le : i ≤ j
  before : ∀ k, k < i → inp'.mu k = inp.mu k
  moved : ∀ k k' : Fin NM, i ≤ k → k < j → k'.val = k.val + 1 → inp'.mu k' = inp.mu k
  after : ∀ k, j < k → inp'.mu k = inp.mu k
  free : (inp.mu j).hwPt.toInt ≤ 0

end Verif.Spec
