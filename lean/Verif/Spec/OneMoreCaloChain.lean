import Verif.Spec.OneMoreLink
import Verif.Spec.PF
/-!
# One more calorimeter cluster among those of a region
-/
namespace Verif.Spec
variable {NT NC NE NM : Nat}

/-- `inp'` is `inp` with a calorimeter cluster in slot `i`, the clusters of slots `i` to `j - 1` one slot later; slot `j` was empty. -/
structure CaloJoins (inp inp' : PFInputs NT NC NE NM) (i j : Fin NC) : Prop where
  track : inp'.track = inp.track
  em : inp'.emcalo = inp.emcalo
  mu : inp'.mu = inp.mu
  le : i ≤ j
  before : ∀ k, k < i → inp'.hadcalo k = inp.hadcalo k
  moved : ∀ k k' : Fin NC, i ≤ k → k < j → k'.val = k.val + 1 → inp'.hadcalo k' = inp.hadcalo k
  after : ∀ k, j < k → inp'.hadcalo k = inp.hadcalo k
  freePt : (inp.hadcalo j).hwPt.toInt = 0
  freeEmPt : (inp.hadcalo j).hwEmPt.toInt = 0

end Verif.Spec
