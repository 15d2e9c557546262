import Verif.Spec.PF
/-!
# An event with one more calorimeter cluster

The same event with a cluster in a slot that was free.
-/
namespace Verif.Spec
variable {NT NC NE NM : Nat}

/-- `inp'` is `inp` with a calorimeter cluster in the free slot `h0`. -/
structure OneMoreCalo (inp inp' : PFInputs NT NC NE NM) (h0 : Fin NC) : Prop where
  track : inp'.track = inp.track
  em : inp'.emcalo = inp.emcalo
  mu : inp'.mu = inp.mu
  others : ∀ h, h ≠ h0 → inp'.hadcalo h = inp.hadcalo h
  freePt : (inp.hadcalo h0).hwPt.toInt = 0
  freeEmPt : (inp.hadcalo h0).hwEmPt.toInt = 0

end Verif.Spec
