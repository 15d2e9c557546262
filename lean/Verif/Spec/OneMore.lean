import Verif.Spec.PF
/-!
# An event with one more track

The same event with a track in a slot that was free.  The track is not a candidate for any muon, and no EM cluster is near.
-/
namespace Verif.Spec
variable {NT NC NE NM : Nat}

/-- `inp'` is `inp` with a track in the free slot `t0` that no muon and no EM cluster can be linked to. -/
structure OneMoreTrack (inp inp' : PFInputs NT NC NE NM) (t0 : Fin NT) : Prop where
  had : inp'.hadcalo = inp.hadcalo
  em : inp'.emcalo = inp.emcalo
  mu : inp'.mu = inp.mu
  others : ∀ t, t ≠ t0 → inp'.track t = inp.track t
  freePt : (inp.track t0).hwPt.toInt = 0
  freeErr : (inp.track t0).hwPtErr.toInt = 0
  noMuon : ∀ m, ¬ (muDist2 inp' m t0 < 2101 ∧ muDpt inp' m t0 < (inp'.mu m).hwPt.toInt / 2)
  noEm : ∀ c, 84 ≤ tkEmDist2 inp' t0 c

end Verif.Spec
