import Verif.Spec.PF
/-!
# An event with one more EM cluster

The same event with an EM cluster in a slot that was free.  No track is near the cluster.  Free track slots (pt 0, pt error 0) may be anywhere.
-/
namespace Verif.Spec
variable {NT NC NE NM : Nat}

/-- `inp'` is `inp` with an EM cluster in the free slot `c0`; no track is near it, nor near the position the free slot stands for. -/
structure OneMoreEm (inp inp' : PFInputs NT NC NE NM) (c0 : Fin NE) : Prop where
  had : inp'.hadcalo = inp.hadcalo
  track : inp'.track = inp.track
  mu : inp'.mu = inp.mu
  others : ∀ c, c ≠ c0 → inp'.emcalo c = inp.emcalo c
  freePt : (inp.emcalo c0).hwPt.toInt = 0
  noTrack : ∀ t, 0 < (inp.track t).hwPt.toInt → 84 ≤ tkEmDist2 inp' t c0
  noTrackFree : ∀ t, 0 < (inp.track t).hwPt.toInt → 84 ≤ tkEmDist2 inp t c0
  freeTrack : ∀ t, ¬ 0 < (inp.track t).hwPt.toInt → (inp.track t).hwPt.toInt = 0 ∧ (inp.track t).hwPtErr.toInt = 0

end Verif.Spec
