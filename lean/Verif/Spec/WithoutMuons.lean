import Verif.Spec.PF
/-!
# The event without its muons

The same event with the muons removed, and with them the tracks they are matched to.
-/
namespace Verif.Spec
variable {NT NC NE NM NM' : Nat}

/-- `inp0` is `inp` without muons and without the tracks of muons: the slots of these tracks are empty. -/
structure WithoutMuons (inp : PFInputs NT NC NE NM) (inp0 : PFInputs NT NC NE NM') : Prop where
  had : inp0.hadcalo = inp.hadcalo
  em : inp0.emcalo = inp.emcalo
  none : ∀ m, (inp0.mu m).hwPt.toInt ≤ 0
  others : ∀ t, ¬ IsMu inp t → inp0.track t = inp.track t
  freePt : ∀ t, IsMu inp t → (inp0.track t).hwPt.toInt = 0
  freeErr : ∀ t, IsMu inp t → (inp0.track t).hwPtErr.toInt = 0

/-- `inp'` is `inp` with a muon in slot `m0`, which was empty. -/
structure OneMoreMuon (inp inp' : PFInputs NT NC NE NM) (m0 : Fin NM) : Prop where
  had : inp'.hadcalo = inp.hadcalo
  em : inp'.emcalo = inp.emcalo
  track : inp'.track = inp.track
  others : ∀ m, m ≠ m0 → inp'.mu m = inp.mu m
  free : (inp.mu m0).hwPt.toInt ≤ 0

/-- The candidate of a track matched to a muon. -/
def muonOf (t : TkObj) : PFChargedObj := { hwPt := t.hwPt, hwEta := t.hwEta, hwPhi := t.hwPhi, hwId := 4, hwZ0 := t.hwZ0 }

/-- The event with the slot of track `t0` empty. -/
def dropTrack (inp : PFInputs NT NC NE NM) (t0 : Fin NT) : PFInputs NT NC NE NM :=
  { inp with track := fun t => if t = t0 then { hwPt := 0, hwPtErr := 0, hwEta := 0, hwPhi := 0, hwZ0 := 0, hwTightQuality := false } else inp.track t }

end Verif.Spec
