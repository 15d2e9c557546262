import Verif.Spec.Random
/-! # What a random region should look like -/
namespace Verif.Spec

/-- A track of a random region: pt 2 to 52 GeV, one radian of eta and phi, `z0` within 15 cm, and for the tracks with an even
number within 8 counts (0.4 cm) of the vertex `zpv`. -/
structure RiTrack (zpv : Int) (i : Nat) (t : TkObj) : Prop where
  pt : 8 ≤ t.hwPt.toInt ∧ t.hwPt.toInt ≤ 208
  err : 16 ≤ t.hwPtErr.toInt ∧ t.hwPtErr.toInt ≤ 60
  eta : |t.hwEta.toInt| ≤ 231
  phi : |t.hwPhi.toInt| ≤ 231
  z0 : |t.hwZ0.toInt| ≤ 300
  near : i % 2 = 0 → |t.hwZ0.toInt - zpv| ≤ 8

/-- A muon of a random region. -/
structure RiMuon (m : MuObj) : Prop where
  pt : 8 ≤ m.hwPt.toInt ∧ m.hwPt.toInt ≤ 208
  err : 16 ≤ m.hwPtErr.toInt ∧ m.hwPtErr.toInt ≤ 60
  eta : |m.hwEta.toInt| ≤ 231
  phi : |m.hwPhi.toInt| ≤ 231

end Verif.Spec
