import Verif.Spec.Groups
import Verif.Spec.Cones
/-!
# Well separated particles in radians
-/
namespace Verif.Spec
variable {NT NC NE NM : Nat}

/-- Objects of the group and objects outside are apart: tracks and muons by 0.2062, tracks and EM clusters by 0.0462, EM and calorimeter clusters by
0.1062, tracks and calorimeter clusters by 0.1262.  EM slots count even if they are empty. -/
structure ApartR (inp : PFInputs NT NC NE NM) (d : Directions NT NC NE NM) (g : Group NT NC NE NM) : Prop where
  muTk : ∀ m t, Xor' (g.mu = some m) (g.track = some t) → (inp.mu m).hwPt.toInt ≠ 0 → (inp.track t).hwPt.toInt ≠ 0 → 0.2062 ≤ deltaR (d.mu m) (d.track t)
  tkEm : ∀ t e, Xor' (g.track = some t) (g.em = some e) → (inp.track t).hwPt.toInt ≠ 0 → 0.0462 ≤ deltaR (d.track t) (d.em e)
  emHad : ∀ e h, Xor' (g.em = some e) (g.had = some h) → (inp.hadcalo h).hwPt.toInt ≠ 0 → 0.1062 ≤ deltaR (d.em e) (d.had h)
  tkHad : ∀ t h, Xor' (g.track = some t) (g.had = some h) → (inp.track t).hwPt.toInt ≠ 0 → (inp.hadcalo h).hwPt.toInt ≠ 0 → 0.1262 ≤ deltaR (d.track t) (d.had h)

/-- The group has no empty slots. -/
structure Filled (inp : PFInputs NT NC NE NM) (g : Group NT NC NE NM) : Prop where
  track : ∀ t, g.track = some t → (inp.track t).hwPt.toInt ≠ 0
  had : ∀ h, g.had = some h → (inp.hadcalo h).hwPt.toInt ≠ 0
  mu : ∀ m, g.mu = some m → (inp.mu m).hwPt.toInt ≠ 0

/-- Empty slots are really empty: an empty track has no error, an empty calorimeter cluster no EM pt. -/
structure EmptySlots (inp : PFInputs NT NC NE NM) : Prop where
  track : ∀ t, (inp.track t).hwPt.toInt = 0 → (inp.track t).hwPtErr.toInt = 0
  had : ∀ h, (inp.hadcalo h).hwPt.toInt = 0 → (inp.hadcalo h).hwEmPt.toInt = 0

end Verif.Spec
