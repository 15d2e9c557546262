import Verif.Spec.Vertex
import Verif.Spec.Puppi
/-! # The vertex as PUPPI uses it, and small changes of the tracks -/
namespace Verif.Spec
open scoped BigOperators
variable {NS NTK : Nat}

/-- The total of a bin over the sectors. -/
def vtxTotal (tracks : Arr NS (Arr NTK TkObj)) (b : Nat) : Int := ∑ s, binContent (trackEntries (tracks s)) b

/-- The two events differ at most in one track, which stays in its place along the beam and has at least as much pt in the second. -/
def Harder (a b : Arr NS (Arr NTK TkObj)) (s : Fin NS) (t : Fin NTK) : Prop :=
  (∀ s' t', (s' ≠ s ∨ t' ≠ t) → a s' t' = b s' t') ∧ (a s t).hwZ0 = (b s t).hwZ0 ∧ (a s t).hwPt.toInt ≤ (b s t).hwPt.toInt

/-- The two events differ in the positions along the beam only, which are changed by `f`. -/
def MovedZ (f : Int → Int) (a b : Arr NS (Arr NTK TkObj)) : Prop :=
  ∀ s t, (b s t).hwPt = (a s t).hwPt ∧ (b s t).hwZ0.toInt = f (a s t).hwZ0.toInt

/-- The track is in the histogram: between -14.4 and 14.4 cm, with at least half a GeV. -/
def Votes (t : TkObj) : Prop := -288 ≤ t.hwZ0.toInt ∧ t.hwZ0.toInt < 288 ∧ 2 ≤ t.hwPt.toInt

end Verif.Spec
