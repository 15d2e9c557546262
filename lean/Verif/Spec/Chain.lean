import Verif.Spec.RegionizerFiles
/-!
# The links between the regionizer board and the particle-flow board

What a board expecting EM clusters first makes of links that carry calorimeter clusters first.
-/
namespace Verif.Spec
variable {sz : RegSizes} {NC NE NT NM : Nat}

/-- A calorimeter cluster read as an EM cluster: its EM pt becomes the pt error, the EM flag is not looked at. -/
def emOfHad (o : HadCaloObj) : EmCaloObj := ⟨o.hwPt, o.hwEmPt, o.hwEta, o.hwPhi⟩
/-- An EM cluster read as a calorimeter cluster: its pt error becomes the EM pt. -/
def hadOfEm (o : EmCaloObj) : HadCaloObj := ⟨o.hwPt, o.hwEta, o.hwPhi, o.hwPtErr, false⟩

/-- The objects of a region, as a record of inputs. -/
def boardInputs (d : RegRecord sz NC NE NT NM) (ir : Fin 18) : PFInputs NT NC NE NM :=
  ⟨d.em ir, d.calo ir, d.track ir, d.mu ir⟩

/-- The region as seen by a board that takes the first `NE` links for EM clusters and the next `NC` for calorimeter
clusters, when they carry the calorimeter clusters first. -/
def seenInputs (d : RegRecord sz NC NE NT NM) (ir : Fin 18) : PFInputs NT NC NE NM where
  emcalo := fun i => if h : i.val < NC then emOfHad (d.calo ir ⟨i.val, h⟩) else d.em ir ⟨i.val - NC, by omega⟩
  hadcalo := fun j => if h : NE + j.val < NC then d.calo ir ⟨NE + j.val, h⟩ else hadOfEm (d.em ir ⟨NE + j.val - NC, by omega⟩)
  track := d.track ir
  mu := d.mu ir

end Verif.Spec
