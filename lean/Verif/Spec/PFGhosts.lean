import Verif.Spec.PF
/-!
# Empty track slots

A track slot of null pt carries no track. `noGhosts` clears the pt error that such a slot may still hold.
-/
namespace Verif.Spec

variable {NT NC NE NM : Nat}

/-- The event with the pt error of every empty track slot set to zero. -/
def noGhosts (inp : PFInputs NT NC NE NM) : PFInputs NT NC NE NM :=
  { inp with track := fun t => { inp.track t with
      hwPtErr := if 0 < (inp.track t).hwPt.toInt then (inp.track t).hwPtErr else 0 } }

end Verif.Spec
