import Verif.Spec.Single
import Verif.Spec.PFPart
/-!
# Isolated particles

A part of an event that is on its own (`Part`) and has at most one object of each kind.
-/
namespace Verif.Spec
variable {NT NC NE NM NS nt nc ne nm : Nat}

/-- The first of a list of objects, if there is one. -/
def firstOr {A : Type} (z : A) {n : Nat} (f : Fin n → A) : A := if h : 0 < n then f ⟨0, h⟩ else z

/-- The objects of a part with at most one of each kind. -/
def partSingle (p : PFInputs nt nc ne nm) : Single where
  T := firstOr TkObj.clear p.track
  C := firstOr EmCaloObj.clear p.emcalo
  H := firstOr HadCaloObj.clear p.hadcalo
  M := firstOr MuObj.clear p.mu

end Verif.Spec
