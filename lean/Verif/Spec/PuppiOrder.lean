import Verif.Spec.Puppi
/-! # The PUPPI sum in `int` arithmetic, track by track -/
namespace Verif.Spec

/-- The value is one of an `int`. -/
def FitsInt (x : Int) : Prop := -2147483648 ≤ x ∧ x ≤ 2147483647

/-- What each track adds when products are reduced to 32 bits, in the order of the tracks. -/
def wrappedTerms {NT : Nat} (pfch : Fin NT → PFChargedObj) (Z0 : Z0) (ne : PFNeutralObj) : List Int :=
  List.ofFn fun t => if PuppiNear Z0 ne (pfch t) then (puppiTerm ne (pfch t)).bmod (2 ^ 32) else 0

end Verif.Spec
