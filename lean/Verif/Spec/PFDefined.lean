import Verif.Spec.PF
/-! # Squared errors that fit an `int` -/
namespace Verif.Spec
variable {NT NC NE NM : Nat}

/-- The squared errors that PF computes fit an `int`: four times that of an EM cluster with tracks, and the sum over
the tracks of a calorimeter cluster. -/
structure ErrorsFit (inp : PFInputs NT NC NE NM) (v : Variant) : Prop where
  em : ∀ c, emTrackPt inp c ≠ 0 → 4 * emErr2 inp c ≤ 2147483647
  had : ∀ h, caloTrackErr2 inp v h ≤ 2147483647

end Verif.Spec
