import Verif.Spec.Detector
/-! # When the order of arrival can matter -/
namespace Verif.Spec

/-- No two different objects of the same positive pt in an eta slice. -/
def NoTies {T : Type} [RegObj T] (l : List T) : Prop :=
  ∀ ie : Fin 3, ∀ a ∈ l, ∀ b ∈ l, inSlice ie a = true → inSlice ie b = true → 0 < ptOf a → ptOf a = ptOf b → a = b

end Verif.Spec
