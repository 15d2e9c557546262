import Mathlib.Algebra.BigOperators.Fin
import Verif.Spec.Detector
import Verif.Spec.PF
import Verif.Spec.Sort
/-!
# An event the whole chain can handle

Conditions on what the detector sends, sector by sector; nothing here speaks of regions.
-/
open scoped BigOperators
namespace Verif.Spec

/-- Sum over the objects of positive pt of the detector. -/
def detSum {T : Type} [RegObj T] (g : T → Int) (arr : Fin 12 → List T) : Int :=
  ∑ s, ((arr s).map fun o => if 0 < ptOf o then g o else 0).sum

/-- Sensible pts and errors, total track pt and total EM pt below 8 TeV, squared track pts that keep the PUPPI sums in an
`int`. -/
structure Sensible (em : Fin 12 → List EmCaloObj) (had : Fin 12 → List HadCaloObj) (tk : Fin 12 → List TkObj) : Prop where
  tkErr : ∀ s, ∀ t ∈ tk s, 0 < t.hwPt.toInt → 0 ≤ t.hwPtErr.toInt ∧ t.hwPtErr.toInt ≤ 16384
  emErr : ∀ s, ∀ e ∈ em s, 0 < e.hwPt.toInt → e.hwPtErr.toInt ^ 2 ≤ 536870911
  hadEm : ∀ s, ∀ h ∈ had s, 0 < h.hwPt.toInt → 0 ≤ h.hwEmPt.toInt
  tkSum : detSum (fun t : TkObj => t.hwPt.toInt) tk ≤ 32767
  emSum : detSum (fun e : EmCaloObj => e.hwPt.toInt) em ≤ 32767
  errSum : 3 * detSum (fun t : TkObj => t.hwPtErr.toInt ^ 2) tk ≤ 2 * 2147483647
  pt2Sum : detSum (fun t : TkObj => t.hwPt.toInt ^ 2) tk < 2 ^ 21

/-- A sensible event with nothing that firmware and reference are known to treat differently: no calorimeter cluster flagged
EM, no track with a pt error of exactly one unit. -/
structure Quiet (em : Fin 12 → List EmCaloObj) (had : Fin 12 → List HadCaloObj) (tk : Fin 12 → List TkObj) : Prop
    extends Sensible em had tk where
  errOne : ∀ s, ∀ t ∈ tk s, 0 < t.hwPt.toInt → t.hwPtErr.toInt ≠ 1
  noFlag : ∀ s, ∀ h ∈ had s, 0 < h.hwPt.toInt → h.hwIsEM = false

/-- The rules of the firmware and those of the reference keep the same tracks of a region and give the same list of its
`NS` hardest neutral candidates. -/
def SameRules {NT NC NE NM : Nat} (NS : Nat) (inp : PFInputs NT NC NE NM) : Prop :=
  (∀ t, 0 < (inp.track t).hwPt.toInt → (Kept inp fwVariant t ↔ Kept inp refVariant t)) ∧
  sortedTop Prod.fst (List.ofFn (neutralSeen inp fwVariant)) (List.replicate NS (0, 0, 0, 0)) NS =
    sortedTop Prod.fst (List.ofFn (neutralSeen inp refVariant)) (List.replicate NS (0, 0, 0, 0)) NS

end Verif.Spec
