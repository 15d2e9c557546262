import Verif.Model.PFTest
/-! # The numbers a reader of the human-readable file expects, in order -/
namespace Verif.Spec
variable {NT NC NE NM NS : Nat}

/-- One list per object, numbered from 0. -/
def objs {N : Nat} {T : Type} (fields : T → List Int) (a : Arr N T) : List Int :=
  (List.finRange N).flatMap fun i => (i.val : Int) :: fields (a i)

/-- The inputs: calorimeter, EM, tracks, muons. -/
def inputNumbers (inp : PFInputs NT NC NE NM) : List Int :=
  objs (fun o => [o.hwPt.toInt, o.hwEmPt.toInt, o.hwEta.toInt, o.hwPhi.toInt, if o.hwIsEM then 1 else 0]) inp.hadcalo ++
  objs (fun o => [o.hwPt.toInt, o.hwPtErr.toInt, o.hwEta.toInt, o.hwPhi.toInt]) inp.emcalo ++
  objs (fun o => [o.hwPt.toInt, o.hwPtErr.toInt, o.hwEta.toInt, o.hwPhi.toInt, o.hwZ0.toInt]) inp.track ++
  objs (fun o => [o.hwPt.toInt, o.hwPtErr.toInt, o.hwEta.toInt, o.hwPhi.toInt]) inp.mu

/-- The outputs: charged, photons, neutrals, muons (these without `hwZ0`). -/
def outputNumbers (out : PFOutputs NT NE NS NM) : List Int :=
  objs (fun o => [o.hwPt.toInt, o.hwEta.toInt, o.hwPhi.toInt, o.hwId.toNat, o.hwZ0.toInt]) out.outch ++
  objs (fun o => [o.hwPt.toInt, o.hwEta.toInt, o.hwPhi.toInt, o.hwId.toNat]) out.outpho ++
  objs (fun o => [o.hwPt.toInt, o.hwEta.toInt, o.hwPhi.toInt, o.hwId.toNat]) out.outne ++
  objs (fun o => [o.hwPt.toInt, o.hwEta.toInt, o.hwPhi.toInt, o.hwId.toNat]) out.outmu

end Verif.Spec
