import Verif.Proofs.Memory
import Verif.Props.PFAgree
/-! # Leftover memory does not matter: property C53 -/
namespace Verif
open Spec
variable {NT NC NE NM NS : Nat}

/-- **C53.** Firmware: for any inputs, any two previous contents of the output arrays and of the uninitialised
local arrays give the same fault, or the same particles: identical charged particles and muons, identical photons
up to `hwPtPuppi`, identical neutrals up to `hwPtPuppi` and to the position and id of empty ones. -/
theorem C53_firmware (inp : PFInputs NT NC NE NM) (old old' : PFOutputs NT NE NS NM) (mem mem' : PFScratch NC NS) :
    SameRun (SameLists SameParticle) (pfalgo3_full inp old mem) (pfalgo3_full inp old' mem') :=
  full_mem inp old old' mem mem'

/-- **C53.** Reference: the same, and the empty neutrals are identical too. -/
theorem C53_reference (inp : PFInputs NT NC NE NM) (old old' : PFOutputs NT NE NS NM) (mem mem' : Arr NC PFNeutralObj) :
    SameRun (SameLists SameButPuppi) (pfalgo3_full_ref inp old mem) (pfalgo3_full_ref inp old' mem') :=
  full_ref_mem inp old old' mem mem'

/-- Other memory for the examples: everything is 7. -/
def mem7 (NC NS : Nat) : PFScratch NC NS := ⟨fun _ => ⟨7, 7, 7, 7, 7⟩, fun _ => ⟨7, 7, 7, 7, 7⟩⟩
@[inherit_doc mem7] def old7 (NT NE NS NM : Nat) : PFOutputs NT NE NS NM :=
  ⟨fun _ => ⟨7, 7, 7, 7, 7⟩, fun _ => ⟨7, 7, 7, 7, 7⟩, fun _ => ⟨7, 7, 7, 7, 7⟩, fun _ => ⟨7, 7, 7, 7, 7⟩⟩

/-- **C53**, the exceptions are real: `hwPtPuppi` of every neutral is whatever the memory held (in both
implementations), and so are position and id of the empty neutrals of the firmware when there are more slots than
clusters. -/
theorem C53_leaks :
    (pfalgo3_full ordinary (old7 3 2 3 1) (mem7 2 3)).map (fun o =>
      ((o.outpho 1).hwPtPuppi, (o.outne 0).hwPtPuppi, (o.outne 2).hwPt, (o.outne 2).hwEta, (o.outne 2).hwId)) =
        .ok (7, 7, 0, 7, 7) ∧
    (pfalgo3_full ordinary (old0 3 2 3 1) (mem0 2 3)).map (fun o =>
      ((o.outpho 1).hwPtPuppi, (o.outne 0).hwPtPuppi, (o.outne 2).hwPt, (o.outne 2).hwEta, (o.outne 2).hwId)) =
        .ok (0, 0, 0, 0, 0) ∧
    (pfalgo3_full_ref ordinary (old7 3 2 3 1) (mem7 2 3).outne_all).map (fun o =>
      ((o.outpho 1).hwPtPuppi, (o.outne 0).hwPtPuppi, (o.outne 2).hwPt, (o.outne 2).hwEta, (o.outne 2).hwId)) =
        .ok (7, 7, 0, 0, 0) :=
  ⟨by decide +kernel, by decide +kernel, by decide +kernel⟩

/-- Non-vacuity: with either memory the ordinary event gives its electron, photon and neutral hadron. -/
example : (pfalgo3_full ordinary (old7 3 2 3 1) (mem7 2 3)).map (fun o =>
      ((o.outch 0).hwId, (o.outpho 1).hwPt, (o.outne 0).hwPt, (o.outmu 0).hwPt)) = .ok (3, 80, 180, 60) ∧
    (pfalgo3_full ordinary (old0 3 2 3 1) (mem0 2 3)).map (fun o =>
      ((o.outch 0).hwId, (o.outpho 1).hwPt, (o.outne 0).hwPt, (o.outmu 0).hwPt)) = .ok (3, 80, 180, 60) :=
  ⟨by decide +kernel, by decide +kernel⟩

end Verif
