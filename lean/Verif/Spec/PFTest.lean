import Verif.Model.PFRef
import Verif.Spec.Compare
/-!
# What the PF test bench should find out about an event

The firmware and the reference are run on some contents of the output arrays and of the uninitialised
local ones.
-/
namespace Verif.Spec
variable {NT NC NE NM : Nat}

/-- Both end, with the same particles, whatever the memory. -/
def Passes (NS : Nat) (inp : PFInputs NT NC NE NM) : Prop :=
  ∀ (old old' : PFOutputs NT NE NS NM) (mem : PFScratch NC NS) (mem' : Arr NC PFNeutralObj),
    ∃ out ref, pfalgo3_full inp old mem = .ok out ∧ pfalgo3_full_ref inp old' mem' = .ok ref ∧ Agree ref out

/-- Both end, with different particles, whatever the memory. -/
def Differs (NS : Nat) (inp : PFInputs NT NC NE NM) : Prop :=
  ∀ (old old' : PFOutputs NT NE NS NM) (mem : PFScratch NC NS) (mem' : Arr NC PFNeutralObj),
    ∃ out ref, pfalgo3_full inp old mem = .ok out ∧ pfalgo3_full_ref inp old' mem' = .ok ref ∧ ¬ Agree ref out

/-- One of the two has undefined behaviour, whatever the memory. -/
def Undefined (NS : Nat) (inp : PFInputs NT NC NE NM) : Prop :=
  ∀ (old old' : PFOutputs NT NE NS NM) (mem : PFScratch NC NS) (mem' : Arr NC PFNeutralObj),
    (∃ e, pfalgo3_full inp old mem = .error e) ∨ ∃ e, pfalgo3_full_ref inp old' mem' = .error e

end Verif.Spec
