import Verif.Spec.Groups
import Verif.Spec.SinglePuppi
/-!
# PUPPI in events of well separated particles
-/
namespace Verif.Spec
variable {NT NC NE NM : Nat}

/-- `pt²/dR²` summed over the tracks of all groups, in the units of PUPPI. -/
def groupsAlpha (inp : PFInputs NT NC NE NM) (gs : List (Group NT NC NE NM)) (z : Z0) (eta phi : EtaPhi) : Int :=
  (gs.map fun g => (groupSingle inp g).alpha z eta phi).sum

/-- The neutrals of a group with their PUPPI pts, for which the tracks of all groups count. -/
def groupPuppi (inp : PFInputs NT NC NE NM) (gs : List (Group NT NC NE NM)) (table : Fin 1174 → BitVec 8) (z : Z0) (g : Group NT NC NE NM) : List (Seen × Int) :=
  ((groupSingle inp g).photons ++ (groupSingle inp g).neutrals).map fun x => (x, puppiPt table (groupsAlpha inp gs z x.2.1 x.2.2.1) x.1)

end Verif.Spec
