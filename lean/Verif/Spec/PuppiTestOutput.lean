import Verif.Spec.PFTestOutput
import Verif.Spec.Puppi
/-! # What the PF + PUPPI test bench should print -/
namespace Verif.Spec

/-- The three numbers printed for a neutral: its pt and twice its PUPPI pt. -/
def neutralLine (pt puppi : Int) : List Token :=
  say "hwpt =" ++ [.num pt] ++ say "hwptpuppi =" ++ [.num puppi] ++ say "hwptpuppi-ref =" ++ [.num puppi]

/-- What is printed on test number `test`, given the pt and the PUPPI pt of each neutral. -/
def puppiBlock (test : Nat) (l : List (Int × Int)) : List (List Token) :=
  (say "test" ++ [.num test]) :: (l.map fun p => neutralLine p.1 p.2) ++ [say "end of test ----" ++ [.num test]]

/-- The lines of a run of at most `n` tests, the next one with number `test`, given the results on the regions. -/
def puppiRun : Nat → Nat → List Item → List (List (Int × Int)) → List (List Token)
  | 0, _, _, _ => []
  | _ + 1, _, [], _ => []
  | n + 1, test, .event e :: is, rs => beginLine e :: puppiRun (n + 1) test is rs
  | _ + 1, _, .region _ _ :: _, [] => []
  | n + 1, test, .region i r :: is, l :: rs => regionLine i r :: (puppiBlock test l ++ puppiRun n (test + 1) is rs)

/-- The pt and the PUPPI pt of each of a list of neutrals, with these charged candidates and this vertex. -/
def puppiPts {NT : Nat} (table : Fin 1174 → BitVec 8) (pfch : Fin NT → PFChargedObj) (Z0 : Z0) (nes : List PFNeutralObj) : List (Int × Int) :=
  nes.map fun ne => (ne.hwPt.toInt, puppiPt table (puppiSum pfch Z0 ne) ne.hwPt.toInt)

end Verif.Spec
