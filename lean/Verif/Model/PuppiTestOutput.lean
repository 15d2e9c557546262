import Verif.Model.PFTestOutput
import Verif.Model.Text
/-!
# puppi/simple_pfpuppi_test.cpp: what the program prints

The standard output as text: the messages of the reader and the lines of the tests.  The reference algorithms print nothing
(`g_debug_` is 0).
-/
namespace Verif
variable {NT NC NE NM NS : Nat}

/-- What a test prints — puppi/simple_pfpuppi_test.cpp:76, 87-90 -/
def puppiTestText {N : Nat} (test : Nat) (l : Arr N PuppiLine) : List Char :=
  "test ".toList ++ (fmtN 0 test ++ "\n".toList) ++ (List.finRange N).flatMap (fun i => puppiText (l i)) ++
    ("end of test ---- ".toList ++ (fmtN 0 test ++ "\n".toList))

/-- The loop over tests — puppi/simple_pfpuppi_test.cpp:42-92: as `puppiTestLoop`, with what is printed; `test` is the number
of the next test. -/
def puppiBenchLoop (NALL : Nat) (table : PuppiTable) (fall : Option Bool) (zpv : BitVec 32 → Z0)
    (junk : Nat → Arr NC PFNeutralObj) :
    Nat → Nat → DumpReader → PFInputs NT NC NE NM → Z0 → PFOutputs NT NE NS NM → Run (List Char × List (Arr (NE + NS) PuppiLine))
  | 0, _, _, _, _, _ => .ok ([], [])
  | n + 1, test, s, inp, z, ref => do
    let says := s.nextRegionSays fall
    let (b, s, inp, z) ← s.nextRegion fall zpv (initInputs inp) z
    if !b then .ok (says, [])
    else
      let ref ← pfalgo3_full_ref inp ref (junk n)
      let lines ← puppiTestStep NALL table inp.track ref
      let ref := { ref with
        outpho := fun i => { ref.outpho i with hwPtPuppi := 0 }
        outne := fun i => { ref.outne i with hwPtPuppi := 0 } }
      let (text, rest) ← puppiBenchLoop NALL table fall zpv junk n (test + 1) s inp z ref
      .ok (says ++ puppiTestText test lines ++ text, lines :: rest)

/-- `main` — puppi/simple_pfpuppi_test.cpp:13-96: the standard output and the numbers in it; the program returns 0 -/
def puppiBenchMain (NALL : Nat) (table : PuppiTable) (fall : Option Bool) (zpv : BitVec 32 → Z0) (genZ0 : BitVec 32)
    (file : CFile) (junk : Nat → Arr NC PFNeutralObj) (inp : PFInputs NT NC NE NM) (z : Z0)
    (ref : PFOutputs NT NE NS NM) : Run (List Char × List (Arr (NE + NS) PuppiLine)) :=
  puppiBenchLoop NALL table fall zpv junk 50 1 (DumpReader.new genZ0 file) inp z ref

end Verif
