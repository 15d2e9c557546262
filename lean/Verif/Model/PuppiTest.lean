import Verif.Model.PFTest
import Verif.Model.Puppi
import Verif.Model.SimpleVtx
/-!
# puppi/simple_pfpuppi_test.cpp

The program compares nothing: it prints, for each neutral, its pt and the PUPPI pt of firmware and reference.
The model returns the printed numbers.
-/
namespace Verif
variable {NT NC NE NM NS : Nat}

/-- `simple_vtx_ref` called with an array of `N` tracks; it reads `NALL` = `NALLTRACK` of them.  (All the reads
come first here; they have no side effects.) — puppi/simple_pfpuppi_test.cpp:80, vertexing/simple_vtx_ref.cpp:16-24 -/
def simple_vtx_ref_ptr (NALL : Nat) {N : Nat} (track : Arr N TkObj) : Run VtxObj := do
  let all ← buildM (fun it : Fin NALL => track.read it.val)
  simple_vtx_ref all

/-- Merging photons and neutrals — puppi/simple_pfpuppi_test.cpp:65-74 -/
def mergeNeutrals (pho : Arr NE PFNeutralObj) (ne : Arr NS PFNeutralObj) : Arr (NE + NS) PFNeutralObj := fun i =>
  if h : i.val < NE then { pho ⟨i.val, h⟩ with hwPtPuppi := 0 }
  else { ne ⟨i.val - NE, by omega⟩ with hwPtPuppi := 0 }

/-- One line of output: `hwpt`, `hwptpuppi`, `hwptpuppi-ref` — puppi/simple_pfpuppi_test.cpp:88 -/
structure PuppiLine where
  hwPt : Int
  hwPtPuppi : Int
  hwPtPuppiRef : Int
  deriving DecidableEq, Repr

/-- One test after the PF reference — puppi/simple_pfpuppi_test.cpp:64-89 -/
def puppiTestStep (NALL : Nat) (table : PuppiTable) (track : Arr NT TkObj) (ref : PFOutputs NT NE NS NM) :
    Run (Arr (NE + NS) PuppiLine) := do
  let allne := mergeNeutrals ref.outpho ref.outne
  let curvtx ← simple_vtx_ref_ptr NALL track
  let r ← simple_puppi_ref table ref.outch allne curvtx.hwZ0
  let h ← simple_puppi_hw table ref.outch allne curvtx.hwZ0
  .ok (fun i => ⟨(h i).hwPt.toInt, (h i).hwPtPuppi.toInt, (r i).hwPtPuppi.toInt⟩)

/-- The loop over tests, with `n` still to do — puppi/simple_pfpuppi_test.cpp:42-92 -/
def puppiTestLoop (NALL : Nat) (table : PuppiTable) (fall : Option Bool) (zpv : BitVec 32 → Z0)
    (junk : Nat → Arr NC PFNeutralObj) :
    Nat → DumpReader → PFInputs NT NC NE NM → Z0 → PFOutputs NT NE NS NM → Run (List (Arr (NE + NS) PuppiLine))
  | 0, _, _, _, _ => .ok []
  | n + 1, s, inp, z, ref => do
    let (b, s, inp, z) ← s.nextRegion fall zpv (initInputs inp) z
    if !b then .ok []
    else
      let ref ← pfalgo3_full_ref inp ref (junk n)
      let lines ← puppiTestStep NALL table inp.track ref
      let ref := { ref with
        outpho := fun i => { ref.outpho i with hwPtPuppi := 0 }
        outne := fun i => { ref.outne i with hwPtPuppi := 0 } }
      let rest ← puppiTestLoop NALL table fall zpv junk n s inp z ref
      .ok (lines :: rest)

/-- `main` — puppi/simple_pfpuppi_test.cpp:13-96: the lines printed for each test (`NTEST` is 50) -/
def puppiTestMain (NALL : Nat) (table : PuppiTable) (fall : Option Bool) (zpv : BitVec 32 → Z0) (genZ0 : BitVec 32)
    (file : CFile) (junk : Nat → Arr NC PFNeutralObj) (inp : PFInputs NT NC NE NM) (z : Z0)
    (ref : PFOutputs NT NE NS NM) : Run (List (Arr (NE + NS) PuppiLine)) :=
  puppiTestLoop NALL table fall zpv junk 50 (DumpReader.new genZ0 file) inp z ref

end Verif
