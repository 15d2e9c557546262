import Verif.Model.Encoding
import Verif.Model.PFRef
import Verif.Model.Compare
import Verif.Model.Convert
/-!
# simple_fullpfalgo_test.cpp

The exit status; the files written are in `Verif.Model.PFTestFiles`, the standard output in `Verif.Model.PFTestOutput`.
-/
namespace Verif
variable {NT NC NE NM NS : Nat}

/-- How the test bench is compiled — simple_fullpfalgo_test.cpp:64-99: `MP7_VALIDATE` or `CTP7_VALIDATE`, and
the numbers of channels in and out, for the wrapped versions. -/
inductive TestKind where
  | plain
  | wrapped (nin nout : Nat) (validate : Bool)
  deriving DecidableEq, Repr

/-- The `TESTMP7` and `TESTCTP7` builds — config_hls_fullpfalgo_mp7.tcl:5-11, run_hls_fullpfalgo_ctp7.tcl:5-9 -/
def TestKind.mp7 : TestKind := .wrapped MP7_NCHANN MP7_NCHANN true
@[inherit_doc TestKind.mp7] def TestKind.ctp7 : TestKind := .wrapped CTP7_NCHANN_IN CTP7_NCHANN_OUT true

/-- The unspecified contents of local arrays during one test: those of the firmware, of the wrapper and of the
reference. -/
structure TestJunk (NT NC NE NM NS : Nat) where
  mem : PFScratch NC NS
  pf0 : PFOutputs NT NE NS NM
  memref : Arr NC PFNeutralObj

/-- Initialisation of the inputs — simple_fullpfalgo_test.cpp:46-57 (`hwTightQuality` is left as it is) -/
def initInputs (inp : PFInputs NT NC NE NM) : PFInputs NT NC NE NM :=
  { track := fun i => { inp.track i with hwPt := 0, hwPtErr := 0, hwEta := 0, hwPhi := 0, hwZ0 := 0 }
    hadcalo := fun i => { inp.hadcalo i with hwPt := 0, hwEmPt := 0, hwEta := 0, hwPhi := 0, hwIsEM := false }
    emcalo := fun i => { inp.emcalo i with hwPt := 0, hwPtErr := 0, hwEta := 0, hwPhi := 0 }
    mu := fun i => { inp.mu i with hwPt := 0, hwPtErr := 0, hwEta := 0, hwPhi := 0 } }

/-- The firmware under test — simple_fullpfalgo_test.cpp:65-73, 84-90 and 98 -/
def underTest (kind : TestKind) (inp : PFInputs NT NC NE NM) (out : PFOutputs NT NE NS NM)
    (junk : TestJunk NT NC NE NM NS) : Run (PFOutputs NT NE NS NM) :=
  match kind with
  | .plain => pfalgo3_full inp out junk.mem
  | .wrapped nin nout _ => do
    let data_in : Arr nin Word := fun _ => 0
    let data_out : Arr nout Word := fun _ => 0
    let data_in ← mp7wrapped_pack_in inp data_in
    let data_out ← mp7wrapped_pfalgo3_full NT NC NE NM NS data_in data_out junk.pf0 junk.mem
    mp7wrapped_unpack_out out data_out

/-- The error count — simple_fullpfalgo_test.cpp:112-131 -/
def countErrors (ref out : PFOutputs NT NE NS NM) : Nat :=
  let errors := loop (fun (i : Fin NT) e => if !pf_equals_ch (ref.outch i) (out.outch i) then e + 1 else e) 0
  let errors := loop (fun (i : Fin NE) e => if !pf_equals_ne (ref.outpho i) (out.outpho i) then e + 1 else e) errors
  let errors := loop (fun (i : Fin NS) e => if !pf_equals_ne (ref.outne i) (out.outne i) then e + 1 else e) errors
  loop (fun (i : Fin NM) e => if !pf_equals_ch (ref.outmu i) (out.outmu i) then e + 1 else e) errors

/-- Whether the comparison is made — simple_fullpfalgo_test.cpp:103-108 -/
def TestKind.validates : TestKind → Bool
  | .plain => true
  | .wrapped _ _ v => v

/-- The loop over tests, with `n` tests still to do — simple_fullpfalgo_test.cpp:43-143.  `out`, `ref` are the
contents of the output arrays; `junk n` the unspecified contents of local arrays. -/
def pfTestLoop (kind : TestKind) (fall : Option Bool) (zpv : BitVec 32 → Z0) (junk : Nat → TestJunk NT NC NE NM NS) :
    Nat → DumpReader → PFInputs NT NC NE NM → Z0 → PFOutputs NT NE NS NM → PFOutputs NT NE NS NM → Run Int
  | 0, _, _, _, _, _ => .ok 0
  | n + 1, s, inp, z, out, ref => do
    let (b, s, inp, z) ← s.nextRegion fall zpv (initInputs inp) z
    if !b then .ok 0
    else
      let ref ← pfalgo3_full_ref inp ref (junk n).memref
      let out ← underTest kind inp out (junk n)
      if kind.validates && decide (countErrors ref out ≠ 0) then .ok 1
      else pfTestLoop kind fall zpv junk n s inp z out ref

/-- `NTEST` — simple_fullpfalgo_test.cpp:8 -/
def NTEST : Nat := 500

/-- `main` — simple_fullpfalgo_test.cpp:11-145: the exit status on a dump file.  All the other parameters are
contents of uninitialised variables.  (In the wrapped builds the firmware runs before the reference; neither
has side effects, so the order only affects which of two faults shows.) -/
def pfTestMain (kind : TestKind) (fall : Option Bool) (zpv : BitVec 32 → Z0) (genZ0 : BitVec 32) (file : CFile)
    (junk : Nat → TestJunk NT NC NE NM NS) (inp : PFInputs NT NC NE NM) (z : Z0)
    (out ref : PFOutputs NT NE NS NM) : Run Int :=
  pfTestLoop kind fall zpv junk NTEST (DumpReader.new genZ0 file) inp z out ref

end Verif
