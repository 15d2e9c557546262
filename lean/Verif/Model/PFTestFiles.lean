import Verif.Model.PFTest
import Verif.Model.Text
/-!
# simple_fullpfalgo_test.cpp: the files written

`Verif.Model.PFTest` has the exit status of the bench; here is the sequence of events it writes, and the text of the
pattern files.  The files are closed by the destructors at every `return`.
-/
namespace Verif
variable {NT NC NE NM NS : Nat}

/-- What one test hands to the serializers — simple_fullpfalgo_test.cpp:79-81, 94, 101 -/
structure TestEvent (NT NC NE NM NS nin nout : Nat) where
  inp : PFInputs NT NC NE NM
  out : PFOutputs NT NE NS NM
  data_in : Arr nin Word
  data_out : Arr nout Word

/-- One test of the wrapped builds — simple_fullpfalgo_test.cpp:65-73, 84-90 -/
def wrappedTest (nin nout : Nat) (inp : PFInputs NT NC NE NM) (out : PFOutputs NT NE NS NM) (junk : TestJunk NT NC NE NM NS) :
    Run (TestEvent NT NC NE NM NS nin nout) := do
  let data_in : Arr nin Word := fun _ => 0
  let data_out : Arr nout Word := fun _ => 0
  let data_in ← mp7wrapped_pack_in inp data_in
  let data_out ← mp7wrapped_pfalgo3_full NT NC NE NM NS data_in data_out junk.pf0 junk.mem
  let out ← mp7wrapped_unpack_out out data_out
  .ok ⟨inp, out, data_in, data_out⟩

/-- The loop over tests of the wrapped builds, with `n` tests still to do — simple_fullpfalgo_test.cpp:43-143: the exit
status and the events written.  The event of a failing test is written before the comparison. -/
def pfTestTrace (nin nout : Nat) (validate : Bool) (fall : Option Bool) (zpv : BitVec 32 → Z0) (junk : Nat → TestJunk NT NC NE NM NS) :
    Nat → DumpReader → PFInputs NT NC NE NM → Z0 → PFOutputs NT NE NS NM → PFOutputs NT NE NS NM →
      Run (Int × List (TestEvent NT NC NE NM NS nin nout))
  | 0, _, _, _, _, _ => .ok (0, [])
  | n + 1, s, inp, z, out, ref => do
    let (b, s, inp, z) ← s.nextRegion fall zpv (initInputs inp) z
    if !b then .ok (0, [])
    else
      let ref ← pfalgo3_full_ref inp ref (junk n).memref
      let e ← wrappedTest nin nout inp out (junk n)
      if validate && decide (countErrors ref e.out ≠ 0) then .ok (1, [e])
      else do
        let (r, l) ← pfTestTrace nin nout validate fall zpv junk n s inp z e.out ref
        .ok (r, e :: l)

/-- The default `boardName` — utils/pattern_serializer.h:36 -/
def defaultBoard : List Char := "Board MP7_L1PF".toList

/-- The six MP7 pattern files — simple_fullpfalgo_test.cpp:28-33, 79-81; `II` is `HLS_pipeline_II`. -/
def mp7Files (II : Nat) (evs : List (TestEvent NT NC NE NM NS 144 144)) : List (Run (List Char)) :=
  [mp7_text defaultBoard II ((II : Int) - 1) 0 (evs.map (·.data_in)), mp7_text defaultBoard II ((II : Int) - 1) 0 (evs.map (·.data_out)),
   mp7_text defaultBoard II (-(II : Int) + 1) 0 (evs.map (·.data_in)), mp7_text defaultBoard II (-(II : Int) + 1) 0 (evs.map (·.data_out)),
   mp7_text defaultBoard 1 0 0 (evs.map (·.data_in)), mp7_text defaultBoard 1 0 0 (evs.map (·.data_out))]

/-- `data_in` or `data_out` of the CTP7 build as an event of the serializer, of which only the first `n` words are looked at. -/
def asEvent {n : Nat} (d : Arr n Word) : MP7Event × Nat := (fun i => if h : i.val < n then d ⟨i.val, h⟩ else 0, n)

/-- The two CTP7 pattern files — simple_fullpfalgo_test.cpp:36-37, 94 (`nmux` is 1 by default: utils/pattern_serializer.h:95) -/
def ctp7Files {nin nout : Nat} (evs : List (TestEvent NT NC NE NM NS nin nout)) : List (Run (List Char)) :=
  [ctp7_text nin true 1 (evs.map fun e => asEvent e.data_in), ctp7_text nout false 1 (evs.map fun e => asEvent e.data_out)]

/-- The human-readable file — simple_fullpfalgo_test.cpp:39, 101 -/
def hrTestFile {nin nout : Nat} (evs : List (TestEvent NT NC NE NM NS nin nout)) : List Char := hr_file (evs.map fun e => (e.inp, e.out))

end Verif
