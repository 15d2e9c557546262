import Verif.Model.PF
/-!
# firmware/mp7pf_encoding.h and the `mp7wrapped_*` functions of firmware/simple_fullpfalgo.cpp

The comma operator of `ap_int` is concatenation, first operand in the high bits; assigning the
(unsigned) concatenation to a 32-bit word zero-extends it.  `w(hi,lo)` is a bit slice.
`N` is the size of the array of words: `MP7_NCHANN` (144) in the MP7 bench, `CTP7_NCHANN_IN` and `CTP7_NCHANN_OUT` in the CTP7 bench.
The assertions compare with `MP7_NCHANN` in both.
-/
namespace Verif

variable {NT NC NE NM NS N : Nat}

/-- The two-words-per-object write loop shared by all packers
(`data[2*i+0+OFFS] = …; data[2*i+1+OFFS] = …;`) -/
def pack2 {n : Nat} (OFFS : Nat) (w0 w1 : Fin n → Word) (data : Arr N Word) : Run (Arr N Word) :=
  loopM (fun i d => do
    let d ← d.write (2 * i.val + 0 + OFFS) (w0 i)
    d.write (2 * i.val + 1 + OFFS) (w1 i)) data

/-- Bit assignment `w[k] = b` on a 32-bit word. -/
def setBit (w : Word) (k : Nat) (b : Bool) : Word :=
  (w &&& ~~~((1#32) <<< k)) ||| ((if b then 1#32 else 0#32) <<< k)

/-- `mp7_pack<N,OFFS>(EmCaloObj[],…)` — firmware/mp7pf_encoding.h:2-9 -/
def mp7_pack_em (OFFS : Nat) (emcalo : Arr NE EmCaloObj) (data : Arr N Word) : Run (Arr N Word) :=
  pack2 OFFS (fun i => (emcalo i).hwPtErr ++ (emcalo i).hwPt)
    (fun i => ((emcalo i).hwPhi ++ (emcalo i).hwEta).setWidth 32) data

/-- `mp7_pack<N,OFFS>(HadCaloObj[],…)` — firmware/mp7pf_encoding.h:11-18 -/
def mp7_pack_had (OFFS : Nat) (hadcalo : Arr NC HadCaloObj) (data : Arr N Word) :
    Run (Arr N Word) :=
  pack2 OFFS (fun i => (hadcalo i).hwEmPt ++ (hadcalo i).hwPt)
    (fun i => (BitVec.ofBool (hadcalo i).hwIsEM ++ (hadcalo i).hwPhi ++ (hadcalo i).hwEta).setWidth 32)
    data

/-- `mp7_pack<N,OFFS>(TkObj[],…)` — firmware/mp7pf_encoding.h:20-28 -/
def mp7_pack_tk (OFFS : Nat) (track : Arr NT TkObj) (data : Arr N Word) : Run (Arr N Word) :=
  loopM (fun i d => do
    let d ← d.write (2 * i.val + 0 + OFFS) ((track i).hwPtErr ++ (track i).hwPt)
    let d ← d.write (2 * i.val + 1 + OFFS)
      (((track i).hwZ0 ++ (track i).hwPhi ++ (track i).hwEta).setWidth 32)
    let w ← d.read (2 * i.val + 1 + OFFS)
    d.write (2 * i.val + 1 + OFFS) (setBit w 30 (track i).hwTightQuality)) data

/-- `mp7_pack<N,OFFS>(MuObj[],…)` — firmware/mp7pf_encoding.h:30-37 -/
def mp7_pack_mu (OFFS : Nat) (mu : Arr NM MuObj) (data : Arr N Word) : Run (Arr N Word) :=
  pack2 OFFS (fun i => (mu i).hwPtErr ++ (mu i).hwPt)
    (fun i => ((mu i).hwPhi ++ (mu i).hwEta).setWidth 32) data

/-- `mp7_unpack<N,OFFS>(…,EmCaloObj[])` — firmware/mp7pf_encoding.h:40-49 -/
def mp7_unpack_em (OFFS : Nat) (data : Arr N Word) : Run (Arr NE EmCaloObj) :=
  buildM fun i => do
    let w0 ← data.read (2 * i.val + 0 + OFFS)
    let w1 ← data.read (2 * i.val + 1 + OFFS)
    .ok { hwPt := w0.extractLsb 15 0, hwPtErr := w0.extractLsb 31 16,
          hwEta := w1.extractLsb 9 0, hwPhi := w1.extractLsb 19 10 }

/-- `mp7_unpack<N,OFFS>(…,HadCaloObj[])` — firmware/mp7pf_encoding.h:51-61 -/
def mp7_unpack_had (OFFS : Nat) (data : Arr N Word) : Run (Arr NC HadCaloObj) :=
  buildM fun i => do
    let w0 ← data.read (2 * i.val + 0 + OFFS)
    let w1 ← data.read (2 * i.val + 1 + OFFS)
    .ok { hwPt := w0.extractLsb 15 0, hwEmPt := w0.extractLsb 31 16,
          hwEta := w1.extractLsb 9 0, hwPhi := w1.extractLsb 19 10, hwIsEM := w1.getLsbD 20 }

/-- `mp7_unpack<N,OFFS>(…,TkObj[])` — firmware/mp7pf_encoding.h:63-74 -/
def mp7_unpack_tk (OFFS : Nat) (data : Arr N Word) : Run (Arr NT TkObj) :=
  buildM fun i => do
    let w0 ← data.read (2 * i.val + 0 + OFFS)
    let w1 ← data.read (2 * i.val + 1 + OFFS)
    .ok { hwPt := w0.extractLsb 15 0, hwPtErr := w0.extractLsb 31 16,
          hwEta := w1.extractLsb 9 0, hwPhi := w1.extractLsb 19 10, hwZ0 := w1.extractLsb 29 20,
          hwTightQuality := w1.getLsbD 30 }

/-- `mp7_unpack<N,OFFS>(…,MuObj[])` — firmware/mp7pf_encoding.h:76-85 -/
def mp7_unpack_mu (OFFS : Nat) (data : Arr N Word) : Run (Arr NM MuObj) :=
  buildM fun i => do
    let w0 ← data.read (2 * i.val + 0 + OFFS)
    let w1 ← data.read (2 * i.val + 1 + OFFS)
    .ok { hwPt := w0.extractLsb 15 0, hwPtErr := w0.extractLsb 31 16,
          hwEta := w1.extractLsb 9 0, hwPhi := w1.extractLsb 19 10 }

/-- `mp7wrapped_pack_in` — firmware/simple_fullpfalgo.cpp:513-528
(`HADOFFS`, `TKOFFS`, `MUOFFS` of lines 521-523) -/
def mp7wrapped_pack_in (inp : PFInputs NT NC NE NM) (data : Arr N Word) : Run (Arr N Word) := do
  cassert (decide (2 * NE + 2 * NT + 2 * NC + 2 * NM ≤ MP7_NCHANN))
  let d ← mp7_pack_em 0 inp.emcalo data
  let d ← mp7_pack_had (2 * NE) inp.hadcalo d
  let d ← mp7_pack_tk (2 * NC + 2 * NE) inp.track d
  mp7_pack_mu (2 * NT + 2 * NC + 2 * NE) inp.mu d

/-- `mp7wrapped_unpack_in` — firmware/simple_fullpfalgo.cpp:530-545 -/
def mp7wrapped_unpack_in (data : Arr N Word) : Run (PFInputs NT NC NE NM) := do
  cassert (decide (2 * NE + 2 * NT + 2 * NC + 2 * NM ≤ MP7_NCHANN))
  let emcalo ← mp7_unpack_em 0 data
  let hadcalo ← mp7_unpack_had (2 * NE) data
  let track ← mp7_unpack_tk (2 * NC + 2 * NE) data
  let mu ← mp7_unpack_mu (2 * NT + 2 * NC + 2 * NE) data
  .ok { emcalo := emcalo, hadcalo := hadcalo, track := track, mu := mu }

/-- Charged output loop — firmware/simple_fullpfalgo.cpp:558-561 and 570-573 -/
def pack_charged {n : Nat} (OFFS : Nat) (pf : Arr n PFChargedObj) (data : Arr N Word) :
    Run (Arr N Word) :=
  pack2 OFFS (fun i => ((pf i).hwId ++ (pf i).hwPt).setWidth 32)
    (fun i => ((pf i).hwZ0 ++ (pf i).hwPhi ++ (pf i).hwEta).setWidth 32) data

/-- Neutral output loop — firmware/simple_fullpfalgo.cpp:562-565 and 566-569 -/
def pack_neutral {n : Nat} (OFFS : Nat) (pf : Arr n PFNeutralObj) (data : Arr N Word) :
    Run (Arr N Word) :=
  pack2 OFFS (fun i => ((pf i).hwId ++ (pf i).hwPt).setWidth 32)
    (fun i => ((pf i).hwPhi ++ (pf i).hwEta).setWidth 32) data

/-- `mp7wrapped_pack_out` — firmware/simple_fullpfalgo.cpp:547-575
(`PHOOFFS`, `NHOFFS`, `PFMUOFFS` of lines 555-557; `NPHOTON = NEMCALO`) -/
def mp7wrapped_pack_out (out : PFOutputs NT NE NS NM) (data : Arr N Word) : Run (Arr N Word) := do
  cassert (decide (2 * NT + 2 * NE + 2 * NS + 2 * NM ≤ MP7_NCHANN))
  let d ← pack_charged 0 out.outch data
  let d ← pack_neutral (2 * NT) out.outpho d
  let d ← pack_neutral (2 * NE + 2 * NT) out.outne d
  pack_charged (2 * NS + 2 * NE + 2 * NT) out.outmu d

/-- Charged input loop — firmware/simple_fullpfalgo.cpp:587-593 and 606-612 -/
def unpack_charged {n : Nat} (OFFS : Nat) (data : Arr N Word) : Run (Arr n PFChargedObj) :=
  buildM fun i => do
    let w0 ← data.read (2 * i.val + 0 + OFFS)
    let w1 ← data.read (2 * i.val + 1 + OFFS)
    .ok { hwPt := w0.extractLsb 15 0, hwId := w0.extractLsb 18 16,
          hwEta := w1.extractLsb 9 0, hwPhi := w1.extractLsb 19 10, hwZ0 := w1.extractLsb 29 20 }

/-- Neutral input loop — firmware/simple_fullpfalgo.cpp:594-599 and 600-605;
`hwPtPuppi` of the destination is not written -/
def unpack_neutral {n : Nat} (OFFS : Nat) (old : Arr n PFNeutralObj) (data : Arr N Word) :
    Run (Arr n PFNeutralObj) :=
  buildM fun i => do
    let w0 ← data.read (2 * i.val + 0 + OFFS)
    let w1 ← data.read (2 * i.val + 1 + OFFS)
    .ok { old i with
          hwPt := w0.extractLsb 15 0, hwId := w0.extractLsb 18 16,
          hwEta := w1.extractLsb 9 0, hwPhi := w1.extractLsb 19 10 }

/-- `mp7wrapped_unpack_out` — firmware/simple_fullpfalgo.cpp:576-614 -/
def mp7wrapped_unpack_out (old : PFOutputs NT NE NS NM) (data : Arr N Word) :
    Run (PFOutputs NT NE NS NM) := do
  cassert (decide (2 * NT + 2 * NE + 2 * NS + 2 * NM ≤ MP7_NCHANN))
  let outch ← unpack_charged 0 data
  let outpho ← unpack_neutral (2 * NT) old.outpho data
  let outne ← unpack_neutral (2 * NE + 2 * NT) old.outne data
  let outmu ← unpack_charged (2 * NS + 2 * NE + 2 * NT) data
  .ok { outch := outch, outpho := outpho, outne := outne, outmu := outmu }

/-- `mp7wrapped_pfalgo3_full` — firmware/simple_fullpfalgo.cpp:616-640.
`pf0` is the uninitialised content of the local output arrays, `out0` the previous content of
`output`.  The explicit sizes are the compile-time configuration.  The input and output arrays may have
different sizes (`CTP7_NCHANN_IN`, `CTP7_NCHANN_OUT`). -/
def mp7wrapped_pfalgo3_full {N N' : Nat} (NT NC NE NM NS : Nat) (input : Arr N Word) (out0 : Arr N' Word)
    (pf0 : PFOutputs NT NE NS NM) (mem : PFScratch NC NS) : Run (Arr N' Word) := do
  let inp : PFInputs NT NC NE NM ← mp7wrapped_unpack_in input
  let out ← pfalgo3_full inp pf0 mem
  mp7wrapped_pack_out out out0

end Verif
