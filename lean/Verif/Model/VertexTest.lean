import Verif.Model.BramHist
import Verif.Model.RegionizerFiles
/-!
# vertexing/bram_hist_vtx_test.cpp

The exit status, the counters, the lines of `bhv_dump_in.txt` and `bhv_dump_out.txt` (as the numbers printed on them) and
the words given to the four pattern serializers.  The text of the lines is in `Verif.Model.Text`; the
messages on the screen are in `Verif.Model.VertexTestOutput`.  `toZ0` is the floating-point computation
`round(x * Z0_SCALE)` on the bit pattern of `x`; the sums of squares, which the program keeps in `double`, are exact
integers here (they are sums of at most 250 squares of at most 10).
-/
namespace Verif

/-- `BHV_NSECTORS` — vertexing/firmware/bram_hist_vtx.h:25 -/
abbrev BHV_NSECTORS : Nat := 24
/-- `BHV_NTRACKS` — vertexing/firmware/bram_hist_vtx.h:26 -/
abbrev BHV_NTRACKS : Nat := 18

/-- `track_in` -/
abbrev BhvTracks := Arr BHV_NSECTORS (Arr BHV_NTRACKS TkObj)

/-- The inner loop: `t` runs through `track_tmp` — vertexing/bram_hist_vtx_test.cpp:39-42 -/
def bhvSplit (is : Fin N_IN_SECTORS) (tmp : Arr 36 TkObj) (track_in : BhvTracks) : Run BhvTracks := do
  let r ← loopM (fun (i : Fin BHV_NTRACKS) (st : BhvTracks × Nat) => do
    let (a, t) := st
    let x ← tmp.read t
    let row ← a.read (2 * is.val + 0)
    let a ← a.write (2 * is.val + 0) (row.set i x)
    let t := t + 1
    let x ← tmp.read t
    let row ← a.read (2 * is.val + 1)
    let a ← a.write (2 * is.val + 1) (row.set i x)
    .ok (a, t + 1)) (track_in, 0)
  .ok r.1

/-- Splitting each of the twelve sectors in two — vertexing/bram_hist_vtx_test.cpp:36-43 -/
def bhvInputs (regions : List InputRegion) (track_in : BhvTracks) (tmp : Arr 36 TkObj) : Run (BhvTracks × Arr 36 TkObj) :=
  loopM (fun (is : Fin N_IN_SECTORS) (st : BhvTracks × Arr 36 TkObj) =>
    match regions[is.val]? with
    | none => .error .oob
    | some r => do
      let tmp := fw_many fw_track TkObj.clear r.track st.2
      let a ← bhvSplit is tmp st.1
      .ok (a, tmp)) (track_in, tmp)

/-- Lines of `bhv_dump_in.txt` — vertexing/bram_hist_vtx_test.cpp:52-56; `frame` is `test_in_frame` -/
def bhvInLines (track_in : BhvTracks) (frame : Nat) : List (List Int) × Nat :=
  loop (fun (it : Fin 18) (st : List (List Int) × Nat) =>
    loopDown (fun (go : Fin 2) (st : List (List Int) × Nat) =>
      (st.1 ++ [[(st.2 : Int), (go.val : Int), ((fetch_bin_ref (track_in 0 it).hwZ0).bin.toNat : Int), shr (track_in 0 it).hwPt.toInt 1]],
        st.2 + 1)) st) ([], frame)

/-- The words for `mp7_input.txt` — vertexing/bram_hist_vtx_test.cpp:60-64 -/
def bhvInFrames (transposed : Arr BHV_NTRACKS (Arr BHV_NSECTORS TkObj)) : Run (List MP7Event) :=
  loopM (fun (ic : Fin 18) (out : List MP7Event) => do
    let w ← packIf (mp7_pack_tk 0) transposed ic.val BHV_NTRACKS zeroWords
    .ok (out ++ [w])) []

/-- The words for `mp7_input_debug.txt` — vertexing/bram_hist_vtx_test.cpp:65-73 -/
def bhvInDebug (track_in : BhvTracks) : Run (List MP7Event) :=
  loopM (fun (ic : Fin N_CLOCKS) (out : List MP7Event) => do
    let w ← loopM (fun (is : Fin BHV_NSECTORS) (w : MP7Event) => do
      let t ← (track_in is).read (ic.val / 2)
      let bin := fetch_bin_ref t.hwZ0
      let w ← w.write (2 * is.val + 0) (reg 32 ((bin.bin.toNat : Int) + 0x10000000 * (if bin.valid then 1 else 0)))
      w.write (2 * is.val + 1) (reg 32 (shr t.hwPt.toInt 1))) zeroWords
    .ok (out ++ [w])) []

/-- The lines of `bhv_dump_out.txt` — vertexing/bram_hist_vtx_test.cpp:83-85 (`b = 2 * k`) -/
def bhvOutLines (hist : Arr BHV_NBINS PtSum) (lines : List (List Int)) (frame : Nat) : Run (List (List Int) × Nat) :=
  loopM (fun (k : Fin BHV_NHALFBINS) (st : List (List Int) × Nat) => do
    let x ← hist.read (2 * k.val)
    let y ← hist.read (2 * k.val + 1)
    .ok (st.1 ++ [[(st.2 : Int), (2 * k.val : Nat), (x.toNat : Int), (y.toNat : Int)]], st.2 + 1)) (lines, frame)

/-- Filling the histogram of a sector — vertexing/bram_hist_vtx_test.cpp:78-87 -/
def bhvSectorHist (is : Fin BHV_NSECTORS) (tracks : Arr BHV_NTRACKS TkObj) (lines : List (List Int)) (frame : Nat) :
    Run (Arr BHV_NBINS PtSum × List (List Int) × Nat) :=
  loopM (fun (it : Fin BHV_NTRACKS) (st : Arr BHV_NBINS PtSum × List (List Int) × Nat) => do
    let hist ← bhv_add_track (fetch_bin_ref (tracks it).hwZ0) (tracks it).hwPt st.1
    if it.val = 17 ∧ is.val = 0 then do
      let l ← bhvOutLines hist st.2.1 st.2.2
      .ok (hist, l)
    else .ok (hist, st.2)) (fun _ => 0, lines, frame)

/-- All sectors — vertexing/bram_hist_vtx_test.cpp:75-91; `old` is what `hists` held -/
def bhvHists (track_in : BhvTracks) (old : Arr BHV_NSECTORS (Arr BHV_NHALFBINS TwoPtSums)) (frame : Nat) :
    Run (Arr BHV_NSECTORS (Arr BHV_NHALFBINS TwoPtSums) × List (List Int) × Nat) :=
  loopM (fun (is : Fin BHV_NSECTORS) (st : Arr BHV_NSECTORS (Arr BHV_NHALFBINS TwoPtSums) × List (List Int) × Nat) => do
    let r ← bhvSectorHist is (track_in is) st.2.1 st.2.2
    .ok (st.1.set is (bhv_pack r.1), r.2)) (old, [], frame)

/-- The words for `mp7_output.txt` — vertexing/bram_hist_vtx_test.cpp:96-103 -/
def bhvOutFrames (pvbin : ZBin) (ptsum : Pt) : List MP7Event :=
  (loop (fun (ic : Fin N_CLOCKS) (st : MP7Event × List MP7Event) =>
    let done := ic.val == 0
    let w := st.1.set 0 (reg 32 (if done then 1 else 0))
    let w := w.set 1 (reg 32 (if done then ptsum.toInt else 0))
    let w := w.set 2 (reg 32 (if done then (pvbin.toNat : Int) else 0))
    (w, st.2 ++ [w])) (zeroWords, [])).2

/-- The words for `mp7_output_debug.txt` — vertexing/bram_hist_vtx_test.cpp:104-112.  The two halves of the second word do
not overlap, the `|` is a sum. -/
def bhvOutDebug (test : Nat) (hists : Arr BHV_NSECTORS (Arr BHV_NHALFBINS TwoPtSums)) : Run (List MP7Event) := do
  cassert (decide (N_CLOCKS = BHV_NHALFBINS))
  let r ← loopM (fun (ic : Fin N_CLOCKS) (st : MP7Event × List MP7Event) => do
    let w ← loopM (fun (is : Fin BHV_NSECTORS) (w : MP7Event) => do
      let h ← (hists is).read ic.val
      let w ← w.write (3 + 2 * is.val + 0)
        (reg 32 (0x10000 * (if ic.val = 0 then 1 else 0) + (ic.val : Int) * 2 + ((test % 2 : Nat) : Int) * 2 ^ 24))
      w.write (3 + 2 * is.val + 1)
        (reg 32 (((h.extractLsb' 0 9).toNat : Int) * 2 ^ 16 + ((h.extractLsb' 9 9).toNat : Int)))) st.1
    .ok (w, st.2 ++ [w])) (zeroWords, [])
  .ok r.2

/-- What one test computes and writes. -/
structure BhvTest where
  track_in : BhvTracks
  pv_gen : Z0
  pv_cmssw : Z0
  pvbin_ref : ZBin
  pv_ref : Z0
  ptsum_ref : Int
  pvbin_hw : ZBin
  pv_hw : Z0
  ptsum_hw : Pt
  inLines : List (List Int)
  outLines : List (List Int)
  inFrames : List MP7Event
  inDebug : List MP7Event
  outFrames : List MP7Event
  outDebug : List MP7Event

/-- The counters of the program — vertexing/bram_hist_vtx_test.cpp:19-26 -/
structure BhvStats where
  ngood : Nat
  ntot : Nat
  ncmssw_good : Nat
  nagree : Nat
  nerr : Nat
  resol : Int
  cmssw_resol : Int
  test_in_frame : Nat
  test_out_frame : Nat
  deriving DecidableEq

/-- All counters start at 0. -/
def BhvStats.zero : BhvStats := ⟨0, 0, 0, 0, 0, 0, 0, 0, 0⟩

/-- What is in the memory of the local arrays at the start of a test. -/
structure BhvMem where
  track_in : BhvTracks
  tmp : Arr 36 TkObj
  transposed : Arr BHV_NTRACKS (Arr BHV_NSECTORS TkObj)
  hists : Arr BHV_NSECTORS (Arr BHV_NHALFBINS TwoPtSums)

/-- One test, once the event is read — vertexing/bram_hist_vtx_test.cpp:36-112; also the two frame counters -/
def bhvStep (toZ0 : BitVec 32 → Z0) (test : Nat) (e : DumpEvent) (m : BhvMem) (st : BhvStats) : Run (BhvTest × BhvStats) := do
  let (track_in, _) ← bhvInputs e.regions m.track_in m.tmp
  let pv_gen := toZ0 e.genZ0
  let pv_cmssw := toZ0 e.z0
  let (pvbin_ref, pv_ref, ptsum_ref) ← bhv_find_pv_ref track_in
  let (inLines, fin) := bhvInLines track_in st.test_in_frame
  let transposed := transposeIn track_in m.transposed
  let inFrames ← bhvInFrames transposed
  let inDebug ← bhvInDebug track_in
  let (hists, outLines, fout) ← bhvHists track_in m.hists st.test_out_frame
  let (pvbin_hw, ptsum_hw) ← bhv_find_pv hists
  let pv_hw := bin_center_ref pvbin_hw
  let outFrames := bhvOutFrames pvbin_hw ptsum_hw
  let outDebug ← bhvOutDebug test hists
  .ok (⟨track_in, pv_gen, pv_cmssw, pvbin_ref, pv_ref, ptsum_ref, pvbin_hw, pv_hw, ptsum_hw, inLines, outLines, inFrames, inDebug,
    outFrames, outDebug⟩, { st with test_in_frame := fin, test_out_frame := fout })

/-- `abs(int(a - b)) <= 10` -/
def bhvClose (a b : Z0) : Bool := decide ((a.toInt - b.toInt).natAbs ≤ 10)

/-- The counters after a test — vertexing/bram_hist_vtx_test.cpp:115-120 -/
def BhvStats.add (st : BhvStats) (t : BhvTest) : BhvStats :=
  let st := if bhvClose t.pv_ref t.pv_gen then
    { st with ngood := st.ngood + 1, resol := st.resol + (t.pv_gen.toInt - t.pv_ref.toInt) ^ 2 } else st
  let st := { st with ntot := st.ntot + 1 }
  let st := if bhvClose t.pv_gen t.pv_cmssw then
    { st with ncmssw_good := st.ncmssw_good + 1, cmssw_resol := st.cmssw_resol + (t.pv_gen.toInt - t.pv_cmssw.toInt) ^ 2 } else st
  let st := if bhvClose t.pv_ref t.pv_cmssw then { st with nagree := st.nagree + 1 } else st
  if t.pv_ref ≠ t.pv_hw ∨ t.ptsum_hw.toInt ≠ t.ptsum_ref then { st with nerr := st.nerr + 1 } else st

/-- The loop over tests, `n` still to do, `test` the number of the next one — vertexing/bram_hist_vtx_test.cpp:32-122 -/
def bhvLoop (fall : Option Bool) (toZ0 : BitVec 32 → Z0) (mem : Nat → BhvMem) :
    Nat → Nat → DumpReader → BhvStats → Run (Int × List BhvTest × BhvStats)
  | 0, _, _, st => .ok (0, [], st)
  | n + 1, test, s, st => do
    let (b, s) ← s.nextEvent fall
    if !b then .ok (0, [], st)
    else if s.event.regions.length ≠ N_IN_SECTORS then .ok (2, [], st)
    else
      let (t, st) ← bhvStep toZ0 test s.event (mem test) st
      let (code, ts, st) ← bhvLoop fall toZ0 mem n (test + 1) s (st.add t)
      .ok (code, t :: ts, st)

/-- `main` — vertexing/bram_hist_vtx_test.cpp:9-130 (`NTEST` is 250) -/
def bhvMain (fall : Option Bool) (toZ0 : BitVec 32 → Z0) (mem : Nat → BhvMem) (genZ0 : BitVec 32) (file : CFile) :
    Run (Int × List BhvTest × BhvStats) :=
  bhvLoop fall toZ0 mem 250 1 (DumpReader.new genZ0 file) BhvStats.zero

/-- `mp7_output.txt`: three links, no multiplexing — vertexing/bram_hist_vtx_test.cpp:29 -/
def threeLinkFile (evs : List MP7Event) : Run (List PatRow) := mp7_file 1 0 3 evs
/-- The debug files — vertexing/bram_hist_vtx_test.cpp:28, 30 -/
def allLinkFile (evs : List MP7Event) : Run (List PatRow) := mp7_file 1 0 0 evs

end Verif
