import Verif.Model.VertexTest
import Verif.Model.RegionizerTestOutput
import Verif.Model.Float
import Mathlib.Analysis.SpecialFunctions.Pow.Real
/-!
# vertexing/bram_hist_vtx_test.cpp: what the bench prints

The standard output of the bench as text.  `printf` writes in program order; the destructors of the serializers print at
`return`, also after the message about the number of sectors.
-/
namespace Verif

/-- What the numbers with decimals depend on: the rounding of the types, the rounding of `%.3f` to a number of thousandths
and the text for a NaN. -/
structure FloatText where
  R : Rounding
  thousandths : ℝ → Nat
  nan : List Char

/-- `%.3f` of a number that is not negative and is printed as `n` thousandths -/
def fmtF3 (n : Nat) : List Char := Nat.toDigits 10 (n / 1000) ++ ('.' :: fmtZ 10 3 (n % 1000))

/-- A width. -/
def padText (w : Nat) (s : List Char) : List Char := List.replicate (w - s.length) ' ' ++ s

/-- `%.3f` of `float(a)/(b)`, `a` and `b` of type `unsigned int`; dividing by 0 gives a NaN or an infinity —
vertexing/bram_hist_vtx_test.cpp:127 -/
noncomputable def FloatText.ratio (F : FloatText) (a b : Nat) : List Char :=
  if b = 0 then (if a = 0 then F.nan else "inf".toList) else fmtF3 (F.thousandths (F.R.f32 (F.R.f32 a / F.R.f32 b)))

/-- `%5.3f` of `0.5*sqrt(s/(n))`, `s` of type `double`, `n` of type `unsigned int` — vertexing/bram_hist_vtx_test.cpp:128.
The square root is rounded like the other operations. -/
noncomputable def FloatText.resolution (F : FloatText) (s : Int) (n : Nat) : List Char :=
  padText 5 (if n = 0 then (if s = 0 then F.nan else "inf".toList)
    else fmtF3 (F.thousandths (F.R.f64 (1 / 2 * F.R.f64 (√(F.R.f64 (s / F.R.f64 n)))))))

/-- The line of a test — vertexing/bram_hist_vtx_test.cpp:114.  The differences of `ap_int<10>` are `ap_int<11>`. -/
def bhvTestText (t : BhvTest) : List Char :=
  "GEN PV ".toList ++ (fmtP 4 t.pv_gen.toInt ++ ("    CMSSW PV ".toList ++ (fmtP 4 t.pv_cmssw.toInt ++ ("  bin ".toList ++
  (fmtN 3 (fetch_bin_ref t.pv_cmssw).bin.toNat ++ (" :  REF ".toList ++ (fmtP 4 t.pv_ref.toInt ++ ("  bin ".toList ++
  (fmtN 3 t.pvbin_ref.toNat ++ (", ptsum ".toList ++ (fmtN 8 t.ptsum_ref ++ (", diff ".toList ++
  (fmtP 4 (t.pv_ref.toInt - t.pv_gen.toInt) ++ (" :  HW ".toList ++ (fmtP 4 t.pv_hw.toInt ++ ("  bin ".toList ++
  (fmtN 3 t.pvbin_hw.toNat ++ (", ptsum ".toList ++ (fmtN 8 t.ptsum_hw.toInt ++ (" diff ".toList ++
  (fmtP 4 (t.pv_hw.toInt - t.pv_gen.toInt) ++ ("  :  MATCH ".toList ++ (fmtP 1 (t.pv_hw.toInt - t.pv_ref.toInt) ++ "\n".toList)))))))))))))))))))))))

/-- `%4d/%4d = %.3f` -/
noncomputable def FloatText.fraction (F : FloatText) (a b : Nat) (rest : List Char) : List Char :=
  fmtN 4 a ++ ("/".toList ++ (fmtN 4 b ++ (" = ".toList ++ (F.ratio a b ++ rest))))

/-- The summary — vertexing/bram_hist_vtx_test.cpp:126-128 -/
noncomputable def FloatText.summary (F : FloatText) (st : BhvStats) : List Char :=
  ("Good matches: CMSSW ".toList ++ F.fraction st.ncmssw_good st.ntot ("  REF ".toList ++ F.fraction st.ngood st.ntot
    ("  (REF vs CMSSW: ".toList ++ F.fraction st.nagree st.ntot ("). ERRORS: ".toList ++ (fmtN 0 st.nerr ++ "\n".toList))))) ++
  ("Resolution: CMSSW: ".toList ++ (F.resolution st.cmssw_resol st.ncmssw_good ++ (" mm   REF ".toList ++
    (F.resolution st.resol st.ngood ++ " mm\n".toList))))

/-- The loop over tests — vertexing/bram_hist_vtx_test.cpp:32-122: as `bhvLoop`, with what is printed. -/
def bhvBenchLoop (fall : Option Bool) (toZ0 : BitVec 32 → Z0) (mem : Nat → BhvMem) :
    Nat → Nat → DumpReader → BhvStats → Run (Int × List Char × List BhvTest × BhvStats)
  | 0, _, _, st => .ok (0, [], [], st)
  | n + 1, test, s, st => do
    let (b, s) ← s.nextEvent fall
    if !b then .ok (0, [], [], st)
    else if s.event.regions.length ≠ N_IN_SECTORS then .ok (2, sectorsMessage s.event.regions.length, [], st)
    else
      let (t, st) ← bhvStep toZ0 test s.event (mem test) st
      let (code, text, ts, st) ← bhvBenchLoop fall toZ0 mem n (test + 1) s (st.add t)
      .ok (code, bhvTestText t ++ text, t :: ts, st)

/-- The destructors of the serializers, in the reverse order of the declarations — vertexing/bram_hist_vtx_test.cpp:27-30 -/
def bhvDestructorsSay (ts : List BhvTest) : Run (List Char) := do
  let n1 ← mp7_count 1 0 0 (ts.flatMap (·.outDebug))
  let n2 ← mp7_count 1 0 3 (ts.flatMap (·.outFrames))
  let n3 ← mp7_count 1 0 0 (ts.flatMap (·.inDebug))
  let n4 ← mp7_count 2 1 0 (ts.flatMap (·.inFrames))
  .ok (savedMessage "MP7".toList n1 "mp7_output_debug.txt".toList ++ savedMessage "MP7".toList n2 "mp7_output.txt".toList ++
    savedMessage "MP7".toList n3 "mp7_input_debug.txt".toList ++ savedMessage "MP7".toList n4 "mp7_input.txt".toList)

/-- `main` — vertexing/bram_hist_vtx_test.cpp:9-130: the exit status and the standard output. -/
noncomputable def bhvBenchMain (F : FloatText) (fall : Option Bool) (toZ0 : BitVec 32 → Z0) (mem : Nat → BhvMem) (genZ0 : BitVec 32) (file : CFile) :
    Run (Int × List Char) := do
  let (code, text, ts, st) ← bhvBenchLoop fall toZ0 mem 250 1 (DumpReader.new genZ0 file) BhvStats.zero
  let d ← bhvDestructorsSay ts
  .ok (code, text ++ (if code = 0 then F.summary st else []) ++ d)

end Verif
