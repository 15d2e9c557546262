import Verif.Spec.RegionizerTestOutput
import Verif.Spec.VertexTest
import Verif.Spec.Float
import Verif.Model.VertexTestOutput
/-! # What the vertex test bench should print

As in `Verif.Spec.PFTestOutput`, a text is read as lines of words and numbers; a word may read as a number with decimals. -/
namespace Verif.Spec

/-- What is assumed of the floating-point types and of `printf`: rounding to nearest, with any rule for ties. -/
structure PrintsNearest (F : FloatText) : Prop where
  ieee : IEEE F.R
  nearest : ∀ x : ℝ, 0 ≤ x → |(F.thousandths x : ℝ) - 1000 * x| ≤ 1 / 2
  nan : F.nan = "nan".toList ∨ F.nan = "-nan".toList

/-- A number with decimals. -/
def decimal (s : List Char) : Option ℚ :=
  match split (· == '.') s with
  | [a, b] => do
    let n ← number 10 a
    let m ← number 10 b
    some (n + m / 10 ^ b.length)
  | _ => none

/-- The word reads as a number with three decimals, one of those closest to `x`. -/
def Rounds (w : List Char) (x : ℝ) : Prop := ∃ n : Nat, decimal w = some (n / 1000 : ℚ) ∧ |(n : ℝ) / 1000 - x| ≤ 1 / 2000

/-- The word for `a` out of `b`; with nothing to count it is a NaN. -/
def IsRatio (w : List Char) (a b : Nat) : Prop :=
  if b = 0 then w = "nan".toList ∨ w = "-nan".toList else Rounds w ((a : ℝ) / b)

/-- The word for a resolution in millimetres: half the root of the mean of `n` squares, of sum `s`, in units of half a millimetre. -/
def IsResolution (w : List Char) (s : Int) (n : Nat) : Prop :=
  if n = 0 then w = "nan".toList ∨ w = "-nan".toList else Rounds w (√((s : ℝ) / n) / 2)

/-- The line of a test: generated vertex; that of the dump and its bin; reference and firmware with bin, sum of pt and distance
from the generated one; and the difference of the two. -/
def vertexLine (t : BhvTest) : List Token :=
  say "GEN PV" ++ [.num t.pv_gen.toInt] ++ say "CMSSW PV" ++ [.num t.pv_cmssw.toInt] ++ say "bin" ++
    [.num ((zBin t.pv_cmssw.toInt).getD 0 : Nat)] ++
  say "REF" ++ [.num t.pv_ref.toInt] ++ say "bin" ++ [.num t.pvbin_ref.toNat] ++ say "ptsum" ++ [.num t.ptsum_ref] ++
    say "diff" ++ [.num (t.pv_ref.toInt - t.pv_gen.toInt)] ++
  say "HW" ++ [.num t.pv_hw.toInt] ++ say "bin" ++ [.num t.pvbin_hw.toNat] ++ say "ptsum" ++ [.num t.ptsum_hw.toInt] ++
    say "diff" ++ [.num (t.pv_hw.toInt - t.pv_gen.toInt)] ++
  say "MATCH" ++ [.num (t.pv_hw.toInt - t.pv_ref.toInt)]

/-- `a/b = w`; there is a space before `b`. -/
def fractionWords (a b : Nat) (w : List Char) : List Token := [.word ((toString a).toList ++ ['/']), .num b] ++ say "=" ++ [.word w]

/-- The two lines of the summary. -/
def summaryLines (st : BhvStats) (w1 w2 w3 v1 v2 : List Char) : List (List Token) :=
  [say "Good matches CMSSW" ++ fractionWords st.ncmssw_good st.ntot w1 ++ say "REF" ++ fractionWords st.ngood st.ntot w2 ++
    say "REF vs CMSSW" ++ fractionWords st.nagree st.ntot w3 ++ say ". ERRORS" ++ [.num st.nerr],
   say "Resolution CMSSW" ++ [.word v1] ++ say "mm REF" ++ [.word v2] ++ say "mm"]

/-- The summary of some tests. -/
def Summary (ts : List BhvTest) (ls : List (List Token)) : Prop :=
  ∃ w1 w2 w3 v1 v2, ls = summaryLines (statsOf ts) w1 w2 w3 v1 v2 ∧
    IsRatio w1 (statsOf ts).ncmssw_good ts.length ∧ IsRatio w2 (statsOf ts).ngood ts.length ∧ IsRatio w3 (statsOf ts).nagree ts.length ∧
    IsResolution v1 (statsOf ts).cmssw_resol (statsOf ts).ncmssw_good ∧ IsResolution v2 (statsOf ts).resol (statsOf ts).ngood

/-- The four pattern files: 36 rows per test in each. -/
def bhvSaved (tests : Nat) : List (List Token) :=
  ["mp7_output_debug.txt", "mp7_output.txt", "mp7_input_debug.txt", "mp7_input.txt"].map fun f => savedLine (36 * tests) "MP7" f

end Verif.Spec
