import Verif.Model.Random
import Verif.Model.Text
/-!
# vertexing/simple_vtx_test.cpp: what the bench prints

The standard output as text.  `std::cout` has its default settings: a `float` or a `double` is printed like `%g`, with six
significant digits and without trailing zeros.
-/
namespace Verif
open Rounding

/-- What the text of a number depends on: the rounding of the types, and the six digits (as a number) and the exponent that a positive
number is rounded to. -/
structure CoutText where
  R : Rounding
  six : ℝ → Nat × Int

/-- Trailing zeros are not printed. -/
def stripZeros (s : List Char) : List Char := (s.reverse.dropWhile (· == '0')).reverse

/-- The digits before and after the point; no point without digits after it. -/
def withPoint (a b : List Char) : List Char := a ++ (if stripZeros b = [] then [] else '.' :: stripZeros b)

/-- `%g` of `m * 10^(e-5)`, `m` of six digits -/
def fmtG (m : Nat) (e : Int) : List Char :=
  let ds := Nat.toDigits 10 m
  if -4 ≤ e ∧ e < 6 then
    if 0 ≤ e then withPoint (ds.take (e.toNat + 1)) (ds.drop (e.toNat + 1))
    else withPoint ['0'] (List.replicate ((-e).toNat - 1) '0' ++ ds)
  else withPoint (ds.take 1) (ds.drop 1) ++ ('e' :: (if e < 0 then '-' else '+') :: fmtZ 10 2 e.natAbs)

/-- `std::cout << x`, for a `float` or a `double` -/
noncomputable def CoutText.text (F : CoutText) (x : ℝ) : List Char :=
  if x = 0 then ['0'] else if x < 0 then '-' :: fmtG (F.six (-x)).1 (F.six (-x)).2 else fmtG (F.six x).1 (F.six x).2

/-- The line of a test — vertexing/simple_vtx_test.cpp:51.  The positions, of at most 10 bits, are exact as `float`s;
`zPV*Z0_SCALE` is a `double`. -/
noncomputable def CoutText.line (F : CoutText) {N : Nat} (l : SvLine N) : List Char :=
  "====>  hardware dZ:".toList ++ (F.text l.hw.hwZ0.toInt ++ (" -- emulated dZ: ".toList ++ (F.text l.ref.hwZ0.toInt ++
    (" -- True dZ: ".toList ++ (F.text (F.R.f64 (l.zPV * 20)) ++ "\n".toList)))))

/-- `main` — vertexing/simple_vtx_test.cpp:10-54: the standard output; the program returns 0 -/
noncomputable def svBenchMain (F : CoutText) (D : Rand) {NPOW : Nat} (NTEST NPV : ℕ) (z0bin : Z0 → BitVec 5) (convertZ0 : Z0 → Z0)
    (track0 : Arr (2 ^ NPOW) TkObj) (out0 : VtxObj) : Run (List Char) := do
  let lines ← F.R.svMain D NTEST NPV z0bin convertZ0 track0 out0
  .ok (lines.flatMap F.line)

end Verif
