import Verif.Model.SimpleVtxTestOutput
import Verif.Spec.PFTestOutput
import Verif.Spec.Float
/-! # What the simple vertex test bench should print -/
namespace Verif.Spec
open Rounding

/-- A number with or without decimals. -/
def fixedPoint (s : List Char) : Option ℚ :=
  match split (· == '.') s with
  | [a] => (number 10 a).map fun n => (n : ℚ)
  | [a, b] => do
    let n ← number 10 a
    let m ← number 10 b
    some ((n : ℚ) + m / 10 ^ b.length)
  | _ => none

/-- A number with or without decimals and exponent. -/
def scientific (s : List Char) : Option ℚ :=
  match split (· == 'e') s with
  | [a] => fixedPoint a
  | [a, b] => do
    let x ← fixedPoint a
    let e ← int b
    some (x * 10 ^ e)
  | _ => none

/-- The value of a number, of any kind. -/
def Token.value : Token → Option ℚ
  | .num n => some n
  | .word w => scientific w

/-- The number is written with an exponent. -/
def Token.HasExponent : Token → Prop
  | .num _ => False
  | .word w => 'e' ∈ w

/-- A positive number with six significant digits. -/
def IsSix (y : ℝ) : Prop := ∃ (m : ℕ) (e : ℤ), 10 ^ 5 ≤ m ∧ m < 10 ^ 6 ∧ y = m * (10 : ℝ) ^ (e - 5)

/-- `q` is one of the numbers with six significant digits that are closest to `x`. -/
def SixDigits (q x : ℝ) : Prop := (q = 0 ∧ x = 0) ∨ (IsSix q ∧ ∀ y, IsSix y → |q - x| ≤ |y - x|)

/-- What is assumed of the floating-point types and of `std::cout`: rounding to nearest, with any rule for ties. -/
structure PrintsSix (F : CoutText) : Prop where
  ieee : IEEE F.R
  digits : ∀ x : ℝ, 0 < x → 10 ^ 5 ≤ (F.six x).1 ∧ (F.six x).1 < 10 ^ 6
  nearest : ∀ x : ℝ, 0 < x → ∀ y, IsSix y → |((F.six x).1 : ℝ) * 10 ^ ((F.six x).2 - 5) - x| ≤ |y - x|

/-- The line of a test: the positions of the two algorithms as integers, and the position of the vertex that was drawn in units of
half a millimetre, with an exponent if it is too small (or too large). -/
def IsVtxLine {N : Nat} (l : SvLine N) (line : List Token) : Prop :=
  ∃ (t : Token) (q : ℚ), line = say "====> hardware dZ" ++ [.num l.hw.hwZ0.toInt] ++ say "-- emulated dZ" ++ [.num l.ref.hwZ0.toInt] ++ say "-- True dZ" ++ [t] ∧
    t.value = some q ∧ SixDigits q (20 * l.zPV) ∧ (t.HasExponent ↔ (0 < q ∧ q < 1 / 10 ^ 4) ∨ 10 ^ 6 ≤ q)

end Verif.Spec
