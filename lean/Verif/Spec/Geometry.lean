import Mathlib.Data.Int.ModEq
/-!
# Distance on the 1024-periodic (eta, phi) grid

Coordinates are integers, each axis wraps with period 1024.
-/
namespace Verif.Spec

/-- `d` is the squared distance of `x` and `y` on a circle of circumference 1024: it is the square
of some representative of `x - y` modulo 1024, and no representative has a smaller square. -/
def IsCircleDist2 (x y d : Int) : Prop :=
  (∃ a : Int, a ≡ x - y [ZMOD 1024] ∧ d = a * a) ∧
  ∀ a : Int, a ≡ x - y [ZMOD 1024] → d ≤ a * a

/-- Squared distance on the torus. -/
def IsTorusDist2 (eta1 phi1 eta2 phi2 d : Int) : Prop :=
  ∃ de dp : Int, IsCircleDist2 eta1 eta2 de ∧ IsCircleDist2 phi1 phi2 dp ∧ d = de + dp

end Verif.Spec
