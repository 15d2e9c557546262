import Verif.Spec.PuppiTable
import Mathlib.Analysis.Complex.ExponentialBounds
import Mathlib.Tactic.Linarith
import Mathlib.Tactic.Positivity
import Mathlib.Tactic.FieldSimp
/-! # Error analysis of the PUPPI weight table -/
namespace Verif
open Spec

/-- `x` is `y` up to a relative error `e`. -/
def Near (e x y : ℝ) : Prop := y * (1 - e) ≤ x ∧ x ≤ y * (1 + e)

namespace Near

theorem weaken {e e' x y : ℝ} (h : Near e x y) (hy : 0 ≤ y) (he : e ≤ e') : Near e' x y :=
  ⟨le_trans (mul_le_mul_of_nonneg_left (by linarith) hy) h.1,
   le_trans h.2 (mul_le_mul_of_nonneg_left (by linarith) hy)⟩

theorem pos {e x y : ℝ} (h : Near e x y) (hy : 0 < y) (he : e ≤ 1 / 2) : 0 < x :=
  lt_of_lt_of_le (mul_pos hy (by linarith)) h.1

theorem exact (x : ℝ) (hx : 0 ≤ x) {e : ℝ} (he : 0 ≤ e) : Near e x x :=
  weaken (e := 0) ⟨by linarith, by linarith⟩ hx he

theorem trans {e e' e'' x y r : ℝ} (h : Near e x y) (h' : Near e' r x) (hy : 0 ≤ y) (he : 0 ≤ e) (he' : 0 ≤ e')
    (he1 : e' ≤ 1) (hs : e + e' + e * e' ≤ e'') : Near e'' r y := by
  have hee := mul_nonneg he he'
  refine weaken (e := e + e' + e * e') ⟨?_, ?_⟩ hy hs
  · refine le_trans ?_ h'.1
    refine le_trans ?_ (mul_le_mul_of_nonneg_right h.1 (by linarith))
    rw [mul_assoc]
    apply mul_le_mul_of_nonneg_left _ hy
    nlinarith
  · refine le_trans h'.2 ?_
    refine le_trans (mul_le_mul_of_nonneg_right h.2 (by linarith)) ?_
    rw [mul_assoc]
    apply mul_le_mul_of_nonneg_left _ hy
    nlinarith

theorem mul {e e' e'' x y x' y' : ℝ} (h : Near e x y) (h' : Near e' x' y') (hy : 0 < y) (hy' : 0 < y')
    (he : 0 ≤ e) (he' : 0 ≤ e') (he1 : e ≤ 1 / 2) (he1' : e' ≤ 1 / 2) (hs : e + e' + e * e' ≤ e'') :
    Near e'' (x * x') (y * y') := by
  have hee := mul_nonneg he he'
  have hx := h.pos hy he1
  have hx' := h'.pos hy' he1'
  refine weaken (e := e + e' + e * e') ⟨?_, ?_⟩ (mul_pos hy hy').le hs
  · calc y * y' * (1 - (e + e' + e * e')) ≤ y * y' * ((1 - e) * (1 - e')) :=
          mul_le_mul_of_nonneg_left (by nlinarith) (mul_pos hy hy').le
      _ = (y * (1 - e)) * (y' * (1 - e')) := by ring
      _ ≤ x * x' := mul_le_mul h.1 h'.1 (mul_nonneg hy'.le (by linarith)) hx.le
  · calc x * x' ≤ (y * (1 + e)) * (y' * (1 + e')) :=
          mul_le_mul h.2 h'.2 hx'.le (mul_nonneg hy.le (by linarith))
      _ = y * y' * (1 + (e + e' + e * e')) := by ring

theorem add {e x y x' y' : ℝ} (h : Near e x y) (h' : Near e x' y') : Near e (x + x') (y + y') := by
  obtain ⟨a, b⟩ := h
  obtain ⟨c, d⟩ := h'
  exact ⟨by linarith, by linarith⟩

theorem inv {e e' x y : ℝ} (h : Near e x y) (hy : 0 < y) (he : 0 ≤ e) (he1 : e ≤ 1 / 2)
    (hs : e + 2 * e * e ≤ e') : Near e' (1 / x) (1 / y) := by
  have hx := h.pos hy he1
  refine weaken (e := e + 2 * e * e) ⟨?_, ?_⟩ (by positivity) hs
  · rw [one_div_mul_eq_div, div_le_div_iff₀ hy hx, one_mul]
    have h0 : (1 - (e + 2 * e * e)) * x ≤ (1 - e) * x := mul_le_mul_of_nonneg_right (by nlinarith) hx.le
    have h1 : (1 - e) * x ≤ (1 - e) * (y * (1 + e)) := mul_le_mul_of_nonneg_left h.2 (by linarith)
    nlinarith
  · rw [one_div_mul_eq_div, div_le_div_iff₀ hx hy, one_mul]
    have h1 : (1 + (e + 2 * e * e)) * (y * (1 - e)) ≤ (1 + (e + 2 * e * e)) * x :=
      mul_le_mul_of_nonneg_left h.1 (by nlinarith)
    have h2 : 1 ≤ (1 + (e + 2 * e * e)) * (1 - e) := by nlinarith [mul_nonneg he he]
    nlinarith

theorem sqrt {e x y : ℝ} (h : Near e x y) (hy : 0 < y) (he : 0 ≤ e) (he1 : e ≤ 1 / 2) :
    Near e (Real.sqrt x) (Real.sqrt y) := by
  have hx := h.pos hy he1
  constructor
  · apply Real.le_sqrt_of_sq_le
    rw [mul_pow, Real.sq_sqrt hy.le]
    refine le_trans (mul_le_mul_of_nonneg_left ?_ hy.le) h.1
    nlinarith
  · apply Real.sqrt_le_iff.mpr
    refine ⟨mul_nonneg (Real.sqrt_nonneg _) (by linarith), ?_⟩
    rw [mul_pow, Real.sq_sqrt hy.le]
    refine le_trans h.2 (mul_le_mul_of_nonneg_left ?_ hy.le)
    nlinarith

theorem of_abs {e x y : ℝ} (h : |x - y| ≤ y * e) : Near e x y := by
  obtain ⟨a, b⟩ := abs_le.mp h
  exact ⟨by linarith, by linarith⟩

theorem normal {e x y : ℝ} (h : Near e x y) (he : e ≤ 1 / 2) (h1 : 1 / 2 ^ 90 ≤ y) (h2 : y ≤ 2 ^ 90) : Normal x := by
  have hy : 0 < y := lt_of_lt_of_le (by positivity) h1
  have hx := h.pos hy he
  refine Or.inr ?_
  rw [abs_of_pos hx]
  constructor
  · refine le_trans ?_ h.1
    refine le_trans ?_ (mul_le_mul h1 (show (1 / 2 : ℝ) ≤ 1 - e by linarith) (by norm_num) hy.le)
    norm_num
  · refine le_trans h.2 ?_
    have : y * (1 + e) ≤ 2 ^ 90 * 2 := by nlinarith
    refine le_trans this (by norm_num)

end Near

variable {F : FloatImpl}

/-- One rounding to `float`. -/
theorem Spec.Accurate.near32 (A : Accurate F) {e e' x y : ℝ} (h : Near e x y) (he : 0 ≤ e) (he1 : e ≤ 1 / 2)
    (h1 : 1 / 2 ^ 90 ≤ y) (h2 : y ≤ 2 ^ 90) (hs : e + 1 / 2 ^ 24 + e / 2 ^ 24 ≤ e') : Near e' (F.f32 x) y := by
  have hy : 0 < y := lt_of_lt_of_le (by positivity) h1
  have hx := h.pos hy he1
  have hr := A.f32 x (h.normal he1 h1 h2)
  rw [abs_of_pos hx] at hr
  refine h.trans (e' := 1 / 2 ^ 24) (Near.of_abs (by rw [mul_one_div]; exact hr)) hy.le he (by norm_num) (by norm_num) ?_
  rw [mul_one_div]; exact hs

/-- One rounding to `double`. -/
theorem Spec.Accurate.near64 (A : Accurate F) {e e' x y : ℝ} (h : Near e x y) (he : 0 ≤ e) (he1 : e ≤ 1 / 2)
    (h1 : 1 / 2 ^ 90 ≤ y) (h2 : y ≤ 2 ^ 90) (hs : e + 1 / 2 ^ 53 + e / 2 ^ 53 ≤ e') : Near e' (F.f64 x) y := by
  have hy : 0 < y := lt_of_lt_of_le (by positivity) h1
  have hx := h.pos hy he1
  have hr := A.f64 x (h.normal he1 h1 h2)
  rw [abs_of_pos hx] at hr
  refine h.trans (e' := 1 / 2 ^ 53) (Near.of_abs (by rw [mul_one_div]; exact hr)) hy.le he (by norm_num) (by norm_num) ?_
  rw [mul_one_div]; exact hs

/-- A `double` product. -/
theorem Spec.Accurate.mul64 (A : Accurate F) {e e' e'' x y x' y' : ℝ} (h : Near e x y) (h' : Near e' x' y')
    (hy : 0 < y) (hy' : 0 < y') (he : 0 ≤ e) (he' : 0 ≤ e') (he1 : e ≤ 1 / 4) (he1' : e' ≤ 1 / 8)
    (h1 : 1 / 2 ^ 90 ≤ y * y') (h2 : y * y' ≤ 2 ^ 90)
    (hs : (e + e' + e * e') + 1 / 2 ^ 53 + (e + e' + e * e') / 2 ^ 53 ≤ e'') : Near e'' (F.f64 (x * x')) (y * y') := by
  have hee := mul_nonneg he he'
  have := mul_le_mul he1 he1' he' (by norm_num)
  refine A.near64 (h.mul h' hy hy' he he' (by linarith) (by linarith) (le_refl _)) (by linarith) (by linarith) h1 h2 hs

/-- The exact denominator. -/
noncomputable def denomR (x : ℝ) : ℝ := 1 + 0.278393 * x + 0.230389 * x ^ 2 + 0.000972 * x ^ 3 + 0.078108 * x ^ 4

/-- The unit of the `float` error. -/
noncomputable abbrev ulp : ℝ := 1 / 2 ^ 24

theorem denom_near (A : Accurate F) {arg X : ℝ} (h : Near (7 * ulp) arg X) (h1 : 1 / 1000 ≤ X) (h2 : X ≤ 2) :
    Near (30 * ulp) (F.denom arg) (denomR X) := by
  have hX : 0 < X := by linarith
  have X2 : X ^ 2 ≤ 4 := by nlinarith
  have X2' : (1 / 1000 : ℝ) ^ 2 ≤ X ^ 2 := by gcongr
  have X3 : X ^ 3 ≤ 8 := by calc X ^ 3 ≤ 2 ^ 3 := by gcongr
                            _ = 8 := by norm_num
  have X3' : (1 / 1000 : ℝ) ^ 3 ≤ X ^ 3 := by gcongr
  have X4 : X ^ 4 ≤ 16 := by calc X ^ 4 ≤ 2 ^ 4 := by gcongr
                             _ = 16 := by norm_num
  have X4' : (1 / 1000 : ℝ) ^ 4 ≤ X ^ 4 := by gcongr
  have lit : ∀ c : ℝ, 1 / 2000 ≤ c → c ≤ 1 → Near (ulp / 1000) (F.f64 c) c := fun c hc hc' =>
    A.near64 (Near.exact c (by linarith) (le_refl (0 : ℝ))) (le_refl _) (by norm_num)
      (le_trans (by norm_num) hc) (le_trans hc' (by norm_num)) (by norm_num [ulp])
  have step : ∀ {k x : ℝ} {p : ℝ}, Near (k * ulp) x p → 0 < p → 0 ≤ k → k ≤ 30 → 1 / 2 ^ 90 ≤ p * X → p * X ≤ 2 ^ 90 →
      Near ((k + 7.002) * ulp) (F.f64 (x * arg)) (p * X) := by
    intro k x p hk hp hk0 hk1 hb1 hb2
    refine A.mul64 hk h hp hX (by positivity) (by norm_num [ulp]) ?_ (by norm_num [ulp]) hb1 hb2 ?_
    · have : ulp = 1 / 16777216 := by norm_num [ulp]
      rw [this]; linarith
    · have : ulp = 1 / 16777216 := by norm_num [ulp]
      rw [this]
      have : k * (1 / 16777216) * (7 * (1 / 16777216)) ≤ 30 * (1 / 16777216) * (7 * (1 / 16777216)) := by
        apply mul_le_mul_of_nonneg_right _ (by norm_num)
        apply mul_le_mul_of_nonneg_right hk1 (by norm_num)
      rw [show (2 : ℝ) ^ 53 = 9007199254740992 by norm_num]
      linarith
  have lit' : ∀ c : ℝ, 1 / 2000 ≤ c → c ≤ 1 → Near (0.001 * ulp) (F.f64 c) c := fun c hc hc' => by
    have := lit c hc hc'
    rwa [show (0.001 : ℝ) * ulp = ulp / 1000 by ring]
  have big : ∀ {p : ℝ}, 1 / 10 ^ 20 ≤ p → 1 / 2 ^ 90 ≤ p := fun hp => le_trans (by norm_num) hp
  have small : ∀ {p : ℝ}, p ≤ 1000 → p ≤ 2 ^ 90 := fun hp => le_trans hp (by norm_num)
  have t1 := step (lit' 0.278393 (by norm_num) (by norm_num)) (by norm_num) (by norm_num) (by norm_num)
    (big (by nlinarith)) (small (by nlinarith))
  have a2 := step (lit' 0.230389 (by norm_num) (by norm_num)) (by norm_num) (by norm_num) (by norm_num)
    (big (by nlinarith)) (small (by nlinarith))
  have t2 := step a2 (by positivity) (by norm_num) (by norm_num) (big (by nlinarith)) (small (by nlinarith))
  have a3 := step (lit' 0.000972 (by norm_num) (by norm_num)) (by norm_num) (by norm_num) (by norm_num)
    (big (by nlinarith)) (small (by nlinarith))
  have b3 := step a3 (by positivity) (by norm_num) (by norm_num) (big (by nlinarith)) (small (by nlinarith))
  have t3 := step b3 (by positivity) (by norm_num) (by norm_num)
    (big (by rw [show 0.000972 * X * X * X = 0.000972 * X ^ 3 by ring]; norm_num at X3' ⊢; linarith))
    (small (by rw [show 0.000972 * X * X * X = 0.000972 * X ^ 3 by ring]; linarith))
  have a4 := step (lit' 0.078108 (by norm_num) (by norm_num)) (by norm_num) (by norm_num) (by norm_num)
    (big (by nlinarith)) (small (by nlinarith))
  have b4 := step a4 (by positivity) (by norm_num) (by norm_num) (big (by nlinarith)) (small (by nlinarith))
  have c4 := step b4 (by positivity) (by norm_num) (by norm_num)
    (big (by rw [show 0.078108 * X * X * X = 0.078108 * X ^ 3 by ring]; norm_num at X3' ⊢; linarith))
    (small (by rw [show 0.078108 * X * X * X = 0.078108 * X ^ 3 by ring]; linarith))
  have t4 := step c4 (by positivity) (by norm_num) (by norm_num)
    (big (by rw [show 0.078108 * X * X * X * X = 0.078108 * X ^ 4 by ring]; norm_num at X4' ⊢; linarith))
    (small (by rw [show 0.078108 * X * X * X * X = 0.078108 * X ^ 4 by ring]; linarith))
  have e1 : (0 : ℝ) ≤ 0.278393 * X := by positivity
  have e2 : (0 : ℝ) ≤ 0.230389 * X * X := by positivity
  have e3 : (0 : ℝ) ≤ 0.000972 * X * X * X := by positivity
  have e4 : (0 : ℝ) ≤ 0.078108 * X * X * X * X := by positivity
  have f1 : 0.278393 * X ≤ 1 := by linarith
  have f2 : 0.230389 * X * X ≤ 1 := by nlinarith
  have f3 : 0.000972 * X * X * X ≤ 1 := by rw [show 0.000972 * X * X * X = 0.000972 * X ^ 3 by ring]; linarith
  have f4 : 0.078108 * X * X * X * X ≤ 2 := by rw [show 0.078108 * X * X * X * X = 0.078108 * X ^ 4 by ring]; linarith
  have u0 : ulp = 1 / 16777216 := by norm_num [ulp]
  have w53 : (2 : ℝ) ^ 53 = 9007199254740992 := by norm_num
  have w24 : (2 : ℝ) ^ 24 = 16777216 := by norm_num
  have s1 : Near (28.02 * ulp) (F.f64 (1 + F.f64 (F.f64 0.278393 * arg))) (1 + 0.278393 * X) :=
    A.near64 (e := 28.01 * ulp) (Near.add (Near.exact 1 (by norm_num) (by rw [u0]; norm_num)) (t1.weaken e1 (by rw [u0]; norm_num)))
      (by rw [u0]; norm_num) (by rw [u0]; norm_num) (big (by norm_num; linarith)) (small (by linarith)) (by rw [u0, w53]; norm_num)
  have s2 := A.near64 (e := 28.02 * ulp) (e' := 28.03 * ulp) (Near.add s1 (t2.weaken e2 (by rw [u0]; norm_num)))
      (by rw [u0]; norm_num) (by rw [u0]; norm_num) (big (by norm_num; linarith)) (small (by linarith)) (by rw [u0, w53]; norm_num)
  have s3 := A.near64 (e := 28.03 * ulp) (e' := 28.04 * ulp) (Near.add s2 (t3.weaken e3 (by rw [u0]; norm_num)))
      (by rw [u0]; norm_num) (by rw [u0]; norm_num) (big (by norm_num; linarith)) (small (by linarith)) (by rw [u0, w53]; norm_num)
  have s4 := A.near64 (e := 28.04 * ulp) (e' := 28.05 * ulp) (Near.add s3 (t4.weaken e4 (by rw [u0]; norm_num)))
      (by rw [u0]; norm_num) (by rw [u0]; norm_num) (big (by norm_num; linarith)) (small (by linarith)) (by rw [u0, w53]; norm_num)
  have s5 := A.near32 (e' := 30 * ulp) s4 (by rw [u0]; norm_num) (by rw [u0]; norm_num) (big (by norm_num; linarith)) (small (by linarith))
      (by rw [u0, w24]; norm_num)
  have : denomR X = 1 + 0.278393 * X + 0.230389 * X * X + 0.000972 * X * X * X + 0.078108 * X * X * X * X := by
    unfold denomR; ring
  rw [this]
  exact s5

theorem ulp_eq : ulp = 1 / 16777216 := by norm_num [ulp]

/-- The significance of an `alpha`, divided by √2. -/
noncomputable def sigR (alpha : ℝ) : ℝ := (alpha - 10) / 2 / Real.sqrt 2

theorem sqrt2_bounds : 1.4142 < Real.sqrt 2 ∧ Real.sqrt 2 < 1.41422 := by
  constructor
  · exact Real.lt_sqrt_of_sq_lt (by norm_num)
  · rw [Real.sqrt_lt' (by norm_num)]; norm_num

theorem sigR_eq (alpha : ℝ) (h : 10 ≤ alpha) : Real.sqrt ((alpha - 10) * (alpha - 10) / 4 / 2) = sigR alpha := by
  unfold sigR
  rw [Real.sqrt_div' _ (by norm_num), Real.sqrt_div' _ (by norm_num), Real.sqrt_mul_self (by linarith)]
  congr 2
  rw [show (4 : ℝ) = 2 * 2 by norm_num, Real.sqrt_mul_self (by norm_num)]

theorem sigR_bounds {alpha : ℝ} (h1 : 10.02 ≤ alpha) (h2 : alpha ≤ 14.0001) : 0.007 ≤ sigR alpha ∧ sigR alpha ≤ 1.4143 := by
  obtain ⟨a, b⟩ := sqrt2_bounds
  unfold sigR
  constructor
  · rw [le_div_iff₀ (by linarith)]; nlinarith
  · rw [div_le_iff₀ (by linarith)]; nlinarith

theorem sigmas_near (A : Accurate F) {alpha : ℝ} (h1 : 10.02 ≤ alpha) (h2 : alpha ≤ 14.0001) :
    Near (7 * ulp) (F.sqrtSigmas alpha) (sigR alpha) := by
  have big : ∀ {p : ℝ}, 1 / 10 ^ 20 ≤ p → 1 / 2 ^ 90 ≤ p := fun hp => le_trans (by norm_num) hp
  have small : ∀ {p : ℝ}, p ≤ 1000 → p ≤ 2 ^ 90 := fun hp => le_trans hp (by norm_num)
  have w53 : (2 : ℝ) ^ 53 = 9007199254740992 := by norm_num
  have w24 : (2 : ℝ) ^ 24 = 16777216 := by norm_num
  have w50 : (2 : ℝ) ^ 50 = 1125899906842624 := by norm_num
  have hS : 0.02 ≤ alpha - 10 := by linarith
  have hS2 : alpha - 10 ≤ 5 := by linarith
  have hS0 : 0 < alpha - 10 := by linarith
  have hSS : 0.0004 ≤ (alpha - 10) * (alpha - 10) := by nlinarith
  have hSS2 : (alpha - 10) * (alpha - 10) ≤ 25 := by nlinarith
  have d := A.near32 (e' := 1 * ulp) (Near.exact (alpha - 10) hS0.le (le_refl (0 : ℝ))) (le_refl _) (by norm_num)
    (big (by norm_num at hS ⊢; linarith)) (small (by linarith)) (by rw [ulp_eq, w24]; norm_num)
  have dd := A.near32 (e' := 3.01 * ulp) (d.mul (e'' := 2.001 * ulp) d hS0 hS0 (by rw [ulp_eq]; norm_num) (by rw [ulp_eq]; norm_num)
    (by rw [ulp_eq]; norm_num) (by rw [ulp_eq]; norm_num) (by rw [ulp_eq]; norm_num)) (by rw [ulp_eq]; norm_num) (by rw [ulp_eq]; norm_num)
    (big (by norm_num at hSS ⊢; linarith)) (small (by linarith)) (by rw [ulp_eq, w24]; norm_num)
  have four := A.near32 (e' := 1 * ulp) (Near.exact (2 * 2) (by norm_num) (le_refl (0 : ℝ))) (le_refl _) (by norm_num)
    (big (by norm_num)) (small (by norm_num)) (by rw [ulp_eq, w24]; norm_num)
  have quo := dd.mul (e'' := 4.03 * ulp) (four.inv (e' := 1.001 * ulp) (by norm_num) (by rw [ulp_eq]; norm_num) (by rw [ulp_eq]; norm_num)
    (by rw [ulp_eq]; norm_num)) (by linarith) (by norm_num) (by rw [ulp_eq]; norm_num) (by rw [ulp_eq]; norm_num)
    (by rw [ulp_eq]; norm_num) (by rw [ulp_eq]; norm_num) (by rw [ulp_eq]; norm_num)
  rw [mul_one_div (F.f32 (F.f32 (alpha - 10) * F.f32 (alpha - 10))), mul_one_div ((alpha - 10) * (alpha - 10)),
    show (2 : ℝ) * 2 = 4 by norm_num] at quo
  have q4 : 0.0001 ≤ (alpha - 10) * (alpha - 10) / 4 := by linarith
  have q4' : (alpha - 10) * (alpha - 10) / 4 ≤ 10 := by linarith
  have sg := A.near32 (e' := 5.04 * ulp) quo (by rw [ulp_eq]; norm_num) (by rw [ulp_eq]; norm_num)
    (big (by norm_num at q4 ⊢; linarith)) (small (by linarith)) (by rw [ulp_eq, w24]; norm_num)
  have half : Near (5.04 * ulp) (F.f32 (F.f32 (F.f32 (alpha - 10) * F.f32 (alpha - 10)) / F.f32 4) / 2)
      ((alpha - 10) * (alpha - 10) / 4 / 2) := ⟨by have := sg.1; linarith, by have := sg.2; linarith⟩
  have sg2 := A.near64 (e' := 5.05 * ulp) half (by rw [ulp_eq]; norm_num) (by rw [ulp_eq]; norm_num)
    (big (by norm_num at q4 ⊢; linarith)) (small (by linarith)) (by rw [ulp_eq, w53]; norm_num)
  have hq : 0 < (alpha - 10) * (alpha - 10) / 4 / 2 := by linarith
  have rt := sg2.sqrt hq (by rw [ulp_eq]; norm_num) (by rw [ulp_eq]; norm_num)
  rw [sigR_eq alpha (by linarith)] at rt
  obtain ⟨sb1, sb2⟩ := sigR_bounds h1 h2
  have sb0 : 0 < sigR alpha := by linarith
  have norm := sg2.normal (by rw [ulp_eq]; norm_num) (big (by norm_num at q4 ⊢; linarith)) (small (by linarith))
  have pos := sg2.pos hq (by rw [ulp_eq]; norm_num)
  have lib := rt.trans (e' := 1 / 2 ^ 50) (e'' := 5.06 * ulp) (Near.of_abs (by rw [mul_one_div]; exact A.sqrt _ pos.le norm))
    sb0.le (by rw [ulp_eq]; norm_num) (by norm_num) (by norm_num) (by rw [ulp_eq, w50]; norm_num)
  have fin := A.near32 (e' := 7 * ulp) lib (by rw [ulp_eq]; norm_num) (by rw [ulp_eq]; norm_num)
    (big (by norm_num at sb1 ⊢; linarith)) (small (by linarith)) (by rw [ulp_eq, w24]; norm_num)
  unfold FloatImpl.sqrtSigmas
  rw [show (2 : ℝ) * 2 = 4 by norm_num]
  exact fin

theorem denomR_bounds {x : ℝ} (h1 : 0.007 ≤ x) (h2 : x ≤ 1.4143) : 1.0019 ≤ denomR x ∧ denomR x ≤ 2.17 := by
  have x2 : x ^ 2 ≤ 1.4143 ^ 2 := by gcongr
  have x3 : x ^ 3 ≤ 1.4143 ^ 3 := by gcongr
  have x4 : x ^ 4 ≤ 1.4143 ^ 4 := by gcongr
  have y2 : 0 ≤ x ^ 2 := by positivity
  have y3 : 0 ≤ x ^ 3 := by apply pow_nonneg; linarith
  have y4 : 0 ≤ x ^ 4 := by positivity
  unfold denomR
  constructor
  · linarith
  · norm_num at x2 x3 x4 ⊢; linarith

/-- The exact weight of an `alpha`, times 256. -/
noncomputable def weightR (alpha : ℝ) : ℝ := 256 * (1 - 1 / denomR (sigR alpha) ^ 4)

/-- The computed weight for a given `alpha`. -/
theorem weight_near (A : Accurate F) {alpha : ℝ} (h1 : 10.02 ≤ alpha) (h2 : alpha ≤ 14.0001) :
    |F.weight_of_alpha alpha - weightR alpha| ≤ 256 * ulp * (122 / denomR (sigR alpha) ^ 4 + 4) := by
  obtain ⟨sb1, sb2⟩ := sigR_bounds h1 h2
  obtain ⟨db1, db2⟩ := denomR_bounds sb1 sb2
  have w53 : (2 : ℝ) ^ 53 = 9007199254740992 := by norm_num
  have w24 : (2 : ℝ) ^ 24 = 16777216 := by norm_num
  have w50 : (2 : ℝ) ^ 50 = 1125899906842624 := by norm_num
  have hd := denom_near A (sigmas_near A h1 h2) (by linarith) (by linarith)
  set D := denomR (sigR alpha) with hD
  set d := F.denom (F.sqrtSigmas alpha) with hdd
  have D0 : 0 < D := by linarith
  have d1 : 1 ≤ d := le_trans (by rw [ulp_eq]; linarith) hd.1
  have d2 : d ≤ 3 := le_trans hd.2 (by rw [ulp_eq]; linarith)
  have m2 := hd.mul (e'' := 60.01 * ulp) hd D0 D0 (by rw [ulp_eq]; norm_num) (by rw [ulp_eq]; norm_num)
    (by rw [ulp_eq]; norm_num) (by rw [ulp_eq]; norm_num) (by rw [ulp_eq]; norm_num)
  have m4 := m2.mul (e'' := 120.03 * ulp) m2 (by positivity) (by positivity) (by rw [ulp_eq]; norm_num) (by rw [ulp_eq]; norm_num)
    (by rw [ulp_eq]; norm_num) (by rw [ulp_eq]; norm_num) (by rw [ulp_eq]; norm_num)
  rw [show d * d * (d * d) = d ^ 4 by ring, show D * D * (D * D) = D ^ 4 by ring] at m4
  have D4 : 1.0019 ^ 4 ≤ D ^ 4 := by gcongr
  have D4' : D ^ 4 ≤ 2.17 ^ 4 := by gcongr
  norm_num at D4 D4'
  have D40 : 0 < D ^ 4 := by positivity
  have p := m4.trans (e' := 1 / 2 ^ 50) (e'' := 120.04 * ulp) (Near.of_abs (by
      rw [mul_one_div]; exact A.pow d d1 (le_trans d2 (by norm_num)))) D40.le
    (by rw [ulp_eq]; norm_num) (by norm_num) (by norm_num) (by rw [ulp_eq, w50]; norm_num)
  have iv := p.inv (e' := 120.06 * ulp) D40 (by rw [ulp_eq]; norm_num) (by rw [ulp_eq]; norm_num) (by rw [ulp_eq]; norm_num)
  have i1 : 1 / D ^ 4 ≤ 0.9925 := by rw [div_le_iff₀ D40]; linarith
  have i2 : 0.04 ≤ 1 / D ^ 4 := by rw [le_div_iff₀ D40]; linarith
  have q := A.near64 (e' := 120.07 * ulp) iv (by rw [ulp_eq]; norm_num) (by rw [ulp_eq]; norm_num)
    (le_trans (by norm_num) i2) (le_trans i1 (by norm_num)) (by rw [ulp_eq, w53]; norm_num)
  set Q := 1 / D ^ 4 with hQ
  set qq := F.f64 (1 / F.pow d 4) with hqq
  have q1 : qq ≤ 0.9926 := le_trans q.2 (by rw [ulp_eq]; linarith)
  have q2 : 0.03 ≤ qq := le_trans (by rw [ulp_eq]; linarith) q.1
  have big : ∀ {p : ℝ}, 1 / 10 ^ 20 ≤ p → 1 / 2 ^ 90 ≤ p := fun hp => le_trans (by norm_num) hp
  have small : ∀ {p : ℝ}, p ≤ 1000 → p ≤ 2 ^ 90 := fun hp => le_trans hp (by norm_num)
  have w1 := A.near64 (e' := 0.001 * ulp) (Near.exact (1 - qq) (by linarith) (le_refl (0 : ℝ))) (le_refl _) (by norm_num)
    (big (by norm_num at q1 ⊢; linarith)) (small (by linarith)) (by rw [ulp_eq, w53]; norm_num)
  have w2 := A.near32 (e' := 1.01 * ulp) w1 (by rw [ulp_eq]; norm_num) (by rw [ulp_eq]; norm_num)
    (big (by norm_num at q1 ⊢; linarith)) (small (by linarith)) (by rw [ulp_eq, w24]; norm_num)
  have w256 := w2.mul (e'' := 1.01 * ulp) (Near.exact 256 (by norm_num) (le_refl (0 : ℝ))) (by linarith) (by norm_num)
    (by rw [ulp_eq]; norm_num) (le_refl _) (by rw [ulp_eq]; norm_num) (by norm_num) (by rw [ulp_eq]; norm_num)
  have w3 := A.near64 (e' := 1.02 * ulp) w256 (by rw [ulp_eq]; norm_num) (by rw [ulp_eq]; norm_num)
    (big (by norm_num at q1 ⊢; linarith)) (small (by linarith)) (by rw [ulp_eq, w53]; norm_num)
  have w4 := A.near32 (e' := 2.03 * ulp) w3 (by rw [ulp_eq]; norm_num) (by rw [ulp_eq]; norm_num)
    (big (by norm_num at q1 ⊢; linarith)) (small (by linarith)) (by rw [ulp_eq, w24]; norm_num)
  have hw : F.weight_of_alpha alpha = F.f32 (F.f64 (F.f32 (F.f64 (1 - qq)) * 256)) := by
    unfold FloatImpl.weight_of_alpha FloatImpl.erf_approx
    simp only []
    rw [if_neg (show ¬ alpha < 10 by linarith)]
  rw [hw, abs_le]
  have hqd : 122 / D ^ 4 = 122 * Q := by rw [hQ]; ring
  have hwR : weightR alpha = 256 * (1 - Q) := rfl
  rw [hqd, hwR]
  have := q.1; have := q.2; have := w4.1; have := w4.2
  rw [ulp_eq] at *
  constructor <;> nlinarith

theorem inv4_bounds {x : ℝ} (h1 : 1.0019 ≤ x) (h2 : x ≤ 2.17) : 0.045 ≤ 1 / x ^ 4 ∧ 1 / x ^ 4 ≤ 0.9925 := by
  have a : (1.0019 : ℝ) ^ 4 ≤ x ^ 4 := by gcongr
  have b : x ^ 4 ≤ 2.17 ^ 4 := by gcongr
  norm_num at a b
  constructor
  · rw [le_div_iff₀ (by linarith)]; linarith
  · rw [div_le_iff₀ (by linarith)]; linarith

theorem quartic_diff {X Y : ℝ} (hY : 0 ≤ Y) (hXY : Y ≤ X) (hX : X ≤ 1) : X ^ 4 - Y ^ 4 ≤ 4 * (X - Y) := by
  have e : X ^ 4 - Y ^ 4 = (X - Y) * ((X + Y) * (X ^ 2 + Y ^ 2)) := by ring
  rw [e, mul_comm 4]
  apply mul_le_mul_of_nonneg_left _ (by linarith)
  have X2 : X ^ 2 ≤ 1 := pow_le_one₀ (by linarith) hX
  have Y2 : Y ^ 2 ≤ 1 := pow_le_one₀ hY (by linarith)
  calc (X + Y) * (X ^ 2 + Y ^ 2) ≤ 2 * 2 := by
        apply mul_le_mul _ _ (by positivity) (by norm_num) <;> linarith
    _ = 4 := by norm_num

theorem denomR_lipschitz {x y : ℝ} (h1 : 0 ≤ x) (h2 : x ≤ y) (h3 : y ≤ 1.4143) : denomR y - denomR x ≤ 1.9 * (y - x) := by
  have e : denomR y - denomR x = (y - x) * (0.278393 + 0.230389 * (x + y) + 0.000972 * (x ^ 2 + x * y + y ^ 2)
      + 0.078108 * ((x + y) * (x ^ 2 + y ^ 2))) := by unfold denomR; ring
  rw [e, mul_comm]
  apply mul_le_mul_of_nonneg_right _ (by linarith)
  have x2 : x ^ 2 ≤ 1.4143 ^ 2 := by gcongr; linarith
  have y2 : y ^ 2 ≤ 1.4143 ^ 2 := by gcongr; linarith
  have xy : x * y ≤ 1.4143 * 1.4143 := by
    apply mul_le_mul <;> linarith
  norm_num at x2 y2 xy
  have : (x + y) * (x ^ 2 + y ^ 2) ≤ 2.8286 * 4.0006 := by
    apply mul_le_mul _ _ (by positivity) (by norm_num) <;> linarith
  linarith

/-- `denomR` grows. -/
theorem denomR_grow {x y h : ℝ} (h0 : 0 ≤ h) (hx : 0 ≤ x) (hxy : x + h ≤ y) : denomR x + 0.278393 * h ≤ denomR y := by
  have a : x ≤ y := by linarith
  have x2 : x ^ 2 ≤ y ^ 2 := by gcongr
  have x3 : x ^ 3 ≤ y ^ 3 := by gcongr
  have x4 : x ^ 4 ≤ y ^ 4 := by gcongr
  unfold denomR
  linarith

/-- The computed weights increase if the `alpha`s are far enough apart. -/
theorem weight_mono (A : Accurate F) {a b : ℝ} (h1 : 10.02 ≤ a) (hab : a + 0.00084 ≤ b) (h2 : b ≤ 14.0001) :
    F.weight_of_alpha a ≤ F.weight_of_alpha b := by
  obtain ⟨s1, s2⟩ := sigR_bounds h1 (show a ≤ 14.0001 by linarith)
  obtain ⟨t1, t2⟩ := sigR_bounds (show 10.02 ≤ b by linarith) h2
  obtain ⟨d1, d2⟩ := denomR_bounds s1 s2
  obtain ⟨e1, e2⟩ := denomR_bounds t1 t2
  have hsig : sigR a + 0.00029 ≤ sigR b := by
    obtain ⟨r1, r2⟩ := sqrt2_bounds
    have : sigR b - sigR a = (b - a) / 2 / Real.sqrt 2 := by unfold sigR; ring
    have h3 : 0.00029 ≤ (b - a) / 2 / Real.sqrt 2 := by rw [le_div_iff₀ (by linarith)]; nlinarith
    linarith
  have hg := denomR_grow (by norm_num) (by linarith) hsig
  have n1 := abs_le.mp (weight_near A h1 (show a ≤ 14.0001 by linarith))
  have n2 := abs_le.mp (weight_near A (show 10.02 ≤ b by linarith) h2)
  unfold weightR at n1 n2
  set x := denomR (sigR a)
  set y := denomR (sigR b)
  have x0 : 0 < x := by linarith
  have y0 : 0 < y := by linarith
  have x4 : x ^ 4 ≤ 2.17 ^ 4 := by gcongr
  have key : 1 / y ^ 4 ≤ 1 / x ^ 4 * (1 - 0.0000365) := by
    have hr : 1 / y ≤ 1 / x * (1 - 0.0000365) := by
      rw [one_div_mul_eq_div, div_le_div_iff₀ y0 x0]; nlinarith
    have hr2 : 1 / y ≤ 1 / x := by apply one_div_le_one_div_of_le x0; linarith
    have p : 0 ≤ 1 / y := by positivity
    have q : 0 ≤ 1 / x := by positivity
    calc 1 / y ^ 4 = (1 / y) ^ 3 * (1 / y) := by field_simp
      _ ≤ (1 / x) ^ 3 * (1 / x * (1 - 0.0000365)) := by gcongr
      _ = 1 / x ^ 4 * (1 - 0.0000365) := by field_simp
  have lo := (inv4_bounds d1 d2).1
  have f1 : 122 / x ^ 4 = 122 * (1 / x ^ 4) := by ring
  have f2 : 122 / y ^ 4 = 122 * (1 / y ^ 4) := by ring
  rw [f1] at n1
  rw [f2] at n2
  rw [ulp_eq] at n1 n2
  generalize 1 / x ^ 4 = X at *
  generalize 1 / y ^ 4 = Y at *
  norm_num at n1 n2 key
  linarith [n1.1, n1.2, n2.1, n2.2]

theorem exp10_bounds : 22026.46 < Real.exp 10 ∧ Real.exp 10 < 22026.48 := by
  have h : Real.exp 10 = Real.exp 1 ^ 10 := by rw [← Real.exp_nat_mul]; norm_num
  rw [h]
  constructor
  · calc (22026.46 : ℝ) < 2.7182818283 ^ 10 := by norm_num
      _ ≤ Real.exp 1 ^ 10 := by gcongr; exact Real.exp_one_gt_d9.le
  · calc Real.exp 1 ^ 10 ≤ 2.7182818286 ^ 10 := by gcongr; exact Real.exp_one_lt_d9.le
      _ < 22026.48 := by norm_num

theorem log_le_14 {n : ℝ} (h0 : 0 < n) (h : n ≤ 1201153) : Real.log n ≤ 14 := by
  rw [Real.log_le_iff_le_exp h0]
  have h14 : Real.exp 14 = Real.exp 1 ^ 14 := by rw [← Real.exp_nat_mul]; norm_num
  rw [h14]
  calc n ≤ 2.7182818283 ^ 14 := le_trans h (by norm_num)
    _ ≤ Real.exp 1 ^ 14 := by gcongr; exact Real.exp_one_gt_d9.le

theorem log_le_below {n : ℝ} (h0 : 0 < n) (h : n ≤ 21505) : Real.log n ≤ 9.99 := by
  rw [Real.log_le_iff_le_exp h0, show (9.99 : ℝ) = 10 + (-0.01) by norm_num, Real.exp_add]
  have := Real.add_one_le_exp (-0.01 : ℝ)
  have := exp10_bounds.1
  nlinarith

theorem le_log_above {n : ℝ} (h : 22529 ≤ n) : 10.021 ≤ Real.log n := by
  rw [Real.le_log_iff_exp_le (by linarith), show (10.021 : ℝ) = 10 + 0.021 by norm_num, Real.exp_add]
  have h1 := Real.add_one_le_exp (-0.021 : ℝ)
  have h2 : Real.exp 0.021 * Real.exp (-0.021) = 1 := by rw [← Real.exp_add]; norm_num
  have h3 : Real.exp 0.021 ≤ 1.0215 := by nlinarith [Real.exp_pos (0.021 : ℝ)]
  have := exp10_bounds.2
  nlinarith [Real.exp_pos (0.021 : ℝ)]

/-- The exact `alpha` of an entry. -/
noncomputable def alphaR (i : ℕ) : ℝ := Real.log (1024 * i + 1)

/-- The computed `alpha` of an entry. -/
noncomputable def alphaOf (F : FloatImpl) (i : ℕ) : ℝ := F.alpha (F.f32 ((i * 1024 : ℕ) : ℝ))

theorem alphaOf_zero (A : Accurate F) : alphaOf F 0 = 0 := by
  have f0 : F.f32 0 = 0 := by
    have := A.f32 0 (Or.inl rfl)
    rw [abs_zero, zero_div, sub_zero] at this
    exact abs_eq_zero.mp (le_antisymm this (abs_nonneg _))
  have l0 : F.log 1 = 0 := by
    have := A.log 1 (le_refl _) (by norm_num)
    rw [Real.log_one, zero_div, sub_zero] at this
    exact abs_eq_zero.mp (le_antisymm this (abs_nonneg _))
  unfold alphaOf FloatImpl.alpha
  simp only [Nat.zero_mul, Nat.cast_zero]
  rw [f0, zero_add, A.one, l0, f0]

theorem alpha_near (A : Accurate F) {i : ℕ} (h1 : 1 ≤ i) (h2 : i < 1174) : |alphaOf F i - alphaR i| ≤ 0.000005 := by
  have hi : (1 : ℝ) ≤ i := by exact_mod_cast h1
  have hi2 : (i : ℝ) ≤ 1173 := by exact_mod_cast (show i ≤ 1173 by omega)
  have w24 : (2 : ℝ) ^ 24 = 16777216 := by norm_num
  have hn : (((i * 1024 : ℕ)) : ℝ) = 1024 * i := by push_cast; ring
  have big : ∀ {p : ℝ}, 1 ≤ p → 1 / 2 ^ 90 ≤ p := fun hp => le_trans (by norm_num) hp
  have small : ∀ {p : ℝ}, p ≤ 1201153 → p ≤ 2 ^ 90 := fun hp => le_trans hp (by norm_num)
  have e1 := A.near32 (e' := 1 * ulp) (Near.exact (1024 * (i : ℝ)) (by linarith) (le_refl (0 : ℝ))) (le_refl _) (by norm_num)
    (big (by linarith)) (small (by linarith)) (by rw [ulp_eq, w24]; norm_num)
  have e2 := A.near32 (e' := 2.01 * ulp) (e1.add (Near.exact 1 (by norm_num) (by rw [ulp_eq]; norm_num))) (by rw [ulp_eq]; norm_num)
    (by rw [ulp_eq]; norm_num) (big (by linarith)) (small (by linarith)) (by rw [ulp_eq, w24]; norm_num)
  set n : ℝ := 1024 * i + 1 with hndef
  set m := F.f32 (F.f32 (1024 * (i : ℝ)) + 1) with hm
  have n1 : 1025 ≤ n := by linarith
  have n2 : n ≤ 1201153 := by linarith
  have m1 : 1024 ≤ m := le_trans (by rw [ulp_eq]; linarith) e2.1
  have m2 : m ≤ 1201154 := le_trans e2.2 (by rw [ulp_eq]; linarith)
  have l1 : Real.log m - Real.log n ≤ 2.01 * ulp := by
    rw [← Real.log_div (by linarith) (by linarith)]
    refine le_trans (Real.log_le_sub_one_of_pos (div_pos (by linarith) (by linarith))) ?_
    have : m / n ≤ 1 + 2.01 * ulp := by rw [div_le_iff₀ (by linarith)]; linarith [e2.2]
    linarith
  have l2 : Real.log n - Real.log m ≤ 2.02 * ulp := by
    rw [← Real.log_div (by linarith) (by linarith)]
    refine le_trans (Real.log_le_sub_one_of_pos (div_pos (by linarith) (by linarith))) ?_
    have : n / m ≤ 1 + 2.02 * ulp := by
      rw [div_le_iff₀ (by linarith)]
      have := e2.1
      rw [ulp_eq] at this ⊢
      nlinarith
    linarith
  have hl := A.log m (by linarith) (le_trans m2 (by norm_num))
  have ln : Real.log n ≤ 14 := log_le_14 (by linarith) n2
  have ln1 : 1 ≤ Real.log n := by
    rw [Real.le_log_iff_exp_le (by linarith)]
    have := Real.exp_one_lt_d9
    linarith
  rw [show (2 : ℝ) ^ 22 = 4194304 by norm_num] at hl
  obtain ⟨hl1, hl2⟩ := abs_le.mp hl
  rw [ulp_eq] at l1 l2
  have hr := A.f32 (F.log m) (Or.inr (by
    rw [abs_of_pos (by linarith)]
    exact ⟨le_trans (by norm_num) (show (1 / 2 : ℝ) ≤ F.log m by linarith),
      le_trans (show F.log m ≤ 15 by linarith) (by norm_num)⟩))
  rw [abs_of_pos (show 0 < F.log m by linarith), w24] at hr
  obtain ⟨hr1, hr2⟩ := abs_le.mp hr
  have ha : alphaOf F i = F.f32 (F.log m) := by
    unfold alphaOf FloatImpl.alpha
    rw [hn]
  have hR : alphaR i = Real.log n := rfl
  rw [ha, hR, abs_le]
  constructor <;> linarith

theorem alphaR_step (i : ℕ) (h : i + 1 < 1174) : alphaR i + 0.00085 ≤ alphaR (i + 1) := by
  have hi : (0 : ℝ) ≤ i := by positivity
  have hi2 : (i : ℝ) ≤ 1172 := by exact_mod_cast (show i ≤ 1172 by omega)
  unfold alphaR
  push_cast
  have h1 : Real.log (1024 * i + 1) - Real.log (1024 * (i + 1) + 1) ≤ -0.00085 := by
    rw [← Real.log_div (by positivity) (by positivity)]
    refine le_trans (Real.log_le_sub_one_of_pos (by positivity)) ?_
    have : (1024 * (i : ℝ) + 1) / (1024 * (i + 1) + 1) ≤ 1 - 0.00085 := by
      rw [div_le_iff₀ (by positivity)]; nlinarith
    linarith
  linarith

theorem alphaOf_low (A : Accurate F) {i : ℕ} (h : i ≤ 21) : alphaOf F i < 10 := by
  rcases Nat.eq_zero_or_pos i with rfl | hp
  · rw [alphaOf_zero A]; norm_num
  · have := abs_le.mp (alpha_near A hp (by omega))
    have hi : (i : ℝ) ≤ 21 := by exact_mod_cast h
    have : alphaR i ≤ 9.99 := log_le_below (by positivity) (by linarith)
    linarith [this]

theorem alphaR_range {i : ℕ} (h : 22 ≤ i) (h2 : i < 1174) : 10.021 ≤ alphaR i ∧ alphaR i ≤ 14 := by
  have hi : (22 : ℝ) ≤ i := by exact_mod_cast h
  have hi2 : (i : ℝ) ≤ 1173 := by exact_mod_cast (show i ≤ 1173 by omega)
  exact ⟨le_log_above (by linarith), log_le_14 (by positivity) (by linarith)⟩

theorem alphaOf_high (A : Accurate F) {i : ℕ} (h : 22 ≤ i) (h2 : i < 1174) : 10.02 ≤ alphaOf F i ∧ alphaOf F i ≤ 14.0001 := by
  have := abs_le.mp (alpha_near A (show 1 ≤ i by omega) h2)
  have := alphaR_range h h2
  constructor <;> linarith

/-- The computed weight of an entry, before the conversion. -/
noncomputable def entryOf (F : FloatImpl) (i : ℕ) : ℝ := F.weight_of_alpha (alphaOf F i)

theorem entryOf_low (A : Accurate F) {i : ℕ} (h : i ≤ 21) : entryOf F i = 0 := by
  unfold entryOf FloatImpl.weight_of_alpha
  simp only []
  rw [if_pos (alphaOf_low A h), zero_mul]
  have e : ∀ {g : ℝ → ℝ} {k : ℝ}, |g 0 - 0| ≤ |(0 : ℝ)| / k → g 0 = 0 := by
    intro g k hg
    rw [abs_zero, zero_div, sub_zero] at hg
    exact abs_eq_zero.mp (le_antisymm hg (abs_nonneg _))
  rw [e (A.f64 0 (Or.inl rfl)), e (A.f32 0 (Or.inl rfl))]

theorem entryOf_step (A : Accurate F) {i : ℕ} (h : 22 ≤ i) (h2 : i + 1 < 1174) : entryOf F i ≤ entryOf F (i + 1) := by
  have a := abs_le.mp (alpha_near A (show 1 ≤ i by omega) (show i < 1174 by omega))
  have b := abs_le.mp (alpha_near A (show 1 ≤ i + 1 by omega) h2)
  have := alphaR_step i h2
  exact weight_mono A (alphaOf_high A h (by omega)).1 (by linarith [a.1, a.2, b.1, b.2]) (alphaOf_high A (by omega) h2).2

theorem entryOf_range (A : Accurate F) {i : ℕ} (h : 22 ≤ i) (h2 : i < 1174) : 1.9 ≤ entryOf F i ∧ entryOf F i ≤ 245 := by
  obtain ⟨a, b⟩ := alphaOf_high A h h2
  obtain ⟨s1, s2⟩ := sigR_bounds a b
  obtain ⟨d1, d2⟩ := denomR_bounds s1 s2
  obtain ⟨i1, i2⟩ := inv4_bounds d1 d2
  obtain ⟨n1, n2⟩ := abs_le.mp (weight_near A a b)
  unfold weightR at n1 n2
  rw [show 122 / denomR (sigR (alphaOf F i)) ^ 4 = 122 * (1 / denomR (sigR (alphaOf F i)) ^ 4) by ring, ulp_eq] at n1 n2
  unfold entryOf
  constructor <;> linarith

/-- The exact weight depends little on `alpha`. -/
theorem weightR_lipschitz {a b : ℝ} (ha : 10.02 ≤ a) (ha2 : a ≤ 14.0001) (hb : 10.02 ≤ b) (hb2 : b ≤ 14.0001) (hab : a ≤ b) :
    weightR b - weightR a ≤ 701 * (b - a) ∧ weightR a ≤ weightR b := by
  obtain ⟨s1, s2⟩ := sigR_bounds ha ha2
  obtain ⟨t1, t2⟩ := sigR_bounds hb hb2
  obtain ⟨d1, d2⟩ := denomR_bounds s1 s2
  obtain ⟨e1, e2⟩ := denomR_bounds t1 t2
  obtain ⟨r1, r2⟩ := sqrt2_bounds
  have hsd : sigR b - sigR a = (b - a) / 2 / Real.sqrt 2 := by unfold sigR; ring
  have hs0 : 0 ≤ sigR b - sigR a := by rw [hsd]; apply div_nonneg <;> linarith
  have hs : sigR b - sigR a ≤ 0.36 * (b - a) := by
    rw [hsd, div_le_iff₀ (by linarith)]; nlinarith
  have hg := denomR_grow hs0 (show 0 ≤ sigR a by linarith) (show sigR a + (sigR b - sigR a) ≤ sigR b by linarith)
  have hd := denomR_lipschitz (show 0 ≤ sigR a by linarith) (show sigR a ≤ sigR b by linarith) t2
  unfold weightR
  set x := denomR (sigR a)
  set y := denomR (sigR b)
  have x0 : 0 < x := by linarith
  have y0 : 0 < y := by linarith
  have hxy : x ≤ y := by linarith
  have p : 1 / y ≤ 1 / x := one_div_le_one_div_of_le x0 hxy
  have px : 1 / x ≤ 1 := by rw [div_le_one x0]; linarith
  have py : 0 ≤ 1 / y := by positivity
  have q : 1 / x - 1 / y ≤ y - x := by
    rw [div_sub_div _ _ x0.ne' y0.ne', div_le_iff₀ (by positivity)]
    have : 1 ≤ x * y := by nlinarith
    nlinarith
  have f : ∀ z : ℝ, 1 / z ^ 4 = (1 / z) ^ 4 := fun z => by rw [div_pow, one_pow]
  rw [f x, f y]
  have mono : (1 / y) ^ 4 ≤ (1 / x) ^ 4 := by gcongr
  refine ⟨?_, by linarith⟩
  have diff := quartic_diff py p px
  linarith

theorem entryOf_near (A : Accurate F) {i : ℕ} (h2 : i < 1174) : |entryOf F i - 256 * exactWeight i| ≤ 0.01 := by
  have hw : exactWeight i = if alphaR i < 10 then 0 else erfApprox (sigR (alphaR i)) := rfl
  by_cases h : 22 ≤ i
  · obtain ⟨r1, r2⟩ := alphaR_range h h2
    rw [hw, if_neg (by linarith)]
    have hE : 256 * erfApprox (sigR (alphaR i)) = weightR (alphaR i) := rfl
    rw [hE]
    obtain ⟨a, b⟩ := alphaOf_high A h h2
    obtain ⟨s1, s2⟩ := sigR_bounds a b
    obtain ⟨d1, d2⟩ := denomR_bounds s1 s2
    obtain ⟨i1, i2⟩ := inv4_bounds d1 d2
    obtain ⟨n1, n2⟩ := abs_le.mp (weight_near A a b)
    rw [show 122 / denomR (sigR (alphaOf F i)) ^ 4 = 122 * (1 / denomR (sigR (alphaOf F i)) ^ 4) by ring, ulp_eq] at n1 n2
    obtain ⟨m1, m2⟩ := abs_le.mp (alpha_near A (show 1 ≤ i by omega) h2)
    unfold entryOf
    rw [abs_le]
    rcases le_total (alphaOf F i) (alphaR i) with hle | hle
    · obtain ⟨k1, k2⟩ := weightR_lipschitz a b (by linarith) (by linarith) hle
      constructor <;> linarith
    · obtain ⟨k1, k2⟩ := weightR_lipschitz (show 10.02 ≤ alphaR i by linarith) (by linarith) a b hle
      constructor <;> linarith
  · rw [entryOf_low A (by omega), hw]
    have hi : (i : ℝ) ≤ 21 := by exact_mod_cast (show i ≤ 21 by omega)
    have : alphaR i ≤ 9.99 := log_le_below (by positivity) (by linarith)
    rw [if_pos (by linarith)]
    norm_num

end Verif
