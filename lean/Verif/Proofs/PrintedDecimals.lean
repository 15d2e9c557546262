import Verif.Spec.VertexTestOutput
import Verif.Proofs.Float
/-! # Lemmas: the numbers with decimals printed by the vertex test bench are rounded to nearest, in spite of the
floating-point arithmetic -/
namespace Verif
open Spec

theorem le_1023 : (128 : ℝ) ≤ 2 ^ 1023 :=
  calc (128 : ℝ) = 2 ^ 7 := by norm_num
    _ ≤ 2 ^ 1023 := pow_le_pow_right₀ (by norm_num) (by norm_num)

theorem Spec.Nearest.nonneg64 {R : Rounding} (A : IEEE R) {x : ℝ} (hx : |x| ≤ 2 ^ 1023) (h : 0 ≤ x) : 0 ≤ R.f64 x :=
  A.f64.ge_of_ge hx (by simp) ⟨0, 0, by simp, by norm_num, by norm_num, by simp⟩ h

theorem Spec.IEEE.f64_nat {R : Rounding} (A : IEEE R) (n : ℕ) (h : n ≤ 2 ^ 20) : R.f64 n = n := by
  have h1 : ((n : ℤ) : ℝ) = (n : ℝ) := by norm_num
  rw [← h1]
  refine A.f64.exact ?_ (isDouble_int _ ?_)
  · rw [h1, abs_of_nonneg (by positivity)]
    have : (n : ℝ) ≤ 2 ^ 20 := by exact_mod_cast h
    exact this.trans (pow_le_pow_right₀ (by norm_num) (by norm_num))
  · rw [abs_of_nonneg (by positivity)]
    have : (n : ℤ) ≤ 2 ^ 20 := by exact_mod_cast h
    omega

theorem Spec.IEEE.f64_small {R : Rounding} (A : IEEE R) {x : ℝ} (hx : |x| ≤ 128) : |R.f64 x - x| ≤ 1 / 2 ^ 45 := by
  have h1 : |x| ≤ 2 ^ 1023 := hx.trans le_1023
  refine (A.err64 h1).trans (max_le ?_ ?_)
  · rw [div_le_div_iff₀ (by positivity) (by positivity)]
    have : (2 : ℝ) ^ 53 = 2 ^ 45 * 256 := by norm_num
    rw [this]
    have : (0 : ℝ) < 2 ^ 45 := by positivity
    nlinarith
  · rw [show (1 : ℝ) / 2 ^ 45 = (2 : ℝ) ^ (-45 : ℤ) by norm_num]
    exact zpow_le_zpow_right₀ (by norm_num) (by norm_num)

/-- A ratio of counts up to 250, computed in `float`, prints as the ratio rounded to three decimals. -/
theorem ratio_close {F : FloatText} (A : PrintsNearest F) {a b : ℕ} (hab : a ≤ b) (hb : 0 < b) (hb1 : b ≤ 250) :
    |(F.thousandths (F.R.f32 (F.R.f32 a / F.R.f32 b)) : ℝ) / 1000 - a / b| ≤ 1 / 2000 := by
  have fint : ∀ n : ℕ, n ≤ 250 → F.R.f32 n = n := by
    intro n hn
    have := A.ieee.f32_int (n : ℤ) (by rw [abs_of_nonneg (by positivity)]; omega)
    simpa using this
  rw [fint a (by omega), fint b hb1]
  have hbR : (0 : ℝ) < b := by exact_mod_cast hb
  have hq0 : (0 : ℝ) ≤ a / b := by positivity
  have hq1 : (a : ℝ) / b ≤ 1 := by rw [div_le_one hbR]; exact_mod_cast hab
  have hqa : |(a : ℝ) / b| ≤ 1 := by rw [abs_of_nonneg hq0]; exact hq1
  have hq127 : |(a : ℝ) / b| ≤ 2 ^ 127 := hqa.trans (by norm_num)
  have herr : |F.R.f32 (a / b) - a / b| ≤ 1 / 10 ^ 7 := by
    have := A.ieee.abs32 hq127
    have h2 : |(a : ℝ) / b| / 2 ^ 24 + 1 / 2 ^ 150 ≤ 1 / 2 ^ 24 + 1 / 2 ^ 150 := by
      have : |(a : ℝ) / b| / 2 ^ 24 ≤ 1 / 2 ^ 24 := div_le_div_of_nonneg_right hqa (by positivity)
      linarith
    have h3 : (1 : ℝ) / 2 ^ 24 + 1 / 2 ^ 150 ≤ 1 / 10 ^ 7 := by norm_num
    linarith
  have hpos : 0 ≤ F.R.f32 (a / b) := A.ieee.f32.ge_of_ge hq127 (by simp) ⟨0, 0, by simp, by norm_num, by norm_num, by simp⟩ hq0
  have hn := A.nearest _ hpos
  generalize F.R.f32 (a / b) = x at herr hpos hn
  generalize F.thousandths x = d at hn
  have h1 : |(d : ℝ) - 1000 * (a / b)| ≤ 1 / 2 + 1 / 10 ^ 4 := by
    rw [abs_le] at hn herr ⊢
    constructor <;> [skip; skip] <;> nlinarith [hn.1, hn.2, herr.1, herr.2]
  have h2 : |(2 * b * d - 2000 * a : ℝ)| < b + 1 := by
    have e : (2 * b * d - 2000 * a : ℝ) = 2 * b * (d - 1000 * (a / b)) := by field_simp; ring
    rw [e, abs_mul, abs_of_pos (by positivity : (0 : ℝ) < 2 * b)]
    have hbl : (b : ℝ) ≤ 250 := by exact_mod_cast hb1
    nlinarith
  have h3 : |(2 * b * d - 2000 * a : ℤ)| < b + 1 := by exact_mod_cast h2
  have h4 : |(2 * b * d - 2000 * a : ℤ)| ≤ b := by omega
  have h5 : |(2 * b * d - 2000 * a : ℝ)| ≤ b := by exact_mod_cast h4
  have e : (d : ℝ) / 1000 - a / b = (2 * b * d - 2000 * a) / (2000 * b) := by field_simp; ring
  rw [e, abs_div, abs_of_pos (by positivity : (0 : ℝ) < 2000 * b), div_le_div_iff₀ (by positivity) (by norm_num)]
  nlinarith

/-- Half the root of a fraction with a small denominator is not close to the middle of two thousandths without being it. -/
theorem root_apart {s : ℤ} {n d : ℕ} (hs : 0 ≤ s) (hn : 0 < n) (hn1 : n ≤ 250) (hsn : s ≤ 100 * n)
    (h : |(d : ℝ) - 500 * √((s : ℝ) / n)| ≤ 1 / 2 + 1 / 10 ^ 8) : |(d : ℝ) - 500 * √((s : ℝ) / n)| ≤ 1 / 2 := by
  have hnR : (0 : ℝ) < n := by exact_mod_cast hn
  have hn250 : (n : ℝ) ≤ 250 := by exact_mod_cast hn1
  have hsR : (0 : ℝ) ≤ s := by exact_mod_cast hs
  have hq : (0 : ℝ) ≤ s / n := by positivity
  set r := √((s : ℝ) / n) with hr
  have hr0 : 0 ≤ r := Real.sqrt_nonneg _
  have hr2 : r ^ 2 * n = s := by rw [hr, Real.sq_sqrt hq]; field_simp
  have hr10 : r ≤ 10 := by
    rw [hr, show (10 : ℝ) = √100 by rw [show (100 : ℝ) = 10 ^ 2 by norm_num, Real.sqrt_sq (by norm_num)]]
    refine Real.sqrt_le_sqrt ?_
    rw [div_le_iff₀ hnR]
    exact_mod_cast hsn
  rw [abs_le] at h ⊢
  constructor
  · by_contra hc
    push Not at hc
    have h1 : (2 * d + 1 : ℝ) < 1000 * r := by linarith
    have h2 : ((2 * d + 1) ^ 2 * n : ℝ) < 10 ^ 6 * s := by
      rw [← hr2]
      have : ((2 * d + 1) ^ 2 : ℝ) < (1000 * r) ^ 2 := by
        have : (0 : ℝ) ≤ 2 * d + 1 := by positivity
        nlinarith
      nlinarith
    have h3 : ((2 * d + 1) ^ 2 * n : ℤ) < 10 ^ 6 * s := by exact_mod_cast h2
    have h4 : ((2 * d + 1) ^ 2 * n + 1 : ℤ) ≤ 10 ^ 6 * s := h3
    have h5 : ((2 * d + 1) ^ 2 * n + 1 : ℝ) ≤ 10 ^ 6 * s := by exact_mod_cast h4
    rw [← hr2] at h5
    have h6 : 1000 * r ≤ 2 * d + 1 + 2 / 10 ^ 8 := by linarith [h.1]
    have h7 : (1000 * r) ^ 2 ≤ (2 * d + 1 + 2 / 10 ^ 8) ^ 2 := pow_le_pow_left₀ (by positivity) h6 2
    have h8 : (2 * d + 1 + 2 / 10 ^ 8 : ℝ) ^ 2 ≤ (2 * d + 1) ^ 2 + 1 / 1000 := by
      have : (2 * d + 1 : ℝ) ≤ 10000 := by linarith
      nlinarith
    have h9 : (1000 * r) ^ 2 * n ≤ ((2 * d + 1) ^ 2 + 1 / 1000) * n := mul_le_mul_of_nonneg_right (h7.trans h8) hnR.le
    nlinarith
  · by_contra hc
    push Not at hc
    have h1 : 1000 * r < (2 * d - 1 : ℝ) := by linarith
    have hd : (0 : ℝ) < 2 * d - 1 := by nlinarith
    have h2 : (10 ^ 6 * s : ℝ) < (2 * d - 1) ^ 2 * n := by
      rw [← hr2]
      have : ((1000 * r) ^ 2 : ℝ) < (2 * d - 1) ^ 2 := by nlinarith
      nlinarith
    have h3 : (10 ^ 6 * s : ℤ) < (2 * d - 1) ^ 2 * n := by exact_mod_cast h2
    have h4 : (10 ^ 6 * s + 1 : ℤ) ≤ (2 * d - 1) ^ 2 * n := h3
    have h5 : (10 ^ 6 * s + 1 : ℝ) ≤ (2 * d - 1) ^ 2 * n := by exact_mod_cast h4
    rw [← hr2] at h5
    have h6 : (2 * d - 1 : ℝ) ≤ 1000 * r + 2 / 10 ^ 8 := by linarith [h.2]
    have h7 : (2 * d - 1 : ℝ) ^ 2 ≤ (1000 * r + 2 / 10 ^ 8) ^ 2 := pow_le_pow_left₀ hd.le h6 2
    have h8 : (1000 * r + 2 / 10 ^ 8 : ℝ) ^ 2 ≤ (1000 * r) ^ 2 + 1 / 1000 := by nlinarith
    have h9 : (2 * d - 1 : ℝ) ^ 2 * n ≤ ((1000 * r) ^ 2 + 1 / 1000) * n := mul_le_mul_of_nonneg_right (h7.trans h8) hnR.le
    nlinarith

/-- The resolution, computed in `double` from up to 250 squares of mean at most 100, prints as its value rounded to three decimals. -/
theorem resolution_close {F : FloatText} (A : PrintsNearest F) {s : ℤ} {n : ℕ} (hs : 0 ≤ s) (hn : 0 < n) (hn1 : n ≤ 250) (hsn : s ≤ 100 * n) :
    |(F.thousandths (F.R.f64 (1 / 2 * F.R.f64 (√(F.R.f64 (s / F.R.f64 n))))) : ℝ) / 1000 - √((s : ℝ) / n) / 2| ≤ 1 / 2000 := by
  have hnR : (0 : ℝ) < n := by exact_mod_cast hn
  have hn250 : (n : ℝ) ≤ 250 := by exact_mod_cast hn1
  have hsR : (0 : ℝ) ≤ s := by exact_mod_cast hs
  rw [A.ieee.f64_nat n (by omega)]
  have hq : (0 : ℝ) ≤ s / n := by positivity
  have hq100 : (s : ℝ) / n ≤ 100 := by rw [div_le_iff₀ hnR]; exact_mod_cast hsn
  have big : ∀ {x : ℝ}, |x| ≤ 128 → |x| ≤ 2 ^ 1023 := fun {x} h => h.trans le_1023
  have hqa : |(s : ℝ) / n| ≤ 128 := by rw [abs_of_nonneg hq]; linarith
  have e1 := A.ieee.f64_small hqa
  have p1 : 0 ≤ F.R.f64 (s / n) := Nearest.nonneg64 A.ieee (big hqa) hq
  have hroot : |√(F.R.f64 (s / n)) - √((s : ℝ) / n)| ≤ 1 / 10 ^ 12 := by
    rcases eq_or_lt_of_le hs with h0 | h0
    · rw [← h0]
      have : F.R.f64 (((0 : ℤ) : ℝ) / n) = ((0 : ℤ) : ℝ) / n := by
        refine A.ieee.f64.exact (by simp) ⟨0, 0, by simp, by norm_num, by norm_num, by simp⟩
      rw [this]
      simp
    · have hs1 : (1 : ℝ) ≤ s := by exact_mod_cast h0
      have hlow : (1 : ℝ) / 256 ≤ s / n := by
        rw [div_le_div_iff₀ (by norm_num) hnR]
        nlinarith
      have hr16 : (1 : ℝ) / 16 ≤ √((s : ℝ) / n) := by
        rw [show (1 : ℝ) / 16 = √(1 / 256) by rw [show (1 : ℝ) / 256 = (1 / 16) ^ 2 by norm_num, Real.sqrt_sq (by norm_num)]]
        exact Real.sqrt_le_sqrt hlow
      have a0 := Real.sqrt_nonneg (F.R.f64 (s / n))
      have a2 := Real.sq_sqrt p1
      have b2 := Real.sq_sqrt hq
      generalize √(F.R.f64 (s / n)) = u at a0 a2 ⊢
      generalize √((s : ℝ) / n) = v at b2 hr16 ⊢
      rw [← a2, ← b2] at e1
      have hfac : u ^ 2 - v ^ 2 = (u - v) * (u + v) := by ring
      rw [hfac, abs_mul, abs_of_pos (by linarith : 0 < u + v)] at e1
      have h16 : |u - v| * (1 / 16) ≤ |u - v| * (u + v) := mul_le_mul_of_nonneg_left (by linarith) (abs_nonneg _)
      have : (16 : ℝ) * (1 / 2 ^ 45) ≤ 1 / 10 ^ 12 := by norm_num
      linarith
  have hr0 : 0 ≤ √((s : ℝ) / n) := Real.sqrt_nonneg _
  have hr10 : √((s : ℝ) / n) ≤ 10 := by
    rw [show (10 : ℝ) = √100 by rw [show (100 : ℝ) = 10 ^ 2 by norm_num, Real.sqrt_sq (by norm_num)]]
    exact Real.sqrt_le_sqrt hq100
  have a0 := Real.sqrt_nonneg (F.R.f64 (s / n))
  have ha : |√(F.R.f64 (s / n))| ≤ 128 := by
    rw [abs_of_nonneg a0]
    have := (abs_le.mp hroot).2
    have : (1 : ℝ) / 10 ^ 12 ≤ 1 := by norm_num
    linarith
  have e2 := A.ieee.f64_small ha
  have p2 : 0 ≤ F.R.f64 √(F.R.f64 (s / n)) := Nearest.nonneg64 A.ieee (big ha) a0
  generalize √(F.R.f64 (s / n)) = u at *
  generalize F.R.f64 u = z at *
  have tiny : (1 : ℝ) / 2 ^ 45 ≤ 1 / 10 ^ 13 := by norm_num
  have t12 : (1 : ℝ) / 10 ^ 12 ≤ 1 := by norm_num
  have t13 : (1 : ℝ) / 10 ^ 13 ≤ 1 := by norm_num
  have hz : |1 / 2 * z| ≤ 128 := by
    rw [abs_of_nonneg (by linarith)]
    have := (abs_le.mp e2).2
    have := (abs_le.mp hroot).2
    linarith
  have e3 := A.ieee.f64_small hz
  have p3 : 0 ≤ F.R.f64 (1 / 2 * z) := Nearest.nonneg64 A.ieee (big hz) (by linarith)
  have hn' := A.nearest _ p3
  generalize F.R.f64 (1 / 2 * z) = y at *
  generalize F.thousandths y = d at *
  have hd : |(d : ℝ) - 500 * √((s : ℝ) / n)| ≤ 1 / 2 + 1 / 10 ^ 8 := by
    have u1 : (1 : ℝ) / 10 ^ 12 * 500 + 1 / 10 ^ 13 * 500 + 1 / 10 ^ 13 * 1000 ≤ 1 / 10 ^ 8 := by norm_num
    rw [abs_le] at *
    constructor <;> linarith [hn'.1, hn'.2, e3.1, e3.2, e2.1, e2.2, hroot.1, hroot.2]
  have := root_apart hs hn hn1 hsn hd
  rw [abs_le] at this ⊢
  constructor <;> linarith [this.1, this.2]

end Verif
