import Verif.Spec.Float
import Mathlib.Data.Int.Log
import Mathlib.Tactic.Linarith
import Mathlib.Tactic.Positivity
import Mathlib.Tactic.FieldSimp
import Mathlib.Tactic.Ring
/-! # Rounding to nearest: error bound, exactness, monotonicity -/
namespace Verif
open Spec

/-- The format has a number close to any number in its range. -/
theorem fp_close {p : ℕ} {emin emax : ℤ} (hp : 1 ≤ p) (hle : emin ≤ emax) (x : ℝ) (hx : |x| ≤ (2 : ℝ) ^ (emax + p - 1)) :
    ∃ y, IsFP p emin emax y ∧ |y - x| ≤ max (|x| / 2 ^ p) ((2 : ℝ) ^ (emin - 1)) := by
  have two : (0 : ℝ) < 2 := by norm_num
  by_cases h0 : x = 0
  · refine ⟨0, ⟨0, emin, by simp, le_refl _, hle, by simp⟩, ?_⟩
    rw [h0, sub_zero, abs_zero]
    exact le_max_of_le_left (by positivity)
  have hpos : 0 < |x| := abs_pos.mpr h0
  set l := Int.log 2 |x| with hl
  have hl1 : (2 : ℝ) ^ l ≤ |x| := by have := Int.zpow_log_le_self (b := 2) (by norm_num) hpos; exact_mod_cast this
  have hl2 : |x| < (2 : ℝ) ^ (l + 1) := by have := Int.lt_zpow_succ_log_self (b := 2) (by norm_num) |x|; exact_mod_cast this
  have hlmax : l ≤ emax + p - 1 := by
    have : (2 : ℝ) ^ l ≤ (2 : ℝ) ^ (emax + p - 1) := hl1.trans hx
    exact (zpow_le_zpow_iff_right₀ (by norm_num)).mp this
  set e := max emin (l - (p - 1)) with he
  have he1 : emin ≤ e := le_max_left _ _
  have he2 : l - (p - 1) ≤ e := le_max_right _ _
  have he3 : e ≤ emax := max_le hle (by omega)
  have hE : (0 : ℝ) < (2 : ℝ) ^ e := zpow_pos two _
  set q := x / (2 : ℝ) ^ e with hq
  have hxq : x = q * (2 : ℝ) ^ e := by rw [hq]; field_simp
  have hq1 : |q| < 2 ^ p := by
    rw [hq, abs_div, abs_of_pos hE, div_lt_iff₀ hE]
    refine hl2.trans_le ?_
    rw [← zpow_natCast, ← zpow_add₀ two.ne']
    exact zpow_le_zpow_right₀ (by norm_num) (by omega)
  have hm : |(round q : ℝ) - q| ≤ 1 / 2 := by rw [abs_sub_comm]; exact abs_sub_round q
  have hm1 : |round q| ≤ 2 ^ p := by
    have h1 : |(round q : ℝ)| < 2 ^ p + 1 := by
      calc |(round q : ℝ)| = |((round q : ℝ) - q) + q| := by ring_nf
        _ ≤ |(round q : ℝ) - q| + |q| := abs_add_le _ _
        _ < 2 ^ p + 1 := by linarith
    have h2 : |round q| < 2 ^ p + 1 := by exact_mod_cast h1
    omega
  have herr : |(round q : ℝ) * (2 : ℝ) ^ e - x| ≤ max (|x| / 2 ^ p) ((2 : ℝ) ^ (emin - 1)) := by
    have h1 : |(round q : ℝ) * (2 : ℝ) ^ e - x| ≤ (2 : ℝ) ^ (e - 1) := by
      have h2 : (round q : ℝ) * (2 : ℝ) ^ e - x = ((round q : ℝ) - q) * (2 : ℝ) ^ e := by rw [hxq]; ring
      rw [h2, abs_mul, abs_of_pos hE, zpow_sub₀ two.ne', zpow_one]
      calc |(round q : ℝ) - q| * (2 : ℝ) ^ e ≤ 1 / 2 * (2 : ℝ) ^ e := mul_le_mul_of_nonneg_right hm hE.le
        _ = (2 : ℝ) ^ e / 2 := by ring
    refine h1.trans ?_
    rcases le_total emin (l - (p - 1)) with h | h
    · refine le_max_of_le_left ?_
      rw [he, max_eq_right h, le_div_iff₀ (by positivity), ← zpow_natCast, ← zpow_add₀ two.ne']
      rw [show l - ((p : ℤ) - 1) - 1 + (p : ℤ) = l by ring]
      exact hl1
    · refine le_max_of_le_right ?_
      rw [he, max_eq_left h]
  by_cases hb : |round q| < 2 ^ p
  · exact ⟨(round q : ℝ) * (2 : ℝ) ^ e, ⟨round q, e, hb, he1, he3, rfl⟩, herr⟩
  · have hb' : |round q| = 2 ^ p := by omega
    have helt : e < emax := by
      by_contra hcon
      have heq : e = emax := by omega
      have h1 : |q| ≤ 2 ^ (p - 1) := by
        rw [hq, abs_div, abs_of_pos hE, div_le_iff₀ hE, heq]
        refine hx.trans (le_of_eq ?_)
        rw [← zpow_natCast, ← zpow_add₀ two.ne']
        congr 1
        push_cast [hp]
        ring
      have h2 : |(round q : ℝ)| ≤ 2 ^ (p - 1) + 1 / 2 := by
        calc |(round q : ℝ)| = |((round q : ℝ) - q) + q| := by ring_nf
          _ ≤ |(round q : ℝ) - q| + |q| := abs_add_le _ _
          _ ≤ 2 ^ (p - 1) + 1 / 2 := by linarith
      have h3 : |(round q : ℝ)| = 2 ^ p := by exact_mod_cast hb'
      rw [h3] at h2
      have h4 : (2 : ℝ) ^ p = 2 * 2 ^ (p - 1) := by
        obtain ⟨k, rfl⟩ : ∃ k, p = k + 1 := ⟨p - 1, by omega⟩
        rw [pow_succ, Nat.add_sub_cancel]
        ring
      have h5 : (1 : ℝ) ≤ 2 ^ (p - 1) := one_le_pow₀ (by norm_num)
      linarith
    have hhalf : ∃ m : ℤ, |m| < 2 ^ p ∧ round q = 2 * m := by
      have h4 : (2 : ℤ) ^ p = 2 * 2 ^ (p - 1) := by
        obtain ⟨k, rfl⟩ : ∃ k, p = k + 1 := ⟨p - 1, by omega⟩
        rw [pow_succ, Nat.add_sub_cancel]
        ring
      have h5 : (0 : ℤ) < 2 ^ (p - 1) := by positivity
      rcases abs_choice (round q) with h | h
      · refine ⟨2 ^ (p - 1), by rw [abs_of_pos h5]; omega, by omega⟩
      · refine ⟨-2 ^ (p - 1), by rw [abs_neg, abs_of_pos h5]; omega, by omega⟩
    obtain ⟨m, hm1, hm2⟩ := hhalf
    refine ⟨(round q : ℝ) * (2 : ℝ) ^ e, ⟨m, e + 1, hm1, by omega, by omega, ?_⟩, herr⟩
    rw [hm2, zpow_add₀ two.ne', zpow_one]
    push_cast
    ring

section nearest
variable {S : ℝ → Prop} {k : ℕ} {f : ℝ → ℝ}

theorem Spec.Nearest.exact (h : Nearest S k f) {x : ℝ} (hx : |x| ≤ 2 ^ k) (hS : S x) : f x = x := by
  have := (h x hx).2 x hS
  rw [sub_self, abs_zero] at this
  exact sub_eq_zero.mp (abs_eq_zero.mp (le_antisymm this (abs_nonneg _)))

theorem Spec.Nearest.mono (h : Nearest S k f) {x y : ℝ} (hx : |x| ≤ 2 ^ k) (hy : |y| ≤ 2 ^ k) (hxy : x ≤ y) : f x ≤ f y := by
  by_contra hcon
  push Not at hcon
  obtain ⟨s1, h1⟩ := h x hx
  obtain ⟨s2, h2⟩ := h y hy
  have e1 := h1 _ s2
  have e2 := h2 _ s1
  rcases eq_or_lt_of_le hxy with heq | hlt
  · rw [heq] at hcon
    exact lt_irrefl _ hcon
  · rw [← sq_le_sq] at e1 e2
    nlinarith

theorem Spec.Nearest.le_of_le (h : Nearest S k f) {x c : ℝ} (hx : |x| ≤ 2 ^ k) (hc : |c| ≤ 2 ^ k) (hS : S c) (hxc : x ≤ c) : f x ≤ c := by
  have := h.mono hx hc hxc
  rwa [h.exact hc hS] at this

theorem Spec.Nearest.ge_of_ge (h : Nearest S k f) {x c : ℝ} (hx : |x| ≤ 2 ^ k) (hc : |c| ≤ 2 ^ k) (hS : S c) (hxc : c ≤ x) : c ≤ f x := by
  have := h.mono hc hx hxc
  rwa [h.exact hc hS] at this

end nearest

section ieee
variable {R : Rounding} (A : IEEE R)
include A

theorem Spec.IEEE.err32 {x : ℝ} (hx : |x| ≤ 2 ^ 127) : |R.f32 x - x| ≤ max (|x| / 2 ^ 24) ((2 : ℝ) ^ (-150 : ℤ)) := by
  obtain ⟨y, h1, h2⟩ := fp_close (p := 24) (emin := -149) (emax := 104) (by norm_num) (by norm_num) x (by
    rw [show (104 : ℤ) + (24 : ℕ) - 1 = ((127 : ℕ) : ℤ) by norm_num, zpow_natCast]; exact hx)
  exact ((A.f32 x hx).2 y h1).trans h2

theorem Spec.IEEE.err64 {x : ℝ} (hx : |x| ≤ 2 ^ 1023) : |R.f64 x - x| ≤ max (|x| / 2 ^ 53) ((2 : ℝ) ^ (-1075 : ℤ)) := by
  obtain ⟨y, h1, h2⟩ := fp_close (p := 53) (emin := -1074) (emax := 971) (by norm_num) (by norm_num) x (by
    rw [show (971 : ℤ) + (53 : ℕ) - 1 = ((1023 : ℕ) : ℤ) by norm_num, zpow_natCast]; exact hx)
  exact ((A.f64 x hx).2 y h1).trans h2

/-- Relative error for numbers that are not tiny. -/
theorem Spec.IEEE.rel32 {x : ℝ} (hx : |x| ≤ 2 ^ 127) (hx1 : 1 / 2 ^ 100 ≤ |x|) : |R.f32 x - x| ≤ |x| / 2 ^ 24 := by
  refine (A.err32 hx).trans (max_le le_rfl ?_)
  rw [le_div_iff₀ (by norm_num)]
  refine le_trans ?_ hx1
  rw [zpow_neg, show (150 : ℤ) = ((150 : ℕ) : ℤ) from rfl, zpow_natCast]
  norm_num

theorem Spec.IEEE.rel64 {x : ℝ} (hx : |x| ≤ 2 ^ 127) (hx1 : 1 / 2 ^ 100 ≤ |x|) : |R.f64 x - x| ≤ |x| / 2 ^ 53 := by
  refine (A.err64 (hx.trans (pow_le_pow_right₀ (by norm_num) (by norm_num)))).trans (max_le le_rfl ?_)
  rw [le_div_iff₀ (by norm_num)]
  refine le_trans ?_ hx1
  rw [zpow_neg, show (1075 : ℤ) = ((1075 : ℕ) : ℤ) from rfl, zpow_natCast]
  rw [one_div, ← div_eq_inv_mul, div_le_iff₀ (by positivity), inv_mul_eq_div, le_div_iff₀ (by positivity), ← pow_add]
  exact pow_le_pow_right₀ (by norm_num) (by norm_num)

/-- Error of `float` for any number. -/
theorem Spec.IEEE.abs32 {x : ℝ} (hx : |x| ≤ 2 ^ 127) : |R.f32 x - x| ≤ |x| / 2 ^ 24 + 1 / 2 ^ 150 := by
  refine (A.err32 hx).trans (max_le ?_ ?_)
  · have : (0 : ℝ) ≤ 1 / 2 ^ 150 := by positivity
    linarith
  · have h : (0 : ℝ) ≤ |x| / 2 ^ 24 := by positivity
    rw [zpow_neg, show (150 : ℤ) = ((150 : ℕ) : ℤ) from rfl, zpow_natCast, one_div]
    linarith

end ieee

/-- `m * 2^e` is a `float`. -/
theorem isFloat_mul (m e : ℤ) (hm : |m| < 2 ^ 24) (h1 : -149 ≤ e) (h2 : e ≤ 104) : IsFloat (m * (2 : ℝ) ^ e) := ⟨m, e, hm, h1, h2, rfl⟩

/-- Integers of up to 24 bits are `float`s. -/
theorem isFloat_int (n : ℤ) (h : |n| ≤ 2 ^ 24) : IsFloat n := by
  by_cases hlt : |n| < 2 ^ 24
  · exact ⟨n, 0, hlt, by norm_num, by norm_num, by simp⟩
  · rcases abs_choice n with hc | hc
    · exact ⟨2 ^ 23, 1, by norm_num, by norm_num, by norm_num, by rw [show n = 2 ^ 24 by omega]; norm_num⟩
    · exact ⟨-2 ^ 23, 1, by norm_num, by norm_num, by norm_num, by rw [show n = -2 ^ 24 by omega]; norm_num⟩

theorem isDouble_int (n : ℤ) (h : |n| < 2 ^ 53) : IsDouble n := ⟨n, 0, h, by norm_num, by norm_num, by simp⟩

/-- Every `float` is a `double`. -/
theorem Spec.IsFloat.isDouble {x : ℝ} (h : IsFloat x) : IsDouble x := by
  obtain ⟨m, e, h1, h2, h3, h4⟩ := h
  exact ⟨m, e, by omega, by omega, by omega, h4⟩

theorem Spec.IsFloat.abs_le {x : ℝ} (h : IsFloat x) : |x| ≤ 2 ^ 128 := by
  obtain ⟨m, e, h1, h2, h3, h4⟩ := h
  rw [h4, abs_mul, abs_of_pos (zpow_pos (by norm_num : (0 : ℝ) < 2) e)]
  have hm : |(m : ℝ)| ≤ 2 ^ 24 := by exact_mod_cast h1.le
  have he : (2 : ℝ) ^ e ≤ 2 ^ 104 := by
    rw [← zpow_natCast]
    exact zpow_le_zpow_right₀ (by norm_num) (by exact_mod_cast h3)
  calc |(m : ℝ)| * (2 : ℝ) ^ e ≤ 2 ^ 24 * 2 ^ 104 := mul_le_mul hm he (zpow_pos (by norm_num) e).le (by positivity)
    _ = 2 ^ 128 := by norm_num

theorem Spec.IEEE.f32_int {R : Rounding} (A : IEEE R) (n : ℤ) (h : |n| ≤ 2 ^ 24) : R.f32 n = n :=
  A.f32.exact (by
    have : |(n : ℝ)| ≤ 2 ^ 24 := by exact_mod_cast h
    exact this.trans (by norm_num)) (isFloat_int n h)

/-! ### Rounding to integers -/

theorem cround_spec (x : ℝ) : |(cround x : ℝ) - x| ≤ 1 / 2 := by
  unfold cround
  split
  · have h1 := Int.floor_le (x + 1 / 2)
    have h2 := Int.lt_floor_add_one (x + 1 / 2)
    rw [abs_le]
    constructor <;> linarith
  · have h1 := Int.le_ceil (x - 1 / 2)
    have h2 := Int.ceil_lt_add_one (x - 1 / 2)
    rw [abs_le]
    constructor <;> linarith

theorem cround_eq {x : ℝ} {n : ℤ} (h : |x - n| < 1 / 2) : cround x = n := by
  have h1 := cround_spec x
  have h2 : |(cround x : ℝ) - n| < 1 := by
    calc |(cround x : ℝ) - n| = |((cround x : ℝ) - x) + (x - n)| := by ring_nf
      _ ≤ |(cround x : ℝ) - x| + |x - n| := abs_add_le _ _
      _ < 1 := by linarith
  have h3 : |cround x - n| < 1 := by exact_mod_cast h2
  have := abs_lt.mp h3
  omega

theorem cround_int (n : ℤ) : cround n = n := cround_eq (by simp)

theorem cround_mono {x y : ℝ} (h : x ≤ y) : cround x ≤ cround y := by
  unfold cround
  split
  · rw [if_pos (by linarith)]
    exact Int.floor_le_floor (by linarith)
  · split
    · rename_i h1 h2
      have h3 : ⌈x - 1 / 2⌉ ≤ 0 := Int.ceil_le.mpr (by push_cast; linarith)
      have h4 : 0 ≤ ⌊y + 1 / 2⌋ := Int.floor_nonneg.mpr (by linarith)
      omega
    · exact Int.ceil_le_ceil (by linarith)

theorem cround_neg (x : ℝ) : cround (-x) = -cround x := by
  unfold cround
  rcases lt_trichotomy x 0 with h | h | h
  · rw [if_pos (by linarith), if_neg (by linarith), ← Int.floor_neg]
    congr 1
    ring
  · subst h
    norm_num
  · rw [if_neg (by linarith), if_pos h.le, ← Int.ceil_neg]
    congr 1
    ring

theorem ctrunc_spec (x : ℝ) : |(ctrunc x : ℝ)| ≤ |x| ∧ |(ctrunc x : ℝ) - x| < 1 ∧ 0 ≤ (ctrunc x : ℝ) * x := by
  unfold ctrunc
  split
  · rename_i h
    have h1 := Int.floor_le x
    have h2 := Int.lt_floor_add_one x
    have h3 : (0 : ℝ) ≤ ⌊x⌋ := by exact_mod_cast Int.floor_nonneg.mpr h
    rw [abs_of_nonneg h3, abs_of_nonneg h]
    refine ⟨h1, by rw [abs_lt]; constructor <;> linarith, mul_nonneg h3 h⟩
  · rename_i h
    push Not at h
    have h1 := Int.le_ceil x
    have h2 := Int.ceil_lt_add_one x
    have h3 : (⌈x⌉ : ℝ) ≤ 0 := by exact_mod_cast Int.ceil_le.mpr (by simpa using h.le)
    rw [abs_of_nonpos h3, abs_of_neg h]
    refine ⟨by linarith, by rw [abs_lt]; constructor <;> linarith, mul_nonneg_of_nonpos_of_nonpos h3 h.le⟩

theorem ctrunc_mono {x y : ℝ} (h : x ≤ y) : ctrunc x ≤ ctrunc y := by
  unfold ctrunc
  split
  · rw [if_pos (by linarith)]
    exact Int.floor_le_floor h
  · split
    · rename_i h1 h2
      have h3 : ⌈x⌉ ≤ 0 := Int.ceil_le.mpr (by push_cast; linarith)
      have h4 : 0 ≤ ⌊y⌋ := Int.floor_nonneg.mpr h2
      omega
    · exact Int.ceil_le_ceil h

theorem ctrunc_int (n : ℤ) : ctrunc n = n := by
  unfold ctrunc
  split <;> simp

end Verif
