import Verif.Proofs.Float
import Verif.Proofs.PuppiTable
import Verif.Proofs.Basic
import Verif.Model.Discrete
import Mathlib.Analysis.Real.Pi.Bounds
/-! # Error bounds for the discretisation -/
namespace Verif
open Spec
variable {R : Rounding} (A : IEEE R)
include A

theorem Spec.IEEE.near32 {e e' x y : ℝ} (h : Near e x y) (he : 0 ≤ e) (he1 : e ≤ 1 / 2)
    (h1 : 1 / 2 ^ 90 ≤ y) (h2 : y ≤ 2 ^ 90) (hs : e + 1 / 2 ^ 24 + e / 2 ^ 24 ≤ e') : Near e' (R.f32 x) y := by
  have hy : 0 < y := lt_of_lt_of_le (by positivity) h1
  have hx := h.pos hy he1
  obtain hn | ⟨hn1, hn2⟩ := h.normal he1 h1 h2
  · exact absurd hn hx.ne'
  have hr := A.rel32 (hn2.trans (by norm_num)) hn1
  rw [abs_of_pos hx] at hr
  refine h.trans (e' := 1 / 2 ^ 24) (Near.of_abs (by rw [mul_one_div]; exact hr)) hy.le he (by norm_num) (by norm_num) ?_
  rw [mul_one_div]; exact hs

theorem Spec.IEEE.near64 {e e' x y : ℝ} (h : Near e x y) (he : 0 ≤ e) (he1 : e ≤ 1 / 2)
    (h1 : 1 / 2 ^ 90 ≤ y) (h2 : y ≤ 2 ^ 90) (hs : e + 1 / 2 ^ 53 + e / 2 ^ 53 ≤ e') : Near e' (R.f64 x) y := by
  have hy : 0 < y := lt_of_lt_of_le (by positivity) h1
  have hx := h.pos hy he1
  obtain hn | ⟨hn1, hn2⟩ := h.normal he1 h1 h2
  · exact absurd hn hx.ne'
  have hr := A.rel64 (hn2.trans (by norm_num)) hn1
  rw [abs_of_pos hx] at hr
  refine h.trans (e' := 1 / 2 ^ 53) (Near.of_abs (by rw [mul_one_div]; exact hr)) hy.le he (by norm_num) (by norm_num) ?_
  rw [mul_one_div]; exact hs

/-- The scale of eta and phi is 720/π to `float` accuracy. -/
theorem etaphi_near : Near (1 / 2 ^ 24 + 1 / 2 ^ 48) R.ETAPHI_SCALE (720 / Real.pi) := by
  have p1 := Real.pi_gt_d4
  have p2 := Real.pi_lt_d4
  have hpi : (0 : ℝ) < Real.pi := Real.pi_pos
  have h1 : Near (1 / 2 ^ 53) (R.f64 Real.pi) Real.pi :=
    A.near64 (Near.exact _ hpi.le le_rfl) le_rfl (by norm_num) (by linarith [show (1 : ℝ) / 2 ^ 90 ≤ 1 by norm_num])
      (by linarith [show (4 : ℝ) ≤ 2 ^ 90 by norm_num]) (by norm_num)
  have h2 : Near (1 / 2 ^ 52) (180 / R.f64 Real.pi) (180 / Real.pi) := by
    have := h1.inv hpi (by positivity) (by norm_num) (e' := 1 / 2 ^ 52) (by norm_num)
    have := Near.mul (e := 0) (e' := 1 / 2 ^ 52) (e'' := 1 / 2 ^ 52) (Near.exact 180 (by norm_num) le_rfl) this (by norm_num)
      (by positivity) le_rfl (by positivity) (by norm_num) (by norm_num) (by norm_num)
    rwa [mul_one_div, mul_one_div] at this
  have b1 : (57 : ℝ) ≤ 180 / Real.pi := by rw [le_div_iff₀ hpi]; linarith
  have b2 : 180 / Real.pi ≤ 58 := by rw [div_le_iff₀ hpi]; linarith
  have h3 : Near (1 / 2 ^ 51) (R.f64 (180 / R.f64 Real.pi)) (180 / Real.pi) :=
    A.near64 h2 (by positivity) (by norm_num) (by linarith [show (1 : ℝ) / 2 ^ 90 ≤ 1 by norm_num])
      (by linarith [show (64 : ℝ) ≤ 2 ^ 90 by norm_num]) (by norm_num)
  have h4 : Near (1 / 2 ^ 51) (4 * R.f64 (180 / R.f64 Real.pi)) (4 * (180 / Real.pi)) :=
    Near.mul (e := 0) (Near.exact 4 (by norm_num) le_rfl) h3 (by norm_num)
      (by positivity) le_rfl (by positivity) (by norm_num) (by norm_num) (by norm_num)
  have e4 : 4 * (180 / Real.pi) = 720 / Real.pi := by ring
  rw [e4] at h4
  have b1' : (228 : ℝ) ≤ 720 / Real.pi := by rw [le_div_iff₀ hpi]; linarith
  have b2' : 720 / Real.pi ≤ 230 := by rw [div_le_iff₀ hpi]; linarith
  have b3 : (1 : ℝ) / 2 ^ 90 ≤ 720 / Real.pi := by linarith [show (1 : ℝ) / 2 ^ 90 ≤ 1 by norm_num]
  have b4 : 720 / Real.pi ≤ 2 ^ 90 := by linarith [show (256 : ℝ) ≤ 2 ^ 90 by norm_num]
  have h5 := A.near64 (e' := 1 / 2 ^ 50) h4 (by positivity) (by norm_num) b3 b4 (by norm_num)
  exact A.near32 h5 (by positivity) (by norm_num) b3 b4 (by norm_num)

theorem etaphi_bounds : 229.183 ≤ R.ETAPHI_SCALE ∧ R.ETAPHI_SCALE ≤ 229.184 := by
  have p1 := Real.pi_gt_d6
  have p2 := Real.pi_lt_d6
  have hpi : (0 : ℝ) < Real.pi := Real.pi_pos
  obtain ⟨h1, h2⟩ := etaphi_near A
  have b1 : (229.1830 : ℝ) * (1 + 1 / 2 ^ 22) ≤ 720 / Real.pi := by rw [le_div_iff₀ hpi]; norm_num at p2 ⊢; linarith
  have b2 : 720 / Real.pi ≤ 229.1832 := by rw [div_le_iff₀ hpi]; norm_num at p1 ⊢; linarith
  constructor
  · refine le_trans ?_ h1
    refine le_trans ?_ (mul_le_mul_of_nonneg_right b1 (by norm_num))
    norm_num
  · refine h2.trans ?_
    refine (mul_le_mul_of_nonneg_right b2 (by norm_num)).trans ?_
    norm_num

/-- The scale of the track's eta at the vertex. -/
theorem vtxEta_near : Near (1 / 2 ^ 23) R.VTX_ETA_SCALE 100000 := by
  have h1 : Near (1 / 2 ^ 53) (R.f64 (1 / 10 ^ 5)) (1 / 10 ^ 5) :=
    A.near64 (Near.exact _ (by norm_num) le_rfl) le_rfl (by norm_num) (by norm_num) (by norm_num) (by norm_num)
  have h2 := h1.inv (by norm_num) (by positivity) (by norm_num) (e' := 1 / 2 ^ 52) (by norm_num)
  rw [show (1 : ℝ) / (1 / 10 ^ 5) = 100000 by norm_num] at h2
  have h3 := A.near64 (e' := 1 / 2 ^ 51) h2 (by positivity) (by norm_num) (by norm_num) (by norm_num) (by norm_num)
  exact A.near32 h3 (by positivity) (by norm_num) (by norm_num) (by norm_num) (by norm_num)

theorem vtxPhi_near : Near (1 / 2 ^ 23) R.VTX_PHI_SCALE 400000 := by
  have h1 : Near (1 / 2 ^ 53) (R.f64 (25 / 10 ^ 7)) (25 / 10 ^ 7) :=
    A.near64 (Near.exact _ (by norm_num) le_rfl) le_rfl (by norm_num) (by norm_num) (by norm_num) (by norm_num)
  have h2 := h1.inv (by norm_num) (by positivity) (by norm_num) (e' := 1 / 2 ^ 52) (by norm_num)
  rw [show (1 : ℝ) / (25 / 10 ^ 7) = 400000 by norm_num] at h2
  have h3 := A.near64 (e' := 1 / 2 ^ 51) h2 (by positivity) (by norm_num) (by norm_num) (by norm_num) (by norm_num)
  exact A.near32 h3 (by positivity) (by norm_num) (by norm_num) (by norm_num) (by norm_num)

/-- Reading a discrete value and filling again gives it back. -/
theorem quant_unquant {s : ℝ} (hs1 : 1 ≤ s) (hs2 : s ≤ 2 ^ 20) {n : ℤ} (hn : |n| ≤ 2 ^ 22 - 1) : R.quant s (R.unquant s n) = n := by
  have hs0 : 0 < s := by linarith
  have hnr : |(n : ℝ)| ≤ 2 ^ 22 - 1 := by exact_mod_cast hn
  unfold Rounding.quant Rounding.unquant
  rw [A.f32_int n (by omega)]
  by_cases h0 : n = 0
  · subst h0
    have e0 : R.f32 0 = 0 := by have := A.f32_int 0 (by norm_num); exact_mod_cast this
    rw [Int.cast_zero, zero_div, e0, zero_mul, e0]
    exact_mod_cast cround_int 0
  have hn1 : (1 : ℝ) ≤ |(n : ℝ)| := by exact_mod_cast Int.one_le_abs h0
  apply cround_eq
  set q : ℝ := n / s with hq
  have hqs : q * s = n := by rw [hq]; field_simp
  have haq : |q| * s = |(n : ℝ)| := by rw [← hqs, abs_mul, abs_of_pos hs0]
  have hq1 : 1 / 2 ^ 20 ≤ |q| := by
    rw [div_le_iff₀ (by norm_num)]
    calc (1 : ℝ) ≤ |(n : ℝ)| := hn1
      _ = |q| * s := haq.symm
      _ ≤ |q| * 2 ^ 20 := mul_le_mul_of_nonneg_left hs2 (abs_nonneg _)
  have hq2 : |q| ≤ 2 ^ 22 := by
    calc |q| = |q| * 1 := by ring
      _ ≤ |q| * s := mul_le_mul_of_nonneg_left hs1 (abs_nonneg _)
      _ = |(n : ℝ)| := haq
      _ ≤ 2 ^ 22 := by linarith
  have e1 := A.rel32 (x := q) (hq2.trans (by norm_num)) (le_trans (by norm_num) hq1)
  set u := R.f32 q with hu
  have e2 : |u * s - n| ≤ |(n : ℝ)| / 2 ^ 24 := by
    rw [← hqs, ← sub_mul, abs_mul, abs_of_pos hs0, abs_mul, abs_of_pos hs0]
    calc |u - q| * s ≤ |q| / 2 ^ 24 * s := mul_le_mul_of_nonneg_right e1 hs0.le
      _ = |q| * s / 2 ^ 24 := by ring
  have e3 : |u * s| ≤ |(n : ℝ)| * (1 + 1 / 2 ^ 24) := by
    calc |u * s| = |(u * s - n) + n| := by ring_nf
      _ ≤ |u * s - n| + |(n : ℝ)| := abs_add_le _ _
      _ ≤ |(n : ℝ)| * (1 + 1 / 2 ^ 24) := by linarith
  have e4 := A.abs32 (x := u * s) (by
    refine e3.trans ?_
    calc |(n : ℝ)| * (1 + 1 / 2 ^ 24) ≤ 2 ^ 22 * 2 := mul_le_mul (by linarith) (by norm_num) (by norm_num) (by norm_num)
      _ ≤ 2 ^ 127 := by norm_num)
  calc |R.f32 (u * s) - n| = |(R.f32 (u * s) - u * s) + (u * s - n)| := by ring_nf
    _ ≤ |R.f32 (u * s) - u * s| + |u * s - n| := abs_add_le _ _
    _ ≤ |(n : ℝ)| * (1 + 1 / 2 ^ 24) / 2 ^ 24 + 1 / 2 ^ 150 + |(n : ℝ)| / 2 ^ 24 := by linarith
    _ = |(n : ℝ)| * ((2 + 1 / 2 ^ 24) / 2 ^ 24) + 1 / 2 ^ 150 := by ring
    _ ≤ (2 ^ 22 - 1) * ((2 + 1 / 2 ^ 24) / 2 ^ 24) + 1 / 2 ^ 150 := by
        have : (0 : ℝ) ≤ (2 + 1 / 2 ^ 24) / 2 ^ 24 := by positivity
        linarith [mul_le_mul_of_nonneg_right hnr this]
    _ < 1 / 2 := by norm_num

/-- Filling is within half a unit, up to the accuracy of `float`. -/
theorem quant_err {s x : ℝ} (hx : |x * s| ≤ 2 ^ 100) : |(R.quant s x : ℝ) - x * s| ≤ 1 / 2 + |x * s| / 2 ^ 23 := by
  unfold Rounding.quant
  have e1 := A.abs32 (x := x * s) (hx.trans (by norm_num))
  have e2 := cround_spec (R.f32 (x * s))
  by_cases hsmall : 1 / 2 ^ 100 ≤ |x * s|
  · calc |(cround (R.f32 (x * s)) : ℝ) - x * s| = |((cround (R.f32 (x * s)) : ℝ) - R.f32 (x * s)) + (R.f32 (x * s) - x * s)| := by ring_nf
      _ ≤ |(cround (R.f32 (x * s)) : ℝ) - R.f32 (x * s)| + |R.f32 (x * s) - x * s| := abs_add_le _ _
      _ ≤ 1 / 2 + |x * s| / 2 ^ 23 := by
        have : (1 : ℝ) / 2 ^ 150 ≤ |x * s| / 2 ^ 24 := by
          calc (1 : ℝ) / 2 ^ 150 ≤ 1 / 2 ^ 100 / 2 ^ 24 := by norm_num
            _ ≤ |x * s| / 2 ^ 24 := div_le_div_of_nonneg_right hsmall (by positivity)
        linarith
  · push Not at hsmall
    have h0 : cround (R.f32 (x * s)) = 0 := by
      apply cround_eq
      rw [Int.cast_zero, sub_zero]
      calc |R.f32 (x * s)| = |(R.f32 (x * s) - x * s) + x * s| := by ring_nf
        _ ≤ |R.f32 (x * s) - x * s| + |x * s| := abs_add_le _ _
        _ ≤ 1 / 2 ^ 100 / 2 ^ 24 + 1 / 2 ^ 150 + 1 / 2 ^ 100 := by
            have := div_le_div_of_nonneg_right hsmall.le (show (0 : ℝ) ≤ 2 ^ 24 by positivity)
            linarith
        _ < 1 / 2 := by norm_num
    rw [h0, Int.cast_zero, zero_sub, abs_neg]
    have : (0 : ℝ) ≤ |x * s| / 2 ^ 23 := by positivity
    linarith [show (1 : ℝ) / 2 ^ 100 ≤ 1 / 2 by norm_num]

/-- Multiplication of a `float` by 4 is exact. -/
theorem four_exact {x : ℝ} (hx : IsFloat x) (h : |x| ≤ 2 ^ 100) : R.f32 (x * 4) = x * 4 := by
  apply A.f32.exact
  · rw [abs_mul, show |(4 : ℝ)| = 4 by norm_num]
    calc |x| * 4 ≤ 2 ^ 100 * 4 := by linarith
      _ ≤ 2 ^ 127 := by norm_num
  · obtain ⟨m, e, h1, h2, h3, rfl⟩ := hx
    by_cases he : e + 2 ≤ 104
    · refine ⟨m, e + 2, h1, by omega, he, ?_⟩
      rw [zpow_add₀ (by norm_num)]
      norm_num
      ring
    · have hm : m = 0 := by
        by_contra hm
        have hm1 : (1 : ℝ) ≤ |(m : ℝ)| := by exact_mod_cast Int.one_le_abs hm
        have : (2 : ℝ) ^ (101 : ℕ) ≤ (2 : ℝ) ^ e := by
          rw [← zpow_natCast]
          exact zpow_le_zpow_right₀ (by norm_num) (by push_cast; omega)
        rw [abs_mul, abs_of_pos (zpow_pos (by norm_num : (0 : ℝ) < 2) e)] at h
        have := mul_le_mul hm1 this (by positivity) (by positivity)
        have h5 : (2 : ℝ) ^ 101 ≤ 2 ^ 100 := by linarith
        norm_num at h5
      subst hm
      exact ⟨0, 0, by norm_num, by norm_num, by norm_num, by simp⟩

omit A in
theorem toI16_ok {n : ℤ} (h1 : -32768 ≤ n) (h2 : n ≤ 32767) : ∃ w, toI16 n = .ok w ∧ w.toInt = n := by
  refine ⟨BitVec.ofInt 16 n, if_pos ⟨h1, h2⟩, ?_⟩
  rw [BitVec.toInt_ofInt]
  apply Int.bmod_eq_of_le <;> omega

omit A in
theorem toI16_iff {n : ℤ} {w : BitVec 16} : toI16 n = .ok w ↔ w.toInt = n := by
  constructor
  · intro h
    unfold toI16 at h
    split at h
    · rename_i hr
      injection h with h
      rw [← h, BitVec.toInt_ofInt]
      apply Int.bmod_eq_of_le <;> omega
    · cases h
  · rintro rfl
    have h1 := w.toInt_lt
    have h2 := w.le_toInt
    unfold toI16
    rw [if_pos (by norm_num at h1 h2; omega), BitVec.ofInt_toInt]

omit A in
theorem toI16_toInt (w : BitVec 16) : toI16 w.toInt = .ok w := toI16_iff.mpr rfl

omit A in
theorem toU16_toNat (w : BitVec 16) : toU16 w.toNat = .ok w := by
  have := w.isLt
  unfold toU16
  rw [if_pos (by omega)]
  congr 1
  apply BitVec.eq_of_toNat_eq
  rw [BitVec.toNat_ofInt]
  omega

omit A in
theorem toI32_toInt (w : BitVec 32) : toI32 w.toInt = .ok w := by
  have h1 := w.toInt_lt
  have h2 := w.le_toInt
  unfold toI32
  rw [if_pos (by norm_num at h1 h2; omega), BitVec.ofInt_toInt]

end Verif
