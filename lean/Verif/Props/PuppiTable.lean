import Verif.Proofs.PuppiTable
import Verif.Props.Puppi
/-! # C56 — the PUPPI weight table -/
namespace Verif
open Spec

variable {F : FloatImpl} {NT NN : Nat}

theorem table_entry (A : Accurate F) (i : Fin PUPPI_TABLE_SIZE) :
    ((F.lut_puppiweight_init i).toNat : Int) = ⌊entryOf F i.val⌋ ∧ ⌊entryOf F i.val⌋ ≤ 245 ∧
    (i.val ≤ 21 → ⌊entryOf F i.val⌋ = 0) ∧ (22 ≤ i.val → 1 ≤ ⌊entryOf F i.val⌋) := by
  have hi : i.val < 1174 := i.isLt
  have hnn : 0 ≤ entryOf F i.val ∧ entryOf F i.val ≤ 245 := by
    by_cases h : 22 ≤ i.val
    · have := entryOf_range A h hi
      exact ⟨by linarith, this.2⟩
    · rw [entryOf_low A (by omega)]; norm_num
  have h0 : 0 ≤ ⌊entryOf F i.val⌋ := Int.floor_nonneg.mpr hnn.1
  have h1 : ⌊entryOf F i.val⌋ ≤ 245 := by
    have := Int.floor_le (entryOf F i.val)
    have : ((⌊entryOf F i.val⌋ : ℤ) : ℝ) ≤ ((245 : ℤ) : ℝ) := by push_cast; linarith
    exact_mod_cast this
  refine ⟨?_, h1, fun h => ?_, fun h => ?_⟩
  · have hdef : F.lut_puppiweight_init i = reg 8 (if entryOf F i.val < 0 then ⌈entryOf F i.val⌉ else ⌊entryOf F i.val⌋) := rfl
    rw [hdef, if_neg (not_lt.mpr hnn.1)]
    exact reg_toNat_of_lt h0 (by norm_num; omega)
  · rw [entryOf_low A h, Int.floor_zero]
  · rw [Int.le_floor]
    have := entryOf_range A h hi
    push_cast
    linarith

/-- **C56.** On any accurate floating-point implementation the entries up to 21 are 0 (the logarithm is below the
median), all others are between 1 and 245 (so the conversion to 8 bits loses nothing but the fraction). -/
theorem C56_range (A : Accurate F) (i : Fin PUPPI_TABLE_SIZE) :
    (i.val ≤ 21 → (F.lut_puppiweight_init i).toNat = 0) ∧
    (22 ≤ i.val → 1 ≤ (F.lut_puppiweight_init i).toNat ∧ (F.lut_puppiweight_init i).toNat ≤ 245) := by
  obtain ⟨a, b, c, d⟩ := table_entry A i
  exact ⟨fun h => by have := c h; omega, fun h => by have := d h; omega⟩

/-- **C56.** The table is non-decreasing. -/
theorem C56_monotone (A : Accurate F) (i j : Fin PUPPI_TABLE_SIZE) (hij : i ≤ j) :
    (F.lut_puppiweight_init i).toNat ≤ (F.lut_puppiweight_init j).toNat := by
  have hj : j.val < 1174 := j.isLt
  have hle : i.val ≤ j.val := hij
  obtain ⟨a, -, c, -⟩ := table_entry A i
  obtain ⟨a', -, -, -⟩ := table_entry A j
  by_cases h : i.val ≤ 21
  · have := c h; omega
  · have step : ∀ k : ℕ, i.val + k < 1174 → entryOf F i.val ≤ entryOf F (i.val + k) := by
      intro k
      induction k with
      | zero => intro _; exact le_refl _
      | succ k ih => intro hk; exact le_trans (ih (by omega)) (entryOf_step A (by omega) hk)
    have hs := step (j.val - i.val) (by omega)
    rw [show i.val + (j.val - i.val) = j.val by omega] at hs
    have := Int.floor_le_floor hs
    omega

/-- **C56.** Every entry is the exact weight in units of 1/256, truncated, up to one hundredth of a unit before
the truncation. -/
theorem C56_accurate (A : Accurate F) (i : Fin PUPPI_TABLE_SIZE) :
    ((F.lut_puppiweight_init i).toNat : ℝ) ≤ 256 * exactWeight i.val + 0.01 ∧
    256 * exactWeight i.val - 0.01 < ((F.lut_puppiweight_init i).toNat : ℝ) + 1 := by
  obtain ⟨a, -⟩ := table_entry A i
  obtain ⟨h1, h2⟩ := abs_le.mp (entryOf_near A (show i.val < 1174 from i.isLt))
  have e : ((F.lut_puppiweight_init i).toNat : ℝ) = ((⌊entryOf F i.val⌋ : ℤ) : ℝ) := by rw [← a]; push_cast; rfl
  rw [e]
  have f1 := Int.floor_le (entryOf F i.val)
  have f2 := Int.lt_floor_add_one (entryOf F i.val)
  constructor <;> linarith

/-- **C56.** With the table of the program the hypothesis of C48 holds: more charged energy never lowers the
PUPPI pt. -/
theorem C56_more_charged_more_pt (A : Accurate F) (pfch pfch' : Arr NT PFChargedObj) (ne out out' : Arr NN PFNeutralObj)
    (Z0 : Z0) (n : Fin NN) (hpt : 0 ≤ (ne n).hwPt.toInt)
    (hmore : ∀ t, PuppiNear Z0 (ne n) (pfch t) →
      (pfch t).hwPt.toInt ^ 2 ≤ (pfch' t).hwPt.toInt ^ 2 ∧ (pfch' t).hwEta = (pfch t).hwEta ∧
      (pfch' t).hwPhi = (pfch t).hwPhi ∧ (pfch' t).hwZ0 = (pfch t).hwZ0)
    (hfit : puppiSum pfch' Z0 (ne n) ≤ 2147483647)
    (h : simple_puppi_hw F.lut_puppiweight_init pfch ne Z0 = .ok out)
    (h' : simple_puppi_hw F.lut_puppiweight_init pfch' ne Z0 = .ok out') :
    (out n).hwPtPuppi.toInt ≤ (out' n).hwPtPuppi.toInt :=
  C48_more_charged_more_pt _ (C56_monotone A) pfch pfch' ne out out' Z0 n hpt hmore hfit h h'

/-- **C56.** A neutral keeps nothing exactly as long as the sum is below `22 * 1024` or its pt is too small: a
sum of at least that much gives a positive weight, and below it the PUPPI pt is 0. -/
theorem C56_threshold (A : Accurate F) (pfch : Arr NT PFChargedObj) (ne out : Arr NN PFNeutralObj) (Z0 : Z0)
    (n : Fin NN) (hfit : ∀ n, puppiSum pfch Z0 (ne n) ≤ 2147483647)
    (h : simple_puppi_hw F.lut_puppiweight_init pfch ne Z0 = .ok out) :
    (puppiSum pfch Z0 (ne n) < 22 * 1024 → (out n).hwPtPuppi = 0) ∧
    (22 * 1024 ≤ puppiSum pfch Z0 (ne n) → 256 ≤ (ne n).hwPt.toInt → 0 < (out n).hwPtPuppi.toInt) := by
  obtain ⟨hw, ref, e, -, hn⟩ := C22_puppi_agree F.lut_puppiweight_init pfch ne Z0 hfit
  rw [e] at h
  injection h with h
  subst h
  have h0 : 0 ≤ puppiSum pfch Z0 (ne n) := puppiSum_nonneg pfch Z0 (ne n)
  have hv : (hw n).hwPtPuppi = reg 16 (puppiPt F.lut_puppiweight_init (puppiSum pfch Z0 (ne n)) (ne n).hwPt.toInt) := by
    rw [(hn n).1]
  rw [hv]
  have hr := pt_range (ne n).hwPt
  generalize puppiSum pfch Z0 (ne n) = s at *
  unfold puppiPt
  constructor
  · intro hs
    split
    · rfl
    · rw [dif_pos (by omega), (C56_range A _).1 (by simp only []; omega)]
      show reg 16 ((ne n).hwPt.toInt * 0 / 256) = 0
      rw [Int.mul_zero]; rfl
  · intro hs hp
    rw [if_neg (by omega)]
    split
    · rename_i hlt
      have hb := (C56_range A ⟨(s / 1024).toNat, show (s / 1024).toNat < 1174 by omega⟩).2 (by simp only []; omega)
      generalize (F.lut_puppiweight_init _).toNat = w at hb ⊢
      have l1 : (ne n).hwPt.toInt * 1 ≤ (ne n).hwPt.toInt * (w : Int) := Int.mul_le_mul_of_nonneg_left (by omega) (by omega)
      have l2 : (ne n).hwPt.toInt * (w : Int) ≤ (ne n).hwPt.toInt * 256 := Int.mul_le_mul_of_nonneg_left (by omega) (by omega)
      rw [reg16_toInt (by omega) (by omega)]
      omega
    · rw [reg16_toInt (by omega) (by omega)]; omega

/-- The hypothesis is met by exact arithmetic, and by any implementation whose results are rounded to a number of
the given relative precision. -/
theorem exact_accurate : Accurate ⟨id, id, Real.log, Real.sqrt, fun x y => x ^ y⟩ where
  one := rfl
  f32 x _ := by simp only [id, sub_self, abs_zero]; positivity
  f64 x _ := by simp only [id, sub_self, abs_zero]; positivity
  log x h _ := by rw [sub_self, abs_zero]; exact div_nonneg (Real.log_nonneg h) (by norm_num)
  sqrt x _ _ := by rw [sub_self, abs_zero]; positivity
  pow x h _ := by
    have : x ^ (4 : ℝ) = x ^ 4 := by exact_mod_cast Real.rpow_natCast x 4
    simp only [this, sub_self, abs_zero]; positivity

/-- A rounding that is not exact: everything is rounded up by a relative `2^-24` or `2^-53` except 1. -/
example : Accurate ⟨fun x => if x = 1 then 1 else x * (1 + 1 / 2 ^ 24), fun x => x * (1 + 1 / 2 ^ 53), fun x => Real.log x * (1 + 1 / 2 ^ 22),
    Real.sqrt, fun x y => x ^ y⟩ where
  one := if_pos rfl
  f32 x _ := by
    simp only []
    split
    · rename_i h; rw [h]; norm_num
    · rw [show x * (1 + 1 / 2 ^ 24) - x = x / 2 ^ 24 by ring, abs_div, abs_of_pos (show (0 : ℝ) < 2 ^ 24 by norm_num)]
  f64 x _ := by
    simp only []
    rw [show x * (1 + 1 / 2 ^ 53) - x = x / 2 ^ 53 by ring, abs_div, abs_of_pos (show (0 : ℝ) < 2 ^ 53 by norm_num)]
  log x h _ := by
    simp only []
    rw [show Real.log x * (1 + 1 / 2 ^ 22) - Real.log x = Real.log x / 2 ^ 22 by ring, abs_of_nonneg]
    exact div_nonneg (Real.log_nonneg h) (by norm_num)
  sqrt := exact_accurate.sqrt
  pow := exact_accurate.pow

end Verif
