import Verif.Spec.PuppiIdeal
import Verif.Props.PuppiTable
/-! # PUPPI in integers against PUPPI in real numbers: property C88 -/
open scoped BigOperators
namespace Verif
open Spec
variable {NT NN : Nat} {F : FloatImpl}

/-- The integer term against the real one, in integers: `n = ⌊p/32⌋` capped, `D = max 1 ⌊d/32⌋`. -/
theorem term_upper {p d k : ℤ} (hp : 0 ≤ p) (hk : 1 ≤ k) (hd : 32 * k ≤ max d 32) :
    k * (max d 32 * (min (p / 32) 131071 * (32768 / max 1 (d / 32)))) ≤ (k + 1) * (32768 * p) := by
  have h1 : min (p / 32) 131071 * 32 ≤ p := by omega
  have h0 : 0 ≤ min (p / 32) 131071 := by omega
  generalize min (p / 32) 131071 = n at *
  obtain ⟨D, hD⟩ : ∃ D, D = max 1 (d / 32) := ⟨_, rfl⟩
  rw [← hD]
  have hDk : k ≤ D := by omega
  have hm : max d 32 ≤ 32 * (D + 1) := by omega
  have hq : D * (32768 / D) ≤ 32768 := Int.mul_ediv_self_le (by omega)
  have hq0 : 0 ≤ 32768 / D := Int.ediv_nonneg (by omega) (by omega)
  generalize 32768 / D = q at *
  generalize max d 32 = m at *
  have hm0 : 0 ≤ m := by omega
  have hnq : 0 ≤ n * q := mul_nonneg h0 hq0
  -- k m n q ≤ k 32 (D+1) n q ≤ 32 (k+1) D n q ≤ 32 (k+1) n 32768 ≤ (k+1) 32768 p
  have s1 : k * (m * (n * q)) ≤ k * (32 * (D + 1) * (n * q)) :=
    mul_le_mul_of_nonneg_left (mul_le_mul_of_nonneg_right hm hnq) (by omega)
  have s2 : k * (32 * (D + 1) * (n * q)) ≤ (k + 1) * (32 * D * (n * q)) := by nlinarith
  have s3 : (k + 1) * (32 * D * (n * q)) ≤ (k + 1) * (32 * (n * 32768)) := by
    have : D * (n * q) ≤ n * 32768 := by nlinarith
    nlinarith
  have s4 : (k + 1) * (32 * (n * 32768)) ≤ (k + 1) * (32768 * p) := by nlinarith
  omega

theorem term_lower {p d : ℤ} (hp : 0 ≤ p) (hd : 0 ≤ d) (hd' : d ≤ 8404) :
    32506 * (min p 4194304 - 32) ≤ max d 32 * (min (p / 32) 131071 * (32768 / max 1 (d / 32))) := by
  have h1 : min p 4194304 - 32 ≤ min (p / 32) 131071 * 32 := by omega
  have h0 : 0 ≤ min (p / 32) 131071 := by omega
  generalize min (p / 32) 131071 = n at *
  obtain ⟨D, hD⟩ : ∃ D, D = max 1 (d / 32) := ⟨_, rfl⟩
  rw [← hD]
  have hD1 : 1 ≤ D := by omega
  have hD2 : D ≤ 262 := by omega
  have hm : 32 * D ≤ max d 32 := by omega
  have hq : 32768 < D * (32768 / D) + D := Int.lt_mul_ediv_self_add (by omega)
  have hq0 : 0 ≤ 32768 / D := Int.ediv_nonneg (by omega) (by omega)
  generalize 32768 / D = q at *
  generalize max d 32 = m at *
  have hnq : 0 ≤ n * q := mul_nonneg h0 hq0
  have s1 : 32 * D * (n * q) ≤ m * (n * q) := mul_le_mul_of_nonneg_right hm hnq
  have s2 : 32506 * n ≤ D * q * n := mul_le_mul_of_nonneg_right (by omega) h0
  nlinarith

theorem max_dist_pos (d : ℤ) : (0 : ℝ) < max (d : ℝ) 32 := lt_max_of_lt_right (by norm_num)

/-- **C88.** One charged candidate in the cone: the integer term is at most `1 + 1/k` times the real one when the
distance is at least `√(32 k)` (twice the real one in any case, `k = 1`), and at least 0.992 times the real one of
what is certainly kept of `pt²`. -/
theorem C88_term (ne : PFNeutralObj) (c : PFChargedObj) (Z0 : Z0) (h : PuppiNear Z0 ne c) :
    (∀ k : ℕ, 1 ≤ k → (k = 1 ∨ 32 * (k : ℤ) ≤ dist2 c.hwEta c.hwPhi ne.hwEta ne.hwPhi) →
      (puppiTerm ne c : ℝ) ≤ (1 + 1 / k) * idealTerm (c.hwPt.toInt ^ 2) ne c) ∧
    0.992 * idealTerm (keptPt2 (c.hwPt.toInt ^ 2)) ne c ≤ puppiTerm ne c := by
  have hp : 0 ≤ c.hwPt.toInt ^ 2 := sq_nonneg _
  have hd0 := dist2_nonneg c.hwEta c.hwPhi ne.hwEta ne.hwPhi
  have hd1 := h.2
  have ht := puppiTerm_nonneg ne c
  unfold idealTerm keptPt2
  unfold puppiTerm at *
  generalize dist2 c.hwEta c.hwPhi ne.hwEta ne.hwPhi = d at *
  have hm := max_dist_pos d
  constructor
  · intro k hk hkd
    have hkr : (0 : ℝ) < k := by exact_mod_cast hk
    have := term_upper (d := d) (k := k) hp (by omega) (by omega)
    generalize min (c.hwPt.toInt ^ 2 / 32) 131071 * (32768 / max 1 (d / 32)) = T at *
    have hr : (k : ℝ) * (max (d : ℝ) 32 * T) ≤ (k + 1) * (32768 * (c.hwPt.toInt : ℝ) ^ 2) := by exact_mod_cast this
    have e : (1 + 1 / (k : ℝ)) * (32768 * (c.hwPt.toInt : ℝ) ^ 2 / max (d : ℝ) 32) =
        ((k + 1) * (32768 * (c.hwPt.toInt : ℝ) ^ 2)) / (k * max (d : ℝ) 32) := by field_simp
    rw [e, le_div_iff₀ (by positivity)]
    linarith
  · have := term_lower (p := c.hwPt.toInt ^ 2) (d := d) hp hd0 hd1
    generalize min (c.hwPt.toInt ^ 2 / 32) 131071 * (32768 / max 1 (d / 32)) = T at *
    have hr : 32506 * (min ((c.hwPt.toInt : ℝ) ^ 2) 4194304 - 32) ≤ max (d : ℝ) 32 * T := by exact_mod_cast this
    have hT : (0 : ℝ) ≤ T := by exact_mod_cast ht
    rw [mul_div_assoc', div_le_iff₀ hm]
    have hmT : 0 ≤ max (d : ℝ) 32 * T := by positivity
    rcases le_total (min ((c.hwPt.toInt : ℝ) ^ 2) 4194304 - 32) 0 with h' | h'
    · rw [max_eq_left h']; linarith
    · rw [max_eq_right h']; linarith

/-- **C88.** The sum over the charged candidates: at most twice the real sum, at most `1 + 1/k` times if no charged
candidate of the cone is closer than `√(32 k)`, and at least 0.992 times the real sum of what is kept of `pt²`. -/
theorem C88_sum (pfch : Arr NT PFChargedObj) (Z0 : Z0) (ne : PFNeutralObj) :
    (puppiSum pfch Z0 ne : ℝ) ≤ 2 * idealSum id pfch Z0 ne ∧
    (∀ k : ℕ, 1 ≤ k → (∀ t, PuppiNear Z0 ne (pfch t) →
        32 * (k : ℤ) ≤ dist2 (pfch t).hwEta (pfch t).hwPhi ne.hwEta ne.hwPhi) →
      (puppiSum pfch Z0 ne : ℝ) ≤ (1 + 1 / k) * idealSum id pfch Z0 ne) ∧
    0.992 * idealSum keptPt2 pfch Z0 ne ≤ puppiSum pfch Z0 ne := by
  have key : ∀ k : ℕ, 1 ≤ k → (∀ t, PuppiNear Z0 ne (pfch t) →
        (k = 1 ∨ 32 * (k : ℤ) ≤ dist2 (pfch t).hwEta (pfch t).hwPhi ne.hwEta ne.hwPhi)) →
      (puppiSum pfch Z0 ne : ℝ) ≤ (1 + 1 / k) * idealSum id pfch Z0 ne := by
    intro k hk hd
    unfold puppiSum idealSum
    rw [Int.cast_sum, Finset.mul_sum]
    refine Finset.sum_le_sum fun t _ => ?_
    by_cases hn : PuppiNear Z0 ne (pfch t)
    · rw [if_pos hn, if_pos hn]
      exact (C88_term ne _ Z0 hn).1 k hk (hd t hn)
    · rw [if_neg hn, if_neg hn]; simp
  refine ⟨?_, fun k hk hd => key k hk fun t ht => Or.inr (hd t ht), ?_⟩
  · have := key 1 le_rfl fun _ _ => Or.inl rfl
    norm_num at this
    exact this
  · unfold puppiSum idealSum
    rw [Int.cast_sum, Finset.mul_sum]
    refine Finset.sum_le_sum fun t _ => ?_
    by_cases hn : PuppiNear Z0 ne (pfch t)
    · rw [if_pos hn, if_pos hn]
      exact (C88_term ne _ Z0 hn).2
    · rw [if_neg hn, if_neg hn]; simp

theorem erfApprox_mono {x y : ℝ} (hx : 0 ≤ x) (hxy : x ≤ y) : erfApprox x ≤ erfApprox y := by
  unfold erfApprox
  have hy : 0 ≤ y := hx.trans hxy
  have h : 1 + 0.278393 * x + 0.230389 * x ^ 2 + 0.000972 * x ^ 3 + 0.078108 * x ^ 4 ≤
      1 + 0.278393 * y + 0.230389 * y ^ 2 + 0.000972 * y ^ 3 + 0.078108 * y ^ 4 := by gcongr
  have h1 : 0 < 1 + 0.278393 * x + 0.230389 * x ^ 2 + 0.000972 * x ^ 3 + 0.078108 * x ^ 4 := by positivity
  gcongr

theorem erfApprox_range {x : ℝ} (hx : 0 ≤ x) : 0 ≤ erfApprox x ∧ erfApprox x ≤ 1 := by
  unfold erfApprox
  have h1 : 1 ≤ 1 + 0.278393 * x + 0.230389 * x ^ 2 + 0.000972 * x ^ 3 + 0.078108 * x ^ 4 := by
    have : 0 ≤ 0.278393 * x + 0.230389 * x ^ 2 + 0.000972 * x ^ 3 + 0.078108 * x ^ 4 := by positivity
    linarith
  have h2 := one_le_pow₀ h1 (n := 4)
  constructor
  · have := (div_le_one (by linarith : (0 : ℝ) < (1 + 0.278393 * x + 0.230389 * x ^ 2 + 0.000972 * x ^ 3 + 0.078108 * x ^ 4) ^ 4)).mpr h2
    linarith
  · have : 0 ≤ 1 / (1 + 0.278393 * x + 0.230389 * x ^ 2 + 0.000972 * x ^ 3 + 0.078108 * x ^ 4) ^ 4 := by positivity
    linarith

theorem idealWeight_mono {x y : ℝ} (hx : 0 ≤ x) (hxy : x ≤ y) : idealWeight x ≤ idealWeight y := by
  have hl : Real.log (x + 1) ≤ Real.log (y + 1) := Real.log_le_log (by linarith) (by linarith)
  have hs : 0 < Real.sqrt 2 := by positivity
  unfold idealWeight
  by_cases hy : 1174 * 1024 ≤ y
  · rw [if_pos hy]
    by_cases h1 : 1174 * 1024 ≤ x
    · rw [if_pos h1]
    · rw [if_neg h1]
      by_cases h2 : Real.log (x + 1) < 10
      · rw [if_pos h2]; norm_num
      · rw [if_neg h2]
        push Not at h2
        exact (erfApprox_range (by have : 0 ≤ Real.log (x + 1) - 10 := by linarith
                                   positivity)).2
  · rw [if_neg hy, if_neg (by linarith)]
    by_cases h2 : Real.log (x + 1) < 10
    · rw [if_pos h2]
      by_cases h3 : Real.log (y + 1) < 10
      · rw [if_pos h3]
      · rw [if_neg h3]
        push Not at h3
        exact (erfApprox_range (by have : 0 ≤ Real.log (y + 1) - 10 := by linarith
                                   positivity)).1
    · rw [if_neg h2, if_neg (by linarith)]
      push Not at h2
      have h0 : 0 ≤ Real.log (x + 1) - 10 := by linarith
      exact erfApprox_mono (by positivity) (by gcongr)

theorem idealWeight_range {x : ℝ} (hx : 0 ≤ x) : 0 ≤ idealWeight x ∧ idealWeight x ≤ 1 := by
  have hs : 0 < Real.sqrt 2 := by positivity
  unfold idealWeight
  by_cases h1 : 1174 * 1024 ≤ x
  · rw [if_pos h1]; norm_num
  · rw [if_neg h1]
    by_cases h2 : Real.log (x + 1) < 10
    · rw [if_pos h2]; norm_num
    · rw [if_neg h2]
      push Not at h2
      have h0 : 0 ≤ Real.log (x + 1) - 10 := by linarith
      exact erfApprox_range (by positivity)

/-- An entry of the table is the weight of the real sum at its lower edge. -/
theorem exactWeight_eq (i : ℕ) (h : i < 1174) : exactWeight i = idealWeight (1024 * i) := by
  unfold exactWeight idealWeight
  have hi : (i : ℝ) < 1174 := by exact_mod_cast h
  rw [if_neg (by linarith : ¬ (1174 * 1024 : ℝ) ≤ 1024 * i)]

theorem puppiPt_range (table : PuppiTable) (sum : ℤ) {pt : ℤ} (h : 0 ≤ pt) :
    0 ≤ puppiPt table sum pt ∧ puppiPt table sum pt ≤ pt := by
  unfold puppiPt
  split
  · omega
  · split
    · next h2 =>
      generalize table _ = w
      have hw : (w.toNat : ℤ) < 256 := by have := w.isLt; omega
      have h1 : 0 ≤ pt * (w.toNat : ℤ) := mul_nonneg h (by omega)
      have h3 : pt * (w.toNat : ℤ) ≤ pt * 256 := mul_le_mul_of_nonneg_left (by omega) h
      omega
    · omega

/-- **C88.** PUPPI in the firmware, with the table of the program on any accurate floating-point implementation,
against PUPPI in real numbers: the PUPPI pt is at most the pt times the real weight of twice the real sum (of `1+1/k`
times the real sum if no charged candidate is closer than `√(32 k)`), up to 1/25600 of the pt; and at least the pt
times the real weight of 0.992 times the real sum of what is kept of `pt²`, less one step of the table, up to
1.01/256 of the pt and one unit. -/
theorem C88_puppi (A : Accurate F) (pfch : Arr NT PFChargedObj) (ne out : Arr NN PFNeutralObj) (Z0 : Z0) (n : Fin NN)
    (hpt : 0 ≤ (ne n).hwPt.toInt) (hfit : ∀ n, puppiSum pfch Z0 (ne n) ≤ 2147483647)
    (h : simple_puppi_hw F.lut_puppiweight_init pfch ne Z0 = .ok out) :
    (∀ k : ℕ, 1 ≤ k → (k = 1 ∨ ∀ t, PuppiNear Z0 (ne n) (pfch t) →
        32 * (k : ℤ) ≤ dist2 (pfch t).hwEta (pfch t).hwPhi (ne n).hwEta (ne n).hwPhi) →
      ((out n).hwPtPuppi.toInt : ℝ) ≤
        (ne n).hwPt.toInt * (idealWeight ((1 + 1 / k) * idealSum id pfch Z0 (ne n)) + 0.01 / 256)) ∧
    ((ne n).hwPt.toInt : ℝ) * (idealWeight (max 0 (0.992 * idealSum keptPt2 pfch Z0 (ne n) - 1024)) - 1.01 / 256) - 1 <
      (out n).hwPtPuppi.toInt := by
  obtain ⟨hw, ref, e, -, hn⟩ := C22_puppi_agree F.lut_puppiweight_init pfch ne Z0 hfit
  rw [e] at h
  injection h with h
  subst h
  have h0 : 0 ≤ puppiSum pfch Z0 (ne n) := puppiSum_nonneg pfch Z0 (ne n)
  obtain ⟨u1, uk, lo⟩ := C88_sum pfch Z0 (ne n)
  have up : ∀ k : ℕ, 1 ≤ k → (k = 1 ∨ ∀ t, PuppiNear Z0 (ne n) (pfch t) →
        32 * (k : ℤ) ≤ dist2 (pfch t).hwEta (pfch t).hwPhi (ne n).hwEta (ne n).hwPhi) →
      (puppiSum pfch Z0 (ne n) : ℝ) ≤ (1 + 1 / k) * idealSum id pfch Z0 (ne n) := by
    rintro k hk (h | h)
    · subst h; norm_num; exact u1
    · exact uk k hk h
  have hv : (hw n).hwPtPuppi.toInt = puppiPt F.lut_puppiweight_init (puppiSum pfch Z0 (ne n)) (ne n).hwPt.toInt := by
    rw [(hn n).1]
    show (reg 16 (puppiPt F.lut_puppiweight_init (puppiSum pfch Z0 (ne n)) (ne n).hwPt.toInt)).toInt = _
    have hr := pt_range (ne n).hwPt
    have hb := puppiPt_range F.lut_puppiweight_init (puppiSum pfch Z0 (ne n)) hpt
    exact reg16_toInt (by omega) (by omega)
  rw [hv]
  generalize puppiSum pfch Z0 (ne n) = S at *
  generalize (ne n).hwPt.toInt = p at *
  have hp : (0 : ℝ) ≤ p := by exact_mod_cast hpt
  have hS : (0 : ℝ) ≤ S := by exact_mod_cast h0
  unfold puppiPt
  by_cases c1 : S < 1024
  · rw [if_pos c1]
    constructor
    · intro k hk hd
      have hx := up k hk hd
      have := (idealWeight_range (hS.trans hx)).1
      push_cast
      positivity
    · have c1' : (S : ℝ) < 1024 := by exact_mod_cast c1
      have hz : max 0 (0.992 * idealSum keptPt2 pfch Z0 (ne n) - 1024) = 0 := max_eq_left (by linarith)
      have hw0 : idealWeight 0 = 0 := by
        unfold idealWeight
        rw [if_neg (by norm_num), if_pos (by norm_num)]
      rw [hz, hw0]
      push_cast
      linarith
  · rw [if_neg c1]
    by_cases c2 : S < 1174 * 1024
    · rw [dif_pos c2]
      obtain ⟨i, hi⟩ : ∃ i : ℕ, i = (S / 1024).toNat := ⟨_, rfl⟩
      have hi2 : i < 1174 := by omega
      have hSi : 1024 * (i : ℤ) ≤ S ∧ S < 1024 * (i : ℤ) + 1024 := by omega
      have e1 : (⟨(S / 1024).toNat, by omega⟩ : Fin 1174) = ⟨i, hi2⟩ := Fin.ext hi.symm
      rw [e1]
      obtain ⟨a1, a2⟩ := C56_accurate A (⟨i, hi2⟩ : Fin PUPPI_TABLE_SIZE)
      rw [show ((⟨i, hi2⟩ : Fin PUPPI_TABLE_SIZE)).val = i from rfl, exactWeight_eq i hi2] at a1 a2
      generalize (F.lut_puppiweight_init ⟨i, hi2⟩).toNat = w at *
      have q1 : p * (w : ℤ) / 256 * 256 ≤ p * w := by omega
      have q2 : p * (w : ℤ) < p * w / 256 * 256 + 256 := by omega
      generalize p * (w : ℤ) / 256 = r at *
      have q1' : (r : ℝ) * 256 ≤ p * w := by exact_mod_cast q1
      have q2' : (p : ℝ) * w < r * 256 + 256 := by exact_mod_cast q2
      have hi0 : (0 : ℝ) ≤ 1024 * i := by positivity
      have hSr : (1024 : ℝ) * i ≤ S := by exact_mod_cast hSi.1
      have hSr2 : (S : ℝ) < 1024 * i + 1024 := by exact_mod_cast hSi.2
      constructor
      · intro k hk hd
        have hx := up k hk hd
        have := idealWeight_mono hi0 (hSr.trans hx)
        have : (p : ℝ) * w ≤ p * (256 * idealWeight ((1 + 1 / k) * idealSum id pfch Z0 (ne n)) + 0.01) :=
          mul_le_mul_of_nonneg_left (by linarith) hp
        linarith
      · have := idealWeight_mono (le_max_left 0 (0.992 * idealSum keptPt2 pfch Z0 (ne n) - 1024))
          (max_le hi0 (by linarith) : max 0 (0.992 * idealSum keptPt2 pfch Z0 (ne n) - 1024) ≤ 1024 * i)
        have : (p : ℝ) * (256 * idealWeight (max 0 (0.992 * idealSum keptPt2 pfch Z0 (ne n) - 1024)) - 1.01) ≤ p * w :=
          mul_le_mul_of_nonneg_left (by linarith) hp
        linarith
    · rw [dif_neg c2]
      constructor
      · intro k hk hd
        have hx := up k hk hd
        have c2' : (1174 * 1024 : ℝ) ≤ S := by exact_mod_cast not_lt.mp c2
        have : idealWeight ((1 + 1 / k) * idealSum id pfch Z0 (ne n)) = 1 := if_pos (c2'.trans hx)
        rw [this]
        nlinarith
      · have := (idealWeight_range (le_max_left 0 (0.992 * idealSum keptPt2 pfch Z0 (ne n) - 1024))).2
        have : (p : ℝ) * (idealWeight (max 0 (0.992 * idealSum keptPt2 pfch Z0 (ne n) - 1024)) - 1.01 / 256) ≤ p * 1 :=
          mul_le_mul_of_nonneg_left (by linarith) hp
        linarith

/-- **C88.** The factor of two is nearly reached: a charged candidate of 10 GeV at a distance of `√61` counts 1.9 times
as much as in real numbers, and gives a neutral its full pt although the real weight is below one. -/
theorem C88_double :
    let c : PFChargedObj := ⟨40, 6, 5, 0, 0⟩
    let ne : PFNeutralObj := ⟨100, 0, 0, 1, 0⟩
    1.9 * idealTerm (c.hwPt.toInt ^ 2) ne c < puppiTerm ne c ∧
    idealWeight (idealSum id (fun _ : Fin 1 => c) 0 ne) < 0.96 ∧
    ∀ table, (simple_puppi_hw (NT := 1) (NN := 1) table (fun _ => c) (fun _ => ne) 0).map (fun o => (o 0).hwPtPuppi) =
      .ok 100 := by
  intro c ne
  have hd : dist2 c.hwEta c.hwPhi ne.hwEta ne.hwPhi = 61 := by decide
  have hp : c.hwPt.toInt = 40 := by decide
  have ht : puppiTerm ne c = 1638400 := by decide
  have hn : PuppiNear 0 ne c := by decide
  have hi : idealTerm (c.hwPt.toInt ^ 2) ne c = 32768 * 1600 / 61 := by
    unfold idealTerm
    rw [hd, hp]; norm_num
  refine ⟨?_, ?_, fun table => ?_⟩
  · rw [hi, ht]; norm_num
  · have hs : idealSum id (fun _ : Fin 1 => c) 0 ne = 32768 * 1600 / 61 := by
      unfold idealSum
      rw [Fin.sum_univ_one, if_pos hn]
      exact hi
    rw [hs]
    unfold idealWeight
    rw [if_neg (by norm_num)]
    have hl := log_le_14 (n := 32768 * 1600 / 61 + 1) (by norm_num) (by norm_num)
    split
    · norm_num
    · next h =>
      push Not at h
      have h2 := sqrt2_bounds
      have hx : (Real.log (32768 * 1600 / 61 + 1) - 10) / 2 / Real.sqrt 2 ≤ 1.4143 := by
        rw [div_le_iff₀ (by linarith)]
        linarith
      have h0 : 0 ≤ (Real.log (32768 * 1600 / 61 + 1) - 10) / 2 / Real.sqrt 2 :=
        div_nonneg (by linarith) (by linarith)
      refine lt_of_le_of_lt (erfApprox_mono h0 hx) ?_
      unfold erfApprox
      norm_num
  · have hsum : puppiSum (fun _ : Fin 1 => c) 0 ne = 1638400 := by decide
    obtain ⟨hw, -, e, -⟩ := C22_puppi_agree (NT := 1) (NN := 1) table (fun _ => c) (fun _ => ne) 0 fun _ => by rw [hsum]; decide
    have := C24_full_pt table _ _ hw 0 0 (by rw [hsum]; decide) (by rw [hsum]; decide) e
    rw [e]
    show Except.ok (hw 0).hwPtPuppi = _
    rw [this]

end Verif
