import Verif.Model.Random
import Verif.Spec.Random
import Verif.Spec.Float
import Verif.Proofs.Float
import Verif.Proofs.Basic
import Verif.Proofs.SimpleVtx
import Mathlib.Analysis.Real.Pi.Bounds
/-! # Ranges of the generated events -/
namespace Verif
open Spec Rounding
variable {R : Rounding} (A : IEEE R) {D : Rand}
include A

theorem Spec.IEEE.box32 {a b : ℤ} {x : ℝ} (ha : |a| ≤ 2 ^ 24) (hb : |b| ≤ 2 ^ 24) (h1 : (a : ℝ) ≤ x) (h2 : x ≤ b) :
    (a : ℝ) ≤ R.f32 x ∧ R.f32 x ≤ b := by
  have ha' : |(a : ℝ)| ≤ 2 ^ 24 := by exact_mod_cast ha
  have hb' : |(b : ℝ)| ≤ 2 ^ 24 := by exact_mod_cast hb
  have hx : |x| ≤ 2 ^ 127 := by
    rw [abs_le] at ha' hb' ⊢
    norm_num at ha' hb' ⊢
    constructor <;> linarith
  exact ⟨A.f32.ge_of_ge hx (ha'.trans (by norm_num)) (isFloat_int a ha) h1, A.f32.le_of_le hx (hb'.trans (by norm_num)) (isFloat_int b hb) h2⟩

theorem Spec.IEEE.box64 {a b : ℤ} {x : ℝ} (ha : |a| ≤ 2 ^ 24) (hb : |b| ≤ 2 ^ 24) (h1 : (a : ℝ) ≤ x) (h2 : x ≤ b) :
    (a : ℝ) ≤ R.f64 x ∧ R.f64 x ≤ b := by
  have ha' : |(a : ℝ)| ≤ 2 ^ 24 := by exact_mod_cast ha
  have hb' : |(b : ℝ)| ≤ 2 ^ 24 := by exact_mod_cast hb
  have p : (2 : ℝ) ^ 24 ≤ 2 ^ 1023 := pow_le_pow_right₀ (by norm_num) (by norm_num)
  have hx : |x| ≤ 2 ^ 1023 := by
    refine le_trans ?_ p
    rw [abs_le] at ha' hb' ⊢
    constructor <;> linarith
  exact ⟨A.f64.ge_of_ge hx (ha'.trans p) (isDouble_int a (by omega)) h1, A.f64.le_of_le hx (hb'.trans p) (isDouble_int b (by omega)) h2⟩

/-- Halves of integers are representable too. -/
theorem Spec.IEEE.box32h {a b : ℤ} {x : ℝ} (ha : |a| < 2 ^ 24) (hb : |b| < 2 ^ 24) (h1 : (a : ℝ) / 2 ≤ x) (h2 : x ≤ (b : ℝ) / 2) :
    (a : ℝ) / 2 ≤ R.f32 x ∧ R.f32 x ≤ (b : ℝ) / 2 := by
  have ha' : |(a : ℝ) / 2| ≤ 2 ^ 24 := by
    have : |(a : ℝ)| < 2 ^ 24 := by exact_mod_cast ha
    rw [abs_div]; norm_num at this ⊢; linarith
  have hb' : |(b : ℝ) / 2| ≤ 2 ^ 24 := by
    have : |(b : ℝ)| < 2 ^ 24 := by exact_mod_cast hb
    rw [abs_div]; norm_num at this ⊢; linarith
  have hx : |x| ≤ 2 ^ 127 := by
    rw [abs_le] at ha' hb' ⊢
    norm_num at ha' hb' ⊢
    constructor <;> linarith
  have fl : ∀ c : ℤ, |c| < 2 ^ 24 → IsFloat ((c : ℝ) / 2) := fun c hc =>
    ⟨c, -1, hc, by norm_num, by norm_num, by rw [zpow_neg_one, div_eq_mul_inv]⟩
  exact ⟨A.f32.ge_of_ge hx (ha'.trans (by norm_num)) (fl a ha) h1, A.f32.le_of_le hx (hb'.trans (by norm_num)) (fl b hb) h2⟩

theorem Spec.IEEE.box64h {a b : ℤ} {x : ℝ} (ha : |a| < 2 ^ 24) (hb : |b| < 2 ^ 24) (h1 : (a : ℝ) / 2 ≤ x) (h2 : x ≤ (b : ℝ) / 2) :
    (a : ℝ) / 2 ≤ R.f64 x ∧ R.f64 x ≤ (b : ℝ) / 2 := by
  have ha' : |(a : ℝ) / 2| ≤ 2 ^ 24 := by
    have : |(a : ℝ)| < 2 ^ 24 := by exact_mod_cast ha
    rw [abs_div]; norm_num at this ⊢; linarith
  have hb' : |(b : ℝ) / 2| ≤ 2 ^ 24 := by
    have : |(b : ℝ)| < 2 ^ 24 := by exact_mod_cast hb
    rw [abs_div]; norm_num at this ⊢; linarith
  have p : (2 : ℝ) ^ 24 ≤ 2 ^ 1023 := pow_le_pow_right₀ (by norm_num) (by norm_num)
  have hx : |x| ≤ 2 ^ 1023 := by
    refine le_trans ?_ p
    rw [abs_le] at ha' hb' ⊢
    constructor <;> linarith
  have fl : ∀ c : ℤ, |c| < 2 ^ 24 → IsDouble ((c : ℝ) / 2) := fun c hc =>
    ⟨c, -1, by omega, by norm_num, by norm_num, by rw [zpow_neg_one, div_eq_mul_inv]⟩
  exact ⟨A.f64.ge_of_ge hx (ha'.trans p) (fl a ha) h1, A.f64.le_of_le hx (hb'.trans p) (fl b hb) h2⟩

omit A in
theorem ctrunc_box {a b : ℤ} {x : ℝ} (h1 : (a : ℝ) ≤ x) (h2 : x ≤ b) : a ≤ ctrunc x ∧ ctrunc x ≤ b := by
  have e1 := ctrunc_mono h1
  have e2 := ctrunc_mono h2
  rw [ctrunc_int] at e1 e2
  exact ⟨e1, e2⟩

/-- A draw between 0 and 1. -/
theorem unitDraw_box (h0 : 0 < D.max) (h31 : D.max ≤ 2147483647) {k : ℕ} (hk : D.draw k ≤ D.max) :
    0 ≤ R.unitDraw D k ∧ R.unitDraw D k ≤ 1 := by
  have hM : (1 : ℝ) ≤ D.max := by exact_mod_cast h0
  have hM2 : (D.max : ℝ) ≤ 2147483647 := by exact_mod_cast h31
  have hd : (D.draw k : ℝ) ≤ D.max := by exact_mod_cast hk
  have hd0 : (0 : ℝ) ≤ D.draw k := by positivity
  have bM : |(D.max : ℝ)| ≤ 2 ^ 127 := by rw [abs_of_nonneg (by linarith)]; norm_num; linarith
  have bd : |(D.draw k : ℝ)| ≤ 2 ^ 127 := by rw [abs_of_nonneg hd0]; norm_num; linarith
  have m := A.f32.mono bd bM hd
  have one : (1 : ℝ) ≤ R.f32 D.max := A.f32.ge_of_ge bM (by norm_num) (by exact_mod_cast isFloat_int 1 (by norm_num)) hM
  have zero : (0 : ℝ) ≤ R.f32 (D.draw k) := A.f32.ge_of_ge bd (by norm_num) (by exact_mod_cast isFloat_int 0 (by norm_num)) hd0
  have q1 : 0 ≤ R.f32 (D.draw k) / R.f32 D.max := by positivity
  have q2 : R.f32 (D.draw k) / R.f32 D.max ≤ 1 := by rw [div_le_one (by linarith)]; exact m
  have := A.box32 (a := 0) (b := 1) (by norm_num) (by norm_num) (by exact_mod_cast q1) (by exact_mod_cast q2)
  exact_mod_cast this

theorem symDraw_box (h0 : 0 < D.max) (h31 : D.max ≤ 2147483647) {k : ℕ} (hk : D.draw k ≤ D.max) :
    -1 ≤ R.symDraw D k ∧ R.symDraw D k ≤ 1 := by
  obtain ⟨u1, u2⟩ := unitDraw_box A h0 h31 hk
  have a := A.box64 (a := 0) (b := 2) (x := R.unitDraw D k * 2) (by norm_num) (by norm_num) (by push_cast; linarith) (by push_cast; linarith)
  push_cast at a
  have b := A.box64 (a := -1) (b := 1) (x := R.f64 (R.unitDraw D k * 2) - 1) (by norm_num) (by norm_num) (by push_cast; linarith) (by push_cast; linarith)
  have c := A.box32 (a := -1) (b := 1) (by norm_num) (by norm_num) b.1 b.2
  push_cast at c
  exact c

theorem svEtaPhi_box : 0 ≤ R.svEtaPhi ∧ R.svEtaPhi ≤ 231 := by
  have p1 := Real.pi_gt_d4
  have p2 := Real.pi_lt_d4
  have hp : (25 / 8 : ℝ) ≤ R.f64 Real.pi := by
    apply A.f64.ge_of_ge
    · rw [abs_of_pos Real.pi_pos]
      have : (4 : ℝ) ≤ 2 ^ 1023 := by
        calc (4 : ℝ) = 2 ^ 2 := by norm_num
          _ ≤ 2 ^ 1023 := pow_le_pow_right₀ (by norm_num) (by norm_num)
      exact le_trans (by linarith) this
    · rw [abs_of_pos (by norm_num)]
      calc (25 / 8 : ℝ) ≤ 2 ^ 2 := by norm_num
        _ ≤ 2 ^ 1023 := pow_le_pow_right₀ (by norm_num) (by norm_num)
    · exact ⟨25, -3, by norm_num, by norm_num, by norm_num, by norm_num⟩
    · linarith
  have := A.box64 (a := 0) (b := 231) (x := 720 / R.f64 Real.pi) (by norm_num) (by norm_num)
    (by push_cast; positivity) (by push_cast; rw [div_le_iff₀ (by linarith)]; linarith)
  push_cast at this
  exact this

/-- The fields of a stored track. -/
theorem svStore_ok (t : TkObj) {pt eta phi z : ℝ} {P zl zh : ℤ} (hp1 : 2 ≤ pt) (hp2 : pt ≤ P) (hP : P ≤ 102)
    (he1 : -1 ≤ eta) (he2 : eta ≤ 1) (hf1 : -1 ≤ phi) (hf2 : phi ≤ 1) (hz1 : (zl : ℝ) ≤ z * 20) (hz2 : z * 20 ≤ zh)
    (hzl : -500 ≤ zl) (hzh : zh ≤ 500) (hzz : zl ≤ zh) : SvPhysical (4 * P) zl zh (R.svStore t pt eta phi z) := by
  have hPr : (P : ℝ) ≤ 102 := by exact_mod_cast hP
  have hP2 : 2 ≤ P := by
    have : ((2 : ℤ) : ℝ) ≤ P := by push_cast; linarith
    exact_mod_cast this
  obtain ⟨s1, s2⟩ := svEtaPhi_box A
  have keep16 : ∀ n : ℤ, -1000 ≤ n → n ≤ 1000 → (reg 16 n).toInt = n := by
    intro n h1 h2
    unfold reg
    rw [BitVec.toInt_ofInt]
    apply Int.bmod_eq_of_le <;> omega
  have keep10 : ∀ n : ℤ, -500 ≤ n → n ≤ 500 → (reg 10 n).toInt = n := by
    intro n h1 h2
    unfold reg
    rw [BitVec.toInt_ofInt]
    apply Int.bmod_eq_of_le <;> omega
  have ang : ∀ x : ℝ, -1 ≤ x → x ≤ 1 → |(reg 10 (ctrunc (R.f64 (x * R.svEtaPhi)))).toInt| ≤ 231 := by
    intro x h1 h2
    have b := A.box64 (a := -231) (b := 231) (x := x * R.svEtaPhi) (by norm_num) (by norm_num)
      (by push_cast; nlinarith) (by push_cast; nlinarith)
    have c := ctrunc_box b.1 b.2
    rw [keep10 _ (by omega) (by omega), abs_le]
    exact c
  refine ⟨?_, ?_, ang _ he1 he2, ang _ hf1 hf2, ?_⟩
  · have b := A.box64 (a := 8) (b := 4 * P) (x := pt * 4) (by norm_num) (by rw [abs_of_nonneg (by omega)]; omega)
      (by push_cast; linarith) (by push_cast; linarith)
    have c := ctrunc_box b.1 b.2
    show 8 ≤ (reg 16 _).toInt ∧ (reg 16 _).toInt ≤ _
    rw [keep16 _ (by omega) (by omega)]
    exact c
  · have f0 : 0 ≤ R.f64 (1 / 5) ∧ R.f64 (1 / 5) ≤ 1 / 4 := by
      have p : (2 : ℝ) ^ 2 ≤ 2 ^ 1023 := pow_le_pow_right₀ (by norm_num) (by norm_num)
      have hx : |(1 / 5 : ℝ)| ≤ 2 ^ 1023 := le_trans (by norm_num [abs_of_pos]) p
      constructor
      · exact A.f64.ge_of_ge hx (le_trans (by norm_num) p) (by exact_mod_cast isDouble_int 0 (by norm_num)) (by norm_num)
      · exact A.f64.le_of_le hx (le_trans (by norm_num [abs_of_pos]) p) ⟨1, -2, by norm_num, by norm_num, by norm_num, by norm_num⟩ (by norm_num)
    have b1 := A.box64 (a := 0) (b := 26) (x := R.f64 (1 / 5) * pt) (by norm_num) (by norm_num)
      (by push_cast; nlinarith) (by push_cast; nlinarith)
    push_cast at b1
    have b2 := A.box64 (a := 4) (b := 30) (x := R.f64 (R.f64 (1 / 5) * pt) + 4) (by norm_num) (by norm_num)
      (by push_cast; linarith) (by push_cast; linarith)
    push_cast at b2
    have b3 := A.box64 (a := 16) (b := 120) (x := R.f64 (R.f64 (R.f64 (1 / 5) * pt) + 4) * 4) (by norm_num) (by norm_num)
      (by push_cast; linarith) (by push_cast; linarith)
    have c := ctrunc_box b3.1 b3.2
    show 16 ≤ (reg 16 _).toInt ∧ (reg 16 _).toInt ≤ 120
    rw [keep16 _ (by omega) (by omega)]
    exact c
  · have b := A.box64 (x := z * 20) (by rw [abs_le]; omega) (by rw [abs_le]; omega) hz1 hz2
    have c := ctrunc_box b.1 b.2
    show zl ≤ (reg 10 _).toInt ∧ (reg 10 _).toInt ≤ zh
    rw [keep10 _ (by omega) (by omega)]
    exact c

variable (h0 : 0 < D.max) (h31 : D.max ≤ 2147483647) (hD : ∀ k, D.draw k ≤ D.max)
include h0 h31 hD

theorem gaus_box (k : ℕ) : 0 ≤ R.f32 (R.f32 (R.unitDraw D k + R.unitDraw D (k + 1)) * 4) ∧
    R.f32 (R.f32 (R.unitDraw D k + R.unitDraw D (k + 1)) * 4) ≤ 8 := by
  obtain ⟨u1, u2⟩ := unitDraw_box A h0 h31 (hD k)
  obtain ⟨v1, v2⟩ := unitDraw_box A h0 h31 (hD (k + 1))
  have a := A.box32 (a := 0) (b := 2) (x := R.unitDraw D k + R.unitDraw D (k + 1)) (by norm_num) (by norm_num)
    (by push_cast; linarith) (by push_cast; linarith)
  push_cast at a
  have b := A.box32 (a := 0) (b := 8) (x := R.f32 (R.unitDraw D k + R.unitDraw D (k + 1)) * 4) (by norm_num) (by norm_num)
    (by push_cast; linarith) (by push_cast; linarith)
  push_cast at b
  exact b

theorem svPU_ok (k : ℕ) (t : TkObj) : SvPhysical 88 0 160 (R.svPU D k t) := by
  obtain ⟨u1, u2⟩ := unitDraw_box A h0 h31 (hD k)
  obtain ⟨z1, z2⟩ := gaus_box A h0 h31 hD (k + 3)
  obtain ⟨e1, e2⟩ := symDraw_box A h0 h31 (hD (k + 1))
  obtain ⟨f1, f2⟩ := symDraw_box A h0 h31 (hD (k + 2))
  have a := A.box32 (a := 0) (b := 20) (x := 20 * R.unitDraw D k) (by norm_num) (by norm_num)
    (by push_cast; linarith) (by push_cast; linarith)
  push_cast at a
  have b := A.box32 (a := 2) (b := 22) (x := R.f32 (20 * R.unitDraw D k) + 2) (by norm_num) (by norm_num)
    (by push_cast; linarith) (by push_cast; linarith)
  exact svStore_ok A t (P := 22) (by exact_mod_cast b.1) b.2 (by norm_num) e1 e2 f1 f2 (zl := 0) (zh := 160)
    (by push_cast; linarith) (by push_cast; linarith) (by norm_num) (by norm_num) (by norm_num)

omit h0 h31 hD in
theorem svPZ_box {zPV : ℝ} (hz1 : 0 ≤ zPV) (hz2 : zPV ≤ 8) {q : ℕ} (hq : q ≤ 2) : -1 / 2 ≤ R.svPZ zPV q ∧ R.svPZ zPV q ≤ 17 / 2 := by
  have hq0 : (0 : ℝ) ≤ q := by positivity
  have hq2 : (q : ℝ) ≤ 2 := by exact_mod_cast hq
  have a := A.box64 (a := 0) (b := 1) (x := 1 / 2 * (q : ℝ)) (by norm_num) (by norm_num) (by push_cast; linarith) (by push_cast; linarith)
  have b := A.box32 (a := 0) (b := 1) (by norm_num) (by norm_num) a.1 a.2
  push_cast at b
  have c := A.box64h (a := -1) (b := 1) (x := R.f32 (R.f64 (1 / 2 * (q : ℝ))) - 1 / 2) (by norm_num) (by norm_num)
    (by push_cast; linarith) (by push_cast; linarith)
  have d := A.box32 (a := 0) (b := 1) (x := 7 / 10) (by norm_num) (by norm_num) (by norm_num) (by norm_num)
  push_cast at c d
  have e := A.box64h (a := -1) (b := 1) (x := R.f64 (R.f32 (R.f64 (1 / 2 * (q : ℝ))) - 1 / 2) * R.f32 (7 / 10)) (by norm_num) (by norm_num)
    (by push_cast; nlinarith) (by push_cast; nlinarith)
  push_cast at e
  have f := A.box64h (a := -1) (b := 17) (x := R.f64 (R.f64 (R.f32 (R.f64 (1 / 2 * (q : ℝ))) - 1 / 2) * R.f32 (7 / 10)) + zPV)
    (by norm_num) (by norm_num) (by push_cast; linarith) (by push_cast; linarith)
  have g := A.box32h (a := -1) (b := 17) (by norm_num) (by norm_num) f.1 f.2
  push_cast at g
  exact g

theorem svPV_ok {zPV : ℝ} (hz1 : 0 ≤ zPV) (hz2 : zPV ≤ 8) (k : ℕ) (t : TkObj) : SvPhysical 408 (-10) 170 (R.svPV D zPV k t) := by
  obtain ⟨u1, u2⟩ := unitDraw_box A h0 h31 (hD k)
  obtain ⟨e1, e2⟩ := symDraw_box A h0 h31 (hD (k + 1))
  obtain ⟨f1, f2⟩ := symDraw_box A h0 h31 (hD (k + 2))
  have hq : D.draw (k + 3) / D.max + D.draw (k + 4) / D.max ≤ 2 := by
    have hone : ∀ j, D.draw j / D.max ≤ 1 := fun j => by
      rw [Nat.div_le_iff_le_mul_add_pred h0]
      have := hD j
      omega
    have := hone (k + 3)
    have := hone (k + 4)
    omega
  obtain ⟨z1, z2⟩ := svPZ_box A hz1 hz2 hq
  have a := A.box32 (a := 0) (b := 100) (x := 100 * R.unitDraw D k) (by norm_num) (by norm_num)
    (by push_cast; linarith) (by push_cast; linarith)
  push_cast at a
  have b := A.box32 (a := 2) (b := 102) (x := R.f32 (100 * R.unitDraw D k) + 2) (by norm_num) (by norm_num)
    (by push_cast; linarith) (by push_cast; linarith)
  exact svStore_ok A t (P := 102) (by exact_mod_cast b.1) b.2 (by norm_num) e1 e2 f1 f2 (zl := -10) (zh := 170)
    (by push_cast; linarith) (by push_cast; linarith) (by norm_num) (by norm_num) (by norm_num)

end Verif
