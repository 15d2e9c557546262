import Verif.Model.RandomInputs
import Verif.Spec.RandomInputs
import Verif.Proofs.Random
/-! # Ranges of the random regions -/
namespace Verif
open Spec Rounding
variable {R : Rounding} (A : IEEE R) {D : Rand}

theorem reg_toInt16 {n : ℤ} (h1 : -32768 ≤ n) (h2 : n ≤ 32767) : (reg 16 n).toInt = n := by
  unfold reg
  rw [BitVec.toInt_ofInt]
  apply Int.bmod_eq_of_le <;> omega

theorem reg_toInt10 {n : ℤ} (h1 : -512 ≤ n) (h2 : n ≤ 511) : (reg 10 n).toInt = n := by
  unfold reg
  rw [BitVec.toInt_ofInt]
  apply Int.bmod_eq_of_le <;> omega

theorem ctrunc_diff {a b c : ℝ} {n : ℤ} (h1 : |a - b| ≤ c) (h2 : c < n) : |ctrunc a - ctrunc b| ≤ n := by
  rw [abs_le] at h1
  have key : ∀ x y : ℝ, x - y ≤ c → ctrunc x - ctrunc y ≤ n := by
    intro x y h
    have : ((ctrunc x - ctrunc y : ℤ) : ℝ) < ((n + 1 : ℤ) : ℝ) := by
      push_cast
      unfold ctrunc
      have x1 := Int.floor_le x
      have x3 := Int.ceil_lt_add_one x
      have y2 := Int.lt_floor_add_one y
      have y3 := Int.le_ceil y
      have hc : 0 ≤ c := by linarith
      by_cases hx : 0 ≤ x <;> by_cases hy : 0 ≤ y <;> simp only [hx, hy, if_true, if_false]
      · linarith
      · linarith
      · have x4 : (⌈x⌉ : ℝ) ≤ 0 := by exact_mod_cast Int.ceil_le.mpr (by push_cast; linarith)
        have y4 : (0 : ℝ) ≤ ⌊y⌋ := by exact_mod_cast Int.floor_nonneg.mpr hy
        linarith
      · linarith
    have := Int.cast_lt.mp this
    omega
  rw [abs_le]
  have k1 := key a b h1.2
  have k2 := key b a (by linarith)
  omega

include A

/-- Sixteenths of integers are representable. -/
theorem Spec.IEEE.box32s {a b : ℤ} {x : ℝ} (ha : |a| < 2 ^ 20) (hb : |b| < 2 ^ 20) (h1 : (a : ℝ) / 16 ≤ x) (h2 : x ≤ (b : ℝ) / 16) :
    (a : ℝ) / 16 ≤ R.f32 x ∧ R.f32 x ≤ (b : ℝ) / 16 := by
  have hh : ∀ c : ℤ, |c| < 2 ^ 20 → |(c : ℝ) / 16| ≤ 2 ^ 20 := by
    intro c hc
    have : |(c : ℝ)| < 2 ^ 20 := by exact_mod_cast hc
    rw [abs_div, abs_of_pos (show (0 : ℝ) < 16 by norm_num)]; norm_num at this ⊢; linarith
  have ha' := hh a ha
  have hb' := hh b hb
  have hx : |x| ≤ 2 ^ 127 := by
    rw [abs_le] at ha' hb' ⊢
    norm_num at ha' hb' ⊢
    constructor <;> linarith
  have fl : ∀ c : ℤ, |c| < 2 ^ 20 → IsFloat ((c : ℝ) / 16) := fun c hc =>
    ⟨c, -4, by omega, by norm_num, by norm_num, by rw [div_eq_mul_inv]; norm_num⟩
  exact ⟨A.f32.ge_of_ge hx (ha'.trans (by norm_num)) (fl a ha) h1, A.f32.le_of_le hx (hb'.trans (by norm_num)) (fl b hb) h2⟩

/-- 64ths of integers are representable. -/
theorem Spec.IEEE.box64s {a b : ℤ} {x : ℝ} (ha : |a| < 2 ^ 20) (hb : |b| < 2 ^ 20) (h1 : (a : ℝ) / 64 ≤ x) (h2 : x ≤ (b : ℝ) / 64) :
    (a : ℝ) / 64 ≤ R.f64 x ∧ R.f64 x ≤ (b : ℝ) / 64 := by
  have hh : ∀ c : ℤ, |c| < 2 ^ 20 → |(c : ℝ) / 64| ≤ 2 ^ 20 := by
    intro c hc
    have : |(c : ℝ)| < 2 ^ 20 := by exact_mod_cast hc
    rw [abs_div, abs_of_pos (show (0 : ℝ) < 64 by norm_num)]; norm_num at this ⊢; linarith
  have ha' := hh a ha
  have hb' := hh b hb
  have p : (2 : ℝ) ^ 20 ≤ 2 ^ 1023 := pow_le_pow_right₀ (by norm_num) (by norm_num)
  have hx : |x| ≤ 2 ^ 1023 := by
    refine le_trans ?_ p
    rw [abs_le] at ha' hb' ⊢
    constructor <;> linarith
  have fl : ∀ c : ℤ, |c| < 2 ^ 20 → IsDouble ((c : ℝ) / 64) := fun c hc =>
    ⟨c, -6, by omega, by norm_num, by norm_num, by rw [div_eq_mul_inv]; norm_num⟩
  exact ⟨A.f64.ge_of_ge hx (ha'.trans p) (fl a ha) h1, A.f64.le_of_le hx (hb'.trans p) (fl b hb) h2⟩

theorem Spec.IEEE.small32 {x : ℝ} (hx : |x| ≤ 512) : |R.f32 x - x| ≤ 1 / 2 ^ 14 := by
  have := A.abs32 (x := x) (hx.trans (by norm_num))
  have h2 : |x| / 2 ^ 24 ≤ 512 / 2 ^ 24 := div_le_div_of_nonneg_right hx (by norm_num)
  have h3 : (512 : ℝ) / 2 ^ 24 + 1 / 2 ^ 150 ≤ 1 / 2 ^ 14 := by norm_num
  linarith

theorem Spec.IEEE.small64 {x : ℝ} (hx : |x| ≤ 512) : |R.f64 x - x| ≤ 1 / 2 ^ 14 := by
  have p : (2 : ℝ) ^ 9 ≤ 2 ^ 1023 := pow_le_pow_right₀ (by norm_num) (by norm_num)
  refine (A.err64 (x := x) (hx.trans (le_trans (by norm_num) p))).trans (max_le ?_ ?_)
  · rw [div_le_iff₀ (by positivity)]
    refine hx.trans (by norm_num)
  · rw [show (1 : ℝ) / 2 ^ 14 = (2 : ℝ) ^ (-14 : ℤ) by norm_num]
    exact zpow_le_zpow_right₀ (by norm_num) (by norm_num)

theorem riEtaPhi_box : 0 ≤ R.riEtaPhi ∧ R.riEtaPhi ≤ 231 := by
  obtain ⟨h1, h2⟩ := svEtaPhi_box A
  have := A.box32 (a := 0) (b := 231) (x := R.svEtaPhi) (by norm_num) (by norm_num) (by push_cast; linarith) (by push_cast; linarith)
  push_cast at this
  exact this

/-- An angle up to 19/16 of a radian. -/
theorem store_ang {x : ℝ} {m : ℤ} (hm : 0 ≤ m) (hm2 : m ≤ 19) (h1 : -(m : ℝ) / 16 ≤ x) (h2 : x ≤ (m : ℝ) / 16) :
    |(R.store 10 x R.riEtaPhi).toInt| ≤ (231 * m + 15) / 16 := by
  obtain ⟨s1, s2⟩ := riEtaPhi_box A
  have hmr : (0 : ℝ) ≤ m := by exact_mod_cast hm
  have hq : (231 * m : ℤ) ≤ 16 * ((231 * m + 15) / 16) := by omega
  have hqr : (231 * (m : ℝ)) ≤ 16 * (((231 * m + 15) / 16 : ℤ) : ℝ) := by exact_mod_cast hq
  have b := A.box32 (a := -((231 * m + 15) / 16)) (b := (231 * m + 15) / 16) (x := x * R.riEtaPhi) (by rw [abs_le]; omega) (by rw [abs_le]; omega)
    (by push_cast at hqr ⊢; nlinarith) (by nlinarith)
  have c := ctrunc_box b.1 b.2
  unfold Rounding.store
  rw [reg_toInt10 (by omega) (by omega), abs_le]
  exact c

theorem riErr_box {pt : ℝ} (h1 : 2 ≤ pt) (h2 : pt ≤ 52) : 4 ≤ R.riErr pt ∧ R.riErr pt ≤ 15 := by
  have f := A.box64s (a := 0) (b := 13) (x := 1 / 5) (by norm_num) (by norm_num) (by norm_num) (by norm_num)
  push_cast at f
  have b1 := A.box64 (a := 0) (b := 11) (x := R.f64 (1 / 5) * pt) (by norm_num) (by norm_num)
    (by push_cast; nlinarith) (by push_cast; nlinarith)
  push_cast at b1
  have b2 := A.box64 (a := 4) (b := 15) (x := R.f64 (R.f64 (1 / 5) * pt) + 4) (by norm_num) (by norm_num)
    (by push_cast; linarith) (by push_cast; linarith)
  push_cast at b2
  exact b2

theorem riErr_store {pt : ℝ} (h1 : 2 ≤ pt) (h2 : pt ≤ 52) :
    16 ≤ (reg 16 (ctrunc (R.f64 (R.riErr pt * 4)))).toInt ∧ (reg 16 (ctrunc (R.f64 (R.riErr pt * 4)))).toInt ≤ 60 := by
  obtain ⟨e1, e2⟩ := riErr_box A h1 h2
  have b := A.box64 (a := 16) (b := 60) (x := R.riErr pt * 4) (by norm_num) (by norm_num) (by push_cast; linarith) (by push_cast; linarith)
  have c := ctrunc_box b.1 b.2
  rw [reg_toInt16 (by omega) (by omega)]
  exact c

theorem store_pt {pt : ℝ} {a b : ℤ} (h1 : (a : ℝ) ≤ pt) (h2 : pt ≤ b) (ha : 0 ≤ a) (hb : b ≤ 1000) :
    4 * a ≤ (R.store 16 pt 4).toInt ∧ (R.store 16 pt 4).toInt ≤ 4 * b := by
  have hab : a ≤ b := by
    have : (a : ℝ) ≤ b := h1.trans h2
    exact_mod_cast this
  have x := A.box32 (a := 4 * a) (b := 4 * b) (x := pt * 4) (by rw [abs_le]; omega) (by rw [abs_le]; omega) (by push_cast; linarith) (by push_cast; linarith)
  have c := ctrunc_box x.1 x.2
  unfold Rounding.store
  rw [reg_toInt16 (by omega) (by omega)]
  exact c

variable (h0 : 0 < D.max) (h31 : D.max ≤ 2147483647) (hD : ∀ k, D.draw k ≤ D.max)
include h0 h31 hD

theorem linDraw_box {a b : ℤ} (ha : 0 ≤ a) (ha2 : a ≤ 100) (hb : |b| ≤ 100) (k : ℕ) :
    (b : ℝ) ≤ R.linDraw D a b k ∧ R.linDraw D a b k ≤ a + b := by
  obtain ⟨u1, u2⟩ := unitDraw_box A h0 h31 (hD k)
  rw [abs_le] at hb
  have har : (0 : ℝ) ≤ a := by exact_mod_cast ha
  have x := A.box32 (a := 0) (b := a) (x := R.unitDraw D k * a) (by norm_num) (by rw [abs_le]; omega) (by push_cast; nlinarith) (by nlinarith)
  push_cast at x
  have y := A.box32 (a := b) (b := a + b) (x := R.f32 (R.unitDraw D k * a) + b) (by rw [abs_le]; omega) (by rw [abs_le]; omega)
    (by linarith) (by push_cast; linarith)
  push_cast at y
  exact y

theorem pt_box (k : ℕ) : 2 ≤ R.linDraw D 50 2 k ∧ R.linDraw D 50 2 k ≤ 52 := by
  have := linDraw_box A h0 h31 hD (a := 50) (b := 2) (by norm_num) (by norm_num) (by norm_num) k
  push_cast at this
  norm_num at this ⊢
  exact this

theorem zPV_box (k : ℕ) : -10 ≤ R.linDraw D 20 (-10) k ∧ R.linDraw D 20 (-10) k ≤ 10 := by
  have := linDraw_box A h0 h31 hD (a := 20) (b := -10) (by norm_num) (by norm_num) (by norm_num) k
  push_cast at this
  norm_num at this ⊢
  exact this

theorem sym_ang (k : ℕ) : |(R.store 10 (R.symDraw D k) R.riEtaPhi).toInt| ≤ 231 := by
  obtain ⟨e1, e2⟩ := symDraw_box A h0 h31 (hD k)
  exact store_ang A (m := 16) (by norm_num) (by norm_num) (by push_cast; linarith) (by push_cast; linarith)

/-- A neutral cluster. -/
theorem riNeutral_ok (k : ℕ) : 4 ≤ (R.riNeutral D k).hwPt.toInt ∧ (R.riNeutral D k).hwPt.toInt ≤ 324 ∧
    |(R.riNeutral D k).hwEta.toInt| ≤ 231 ∧ |(R.riNeutral D k).hwPhi.toInt| ≤ 231 := by
  have l := linDraw_box A h0 h31 hD (a := 80) (b := 1) (by norm_num) (by norm_num) (by norm_num) k
  push_cast at l
  have p := store_pt A (pt := R.linDraw D 80 1 k) (a := 1) (b := 81) (by push_cast; linarith) (by push_cast; linarith) (by norm_num) (by norm_num)
  exact ⟨p.1, p.2, sym_ang A h0 h31 hD _, sym_ang A h0 h31 hD _⟩

theorem riMuon_ok (k : ℕ) : RiMuon (R.riMuon D k) := by
  obtain ⟨p1, p2⟩ := pt_box A h0 h31 hD k
  have p := store_pt A (pt := R.linDraw D 50 2 k) (a := 2) (b := 52) (by push_cast; linarith) (by push_cast; linarith) (by norm_num) (by norm_num)
  exact ⟨p, riErr_store A p1 p2, sym_ang A h0 h31 hD _, sym_ang A h0 h31 hD _⟩

/-- The even tracks are drawn within 0.36 cm of the vertex, up to rounding. -/
theorem riZ_even {zPV : ℝ} (hz1 : -10 ≤ zPV) (hz2 : zPV ≤ 10) (i k : ℕ) (hi : i % 2 = 0) : |R.riZ D zPV i k - zPV| ≤ 0.3601 := by
  obtain ⟨u1, u2⟩ := unitDraw_box A h0 h31 (hD k)
  have a := A.box64s (a := 44) (b := 45) (x := 7 / 10) (by norm_num) (by norm_num) (by norm_num) (by norm_num)
  push_cast at a
  have d := A.box64s (a := 0) (b := 45) (x := R.unitDraw D k * R.f64 (7 / 10)) (by norm_num) (by norm_num) (by push_cast; nlinarith) (by push_cast; nlinarith)
  push_cast at d
  have c := A.box64s (a := 22) (b := 23) (x := 35 / 100) (by norm_num) (by norm_num) (by norm_num) (by norm_num)
  push_cast at c
  unfold Rounding.riZ
  rw [if_pos hi]
  set dd := R.f64 (R.unitDraw D k * R.f64 (7 / 10))
  set cc := R.f64 (35 / 100)
  have e1 := A.small64 (x := zPV + dd) (by rw [abs_le]; constructor <;> linarith)
  rw [abs_le] at e1
  norm_num at e1
  have e2 := A.small64 (x := R.f64 (zPV + dd) - cc) (by rw [abs_le]; constructor <;> linarith)
  rw [abs_le] at e2
  norm_num at e2
  have e3 := A.small32 (x := R.f64 (R.f64 (zPV + dd) - cc)) (by rw [abs_le]; constructor <;> linarith)
  rw [abs_le] at e3 ⊢
  norm_num at e3 ⊢
  constructor <;> linarith

theorem riTrack_ok {zPV : ℝ} (hz1 : -10 ≤ zPV) (hz2 : zPV ≤ 10) (i k : ℕ) (t : TkObj) :
    RiTrack (R.store 10 zPV 20).toInt i (R.riTrack D zPV i k t) := by
  obtain ⟨p1, p2⟩ := pt_box A h0 h31 hD k
  have p := store_pt A (pt := R.linDraw D 50 2 k) (a := 2) (b := 52) (by push_cast; linarith) (by push_cast; linarith) (by norm_num) (by norm_num)
  have zb : ∀ z : ℝ, -15 ≤ z → z ≤ 15 → |ctrunc (R.f32 (z * 20))| ≤ 300 := by
    intro z g1 g2
    have b := A.box32 (a := -300) (b := 300) (x := z * 20) (by norm_num) (by norm_num) (by push_cast; linarith) (by push_cast; linarith)
    have c := ctrunc_box b.1 b.2
    rw [abs_le]
    exact c
  have zr : -15 ≤ R.riZ D zPV i (k + 3) ∧ R.riZ D zPV i (k + 3) ≤ 15 := by
    by_cases hi : i % 2 = 0
    · have := riZ_even A h0 h31 hD hz1 hz2 i (k + 3) hi
      rw [abs_le] at this
      constructor <;> linarith
    · unfold Rounding.riZ
      rw [if_neg hi]
      have l := linDraw_box A h0 h31 hD (a := 30) (b := -15) (by norm_num) (by norm_num) (by norm_num) (k + 3)
      push_cast at l
      constructor <;> linarith
  have q1 := zb _ zr.1 zr.2
  have q2 := zb zPV (by linarith) (by linarith)
  refine ⟨p, riErr_store A p1 p2, sym_ang A h0 h31 hD _, sym_ang A h0 h31 hD _, ?_, ?_⟩
  · show |(reg 10 (ctrunc (R.f32 (R.riZ D zPV i (k + 3) * 20)))).toInt| ≤ 300
    rw [abs_le] at q1
    rw [reg_toInt10 (by omega) (by omega), abs_le]
    exact q1
  · intro hi
    show |(reg 10 (ctrunc (R.f32 (R.riZ D zPV i (k + 3) * 20)))).toInt - (reg 10 (ctrunc (R.f32 (zPV * 20)))).toInt| ≤ 8
    rw [abs_le] at q1 q2
    rw [reg_toInt10 (by omega) (by omega), reg_toInt10 (by omega) (by omega)]
    have h := riZ_even A h0 h31 hD hz1 hz2 i (k + 3) hi
    have e1 := A.small32 (x := R.riZ D zPV i (k + 3) * 20) (by rw [abs_le]; constructor <;> linarith)
    have e2 := A.small32 (x := zPV * 20) (by rw [abs_le]; constructor <;> linarith)
    rw [abs_le] at h e1 e2
    refine ctrunc_diff (c := 7.5) ?_ (by norm_num)
    rw [abs_le]
    norm_num at h e1 e2 ⊢
    constructor <;> linarith

/-- What a track adds to a cluster: at most 300 counts, and never less than nothing; or it leaves it alone. -/
theorem riDeposit_ok (k : ℕ) (c : CaloObj) : R.riDeposit D k c = c ∨
    ∃ x : ℤ, 0 ≤ x ∧ x ≤ 300 ∧ (R.riDeposit D k c).hwPt = reg 16 (c.hwPt.toInt + x) ∧
      |(R.riDeposit D k c).hwEta.toInt| ≤ 275 ∧ |(R.riDeposit D k c).hwPhi.toInt| ≤ 275 := by
  obtain ⟨p1, p2⟩ := pt_box A h0 h31 hD k
  obtain ⟨e1, e2⟩ := riErr_box A p1 p2
  obtain ⟨u1, u2⟩ := unitDraw_box A h0 h31 (hD (k + 5))
  have sh : ∀ j, -3 / 16 ≤ R.riShift D j ∧ R.riShift D j ≤ 3 / 16 := by
    intro j
    obtain ⟨v1, v2⟩ := unitDraw_box A h0 h31 (hD j)
    have a := A.box64s (a := 19) (b := 20) (x := 3 / 10) (by norm_num) (by norm_num) (by norm_num) (by norm_num)
    push_cast at a
    have d := A.box64s (a := 0) (b := 20) (x := R.unitDraw D j * R.f64 (3 / 10)) (by norm_num) (by norm_num) (by push_cast; nlinarith) (by push_cast; nlinarith)
    push_cast at d
    have c := A.box64s (a := 9) (b := 10) (x := 15 / 100) (by norm_num) (by norm_num) (by norm_num) (by norm_num)
    push_cast at c
    have f := A.box64s (a := -12) (b := 12) (x := R.f64 (R.unitDraw D j * R.f64 (3 / 10)) - R.f64 (15 / 100)) (by norm_num) (by norm_num)
      (by push_cast; linarith) (by push_cast; linarith)
    push_cast at f
    have g := A.box32s (a := -3) (b := 3) (x := R.f64 (R.f64 (R.unitDraw D j * R.f64 (3 / 10)) - R.f64 (15 / 100))) (by norm_num) (by norm_num)
      (by push_cast; linarith) (by push_cast; linarith)
    push_cast at g
    exact g
  have ang : ∀ a b : ℕ, |(R.store 10 (R.f32 (R.symDraw D a + R.riShift D b)) R.riEtaPhi).toInt| ≤ 275 := by
    intro a b
    obtain ⟨s1, s2⟩ := symDraw_box A h0 h31 (hD a)
    obtain ⟨t1, t2⟩ := sh b
    have g := A.box32s (a := -19) (b := 19) (x := R.symDraw D a + R.riShift D b) (by norm_num) (by norm_num)
      (by push_cast; linarith) (by push_cast; linarith)
    push_cast at g
    have := store_ang A (x := R.f32 (R.symDraw D a + R.riShift D b)) (m := 19) (by norm_num) (by norm_num) (by push_cast; linarith) (by push_cast; linarith)
    exact this.trans (by norm_num)
  have d1 := A.box32 (a := 0) (b := 3) (x := R.unitDraw D (k + 5) * 3) (by norm_num) (by norm_num) (by push_cast; linarith) (by push_cast; linarith)
  push_cast at d1
  have d2 := A.box64h (a := -3) (b := 3) (x := R.f32 (R.unitDraw D (k + 5) * 3) - 3 / 2) (by norm_num) (by norm_num) (by push_cast; linarith) (by push_cast; linarith)
  push_cast at d2
  have d3 := A.box64h (a := -45) (b := 45) (x := R.f64 (R.f32 (R.unitDraw D (k + 5) * 3) - 3 / 2) * R.riErr (R.linDraw D 50 2 k)) (by norm_num) (by norm_num)
    (by push_cast; nlinarith) (by push_cast; nlinarith)
  have d4 := A.box32h (a := -45) (b := 45) (by norm_num) (by norm_num) d3.1 d3.2
  push_cast at d4
  unfold Rounding.riDeposit
  dsimp only
  set dpt := R.f32 (R.f64 (R.f64 (R.f32 (R.unitDraw D (k + 5) * 3) - 3 / 2) * R.riErr (R.linDraw D 50 2 k)))
  by_cases hp : R.f32 (R.linDraw D 50 2 k + dpt) > 0
  · right
    rw [if_pos hp]
    have s := A.box32 (a := -100) (b := 75) (x := R.linDraw D 50 2 k + dpt) (by norm_num) (by norm_num) (by push_cast; linarith) (by push_cast; linarith)
    push_cast at s
    have t := A.box32 (a := 0) (b := 300) (x := R.f32 (R.linDraw D 50 2 k + dpt) * 4) (by norm_num) (by norm_num) (by push_cast; linarith) (by push_cast; linarith)
    have c := ctrunc_box t.1 t.2
    exact ⟨_, c.1, c.2, rfl, ang _ _, ang _ _⟩
  · left
    rw [if_neg hp]

end Verif
