import Verif.Props.Discrete
import Mathlib.Data.Set.Finite.Lattice
/-! # C61, continued: tracks at the vertex, firmware widths, weights, the position of the vertex -/
namespace Verif
open Spec Rounding

private theorem fp_finite (p : ℕ) (emin emax : ℤ) : {x : ℝ | IsFP p emin emax x}.Finite := by
  apply Set.Finite.subset (((Set.finite_Icc (-2 ^ p : ℤ) (2 ^ p)).prod (Set.finite_Icc emin emax)).image
    (fun q : ℤ × ℤ => (q.1 : ℝ) * (2 : ℝ) ^ q.2))
  rintro x ⟨m, e, h1, h2, h3, rfl⟩
  have := abs_lt.mp h1
  exact ⟨(m, e), ⟨⟨this.1.le, this.2.le⟩, h2, h3⟩, rfl⟩

private theorem fp_nearest (p : ℕ) (emin emax : ℤ) (hle : emin ≤ emax) (k : ℕ) : ∃ f, Nearest (IsFP p emin emax) k f := by
  have h : ∀ x : ℝ, ∃ y, IsFP p emin emax y ∧ ∀ z, IsFP p emin emax z → |y - x| ≤ |z - x| := by
    intro x
    obtain ⟨y, h1, h2⟩ := Set.exists_min_image {y : ℝ | IsFP p emin emax y} (fun y => |y - x|) (fp_finite p emin emax)
      ⟨0, 0, emin, by simp, le_rfl, hle, by simp⟩
    exact ⟨y, h1, h2⟩
  choose f hf using h
  exact ⟨f, fun x _ => hf x⟩

/-- There is an IEEE rounding: the theorems are about something. -/
theorem C61_rounding_exists : ∃ R : Rounding, IEEE R := by
  obtain ⟨f, hf⟩ := fp_nearest 24 (-149) 104 (by norm_num) 127
  obtain ⟨g, hg⟩ := fp_nearest 53 (-1074) 971 (by norm_num) 1023
  exact ⟨⟨f, g⟩, hf, hg⟩

variable {R : Rounding} (A : IEEE R)
include A

private theorem quantised_exact {N x : ℝ} (hN : 1 ≤ N) (h : |x * N| ≤ 2 ^ 100) : Quantised (1 / N) (R.quant N x) x :=
  quantised_of hN (Near.exact N (by linarith) (by positivity)) (quant_err A h)

omit A in
private theorem int_of_real {n : ℤ} {a b : ℤ} {x : ℝ} {e : ℝ} (h : |(n : ℝ) - x| ≤ e) (h1 : (a : ℝ) - 1 < x - e) (h2 : x + e < (b : ℝ) + 1) :
    a ≤ n ∧ n ≤ b := by
  obtain ⟨g1, g2⟩ := abs_le.mp h
  have k1 : ((a - 1 : ℤ) : ℝ) < n := by push_cast; linarith
  have k2 : (n : ℝ) < ((b + 1 : ℤ) : ℝ) := by push_cast; linarith
  exact ⟨by have := Int.cast_lt.mp k1; omega, by have := Int.cast_lt.mp k2; omega⟩

omit A in
private theorem toU16_ok {n : ℤ} (h1 : 0 ≤ n) (h2 : n ≤ 65535) : ∃ w, toU16 n = .ok w ∧ (w.toNat : ℤ) = n := by
  refine ⟨BitVec.ofInt 16 n, if_pos ⟨h1, h2⟩, ?_⟩
  rw [BitVec.toNat_ofInt]
  have : n % ((2 ^ 16 : ℕ) : ℤ) = n := Int.emod_eq_of_lt h1 (by norm_num; omega)
  rw [this]
  omega

omit A in
private theorem toI32_ok {n : ℤ} (h1 : -2147483648 ≤ n) (h2 : n ≤ 2147483647) : ∃ w, toI32 n = .ok w ∧ w.toInt = n := by
  refine ⟨BitVec.ofInt 32 n, if_pos ⟨h1, h2⟩, ?_⟩
  rw [BitVec.toInt_ofInt]
  apply Int.bmod_eq_of_le <;> omega

private theorem inv_near {pt : ℝ} (h1 : 1 / 2 ^ 90 ≤ pt) (h2 : pt ≤ 2 ^ 90) : Near (1 / 2 ^ 24) (R.f32 (1 / pt)) (1 / pt) := by
  have h0 : 0 < pt := lt_of_lt_of_le (by positivity) h1
  refine A.near32 (Near.exact _ (by positivity) le_rfl) le_rfl (by norm_num) ?_ ?_ (by norm_num)
  · exact div_le_div_of_nonneg_left (by norm_num) h0 h2
  · rw [div_le_iff₀ h0]
    have := mul_le_mul_of_nonneg_left h1 (show (0 : ℝ) ≤ 2 ^ 90 by positivity)
    norm_num at this ⊢
    linarith

/-- **C61.** The whole of `InputTrack::fillInput`: defined for tracks of at least 0.306 GeV within 160 units of eta and phi
and 16 m of z; the quality fields stay as they are. -/
theorem C61_input (t : InputTrack) {pt eta phi dz : ℝ} (charge : ℤ) (flags : BitVec 32) (hpt : 0.306 ≤ pt) (hpt' : pt ≤ 2 ^ 20)
    (heta : |eta| ≤ 160) (hphi : |phi| ≤ 160) (hdz : |dz| ≤ 1600) :
    ∃ t', R.fillInput t pt eta phi charge dz flags = .ok t' ∧
      |t'.hwInvpt.toNat / 20000 - 1 / pt| ≤ 1 / 40000 + (1 / pt) / 2 ^ 20 ∧
      Quantised (1 / 100000) t'.hwVtxEta.toInt eta ∧ Quantised (1 / 400000) t'.hwVtxPhi.toInt phi ∧ Quantised (1 / 20) t'.hwZ0.toInt dz ∧
      (charge = 1 ∨ charge = -1 → intCharge t'.hwCharge = charge) ∧ t'.hwFlags.toNat = flags.toNat % 65536 ∧
      t'.hwChi2 = t.hwChi2 ∧ t'.hwStubs = t.hwStubs := by
  have hp0 : (0 : ℝ) < pt := by norm_num at hpt; linarith
  -- inverse pt
  obtain ⟨i1, i2⟩ := inv_near A (pt := pt) (by norm_num at hpt ⊢; linarith) (hpt'.trans (by norm_num))
  have hinv : 1 / pt ≤ 3.268 := by rw [div_le_iff₀ hp0]; norm_num at hpt ⊢; linarith
  have hinv0 : 0 < 1 / pt := by positivity
  set x := R.f32 (1 / pt) with hx
  have hx0 : 0 < x := by nlinarith
  have hx1 : x ≤ 3.2681 := by norm_num at hinv i2 ⊢; linarith
  have hxs : |x * 20000| ≤ 2 ^ 100 := by
    rw [abs_of_pos (by positivity)]
    norm_num at hx1 ⊢
    linarith
  have q1 := quantised_exact A (N := 20000) (x := x) (by norm_num) hxs
  have e1 := quant_err A (s := 20000) (x := x) hxs
  rw [abs_of_pos (show 0 < x * 20000 by positivity)] at e1
  have r1 : 0 ≤ R.quant 20000 x ∧ R.quant 20000 x ≤ 65535 :=
    int_of_real (a := 0) (b := 65535) e1 (by norm_num; nlinarith) (by norm_num at hx1 ⊢; linarith)
  obtain ⟨w1, a1, b1⟩ := toU16_ok r1.1 r1.2
  -- eta
  have se := vtxEta_near A
  have sp := vtxPhi_near A
  have gen : ∀ (S N y : ℝ), Near (1 / 2 ^ 23) S N → 1 ≤ N → N ≤ 400000 → |y| ≤ 160 →
      ∃ w, toI32 (R.quant S y) = .ok w ∧ Quantised (1 / N) w.toInt y := by
    intro S N y hS hN hN2 hy
    have hS0 := hS.pos (by linarith) (by norm_num)
    have hS1 : S ≤ 500000 := by
      refine hS.2.trans ?_
      norm_num
      linarith
    have hb : |y * S| ≤ 80000000 := by
      rw [abs_mul, abs_of_pos hS0]
      nlinarith [abs_nonneg y]
    have e := quant_err A (s := S) (x := y) (hb.trans (by norm_num))
    have hb2 := abs_le.mp hb
    have he : |y * S| / 2 ^ 23 ≤ 10 := by rw [div_le_iff₀ (by norm_num)]; exact hb.trans (by norm_num)
    obtain ⟨w, hw, hwi⟩ := toI32_ok (n := R.quant S y)
      (int_of_real (a := -2147483648) (b := 2147483647) (e.trans (add_le_add_right he _)) (by norm_num; linarith) (by norm_num; linarith)).1
      (int_of_real (a := -2147483648) (b := 2147483647) (e.trans (add_le_add_right he _)) (by norm_num; linarith) (by norm_num; linarith)).2
    exact ⟨w, hw, by rw [hwi]; exact quantised_of hN hS e⟩
  obtain ⟨w2, a2, b2⟩ := gen _ _ eta se (by norm_num) (by norm_num) heta
  obtain ⟨w3, a3, b3⟩ := gen _ _ phi sp (by norm_num) (by norm_num) hphi
  -- z0
  have hz : |dz * 20| ≤ 32000 := by rw [abs_mul]; norm_num; linarith
  have ez := quant_err A (s := 20) (x := dz) (hz.trans (by norm_num))
  have hz2 := abs_le.mp hz
  have hez : |dz * 20| / 2 ^ 23 ≤ 1 / 100 := by rw [div_le_iff₀ (by norm_num)]; exact hz.trans (by norm_num)
  obtain ⟨r2, r3⟩ := int_of_real (a := -32768) (b := 32767) (ez.trans (add_le_add_right hez _)) (by norm_num; linarith) (by norm_num; linarith)
  obtain ⟨w4, a4, b4⟩ := toI16_ok r2 r3
  refine ⟨{ t with hwInvpt := w1, hwVtxEta := w2, hwVtxPhi := w3, hwCharge := decide (charge > 0), hwZ0 := w4, hwFlags := flags.setWidth 16 }, ?_, ?_, b2, b3, ?_, ?_, by simp, rfl, rfl⟩
  · unfold Rounding.fillInput INVPT_SCALE Z0_SCALE
    rw [a1, Run.ok_bind, a2, Run.ok_bind, a3, Run.ok_bind, a4, Run.ok_bind]
  · have hw : (w1.toNat : ℝ) = (R.quant 20000 x : ℤ) := by rw [← b1]; norm_cast
    show |(w1.toNat : ℝ) / 20000 - 1 / pt| ≤ _
    rw [hw]
    unfold Quantised at q1
    rw [abs_of_pos hx0] at q1
    obtain ⟨q2, q3⟩ := abs_le.mp q1
    rw [abs_le]
    norm_num at q2 q3 i1 i2 ⊢
    constructor <;> linarith
  · rw [b4]
    exact quantised_exact A (by norm_num) (hz.trans (by norm_num))
  · rintro (rfl | rfl) <;> rfl

/-- **C61.** Below 0.305 GeV the inverse does not fit 16 bits, and below zero it is negative: converting it is undefined. -/
theorem C61_input_fault (t : InputTrack) {pt : ℝ} (eta phi dz : ℝ) (charge : ℤ) (flags : BitVec 32)
    (hpt : (1 / 2 ^ 40 ≤ pt ∧ pt ≤ 0.305) ∨ (-10000 ≤ pt ∧ pt ≤ -1 / 2 ^ 40)) :
    R.fillInput t pt eta phi charge dz flags = .error .intOverflow := by
  have hb : ¬(0 ≤ R.quant 20000 (R.f32 (1 / pt)) ∧ R.quant 20000 (R.f32 (1 / pt)) ≤ 65535) := by
    have h40 : |1 / pt| ≤ 2 ^ 40 := by
      rw [abs_div, abs_one, div_le_iff₀ (by rcases hpt with h | h <;> apply abs_pos.mpr <;> norm_num at h <;> linarith)]
      rcases hpt with h | h
      · rw [abs_of_pos (by norm_num at h; linarith)]
        norm_num at h ⊢
        linarith
      · rw [abs_of_neg (by norm_num at h; linarith)]
        norm_num at h ⊢
        linarith
    have e := A.abs32 (x := 1 / pt) (h40.trans (by norm_num))
    set x := R.f32 (1 / pt) with hx
    have hx1 : |x| ≤ 2 ^ 42 := by
      have h1 := abs_sub_abs_le_abs_sub x (1 / pt)
      norm_num at *
      linarith
    have e2 := quant_err A (s := 20000) (x := x) (by rw [abs_mul]; norm_num at hx1 ⊢; linarith)
    obtain ⟨e3, e4⟩ := abs_le.mp e
    obtain ⟨e5, e6⟩ := abs_le.mp e2
    rintro ⟨g1, g2⟩
    have g1' : (0 : ℝ) ≤ R.quant 20000 x := by exact_mod_cast g1
    have g2' : (R.quant 20000 x : ℝ) ≤ 65535 := by exact_mod_cast g2
    rcases hpt with ⟨h1, h2⟩ | ⟨h1, h2⟩
    · have hp0 : 0 < pt := by norm_num at h1; linarith
      have hi : 3.278 ≤ 1 / pt := by rw [le_div_iff₀ hp0]; norm_num at h2 ⊢; linarith
      rw [abs_of_pos (by positivity : 0 < 1 / pt)] at e3 e4
      have hx2 : 3.277 ≤ x := by norm_num at e3 e4 hi ⊢; linarith
      rw [abs_of_pos (by norm_num at hx2; linarith)] at e5 e6
      norm_num at e5 e6 hx2
      linarith
    · have hp0 : pt < 0 := by norm_num at h2; linarith
      have hi : 1 / pt ≤ -1 / 10000 := by
        rw [div_le_iff_of_neg hp0]
        linarith
      rw [abs_of_neg (by linarith : 1 / pt < 0)] at e3 e4
      have hx2 : x ≤ -0.00009 := by norm_num at e3 e4 hi ⊢; linarith
      rw [abs_of_neg (by norm_num at hx2; linarith)] at e5 e6
      norm_num at e5 e6 hx2
      linarith
  unfold Rounding.fillInput INVPT_SCALE toU16
  rw [if_neg hb]
  rfl

/-- **C61.** Reading the fields of a track and filling them again gives the same numbers: the vertex angles up to 22 bits,
`z0` always, the inverse pt whenever it is not zero. -/
theorem C61_input_roundtrip (t : InputTrack) (flags : BitVec 32) (he : |t.hwVtxEta.toInt| ≤ 2 ^ 22 - 1) (hp : |t.hwVtxPhi.toInt| ≤ 2 ^ 22 - 1)
    (hi : 0 < t.hwInvpt.toNat) :
    R.fillInput t (R.floatVtxPt t) (R.floatVtxEta t) (R.floatVtxPhi t) (intCharge t.hwCharge) (R.floatDZ t) flags =
      .ok { t with hwFlags := flags.setWidth 16 } := by
  obtain ⟨e1, e2⟩ := vtxEta_near A
  obtain ⟨p1, p2⟩ := vtxPhi_near A
  have q2 : R.quant R.VTX_ETA_SCALE (R.floatVtxEta t) = t.hwVtxEta.toInt :=
    quant_unquant A (by norm_num at e1; linarith) (by norm_num at e2 ⊢; linarith) he
  have q3 : R.quant R.VTX_PHI_SCALE (R.floatVtxPhi t) = t.hwVtxPhi.toInt :=
    quant_unquant A (by norm_num at p1; linarith) (by norm_num at p2 ⊢; linarith) hp
  have z1 := t.hwZ0.toInt_lt
  have z2 := t.hwZ0.le_toInt
  norm_num at z1 z2
  have q4 : R.quant Z0_SCALE (R.floatDZ t) = t.hwZ0.toInt :=
    quant_unquant A (by norm_num [Z0_SCALE]) (by norm_num [Z0_SCALE]) (abs_le.mpr ⟨by omega, by omega⟩)
  have q1 : R.quant INVPT_SCALE (R.f32 (1 / R.floatVtxPt t)) = t.hwInvpt.toNat := by
    have hl := t.hwInvpt.isLt
    have hn1 : (1 : ℝ) ≤ t.hwInvpt.toNat := by exact_mod_cast hi
    have hn2 : (t.hwInvpt.toNat : ℝ) ≤ 65535 := by exact_mod_cast (show t.hwInvpt.toNat ≤ 65535 by omega)
    set n : ℝ := (t.hwInvpt.toNat : ℝ) with hn
    have hfi : R.f32 ((t.hwInvpt.toNat : ℤ) : ℝ) = n := by
      rw [A.f32_int _ (by rw [abs_of_nonneg (by omega)]; omega), hn]
      norm_cast
    have s1 : Near (1 / 2 ^ 24) (R.unquant INVPT_SCALE t.hwInvpt.toNat) (n / 20000) := by
      unfold Rounding.unquant INVPT_SCALE
      rw [hfi]
      refine A.near32 (Near.exact _ (by positivity) le_rfl) le_rfl (by norm_num) ?_ ?_ (by norm_num)
      · norm_num
        linarith
      · norm_num
        linarith
    have s2 := s1.inv (by positivity) (by positivity) (by norm_num) (e' := 1 / 2 ^ 23) (by norm_num)
    rw [one_div_div] at s2
    have b1 : (1 : ℝ) / 2 ^ 90 ≤ 20000 / n := by
      rw [le_div_iff₀ (by linarith)]
      norm_num
      linarith
    have b2 : 20000 / n ≤ 2 ^ 90 := by
      rw [div_le_iff₀ (by linarith)]
      norm_num
      linarith
    have s3 : Near (1 / 2 ^ 22) (R.floatVtxPt t) (20000 / n) :=
      A.near32 s2 (by positivity) (by norm_num) b1 b2 (by norm_num)
    have s4 := s3.inv (by positivity) (by positivity) (by norm_num) (e' := 1 / 2 ^ 21) (by norm_num)
    rw [one_div_div] at s4
    have s5 : Near (1 / 2 ^ 20) (R.f32 (1 / R.floatVtxPt t)) (n / 20000) :=
      A.near32 s4 (by positivity) (by norm_num) (by norm_num; linarith) (by norm_num; linarith) (by norm_num)
    unfold Rounding.quant INVPT_SCALE
    apply cround_eq
    obtain ⟨v, hv⟩ : ∃ v, v = R.f32 (1 / R.floatVtxPt t) * 20000 := ⟨_, rfl⟩
    rw [← hv, show (((t.hwInvpt.toNat : ℤ)) : ℝ) = n by rw [hn]; norm_cast]
    obtain ⟨x1, x2⟩ := s5
    have y1 : n * (1 - 1 / 2 ^ 20) ≤ v := by linarith
    have y2 : v ≤ n * (1 + 1 / 2 ^ 20) := by linarith
    have hv0 : 0 ≤ v := le_trans (by norm_num; linarith) y1
    have e := A.abs32 (x := v) (by rw [abs_of_nonneg hv0]; norm_num at y2 ⊢; linarith)
    rw [abs_of_nonneg hv0] at e
    obtain ⟨u1, u2⟩ := abs_le.mp e
    rw [abs_lt]
    norm_num at y1 y2 u1 u2 ⊢
    constructor <;> linarith
  unfold Rounding.fillInput
  rw [q1, q2, q3, q4, toU16_toNat, toI32_toInt, toI32_toInt, toI16_toInt]
  simp only [Run.ok_bind]
  congr 2
  unfold intCharge
  cases t.hwCharge <;> rfl

/-- **C61.** Beyond 24 bits the vertex angles do not survive: 2^24 + 1 reads like one of its neighbours. -/
theorem C61_vtx_collision (t : InputTrack) :
    R.floatVtxEta { t with hwVtxEta := 16777217 } = R.floatVtxEta { t with hwVtxEta := 16777216 } ∨
    R.floatVtxEta { t with hwVtxEta := 16777217 } = R.floatVtxEta { t with hwVtxEta := 16777218 } := by
  have f0 : R.f32 16777216 = 16777216 := by
    have := A.f32_int 16777216 (by norm_num)
    exact_mod_cast this
  have f2 : R.f32 16777218 = 16777218 :=
    A.f32.exact (by norm_num [abs_of_pos]) ⟨8388609, 1, by norm_num, by norm_num, by norm_num, by norm_num⟩
  obtain ⟨g1, g2⟩ := A.f32 16777217 (by norm_num [abs_of_pos])
  have g3 := g2 16777216 ⟨8388608, 1, by norm_num, by norm_num, by norm_num, by norm_num⟩
  rw [show |(16777216 : ℝ) - 16777217| = 1 by norm_num] at g3
  obtain ⟨g4, g5⟩ := abs_le.mp g3
  obtain ⟨m, e, hm, -, -, hme⟩ := g1
  have he : 1 ≤ e := by
    by_contra hcon
    have : (2 : ℝ) ^ e ≤ 1 := zpow_le_one_of_nonpos₀ (by norm_num) (by omega)
    have hmr : (m : ℝ) ≤ 16777215 := by
      have := (abs_lt.mp hm).2
      exact_mod_cast (show m ≤ 16777215 by omega)
    have hp : (0 : ℝ) < (2 : ℝ) ^ e := by positivity
    have : (m : ℝ) * 2 ^ e ≤ 16777215 := by
      by_cases hneg : 0 ≤ (m : ℝ)
      · nlinarith
      · push Not at hneg
        nlinarith
    rw [← hme] at this
    linarith
  obtain ⟨k, hk⟩ : ∃ k : ℤ, R.f32 16777217 = ((2 * k : ℤ) : ℝ) := by
    obtain ⟨j, rfl⟩ : ∃ j : ℕ, e = j + 1 := ⟨(e - 1).toNat, by omega⟩
    refine ⟨m * 2 ^ j, ?_⟩
    rw [hme, zpow_add₀ (by norm_num), zpow_natCast]
    push_cast
    ring
  have k1 : 16777216 ≤ 2 * k := by
    have : ((16777216 : ℤ) : ℝ) ≤ ((2 * k : ℤ) : ℝ) := by rw [← hk]; push_cast; linarith
    exact_mod_cast this
  have k2 : 2 * k ≤ 16777218 := by
    have : ((2 * k : ℤ) : ℝ) ≤ ((16777218 : ℤ) : ℝ) := by rw [← hk]; push_cast; linarith
    exact_mod_cast this
  have c0 : ((16777216 : BitVec 32)).toInt = 16777216 := by decide
  have c1 : ((16777217 : BitVec 32)).toInt = 16777217 := by decide
  have c2 : ((16777218 : BitVec 32)).toInt = 16777218 := by decide
  unfold Rounding.floatVtxEta Rounding.unquant
  dsimp only
  rw [c0, c1, c2]
  push_cast
  rw [f0, f2]
  rcases (show 2 * k = 16777216 ∨ 2 * k = 16777218 by omega) with h | h
  · left
    rw [hk, h]
    norm_num
  · right
    rw [hk, h]
    norm_num

omit A in
private theorem quarter_bounds : 0.004363 ≤ quarterDegree ∧ quarterDegree ≤ 0.004364 := by
  have p1 := Real.pi_gt_d6
  have p2 := Real.pi_lt_d6
  unfold quarterDegree
  norm_num at *
  constructor <;> linarith

/-- **C61.** The ten bits of the firmware: within 2.2 of the centre of the region eta and phi arrive as they were filled;
from 2.24 to π phi arrives turned by 1024 units, on the other side. -/
theorem C61_firmware {pt emPt ptErr eta phi : ℝ} {em : Bool} {flags : BitVec 32} {c : CaloCluster}
    (hc : R.fillCluster pt emPt ptErr eta phi em flags = .ok c) :
    (|eta| ≤ 2.2 → (fw_had c).hwEta.toInt = c.hwEta.toInt ∧ (fw_em c).hwEta.toInt = c.hwEta.toInt ∧
      Quantised quarterDegree (fw_had c).hwEta.toInt eta) ∧
    (|phi| ≤ 2.2 → (fw_had c).hwPhi.toInt = c.hwPhi.toInt ∧ (fw_em c).hwPhi.toInt = c.hwPhi.toInt ∧
      Quantised quarterDegree (fw_had c).hwPhi.toInt phi) ∧
    (2.24 ≤ phi → phi ≤ Real.pi → (fw_had c).hwPhi.toInt = c.hwPhi.toInt - 1024 ∧ (fw_had c).hwPhi.toInt < 0) := by
  obtain ⟨d1, d2⟩ := quarter_bounds
  have hpi := Real.pi_gt_d4
  have hpi2 := Real.pi_lt_d4
  unfold Rounding.fillCluster at hc
  obtain ⟨w1, -, hc⟩ := Run.bind_eq_ok.mp hc
  obtain ⟨w2, -, hc⟩ := Run.bind_eq_ok.mp hc
  obtain ⟨w3, -, hc⟩ := Run.bind_eq_ok.mp hc
  obtain ⟨w4, a4, hc⟩ := Run.bind_eq_ok.mp hc
  obtain ⟨w5, a5, hc⟩ := Run.bind_eq_ok.mp hc
  injection hc with hc
  subst hc
  have small : ∀ {n : ℤ} {x : ℝ}, Quantised quarterDegree n x → |x| ≤ 2.2 → -505 ≤ n ∧ n ≤ 505 := by
    intro n x hq hx
    unfold Quantised at hq
    obtain ⟨q1, q2⟩ := abs_le.mp hq
    obtain ⟨x1, x2⟩ := abs_le.mp hx
    norm_num at d1 d2 q1 q2 hx x1 x2
    constructor
    · by_contra hcon
      have : (n : ℝ) ≤ -506 := by exact_mod_cast (show n ≤ -506 by omega)
      nlinarith
    · by_contra hcon
      have : (506 : ℝ) ≤ n := by exact_mod_cast (show 506 ≤ n by omega)
      nlinarith
  have keep : ∀ n : ℤ, -505 ≤ n → n ≤ 505 → (reg 10 n).toInt = n := by
    intro n h1 h2
    unfold reg
    rw [BitVec.toInt_ofInt]
    apply Int.bmod_eq_of_le <;> omega
  refine ⟨fun h => ?_, fun h => ?_, fun h1 h2 => ?_⟩
  · obtain ⟨w, hw, hq⟩ := C61_eta A (h.trans (by norm_num) : |eta| ≤ 142)
    have : w = w4 := by
      have := hw.symm.trans a4
      injection this
    subst this
    obtain ⟨s1, s2⟩ := small hq h
    have e : (reg 10 w.toInt).toInt = w.toInt := keep _ s1 s2
    exact ⟨e, e, by show Quantised _ (reg 10 w.toInt).toInt _; rw [e]; exact hq⟩
  · obtain ⟨w, hw, hq⟩ := C61_phi A (h.trans (by norm_num) : |phi| ≤ 142)
    have : w = w5 := by
      have := hw.symm.trans a5
      injection this
    subst this
    obtain ⟨-, k, hq, -, hk⟩ := hq
    obtain ⟨rfl, -⟩ := hk (by norm_num at h hpi; linarith)
    rw [mul_zero, add_zero] at hq
    obtain ⟨s1, s2⟩ := small hq h
    have e : (reg 10 w.toInt).toInt = w.toInt := keep _ s1 s2
    exact ⟨e, e, by show Quantised _ (reg 10 w.toInt).toInt _; rw [e]; exact hq⟩
  · have hab : |phi| = phi := abs_of_pos (by norm_num at h1; linarith)
    obtain ⟨w, hw, hq⟩ := C61_phi A (show |phi| ≤ 142 by rw [hab]; norm_num at hpi2; linarith)
    have : w = w5 := by
      have := hw.symm.trans a5
      injection this
    subst this
    obtain ⟨-, k, hq, -, hk⟩ := hq
    obtain ⟨rfl, hk2⟩ := hk (by rw [hab]; exact h2)
    rw [mul_zero, add_zero] at hq
    have s1 : 512 ≤ w.toInt := by
      unfold Quantised at hq
      obtain ⟨q1, q2⟩ := abs_le.mp hq
      rw [hab] at q1
      by_contra hcon
      have : (w.toInt : ℝ) ≤ 511 := by exact_mod_cast (show w.toInt ≤ 511 by omega)
      norm_num at d1 d2 q1 q2 h1
      nlinarith
    have s2 := (abs_le.mp hk2).2
    have e : (reg 10 w.toInt).toInt = w.toInt - 1024 := by
      unfold reg
      rw [BitVec.toInt_ofInt, Int.bmod_def]
      norm_num
      omega
    refine ⟨e, ?_⟩
    show (reg 10 w.toInt).toInt < 0
    omega

/-- **C61.** PUPPI weights up to 655 are stored in hundredths; what is stored is read back and stored again unchanged. -/
theorem C61_puppiW {w : ℝ} (h0 : 0 ≤ w) (h1 : w ≤ 655) (p : PFParticle) :
    (∃ v, R.setPuppiW w = .ok v ∧ Quantised (1 / 100) v.toNat w) ∧ R.setPuppiW (R.floatPuppiW p) = .ok p.hwPuppiWeight := by
  constructor
  · have hb : |w * 100| ≤ 65500 := by rw [abs_of_nonneg (by positivity)]; linarith
    have e := quant_err A (s := 100) (x := w) (hb.trans (by norm_num))
    rw [abs_of_nonneg (by positivity : 0 ≤ w * 100)] at e hb
    obtain ⟨r1, r2⟩ := int_of_real (a := 0) (b := 65535) e (by norm_num; linarith) (by norm_num; linarith)
    obtain ⟨v, hv, hv2⟩ := toU16_ok r1 r2
    refine ⟨v, hv, ?_⟩
    rw [hv2]
    exact quantised_exact A (by norm_num) (by rw [abs_of_nonneg (by positivity)]; exact hb.trans (by norm_num))
  · have := p.hwPuppiWeight.isLt
    unfold Rounding.setPuppiW Rounding.floatPuppiW
    rw [quant_unquant A (by norm_num [PUPPI_SCALE]) (by norm_num [PUPPI_SCALE]) (by rw [abs_of_nonneg (by omega)]; omega), toU16_toNat]

/-- **C61.** The two places that discretise the position of the vertex differ: the reader of dumps cuts, the vertex test
bench rounds.  Up to 25 cm both fit, and they are equal or the rounded one is one count further from zero. -/
theorem C61_zpv {z0 : ℝ} (h : |z0| ≤ 25) :
    ∃ y, |y - 20 * z0| ≤ |20 * z0| / 2 ^ 23 + 1 / 2 ^ 100 ∧ IsTrunc (R.zpv z0).toInt y ∧ IsRound (R.pvRound z0).toInt y ∧
      |(R.zpv z0).toInt| ≤ |(R.pvRound z0).toInt| ∧ |(R.pvRound z0).toInt| ≤ |(R.zpv z0).toInt| + 1 := by
  have hb : |z0 * 20| ≤ 500 := by rw [abs_mul]; norm_num; linarith
  have e := A.abs32 (x := z0 * 20) (hb.trans (by norm_num))
  set y := R.f32 (z0 * 20) with hy
  obtain ⟨e1, e2⟩ := abs_le.mp e
  obtain ⟨b1, b2⟩ := abs_le.mp hb
  have hyb : |y| ≤ 501 := by
    have := div_le_div_of_nonneg_right hb (show (0 : ℝ) ≤ 2 ^ 24 by positivity)
    rw [abs_le]
    norm_num at this e1 e2
    constructor <;> linarith
  have ht := ctrunc_spec y
  have hr := cround_isRound y
  have hr2 := cround_spec y
  obtain ⟨t1, t2, t3⟩ := ht
  obtain ⟨y1, y2⟩ := abs_le.mp hyb
  have ct : -502 ≤ ctrunc y ∧ ctrunc y ≤ 502 :=
    int_of_real (a := -502) (b := 502) t2.le (by norm_num; linarith) (by norm_num; linarith)
  have cr : -502 ≤ cround y ∧ cround y ≤ 502 :=
    int_of_real (a := -502) (b := 502) hr2 (by norm_num; linarith) (by norm_num; linarith)
  have keep : ∀ n : ℤ, -502 ≤ n ∧ n ≤ 502 → (reg 10 n).toInt = n := by
    rintro n ⟨h1, h2⟩
    unfold reg
    rw [BitVec.toInt_ofInt]
    apply Int.bmod_eq_of_le <;> omega
  have k1 : (R.zpv z0).toInt = ctrunc y := keep _ ct
  have k2 : (R.pvRound z0).toInt = cround y := keep _ cr
  rw [k1, k2]
  refine ⟨y, ?_, ⟨t1, t2, t3⟩, hr, ?_⟩
  · rw [mul_comm 20 z0]
    refine e.trans ?_
    have : |z0 * 20| / 2 ^ 24 ≤ |z0 * 20| / 2 ^ 23 := div_le_div_of_nonneg_left (abs_nonneg _) (by norm_num) (by norm_num)
    linarith [show (1 : ℝ) / 2 ^ 150 ≤ 1 / 2 ^ 100 by norm_num]
  · unfold ctrunc cround
    by_cases hpos : 0 ≤ y
    · rw [if_pos hpos, if_pos hpos]
      have f0 : 0 ≤ ⌊y⌋ := Int.floor_nonneg.mpr hpos
      have f1 : ⌊y⌋ ≤ ⌊y + 1 / 2⌋ := Int.floor_le_floor (by linarith)
      have f2 : ⌊y + 1 / 2⌋ ≤ ⌊y⌋ + 1 := by
        rw [← Int.floor_add_one]
        exact Int.floor_le_floor (by linarith)
      rw [abs_of_nonneg f0, abs_of_nonneg (by omega)]
      exact ⟨f1, f2⟩
    · rw [if_neg hpos, if_neg hpos]
      push Not at hpos
      have f0 : ⌈y⌉ ≤ 0 := Int.ceil_le.mpr (by push_cast; linarith)
      have f1 : ⌈y - 1 / 2⌉ ≤ ⌈y⌉ := Int.ceil_le_ceil (by linarith)
      have f2 : ⌈y⌉ - 1 ≤ ⌈y - 1 / 2⌉ := by
        rw [← Int.ceil_sub_one]
        exact Int.ceil_le_ceil (by linarith)
      rw [abs_of_nonpos f0, abs_of_nonpos (by omega)]
      omega

private theorem f32_quarter (m : ℤ) (hm : |m| < 2 ^ 24) : R.f32 (m * (2 : ℝ) ^ (-4 : ℤ)) = m * (2 : ℝ) ^ (-4 : ℤ) := by
  apply A.f32.exact
  · rw [abs_mul]
    have : |(m : ℝ)| < 2 ^ 24 := by exact_mod_cast hm
    norm_num at this ⊢
    linarith
  · exact ⟨m, -4, hm, by norm_num, by norm_num, rfl⟩

/-- **C61.** They do differ (3/64 cm: 0 and 1), and beyond 25.6 cm the ten bits wrap: 26 cm becomes -25.2 cm. -/
theorem C61_zpv_differ : (R.zpv (3 / 64)).toInt = 0 ∧ (R.pvRound (3 / 64)).toInt = 1 ∧ (R.zpv 26).toInt = -504 ∧ (R.pvRound 26).toInt = -504 := by
  have h1 := f32_quarter A 15 (by norm_num)
  have h2 := f32_quarter A 8320 (by norm_num)
  have e1 : R.f32 (3 / 64 * Z0_SCALE) = 15 / 16 := by
    unfold Z0_SCALE
    norm_num at h1 ⊢
    exact h1
  have e2 : R.f32 (26 * Z0_SCALE) = ((520 : ℤ) : ℝ) := by
    unfold Z0_SCALE
    norm_num at h2 ⊢
    exact h2
  unfold Rounding.zpv Rounding.pvRound Rounding.quant
  rw [e1, e2, ctrunc_int, cround_int]
  have c1 : ctrunc (15 / 16 : ℝ) = 0 := by
    unfold ctrunc
    rw [if_pos (by norm_num), Int.floor_eq_iff]
    norm_num
  have c2 : cround (15 / 16 : ℝ) = 1 := cround_eq (by norm_num [abs_lt])
  rw [c1, c2]
  decide

private theorem reads_unquant {s N : ℝ} (h : Near (1 / 2 ^ 23) s N) (h1 : 1 ≤ N) (h2 : N ≤ 2 ^ 20) {n : ℤ} (hn : |n| ≤ 2 ^ 24) :
    Reads (R.unquant s n) (n * (1 / N)) := by
  have hN : 0 < N := by linarith
  obtain ⟨k1, k2⟩ := h
  have hs1 : N * (1 - 1 / 2 ^ 23) ≤ s := by linarith
  have hs2 : s ≤ 2 ^ 21 := by norm_num at k2 ⊢; linarith
  have hs0 : 0 < s := lt_of_lt_of_le (by norm_num; linarith) hs1
  unfold Reads Rounding.unquant
  rw [A.f32_int n hn]
  by_cases h0 : n = 0
  · subst h0
    have e0 : R.f32 0 = 0 := by have := A.f32_int 0 (by norm_num); exact_mod_cast this
    rw [Int.cast_zero, zero_div, e0]
    simp
  have hn1 : (1 : ℝ) ≤ |(n : ℝ)| := by exact_mod_cast Int.one_le_abs h0
  have hn2 : |(n : ℝ)| ≤ 2 ^ 24 := by exact_mod_cast hn
  have hq : (n : ℝ) / s = n * (1 / N) * (N / s) := by field_simp
  set v : ℝ := n * (1 / N) with hv
  have hr : |N / s - 1| ≤ 1.01 / 2 ^ 23 := by
    rw [show N / s - 1 = (N - s) / s by field_simp, abs_div, abs_of_pos hs0, div_le_iff₀ hs0]
    rw [abs_le]
    norm_num at hs1 k1 k2 ⊢
    constructor <;> linarith
  have hd : |(n : ℝ) / s - v| ≤ |v| * (1.01 / 2 ^ 23) := by
    rw [hq, show v * (N / s) - v = v * (N / s - 1) by ring, abs_mul]
    exact mul_le_mul_of_nonneg_left hr (abs_nonneg _)
  have hqa : |(n : ℝ) / s| ≤ |v| * 1.01 := by
    calc |(n : ℝ) / s| = |((n : ℝ) / s - v) + v| := by ring_nf
      _ ≤ |(n : ℝ) / s - v| + |v| := abs_add_le _ _
      _ ≤ |v| * (1.01 / 2 ^ 23 + 1) := by linarith
      _ ≤ |v| * 1.01 := mul_le_mul_of_nonneg_left (by norm_num) (abs_nonneg _)
  have hb1 : 1 / 2 ^ 100 ≤ |(n : ℝ) / s| := by
    rw [abs_div, abs_of_pos hs0, le_div_iff₀ hs0]
    norm_num at hs2 ⊢
    linarith
  have hva : |v| ≤ 2 ^ 24 := by
    rw [hv, abs_mul, abs_of_pos (by positivity : 0 < 1 / N)]
    calc |(n : ℝ)| * (1 / N) ≤ |(n : ℝ)| * 1 := mul_le_mul_of_nonneg_left (by rw [div_le_one hN]; exact h1) (abs_nonneg _)
      _ ≤ 2 ^ 24 := by linarith
  have hb2 : |(n : ℝ) / s| ≤ 2 ^ 127 := by
    refine hqa.trans ?_
    norm_num at hva ⊢
    linarith
  have e1 := A.rel32 hb2 hb1
  have := abs_nonneg v
  calc |R.f32 ((n : ℝ) / s) - v| = |(R.f32 ((n : ℝ) / s) - (n : ℝ) / s) + ((n : ℝ) / s - v)| := by ring_nf
    _ ≤ |R.f32 ((n : ℝ) / s) - (n : ℝ) / s| + |(n : ℝ) / s - v| := abs_add_le _ _
    _ ≤ |(n : ℝ) / s| / 2 ^ 24 + |v| * (1.01 / 2 ^ 23) := by linarith
    _ ≤ |v| / 2 ^ 22 := by norm_num at hqa ⊢; linarith

/-- Angles are read to 22 binary digits. -/
theorem reads_etaphi (w : BitVec 16) : Reads (R.floatEtaPhi w) (w.toInt * quarterDegree) := by
  have hp := Real.pi_pos
  have p1 := Real.pi_gt_d4
  have p2 := Real.pi_lt_d4
  have e : quarterDegree = 1 / (720 / Real.pi) := by unfold quarterDegree; field_simp
  rw [e]
  have hn := etaphi_near A
  refine reads_unquant A ⟨?_, ?_⟩ ?_ ?_ (by
      have h1 := w.toInt_lt
      have h2 := w.le_toInt
      norm_num at h1 h2
      exact abs_le.mpr ⟨by omega, by omega⟩)
  · have : (0 : ℝ) < 720 / Real.pi := by positivity
    obtain ⟨a, _⟩ := hn
    norm_num at a ⊢
    linarith
  · have : (0 : ℝ) < 720 / Real.pi := by positivity
    obtain ⟨_, a⟩ := hn
    norm_num at a ⊢
    linarith
  · rw [le_div_iff₀ hp]; linarith
  · rw [div_le_iff₀ hp]; norm_num; linarith

/-- **C61.** Reading: every accessor returns the stored number times its unit, to 22 binary digits (the vertex angles of a
track as long as they have 24 bits). -/
theorem C61_reading (w : BitVec 16) (t : InputTrack) (p : PFParticle) :
    Reads (R.floatPt w) (w.toInt * (1 / 4)) ∧ Reads (R.floatEtaPhi w) (w.toInt * quarterDegree) ∧
    (|t.hwVtxEta.toInt| ≤ 2 ^ 24 → Reads (R.floatVtxEta t) (t.hwVtxEta.toInt * (1 / 100000))) ∧
    (|t.hwVtxPhi.toInt| ≤ 2 ^ 24 → Reads (R.floatVtxPhi t) (t.hwVtxPhi.toInt * (1 / 400000))) ∧
    Reads (R.floatDZ t) (t.hwZ0.toInt * (1 / 20)) ∧ Reads (R.floatPuppiW p) (p.hwPuppiWeight.toNat * (1 / 100)) := by
  have i16 : ∀ v : BitVec 16, |v.toInt| ≤ 2 ^ 24 := by
    intro v
    have h1 := v.toInt_lt
    have h2 := v.le_toInt
    norm_num at h1 h2
    exact abs_le.mpr ⟨by omega, by omega⟩
  have ex : ∀ N : ℝ, 0 ≤ N → Near (1 / 2 ^ 23) N N := fun N hN => Near.exact N hN (by positivity)
  refine ⟨reads_unquant A (ex 4 (by norm_num)) (by norm_num) (by norm_num) (i16 w), ?_, fun h => ?_, fun h => ?_,
    reads_unquant A (ex 20 (by norm_num)) (by norm_num) (by norm_num) (i16 _), ?_⟩
  · exact reads_etaphi A w
  · exact reads_unquant A (vtxEta_near A) (by norm_num) (by norm_num) h
  · exact reads_unquant A (vtxPhi_near A) (by norm_num) (by norm_num) h
  · have hw := p.hwPuppiWeight.isLt
    have := reads_unquant A (n := p.hwPuppiWeight.toNat) (ex 100 (by norm_num)) (by norm_num) (by norm_num)
      (by rw [abs_of_nonneg (by omega)]; omega)
    exact_mod_cast this

/-- **C61.** The vertex direction of a particle is that of its track when it has one, and the particle's own in quarters
of a degree otherwise; its `z0` is always that of the track. -/
theorem C61_particle (p : PFParticle) :
    (0 < p.track.hwPt.toInt → |p.track.hwVtxEta.toInt| ≤ 2 ^ 24 → Reads (R.pfVtxEta p) (p.track.hwVtxEta.toInt * (1 / 100000))) ∧
    (0 < p.track.hwPt.toInt → |p.track.hwVtxPhi.toInt| ≤ 2 ^ 24 → Reads (R.pfVtxPhi p) (p.track.hwVtxPhi.toInt * (1 / 400000))) ∧
    (p.track.hwPt.toInt ≤ 0 → Reads (R.pfVtxEta p) (p.hwVtxEta.toInt * quarterDegree) ∧
      Reads (R.pfVtxPhi p) (p.hwVtxPhi.toInt * quarterDegree)) ∧
    Reads (R.pfDZ p) (p.track.hwZ0.toInt * (1 / 20)) := by
  refine ⟨fun h hb => ?_, fun h hb => ?_, fun h => ⟨?_, ?_⟩, (C61_reading A 0 p.track.toInputTrack p).2.2.2.2.1⟩
  · unfold Rounding.pfVtxEta
    rw [if_pos h]
    exact (C61_reading A 0 p.track.toInputTrack p).2.2.1 hb
  · unfold Rounding.pfVtxPhi
    rw [if_pos h]
    exact (C61_reading A 0 p.track.toInputTrack p).2.2.2.1 hb
  · unfold Rounding.pfVtxEta
    rw [if_neg (by omega)]
    exact (C61_reading A p.hwVtxEta p.track.toInputTrack p).2.1
  · unfold Rounding.pfVtxPhi
    rw [if_neg (by omega)]
    exact (C61_reading A p.hwVtxPhi p.track.toInputTrack p).2.1

omit A in
/-- **C61.** The charge of a particle: that of its track when it has one, 0 otherwise; 0 given to `fill` reads back as -1. -/
theorem C61_charge (p : PFParticle) :
    (p.track.hwPt.toInt ≤ 0 → pfCharge p = 0) ∧ (0 < p.track.hwPt.toInt → pfCharge p = 1 ∨ pfCharge p = -1) ∧
    (∀ t, 0 < t.hwPt.toInt → ∀ src, pfCharge (dpf_charged p src t) = intCharge t.hwCharge) ∧
    (∀ src, pfCharge (dpf_neutral p src) = 0) := by
  unfold pfCharge
  refine ⟨fun h => if_neg (by omega), fun h => ?_, fun t ht src => if_pos ht, fun src => ?_⟩
  · rw [if_pos (show p.track.hwPt.toInt > 0 from h)]
    cases p.track.hwCharge <;> decide
  · apply if_neg
    show ¬ (0 : BitVec 16).toInt > 0
    decide

/-- A case: a cluster of 10.5 GeV, 4 of them electromagnetic, at eta = 1.2, phi = -3. -/
example : ∃ c, R.fillCluster (21 / 2) 4 (1 / 2) 1.2 (-3) false 0 = .ok c ∧ c.hwPt.toInt = 42 := by
  have h : ∀ x ∈ [(21 / 2 : ℝ), 4, 1 / 2], IsFloat x ∧ |x| ≤ 8191 := by
    intro x hx
    simp only [List.mem_cons, List.not_mem_nil, or_false] at hx
    rcases hx with rfl | rfl | rfl
    · exact ⟨⟨21, -1, by norm_num, by norm_num, by norm_num, by norm_num⟩, by norm_num [abs_of_pos]⟩
    · exact ⟨⟨4, 0, by norm_num, by norm_num, by norm_num, by norm_num⟩, by norm_num [abs_of_pos]⟩
    · exact ⟨⟨1, -1, by norm_num, by norm_num, by norm_num, by norm_num⟩, by norm_num [abs_of_pos]⟩
  obtain ⟨c, hc, hr, -⟩ := C61_cluster A (eta := 1.2) (phi := -3) false 0 h (by norm_num [abs_of_pos]) (by norm_num [abs_of_neg])
  refine ⟨c, hc, ?_⟩
  have : |(c.hwPt.toInt : ℝ) - 42| < 1 := by
    rcases hr with hr | hr
    · norm_num at hr ⊢
      linarith
    · norm_num at hr ⊢
      linarith [hr.1]
  have h2 : |c.hwPt.toInt - 42| < 1 := by exact_mod_cast this
  have := Int.abs_lt_one_iff.mp h2
  omega

end Verif
