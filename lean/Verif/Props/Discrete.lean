import Verif.Proofs.Discrete
import Verif.Spec.Discrete
/-! # C61: the discretisation of pt, eta, phi, z0 and weights

For every IEEE rounding to nearest. -/
namespace Verif
open Spec Rounding
variable {R : Rounding} (A : IEEE R)
include A

omit A in
theorem cround_isRound (x : ℝ) : IsRound (cround x) x := by
  unfold IsRound cround
  split
  · rename_i h
    have h1 := Int.floor_le (x + 1 / 2)
    have h2 := Int.lt_floor_add_one (x + 1 / 2)
    have h3 : (0 : ℝ) ≤ ⌊x + 1 / 2⌋ := by exact_mod_cast Int.floor_nonneg.mpr (by linarith)
    rcases eq_or_lt_of_le h1 with h4 | h4
    · right
      rw [h4, abs_of_nonneg h, abs_of_nonneg (by linarith : (0 : ℝ) ≤ x + 1 / 2)]
      exact ⟨by norm_num, by linarith⟩
    · left
      rw [abs_lt]
      constructor <;> linarith
  · rename_i h
    push Not at h
    have h1 := Int.le_ceil (x - 1 / 2)
    have h2 := Int.ceil_lt_add_one (x - 1 / 2)
    rcases eq_or_lt_of_le h1 with h4 | h4
    · right
      rw [← h4, abs_of_neg h, abs_of_neg (by linarith : x - 1 / 2 < 0)]
      exact ⟨by norm_num, by linarith⟩
    · left
      rw [abs_lt]
      constructor <;> linarith

omit A in
private theorem tdiv_small {n : ℤ} (h1 : -1440 < n) (h2 : n < 1440) : n.tdiv 1440 = 0 := by
  rcases le_total 0 n with h | h
  · exact Int.tdiv_eq_zero_of_lt h h2
  · obtain ⟨u, rfl⟩ : ∃ u, n = -u := ⟨-n, by ring⟩
    rw [Int.neg_tdiv, Int.tdiv_eq_zero_of_lt (by omega) (by omega), neg_zero]

omit A in
theorem quantised_of {S N x : ℝ} {n : ℤ} (hN : 1 ≤ N) (hnear : Near (1 / 2 ^ 23) S N)
    (h : |(n : ℝ) - x * S| ≤ 1 / 2 + |x * S| / 2 ^ 23) : Quantised (1 / N) n x := by
  have hN0 : 0 < N := by linarith
  have hS : |S - N| ≤ N * (1 / 2 ^ 23) := by
    rw [abs_le]
    constructor <;> linarith [hnear.1, hnear.2]
  have hS2 : |S| ≤ 1.1 * N := by
    rw [abs_le]
    constructor <;> nlinarith [abs_le.mp hS]
  have h1 : |x * S - x * N| ≤ |x| * (N * (1 / 2 ^ 23)) := by
    rw [← mul_sub, abs_mul]
    exact mul_le_mul_of_nonneg_left hS (abs_nonneg _)
  have h2 : |x * S| ≤ |x| * (1.1 * N) := by
    rw [abs_mul]
    exact mul_le_mul_of_nonneg_left hS2 (abs_nonneg _)
  have h3 : |(n : ℝ) - x * N| ≤ 1 / 2 + |x| * N / 2 ^ 21 := by
    calc |(n : ℝ) - x * N| = |((n : ℝ) - x * S) + (x * S - x * N)| := by ring_nf
      _ ≤ |(n : ℝ) - x * S| + |x * S - x * N| := abs_add_le _ _
      _ ≤ 1 / 2 + |x * S| / 2 ^ 23 + |x| * (N * (1 / 2 ^ 23)) := by linarith
      _ ≤ 1 / 2 + |x| * (1.1 * N) / 2 ^ 23 + |x| * (N * (1 / 2 ^ 23)) := by
          have := div_le_div_of_nonneg_right h2 (show (0 : ℝ) ≤ 2 ^ 23 by positivity)
          linarith
      _ = 1 / 2 + |x| * N * (1.1 / 2 ^ 23 + 1 / 2 ^ 23) := by ring
      _ ≤ 1 / 2 + |x| * N / 2 ^ 21 := by
          have : (0 : ℝ) ≤ |x| * N := by positivity
          have : |x| * N * (1.1 / 2 ^ 23 + 1 / 2 ^ 23) ≤ |x| * N * (1 / 2 ^ 21) :=
            mul_le_mul_of_nonneg_left (by norm_num) this
          linarith
  unfold Quantised
  have h4 : (n : ℝ) * (1 / N) - x = ((n : ℝ) - x * N) / N := by field_simp
  rw [h4, abs_div, abs_of_pos hN0, div_le_iff₀ hN0]
  calc |(n : ℝ) - x * N| ≤ 1 / 2 + |x| * N / 2 ^ 21 := h3
    _ = (1 / N / 2 + |x| / 2 ^ 21) * N := by field_simp

/-- **C61.** Pt is filled exactly: the quarter GeV nearest to it, halves away from zero; it is defined exactly below
8191.875 GeV (and above -8192.125). -/
theorem C61_pt {pt : ℝ} (hf : IsFloat pt) (hpt : |pt| ≤ 2 ^ 100) :
    (∀ w, R.setFloatPt pt = .ok w → IsRound w.toInt (4 * pt)) ∧
    ((∃ w, R.setFloatPt pt = .ok w) ↔ -8192.125 < pt ∧ pt < 8191.875) := by
  have hq : R.quant PT_SCALE pt = cround (pt * 4) := by
    unfold Rounding.quant PT_SCALE
    rw [four_exact A hf hpt]
  unfold Rounding.setFloatPt
  rw [hq]
  refine ⟨fun w hw => ?_, ?_⟩
  · rw [toI16_iff.mp hw, mul_comm]
    exact cround_isRound _
  · have hr : (∃ w, toI16 (cround (pt * 4)) = .ok w) ↔ -32768 ≤ cround (pt * 4) ∧ cround (pt * 4) ≤ 32767 := by
      constructor
      · rintro ⟨w, hw⟩
        have h1 := w.toInt_lt
        have h2 := w.le_toInt
        rw [← toI16_iff.mp hw]
        norm_num at h1 h2
        omega
      · rintro ⟨h1, h2⟩
        obtain ⟨w, hw, _⟩ := toI16_ok h1 h2
        exact ⟨w, hw⟩
    rw [hr]
    unfold cround
    split
    · rename_i h
      have h0 : 0 ≤ ⌊pt * 4 + 1 / 2⌋ := Int.floor_nonneg.mpr (by linarith)
      constructor
      · rintro ⟨_, h2⟩
        have := Int.floor_lt.mp (show ⌊pt * 4 + 1 / 2⌋ < 32768 by omega)
        push_cast at this
        exact ⟨by norm_num; linarith, by norm_num; linarith⟩
      · rintro ⟨_, h2⟩
        have : ⌊pt * 4 + 1 / 2⌋ < 32768 := Int.floor_lt.mpr (by push_cast; norm_num at h2; linarith)
        omega
    · rename_i h
      push Not at h
      have h0 : ⌈pt * 4 - 1 / 2⌉ ≤ 0 := Int.ceil_le.mpr (by push_cast; linarith)
      constructor
      · rintro ⟨h1, _⟩
        have := Int.lt_ceil.mp (show -32769 < ⌈pt * 4 - 1 / 2⌉ by omega)
        push_cast at this
        exact ⟨by norm_num; linarith, by norm_num; linarith⟩
      · rintro ⟨h1, _⟩
        have : -32769 < ⌈pt * 4 - 1 / 2⌉ := Int.lt_ceil.mpr (by push_cast; norm_num at h1; linarith)
        omega

/-- **C61.** Reading pt is exact, and filling it again gives the same number. -/
theorem C61_pt_roundtrip (w : BitVec 16) : R.floatPt w = w.toInt / 4 ∧ R.setFloatPt (R.floatPt w) = .ok w := by
  have h1 := w.toInt_lt
  have h2 := w.le_toInt
  norm_num at h1 h2
  have habs : |w.toInt| ≤ 32768 := abs_le.mpr ⟨by omega, by omega⟩
  constructor
  · unfold Rounding.floatPt Rounding.unquant PT_SCALE
    rw [A.f32_int _ (by omega)]
    apply A.f32.exact
    · rw [abs_div]
      have : |(w.toInt : ℝ)| ≤ 32768 := by exact_mod_cast habs
      norm_num
      linarith
    · refine ⟨w.toInt, -2, by omega, by norm_num, by norm_num, ?_⟩
      rw [div_eq_mul_inv]
      norm_num
  · unfold Rounding.setFloatPt Rounding.floatPt
    rw [quant_unquant A (by norm_num [PT_SCALE]) (by norm_num [PT_SCALE]) (by omega), toI16_toInt]

/-- **C61.** `minFloatPt` is the pt of one count, a quarter of a GeV: no cluster has a smaller positive pt. -/
theorem C61_min_pt : R.minFloatPt = 1 / 4 ∧ R.floatPt 1 = R.minFloatPt ∧
    ∀ w : BitVec 16, 0 < R.floatPt w → R.minFloatPt ≤ R.floatPt w := by
  have e : R.minFloatPt = 1 / 4 := by
    unfold Rounding.minFloatPt PT_SCALE
    apply A.f32.exact
    · norm_num
    · exact ⟨1, -2, by norm_num, by norm_num, by norm_num, by norm_num⟩
  refine ⟨e, ?_, fun w hw => ?_⟩
  · rw [(C61_pt_roundtrip A 1).1, e, show (1 : BitVec 16).toInt = 1 from by decide]
    norm_num
  · rw [(C61_pt_roundtrip A w).1] at hw ⊢
    rw [e]
    have : (0 : ℝ) < w.toInt := by linarith
    have : 0 < w.toInt := by exact_mod_cast this
    have : (1 : ℝ) ≤ w.toInt := by exact_mod_cast this
    linarith

theorem etaphi_err (x : ℝ) (hx : |x| ≤ 2 ^ 80) : Quantised quarterDegree (R.quant R.ETAPHI_SCALE x) x := by
  obtain ⟨b1, b2⟩ := etaphi_bounds A
  have hpi : (0 : ℝ) < Real.pi := Real.pi_pos
  have := quantised_of (N := 720 / Real.pi) (x := x) (n := R.quant R.ETAPHI_SCALE x) (by
    rw [le_div_iff₀ hpi]; linarith [Real.pi_lt_d4]) ((etaphi_near A).weaken (by positivity) (by norm_num)) (quant_err A (by
      rw [abs_mul, abs_of_pos (by linarith : (0 : ℝ) < R.ETAPHI_SCALE)]
      calc |x| * R.ETAPHI_SCALE ≤ 2 ^ 80 * 2 ^ 10 := mul_le_mul hx (by linarith) (by linarith) (by positivity)
        _ ≤ 2 ^ 100 := by norm_num))
  rwa [one_div_div] at this

/-- **C61.** Eta is filled to half a quarter of a degree; it is defined at least up to 142. -/
theorem C61_eta {eta : ℝ} (h : |eta| ≤ 142) :
    ∃ w, toI16 (R.quant R.ETAPHI_SCALE eta) = .ok w ∧ Quantised quarterDegree w.toInt eta := by
  have hq := etaphi_err A eta (h.trans (by norm_num))
  have hpi : (0 : ℝ) < Real.pi := Real.pi_pos
  have p1 := Real.pi_gt_d4
  have hb : |(R.quant R.ETAPHI_SCALE eta : ℝ)| ≤ 32767 := by
    unfold Quantised quarterDegree at hq
    have h1 : |(R.quant R.ETAPHI_SCALE eta : ℝ) * (Real.pi / 720)| ≤ 142.01 := by
      calc |(R.quant R.ETAPHI_SCALE eta : ℝ) * (Real.pi / 720)|
          = |((R.quant R.ETAPHI_SCALE eta : ℝ) * (Real.pi / 720) - eta) + eta| := by ring_nf
        _ ≤ |(R.quant R.ETAPHI_SCALE eta : ℝ) * (Real.pi / 720) - eta| + |eta| := abs_add_le _ _
        _ ≤ 142.01 := by
          have := div_le_div_of_nonneg_right h (show (0 : ℝ) ≤ 2 ^ 21 by positivity)
          norm_num at this ⊢
          linarith [Real.pi_lt_d4]
    rw [abs_mul, abs_of_pos (by positivity : (0 : ℝ) < Real.pi / 720)] at h1
    by_contra hcon
    push Not at hcon
    have : 32767 * (3.1415 / 720) ≤ |(R.quant R.ETAPHI_SCALE eta : ℝ)| * (Real.pi / 720) :=
      mul_le_mul hcon.le (by linarith) (by norm_num) (abs_nonneg _)
    norm_num at this h1
    linarith
  have hb' : |R.quant R.ETAPHI_SCALE eta| ≤ 32767 := by exact_mod_cast hb
  obtain ⟨h1, h2⟩ := abs_le.mp hb'
  obtain ⟨w, w1, w2⟩ := toI16_ok (n := R.quant R.ETAPHI_SCALE eta) (by omega) (by omega)
  exact ⟨w, w1, by rw [w2]; exact hq⟩

/-- **C61.** Reading eta or phi and filling eta again gives the same number, for all 65536 of them. -/
theorem C61_eta_roundtrip (w : BitVec 16) : toI16 (R.quant R.ETAPHI_SCALE (R.floatEtaPhi w)) = .ok w := by
  have h1 := w.toInt_lt
  have h2 := w.le_toInt
  norm_num at h1 h2
  obtain ⟨b1, b2⟩ := etaphi_bounds A
  have habs : |w.toInt| ≤ 32768 := abs_le.mpr ⟨by omega, by omega⟩
  unfold Rounding.floatEtaPhi
  rw [quant_unquant A (by linarith) (by linarith) (by omega), toI16_toInt]

/-- **C61.** Filling phi again takes off whole turns, keeping the sign. -/
theorem C61_phi_roundtrip (w : BitVec 16) : ∃ v, R.quantPhi (R.floatEtaPhi w) = .ok v ∧ v.toInt = w.toInt.tmod 1440 ∧
    (|w.toInt| < 1440 → v = w) := by
  have e := C61_eta_roundtrip A w
  have hlt : |w.toInt.tmod 1440| < 1440 := by
    rw [abs_lt]
    have := Int.tmod_lt_of_pos w.toInt (show (0 : ℤ) < 1440 by norm_num)
    have := Int.lt_tmod_of_pos w.toInt (show (0 : ℤ) < 1440 by norm_num)
    omega
  obtain ⟨hlt1, hlt2⟩ := abs_lt.mp hlt
  have hv : (BitVec.ofInt 16 (w.toInt.tmod 1440)).toInt = w.toInt.tmod 1440 := by
    rw [BitVec.toInt_ofInt]
    apply Int.bmod_eq_of_le <;> omega
  refine ⟨_, ?_, hv, fun h => ?_⟩
  · unfold Rounding.quantPhi
    rw [e, Run.ok_bind]
    rfl
  · apply BitVec.eq_of_toInt_eq
    rw [hv]
    obtain ⟨h1, h2⟩ := abs_lt.mp h
    rw [Int.tmod_def, tdiv_small h1 h2]
    omega

/-- **C61.** Phi is filled to half a quarter of a degree, up to whole turns: fewer than 1440 units either way, with the
sign of phi.  Up to half a turn nothing is taken off. -/
theorem C61_phi {phi : ℝ} (h : |phi| ≤ 142) :
    ∃ w, R.quantPhi phi = .ok w ∧ IsAngle w.toInt phi := by
  obtain ⟨v, v1, v2⟩ := C61_eta A h
  have hlt : |v.toInt.tmod 1440| < 1440 := by
    rw [abs_lt]
    have := Int.tmod_lt_of_pos v.toInt (show (0 : ℤ) < 1440 by norm_num)
    have := Int.lt_tmod_of_pos v.toInt (show (0 : ℤ) < 1440 by norm_num)
    omega
  obtain ⟨hlt1, hlt2⟩ := abs_lt.mp hlt
  have hv : (BitVec.ofInt 16 (v.toInt.tmod 1440)).toInt = v.toInt.tmod 1440 := by
    rw [BitVec.toInt_ofInt]
    apply Int.bmod_eq_of_le <;> omega
  have hdiv : v.toInt.tmod 1440 + 1440 * v.toInt.tdiv 1440 = v.toInt := Int.tmod_add_mul_tdiv _ _
  refine ⟨BitVec.ofInt 16 (v.toInt.tmod 1440), ?_, by rw [hv]; exact hlt, v.toInt.tdiv 1440, ?_, ?_, fun hp => ?_⟩
  · unfold Rounding.quantPhi
    rw [v1, Run.ok_bind]
    rfl
  · rw [hv, hdiv]
    exact v2
  · rw [hv]
    rcases le_total 0 v.toInt with h0 | h0
    · exact mul_nonneg (Int.tmod_nonneg _ h0) (Int.tdiv_nonneg h0 (by norm_num))
    · obtain ⟨u, hu⟩ : ∃ u : ℤ, v.toInt = -u := ⟨-v.toInt, by ring⟩
      have hu0 : 0 ≤ u := by omega
      rw [hu, Int.neg_tmod, Int.neg_tdiv, neg_mul_neg]
      exact mul_nonneg (Int.tmod_nonneg _ hu0) (Int.tdiv_nonneg hu0 (by norm_num))
  · have hb : |v.toInt| ≤ 720 := by
      unfold Quantised quarterDegree at v2
      have hpi : (0 : ℝ) < Real.pi := Real.pi_pos
      have h1 : |(v.toInt : ℝ)| * (Real.pi / 720) < 721 * (Real.pi / 720) := by
        rw [← abs_of_pos (by positivity : (0 : ℝ) < Real.pi / 720), ← abs_mul, abs_of_pos (by positivity : (0 : ℝ) < Real.pi / 720)]
        calc |(v.toInt : ℝ) * (Real.pi / 720)| = |((v.toInt : ℝ) * (Real.pi / 720) - phi) + phi| := by ring_nf
          _ ≤ |(v.toInt : ℝ) * (Real.pi / 720) - phi| + |phi| := abs_add_le _ _
          _ < 721 * (Real.pi / 720) := by
            have := div_le_div_of_nonneg_right hp (show (0 : ℝ) ≤ 2 ^ 21 by positivity)
            have : Real.pi / 2 ^ 21 < Real.pi / 720 / 4 := by
              rw [div_div]
              exact div_lt_div_of_pos_left hpi (by norm_num) (by norm_num)
            linarith
      have h2 := lt_of_mul_lt_mul_right h1 (by positivity : (0 : ℝ) ≤ Real.pi / 720)
      have h3 : |v.toInt| < 721 := by exact_mod_cast h2
      omega
    obtain ⟨h1, h2⟩ := abs_le.mp hb
    have hk : v.toInt.tdiv 1440 = 0 := tdiv_small (by omega) (by omega)
    refine ⟨hk, ?_⟩
    rw [hv]
    rw [hk] at hdiv
    rwa [show v.toInt.tmod 1440 = v.toInt by omega]


/-- **C61.** The whole of `CaloCluster::fill`. -/
theorem C61_cluster {pt emPt ptErr eta phi : ℝ} (em : Bool) (flags : BitVec 32) (hf : ∀ x ∈ [pt, emPt, ptErr], IsFloat x ∧ |x| ≤ 8191)
    (heta : |eta| ≤ 142) (hphi : |phi| ≤ 142) :
    ∃ c, R.fillCluster pt emPt ptErr eta phi em flags = .ok c ∧ IsRound c.hwPt.toInt (4 * pt) ∧ IsRound c.hwEmPt.toInt (4 * emPt) ∧
      IsRound c.hwPtErr.toInt (4 * ptErr) ∧ Quantised quarterDegree c.hwEta.toInt eta ∧ IsAngle c.hwPhi.toInt phi ∧
      c.isEM = em ∧ c.used = false ∧ c.hwFlags.toNat = flags.toNat % 65536 := by
  have key : ∀ x ∈ [pt, emPt, ptErr], ∃ w, toI16 (R.quant PT_SCALE x) = .ok w ∧ IsRound w.toInt (4 * x) := by
    intro x hx
    obtain ⟨h1, h2⟩ := hf x hx
    obtain ⟨c1, c2⟩ := C61_pt A h1 (h2.trans (by norm_num))
    obtain ⟨a, b⟩ := abs_le.mp h2
    obtain ⟨w, hw⟩ := c2.mpr ⟨by norm_num; linarith, by norm_num; linarith⟩
    exact ⟨w, hw, c1 w hw⟩
  obtain ⟨w1, a1, b1⟩ := key pt (by simp)
  obtain ⟨w2, a2, b2⟩ := key emPt (by simp)
  obtain ⟨w3, a3, b3⟩ := key ptErr (by simp)
  obtain ⟨w4, a4, b4⟩ := C61_eta A heta
  obtain ⟨w5, a5, b5⟩ := C61_phi A hphi
  refine ⟨⟨w1, w2, w3, w4, w5, flags.setWidth 16, em, false⟩, ?_, b1, b2, b3, b4, b5, rfl, rfl, by simp⟩
  unfold Rounding.fillCluster
  rw [a1, Run.ok_bind, a2, Run.ok_bind, a3, Run.ok_bind, a4, Run.ok_bind, a5, Run.ok_bind]

/-- **C61.** The whole of `PropagatedTrack::fillPropagated`: the flags given to it are dropped. -/
theorem C61_propagated (t : PropagatedTrack) {pt ptErr caloPtErr eta phi : ℝ} (flags : BitVec 32)
    (hf : ∀ x ∈ [pt, ptErr, caloPtErr], IsFloat x ∧ |x| ≤ 8191) (heta : |eta| ≤ 142) (hphi : |phi| ≤ 142) :
    ∃ t', R.fillPropagated t pt ptErr caloPtErr eta phi flags = .ok t' ∧ IsRound t'.hwPt.toInt (4 * pt) ∧
      IsRound t'.hwPtErr.toInt (4 * ptErr) ∧ IsRound t'.hwCaloPtErr.toInt (4 * caloPtErr) ∧
      Quantised quarterDegree t'.hwEta.toInt eta ∧ IsAngle t'.hwPhi.toInt phi ∧
      t'.muonLink = false ∧ t'.used = false ∧ t'.fromPV = t.fromPV ∧ t'.toInputTrack = t.toInputTrack := by
  have key : ∀ x ∈ [pt, ptErr, caloPtErr], ∃ w, toI16 (R.quant PT_SCALE x) = .ok w ∧ IsRound w.toInt (4 * x) := by
    intro x hx
    obtain ⟨h1, h2⟩ := hf x hx
    obtain ⟨c1, c2⟩ := C61_pt A h1 (h2.trans (by norm_num))
    obtain ⟨a, b⟩ := abs_le.mp h2
    obtain ⟨w, hw⟩ := c2.mpr ⟨by norm_num; linarith, by norm_num; linarith⟩
    exact ⟨w, hw, c1 w hw⟩
  obtain ⟨w1, a1, b1⟩ := key pt (by simp)
  obtain ⟨w2, a2, b2⟩ := key ptErr (by simp)
  obtain ⟨w3, a3, b3⟩ := key caloPtErr (by simp)
  obtain ⟨w4, a4, b4⟩ := C61_eta A heta
  obtain ⟨w5, a5, b5⟩ := C61_phi A hphi
  refine ⟨{ t with hwPt := w1, hwPtErr := w2, hwCaloPtErr := w3, hwEta := w4, hwPhi := w5, muonLink := false, used := false },
    ?_, b1, b2, b3, b4, b5, rfl, rfl, rfl, rfl⟩
  unfold Rounding.fillPropagated
  rw [a1, Run.ok_bind, a2, Run.ok_bind, a3, Run.ok_bind, a4, Run.ok_bind, a5, Run.ok_bind]

/-- **C61.** The whole of `Muon::fill`; a charge of ±1 is kept, 0 becomes -1. -/
theorem C61_muon {pt eta phi : ℝ} (charge : ℤ) (flags : BitVec 32) (hf : IsFloat pt ∧ |pt| ≤ 8191) (heta : |eta| ≤ 142) (hphi : |phi| ≤ 142) :
    ∃ m, R.fillMuon pt eta phi charge flags = .ok m ∧ IsRound m.hwPt.toInt (4 * pt) ∧ Quantised quarterDegree m.hwEta.toInt eta ∧
      IsAngle m.hwPhi.toInt phi ∧ m.hwFlags.toNat = flags.toNat % 65536 ∧
      (charge = 1 ∨ charge = -1 → intCharge m.hwCharge = charge) ∧ (charge = 0 → intCharge m.hwCharge = -1) := by
  obtain ⟨c1, c2⟩ := C61_pt A hf.1 (hf.2.trans (by norm_num))
  obtain ⟨a, b⟩ := abs_le.mp hf.2
  obtain ⟨w1, a1⟩ := c2.mpr ⟨by norm_num; linarith, by norm_num; linarith⟩
  obtain ⟨w4, a4, b4⟩ := C61_eta A heta
  obtain ⟨w5, a5, b5⟩ := C61_phi A hphi
  unfold Rounding.setFloatPt at a1
  refine ⟨⟨w1, w4, w5, flags.setWidth 16, decide (charge > 0)⟩, ?_, c1 w1 a1, b4, b5, by simp, ?_, ?_⟩
  · unfold Rounding.fillMuon
    rw [a1, Run.ok_bind, a4, Run.ok_bind, a5, Run.ok_bind]
  · rintro (rfl | rfl) <;> rfl
  · rintro rfl
    rfl

theorem quant_val {s x lo hi : ℝ} {n : ℤ} (h1 : lo ≤ x * s) (h2 : x * s ≤ hi) (hlo : |lo| ≤ 2 ^ 12) (hhi : |hi| ≤ 2 ^ 12)
    (g1 : (n : ℝ) - 0.49 ≤ lo) (g2 : hi ≤ (n : ℝ) + 0.49) : R.quant s x = n := by
  have hb : |x * s| ≤ 2 ^ 12 := by
    rw [abs_le] at hlo hhi ⊢
    constructor <;> linarith
  have e := A.abs32 (x := x * s) (hb.trans (by norm_num))
  have e2 : |R.f32 (x * s) - x * s| ≤ 0.001 := by
    refine e.trans ?_
    have := div_le_div_of_nonneg_right hb (show (0 : ℝ) ≤ 2 ^ 24 by positivity)
    norm_num at this ⊢
    linarith
  apply cround_eq
  rw [abs_lt]
  obtain ⟨e3, e4⟩ := abs_le.mp e2
  norm_num at e3 e4 g1 g2
  constructor <;> linarith

/-- **C61.** `PHI_WRAP` is a whole turn, so between half a turn and a turn one direction has two values: 4 and 4 - 2π. -/
theorem C61_two_codes : R.quantPhi 4 = .ok 917 ∧ R.quantPhi (R.f32 (4 - 2 * Real.pi)) = .ok (-523) ∧ (917 - (-523) : ℤ) = 1440 := by
  obtain ⟨b1, b2⟩ := etaphi_bounds A
  have p1 := Real.pi_gt_d4
  have p2 := Real.pi_lt_d4
  have q1 : R.quant R.ETAPHI_SCALE 4 = 917 :=
    quant_val A (lo := 916.732) (hi := 916.736) (by linarith) (by linarith) (by norm_num [abs_of_pos]) (by norm_num [abs_of_pos])
      (by norm_num) (by norm_num)
  have hx : |4 - 2 * Real.pi| ≤ 3 := by rw [abs_le]; constructor <;> linarith
  have hx' := A.abs32 (x := 4 - 2 * Real.pi) (hx.trans (by norm_num))
  have hy : |R.f32 (4 - 2 * Real.pi) - (4 - 2 * Real.pi)| ≤ 0.0001 := by
    refine hx'.trans ?_
    have := div_le_div_of_nonneg_right hx (show (0 : ℝ) ≤ 2 ^ 24 by positivity)
    norm_num at this ⊢
    linarith
  obtain ⟨y1, y2⟩ := abs_le.mp hy
  have z1 : -2.2835 ≤ R.f32 (4 - 2 * Real.pi) := by norm_num at *; linarith
  have z2 : R.f32 (4 - 2 * Real.pi) ≤ -2.2829 := by norm_num at *; linarith
  have q2 : R.quant R.ETAPHI_SCALE (R.f32 (4 - 2 * Real.pi)) = -523 := by
    refine quant_val A (lo := -523.36) (hi := -523.19) ?_ ?_ (by norm_num [abs_of_neg]) (by norm_num [abs_of_neg])
      (by norm_num) (by norm_num)
    · norm_num at *
      nlinarith
    · norm_num at *
      nlinarith
  refine ⟨?_, ?_, by norm_num⟩
  · unfold Rounding.quantPhi
    rw [q1]
    rfl
  · unfold Rounding.quantPhi
    rw [q2]
    rfl

end Verif
