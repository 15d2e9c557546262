import Verif.Spec.Cones
import Verif.Props.Discrete2
import Verif.Props.Influence
import Verif.Model.Puppi
/-! # The cones in radians: property C93 -/
namespace Verif
open Spec Rounding
variable {NT NC NE NM NS : Nat}

/-! ### Numbers that are no sums of two squares -/

theorem three_dvd_of_sum {a b : Int} (h : (a ^ 2 + b ^ 2) % 3 = 0) : (a ^ 2 + b ^ 2) % 9 = 0 := by
  have ha : a % 3 = 0 ∨ a % 3 = 1 ∨ a % 3 = 2 := by omega
  have hb : b % 3 = 0 ∨ b % 3 = 1 ∨ b % 3 = 2 := by omega
  obtain ⟨x, hx⟩ : ∃ x, a = 3 * x + a % 3 := ⟨a / 3, by omega⟩
  obtain ⟨y, hy⟩ : ∃ y, b = 3 * y + b % 3 := ⟨b / 3, by omega⟩
  rcases ha with ha | ha | ha <;> rcases hb with hb | hb | hb <;> rw [ha] at hx <;> rw [hb] at hy <;> subst hx <;> subst hy <;>
    ring_nf at h ⊢ <;> omega

theorem not_84 (a b : Int) : a ^ 2 + b ^ 2 ≠ 84 := fun h => by
  have := three_dvd_of_sum (a := a) (b := b) (by rw [h]; rfl)
  rw [h] at this
  exact absurd this (by decide)

theorem not_525 (a b : Int) : a ^ 2 + b ^ 2 ≠ 525 := fun h => by
  have := three_dvd_of_sum (a := a) (b := b) (by rw [h]; rfl)
  rw [h] at this
  exact absurd this (by decide)

theorem not_756 (a b : Int) : a ^ 2 + b ^ 2 ≠ 756 := fun h => by
  have b1 : a ≤ 27 := by nlinarith [sq_nonneg b]
  have b2 : -27 ≤ a := by nlinarith [sq_nonneg b]
  have c1 : b ≤ 27 := by nlinarith [sq_nonneg a]
  have c2 : -27 ≤ b := by nlinarith [sq_nonneg a]
  have hb : b ^ 2 = 756 - a ^ 2 := by omega
  obtain ⟨n, hn⟩ : ∃ n : Nat, b.natAbs = n := ⟨_, rfl⟩
  obtain ⟨k, hk⟩ : ∃ k : Nat, a.natAbs = k := ⟨_, rfl⟩
  have e : (k : Int) ^ 2 + (n : Int) ^ 2 = 756 := by
    rw [← hn, ← hk, Int.natAbs_sq, Int.natAbs_sq]
    exact h
  have hk' : k < 28 := by omega
  have hn' : n < 28 := by omega
  have : ∀ k : Fin 28, ∀ n : Fin 28, k.val ^ 2 + n.val ^ 2 ≠ 756 := by decide
  exact this ⟨k, hk'⟩ ⟨n, hn'⟩ (by exact_mod_cast e)

theorem not_8404 (a b : Int) : a ^ 2 + b ^ 2 ≠ 8404 := fun h => by
  have key : ∀ i j : Fin 11, (i.val ^ 2 + j.val ^ 2) % 11 = 0 → i.val = 0 ∧ j.val = 0 := by decide
  have e : ((a % 11) ^ 2 + (b % 11) ^ 2) % 11 = 0 := by
    have k : a ^ 2 + b ^ 2 = (a % 11) ^ 2 + (b % 11) ^ 2 + 11 * (a / 11 * (a + a % 11) + b / 11 * (b + b % 11)) := by
      have ha := Int.emod_add_mul_ediv a 11
      have hb := Int.emod_add_mul_ediv b 11
      generalize a % 11 = u at *
      generalize b % 11 = w at *
      generalize a / 11 = x at *
      generalize b / 11 = y at *
      subst ha
      subst hb
      ring
    rw [h] at k
    omega
  obtain ⟨i, hi⟩ : ∃ i : Nat, a % 11 = i := ⟨(a % 11).toNat, by omega⟩
  obtain ⟨j, hj⟩ : ∃ j : Nat, b % 11 = j := ⟨(b % 11).toNat, by omega⟩
  rw [hi, hj] at e
  have z := key ⟨i, by omega⟩ ⟨j, by omega⟩ (by exact_mod_cast e)
  dsimp only at z
  obtain ⟨x, hx⟩ : ∃ x, a = 11 * x := ⟨a / 11, by omega⟩
  obtain ⟨y, hy⟩ : ∃ y, b = 11 * y := ⟨b / 11, by omega⟩
  subst hx
  subst hy
  have : 121 * (x ^ 2 + y ^ 2) = 8404 := by rw [← h]; ring
  omega

/-- The square of the distance in radians. -/
theorem gridDeltaR_lt {R : ℝ} (hR : 0 < R) (e1 p1 e2 p2 : EtaPhi) :
    gridDeltaR e1 p1 e2 p2 < R ↔ (dist2 e1 p1 e2 p2 : ℝ) * (Real.pi * Real.pi) < R * R * 518400 := by
  unfold gridDeltaR
  rw [Real.sqrt_lt' hR]
  unfold dist2 quarterDegree
  push_cast
  constructor <;> intro h <;> nlinarith

theorem cut_iff {D : Int} {R : ℝ} (hR : 0 < R) {e1 p1 e2 p2 : EtaPhi} (hD : dist2 e1 p1 e2 p2 ≠ D)
    (h1 : ((D : ℝ) - 1) * (Real.pi * Real.pi) < R * R * 518400) (h2 : R * R * 518400 ≤ ((D : ℝ) + 1) * (Real.pi * Real.pi)) :
    dist2 e1 p1 e2 p2 < D ↔ gridDeltaR e1 p1 e2 p2 < R := by
  rw [gridDeltaR_lt hR]
  have hp : 0 < Real.pi * Real.pi := by have := Real.pi_pos; positivity
  constructor
  · intro h
    have : (dist2 e1 p1 e2 p2 : ℝ) ≤ D - 1 := by
      have : dist2 e1 p1 e2 p2 ≤ D - 1 := by omega
      exact_mod_cast this
    nlinarith
  · intro h
    by_contra hc
    have : (D : ℝ) + 1 ≤ (dist2 e1 p1 e2 p2 : ℝ) := by
      have : D + 1 ≤ dist2 e1 p1 e2 p2 := by omega
      exact_mod_cast this
    nlinarith

theorem cut_iff' {D : Int} {R : ℝ} (hR : 0 < R) {e1 p1 e2 p2 : EtaPhi}
    (h1 : ((D : ℝ) - 1) * (Real.pi * Real.pi) < R * R * 518400) (h2 : R * R * 518400 ≤ (D : ℝ) * (Real.pi * Real.pi)) :
    dist2 e1 p1 e2 p2 < D ↔ gridDeltaR e1 p1 e2 p2 < R := by
  rw [gridDeltaR_lt hR]
  have hp : 0 < Real.pi * Real.pi := by have := Real.pi_pos; positivity
  constructor
  · intro h
    have : (dist2 e1 p1 e2 p2 : ℝ) ≤ D - 1 := by
      have : dist2 e1 p1 e2 p2 ≤ D - 1 := by omega
      exact_mod_cast this
    nlinarith
  · intro h
    by_contra hc
    have : (D : ℝ) ≤ (dist2 e1 p1 e2 p2 : ℝ) := by
      have : D ≤ dist2 e1 p1 e2 p2 := by omega
      exact_mod_cast this
    nlinarith

theorem pi_sq : 9.8696 < Real.pi * Real.pi ∧ Real.pi * Real.pi < 9.86961 := by
  have a := Real.pi_gt_d6
  have b := Real.pi_lt_d6
  norm_num at a b ⊢
  constructor <;> nlinarith

/-- **C93.** On the grid of the firmware, the integer cuts are exactly cones of 0.2, 0.04, 0.1, 0.12 and 0.4: no pair of directions is
treated differently. -/
theorem C93_cones (e1 p1 e2 p2 : EtaPhi) :
    (dr2_int e1 p1 e2 p2 < PFALGO3_DR2MAX_TK_MU ↔ gridDeltaR e1 p1 e2 p2 < 0.2) ∧
    (dr2_int e1 p1 e2 p2 < PFALGO3_DR2MAX_TK_EM ↔ gridDeltaR e1 p1 e2 p2 < 0.04) ∧
    (dr2_int e1 p1 e2 p2 < PFALGO3_DR2MAX_EM_CALO ↔ gridDeltaR e1 p1 e2 p2 < 0.1) ∧
    (dr2_int e1 p1 e2 p2 < PFALGO3_DR2MAX_TK_CALO ↔ gridDeltaR e1 p1 e2 p2 < 0.12) ∧
    ∀ (Z0 : Z0) (ne : PFNeutralObj) (c : PFChargedObj), PuppiNear Z0 ne c ↔
      |(Z0.toInt - c.hwZ0.toInt : ℝ) * (1 / 20)| ≤ 12.8 ∧ gridDeltaR c.hwEta c.hwPhi ne.hwEta ne.hwPhi < 0.4 := by
  obtain ⟨q1, q2⟩ := pi_sq
  norm_num at q1 q2
  rw [dr2_int_eq_dist2]
  refine ⟨cut_iff' (by norm_num) ?_ ?_, cut_iff (by norm_num) (not_84 _ _) ?_ ?_, cut_iff (by norm_num) (not_525 _ _) ?_ ?_,
    cut_iff (by norm_num) (not_756 _ _) ?_ ?_, fun Z0 ne c => ?_⟩
  any_goals (unfold PFALGO3_DR2MAX_TK_MU; norm_num; linarith)
  any_goals (unfold PFALGO3_DR2MAX_TK_EM; norm_num; linarith)
  any_goals (unfold PFALGO3_DR2MAX_EM_CALO; norm_num; linarith)
  any_goals (unfold PFALGO3_DR2MAX_TK_CALO; norm_num; linarith)
  unfold PuppiNear
  refine and_congr ?_ ?_
  · have e : |(Z0.toInt - c.hwZ0.toInt : ℝ)| = ((Z0.toInt - c.hwZ0.toInt).natAbs : ℝ) := by
      rw [← Int.cast_sub, ← Int.cast_abs, Int.abs_eq_natAbs]
      rfl
    rw [abs_mul, e, abs_of_pos (by norm_num : (0 : ℝ) < 1 / 20)]
    constructor
    · intro h
      have : ((Z0.toInt - c.hwZ0.toInt).natAbs : ℝ) ≤ 256 := by exact_mod_cast h
      linarith
    · intro h
      have : ((Z0.toInt - c.hwZ0.toInt).natAbs : ℝ) ≤ 256 := by linarith
      exact_mod_cast this
  · have h : dist2 c.hwEta c.hwPhi ne.hwEta ne.hwPhi ≤ 8404 ↔ dist2 c.hwEta c.hwPhi ne.hwEta ne.hwPhi < 8404 :=
      ⟨fun h => lt_of_le_of_ne h (not_8404 _ _), le_of_lt⟩
    refine h.trans (cut_iff' (by norm_num) ?_ ?_)
    · norm_num
      linarith
    · norm_num
      linarith

/-! ### Rounded directions -/

theorem unit_bounds : 0.004363 < quarterDegree ∧ quarterDegree < 0.0043634 := by
  have p1 := Real.pi_gt_d6
  have p2 := Real.pi_lt_d6
  unfold quarterDegree
  norm_num at *
  constructor <;> linarith

/-- Of two rounded coordinates, the difference is right to a unit. -/
theorem circ_near {w1 w2 : EtaPhi} {x1 x2 : ℝ} (h1 : Quantised quarterDegree w1.toInt x1) (h2 : Quantised quarterDegree w2.toInt x2)
    (b1 : |x1| ≤ 1.1) (b2 : |x2| ≤ 1.1) : |circ w1 w2 * quarterDegree - (x1 - x2)| ≤ 0.004365 := by
  obtain ⟨u1, u2⟩ := unit_bounds
  unfold Quantised at h1 h2
  obtain ⟨a1, a2⟩ := abs_le.mp h1
  obtain ⟨c1, c2⟩ := abs_le.mp h2
  obtain ⟨d1, d2⟩ := abs_le.mp b1
  obtain ⟨f1, f2⟩ := abs_le.mp b2
  norm_num at a1 a2 c1 c2 d1 d2 f1 f2 u1 u2 b1 b2
  have r1 : w1.toInt - w2.toInt < 512 := by
    by_contra hc
    have : (512 : ℝ) ≤ (w1.toInt : ℝ) - w2.toInt := by exact_mod_cast (show 512 ≤ w1.toInt - w2.toInt by omega)
    nlinarith
  have r2 : -512 < w1.toInt - w2.toInt := by
    by_contra hc
    have : (w1.toInt : ℝ) - w2.toInt ≤ -512 := by exact_mod_cast (show w1.toInt - w2.toInt ≤ -512 by omega)
    nlinarith
  have e : circ w1 w2 = w1.toInt - w2.toInt := by
    unfold circ
    apply Int.bmod_eq_of_le <;> omega
  rw [e, abs_le]
  push_cast
  norm_num
  constructor <;> nlinarith

/-- The plane has the triangle inequality. -/
theorem sqrt_sub_le (a b c d : ℝ) : Real.sqrt (a ^ 2 + b ^ 2) ≤ Real.sqrt (c ^ 2 + d ^ 2) + Real.sqrt ((a - c) ^ 2 + (b - d) ^ 2) := by
  apply Real.sqrt_le_iff.mpr
  refine ⟨by positivity, ?_⟩
  have h1 := Real.sq_sqrt (show 0 ≤ c ^ 2 + d ^ 2 by positivity)
  have h2 := Real.sq_sqrt (show 0 ≤ (a - c) ^ 2 + (b - d) ^ 2 by positivity)
  have h3 : c * (a - c) + d * (b - d) ≤ Real.sqrt (c ^ 2 + d ^ 2) * Real.sqrt ((a - c) ^ 2 + (b - d) ^ 2) := by
    rw [← Real.sqrt_mul (by positivity)]
    apply Real.le_sqrt_of_sq_le
    nlinarith [sq_nonneg (c * (b - d) - d * (a - c))]
  nlinarith

/-- **C93.** The distance of two rounded directions is right to 0.0062. -/
theorem C93_rounding {e1 p1 e2 p2 : EtaPhi} {a b : RealDir} (ha : Stands e1 p1 a) (hb : Stands e2 p2 b) :
    |gridDeltaR e1 p1 e2 p2 - deltaR a b| < 0.0062 := by
  have k1 := circ_near ha.eta hb.eta ha.etaMax hb.etaMax
  have k2 := circ_near ha.phi hb.phi ha.phiMax hb.phiMax
  have s1 := sqrt_sub_le (circ e1 e2 * quarterDegree) (circ p1 p2 * quarterDegree) (a.1 - b.1) (a.2 - b.2)
  have s2 := sqrt_sub_le (a.1 - b.1) (a.2 - b.2) (circ e1 e2 * quarterDegree) (circ p1 p2 * quarterDegree)
  have m1 := sq_le_sq' (neg_le_of_abs_le k1) (le_of_abs_le k1)
  have m2 := sq_le_sq' (neg_le_of_abs_le k2) (le_of_abs_le k2)
  have t1 : Real.sqrt ((circ e1 e2 * quarterDegree - (a.1 - b.1)) ^ 2 + (circ p1 p2 * quarterDegree - (a.2 - b.2)) ^ 2) < 0.0062 := by
    rw [Real.sqrt_lt' (by norm_num)]
    norm_num at m1 m2 ⊢
    linarith
  have t2 : Real.sqrt ((a.1 - b.1 - circ e1 e2 * quarterDegree) ^ 2 + (a.2 - b.2 - circ p1 p2 * quarterDegree) ^ 2) < 0.0062 := by
    rw [show (a.1 - b.1 - circ e1 e2 * quarterDegree) ^ 2 = (circ e1 e2 * quarterDegree - (a.1 - b.1)) ^ 2 by ring,
      show (a.2 - b.2 - circ p1 p2 * quarterDegree) ^ 2 = (circ p1 p2 * quarterDegree - (a.2 - b.2)) ^ 2 by ring]
    exact t1
  unfold gridDeltaR deltaR
  rw [abs_lt]
  constructor <;> linarith

/-- A cone of the firmware is a cone of radians to 0.0062. -/
theorem cone_near {D : Int} {R : ℝ} {e1 p1 e2 p2 : EtaPhi} (hc : dist2 e1 p1 e2 p2 < D ↔ gridDeltaR e1 p1 e2 p2 < R) {a b : RealDir}
    (ha : Stands e1 p1 a) (hb : Stands e2 p2 b) :
    (dist2 e1 p1 e2 p2 < D → deltaR a b < R + 0.0062) ∧ (deltaR a b ≤ R - 0.0062 → dist2 e1 p1 e2 p2 < D) := by
  obtain ⟨h1, h2⟩ := abs_lt.mp (C93_rounding ha hb)
  refine ⟨fun h => ?_, fun h => hc.mpr ?_⟩
  · have := hc.mp h
    linarith
  · linarith

/-- **C93.** What the distance cuts of the four links mean for the objects before rounding: inside the cone less 0.0062 a pair passes, outside
the cone plus 0.0062 it does not. -/
theorem C93_links {inp : PFInputs NT NC NE NM} {d : Directions NT NC NE NM} (H : HasDirections inp d) :
    (∀ m t, (muDist2 inp m t < 2101 → deltaR (d.mu m) (d.track t) < 0.2062) ∧ (deltaR (d.mu m) (d.track t) ≤ 0.1938 → muDist2 inp m t < 2101)) ∧
    (∀ t e, (tkEmDist2 inp t e < 84 → deltaR (d.track t) (d.em e) < 0.0462) ∧ (deltaR (d.track t) (d.em e) ≤ 0.0338 → tkEmDist2 inp t e < 84)) ∧
    (∀ e h, (emHadDist2 inp e h < 525 → deltaR (d.em e) (d.had h) < 0.1062) ∧ (deltaR (d.em e) (d.had h) ≤ 0.0938 → emHadDist2 inp e h < 525)) ∧
    (∀ t h, (tkHadDist2 inp t h < 756 → deltaR (d.track t) (d.had h) < 0.1262) ∧
      (deltaR (d.track t) (d.had h) ≤ 0.1138 → tkHadDist2 inp t h < 756)) := by
  refine ⟨fun m t => ?_, fun t e => ?_, fun e h => ?_, fun t h => ?_⟩
  · have k := (C93_cones (inp.mu m).hwEta (inp.mu m).hwPhi (inp.track t).hwEta (inp.track t).hwPhi).1
    rw [dr2_int_eq_dist2] at k
    have := cone_near k (H.mu m) (H.track t)
    norm_num at this ⊢
    exact this
  · have k := (C93_cones (inp.track t).hwEta (inp.track t).hwPhi (inp.emcalo e).hwEta (inp.emcalo e).hwPhi).2.1
    rw [dr2_int_eq_dist2] at k
    have := cone_near k (H.track t) (H.em e)
    norm_num at this ⊢
    exact this
  · have k := (C93_cones (inp.emcalo e).hwEta (inp.emcalo e).hwPhi (inp.hadcalo h).hwEta (inp.hadcalo h).hwPhi).2.2.1
    rw [dr2_int_eq_dist2] at k
    have := cone_near k (H.em e) (H.had h)
    norm_num at this ⊢
    exact this
  · have k := (C93_cones (inp.track t).hwEta (inp.track t).hwPhi (inp.hadcalo h).hwEta (inp.hadcalo h).hwPhi).2.2.2.1
    rw [dr2_int_eq_dist2] at k
    have := cone_near k (H.track t) (H.had h)
    norm_num at this ⊢
    exact this

/-- **C93.** Every charged candidate of 20 GeV or more that the firmware gives is confirmed by an object close to the track: a muon within 0.2062, an EM
cluster within 0.0462, or a calorimeter cluster within 0.1262. -/
theorem C93_confirmed {inp : PFInputs NT NC NE NM} {d : Directions NT NC NE NM} (H : HasDirections inp d) (hv : Valid inp fwVariant)
    (old : PFOutputs NT NE NS NM) (mem : PFScratch NC NS) :
    ∃ out, pfalgo3_full inp old mem = .ok out ∧ ∀ t, 80 ≤ (out.outch t).hwPt.toInt →
      (∃ m, 0 < (inp.mu m).hwPt.toInt ∧ deltaR (d.mu m) (d.track t) < 0.2062) ∨ (∃ e, deltaR (d.track t) (d.em e) < 0.0462) ∨
      (∃ h, 0 < (inp.hadcalo h).hwPt.toInt ∧ deltaR (d.track t) (d.had h) < 0.1262) := by
  obtain ⟨out, n, h1, hch, -⟩ := fw_meets_spec inp old mem hv
  obtain ⟨l1, l2, -, l4⟩ := C93_links H
  refine ⟨out, h1, fun t ht => ?_⟩
  rw [hch] at ht
  unfold chargedOut at ht
  split at ht
  · rename_i hk
    rcases hk with ⟨m, hp, hm, -⟩ | ⟨e, he, -⟩ | hl | ⟨h, hc, -⟩
    · exact .inl ⟨m, hp, (l1 m t).1 hm.1⟩
    · exact .inr (.inl ⟨e, (l2 t e).1 he.2.1⟩)
    · unfold lowPt at hl
      dsimp only at ht
      split at hl <;> omega
    · refine .inr (.inr ⟨h, ?_, (l4 t h).1 hc.2⟩)
      have a := hc.1
      have b := (hadPt_bounds hv h).2
      have c := emSb_nonneg hv h
      omega
  · exact absurd ht (by decide)

/-! ### Where the directions come from -/

theorem small_of_quantised {n : ℤ} {x : ℝ} (hq : Quantised quarterDegree n x) (hx : |x| ≤ 1.1) : -511 ≤ n ∧ n ≤ 511 := by
  obtain ⟨d1, d2⟩ := unit_bounds
  unfold Quantised at hq
  obtain ⟨q1, q2⟩ := abs_le.mp hq
  obtain ⟨x1, x2⟩ := abs_le.mp hx
  norm_num at d1 d2 q1 q2 hx x1 x2
  constructor
  · by_contra hcon
    have : (n : ℝ) ≤ -512 := by exact_mod_cast (show n ≤ -512 by omega)
    nlinarith
  · by_contra hcon
    have : (512 : ℝ) ≤ n := by exact_mod_cast (show 512 ≤ n by omega)
    nlinarith

theorem stands_of {w4 w5 : BitVec 16} {eta phi : ℝ} (h4 : Quantised quarterDegree w4.toInt eta) (h5 : IsAngle w5.toInt phi) (he : |eta| ≤ 1.1)
    (hp : |phi| ≤ 1.1) : Stands (reg 10 w4.toInt) (reg 10 w5.toInt) (eta, phi) := by
  have keep : ∀ n : ℤ, -511 ≤ n → n ≤ 511 → (reg 10 n).toInt = n := by
    intro n h1 h2
    unfold reg
    rw [BitVec.toInt_ofInt]
    apply Int.bmod_eq_of_le <;> omega
  obtain ⟨-, k, hq, -, hk⟩ := h5
  have hpi := Real.pi_gt_d4
  obtain ⟨rfl, -⟩ := hk (by norm_num at hp hpi; linarith)
  rw [mul_zero, add_zero] at hq
  obtain ⟨s1, s2⟩ := small_of_quantised h4 he
  obtain ⟨s3, s4⟩ := small_of_quantised hq hp
  refine ⟨?_, ?_, he, hp⟩
  · rw [keep _ s1 s2]
    exact h4
  · rw [keep _ s3 s4]
    exact hq

/-- **C93.** What is filled from numbers within 1.1 of the centre of the region and converted for the firmware stands for these numbers: clusters,
tracks and muons. -/
theorem C93_filled {R : Rounding} (A : IEEE R) {eta phi : ℝ} (he : |eta| ≤ 1.1) (hp : |phi| ≤ 1.1) (flags : BitVec 32) :
    (∀ pt emPt ptErr em c, R.fillCluster pt emPt ptErr eta phi em flags = .ok c →
      Stands (fw_had c).hwEta (fw_had c).hwPhi (eta, phi) ∧ Stands (fw_em c).hwEta (fw_em c).hwPhi (eta, phi)) ∧
    (∀ t pt ptErr caloPtErr t', R.fillPropagated t pt ptErr caloPtErr eta phi flags = .ok t' →
      Stands (fw_track t').hwEta (fw_track t').hwPhi (eta, phi)) ∧
    (∀ pt charge m, R.fillMuon pt eta phi charge flags = .ok m → Stands (fw_mu m).hwEta (fw_mu m).hwPhi (eta, phi)) := by
  obtain ⟨w4, a4, b4⟩ := C61_eta A (he.trans (by norm_num) : |eta| ≤ 142)
  obtain ⟨w5, a5, b5⟩ := C61_phi A (hp.trans (by norm_num) : |phi| ≤ 142)
  have s := stands_of b4 b5 he hp
  refine ⟨fun pt emPt ptErr em c h => ?_, fun t pt ptErr caloPtErr t' h => ?_, fun pt charge m h => ?_⟩
  · unfold Rounding.fillCluster at h
    obtain ⟨w1, -, h⟩ := Run.bind_eq_ok.mp h
    obtain ⟨w2, -, h⟩ := Run.bind_eq_ok.mp h
    obtain ⟨w3, -, h⟩ := Run.bind_eq_ok.mp h
    rw [a4, Run.ok_bind, a5, Run.ok_bind] at h
    injection h with h
    subst h
    exact ⟨s, s⟩
  · unfold Rounding.fillPropagated at h
    obtain ⟨w1, -, h⟩ := Run.bind_eq_ok.mp h
    obtain ⟨w2, -, h⟩ := Run.bind_eq_ok.mp h
    obtain ⟨w3, -, h⟩ := Run.bind_eq_ok.mp h
    rw [a4, Run.ok_bind, a5, Run.ok_bind] at h
    injection h with h
    subst h
    exact s
  · unfold Rounding.fillMuon at h
    obtain ⟨w1, -, h⟩ := Run.bind_eq_ok.mp h
    rw [a4, Run.ok_bind, a5, Run.ok_bind] at h
    injection h with h
    subst h
    exact s

/-- **C93.** The reaches of C90 in radians. -/
theorem C93_reaches : muonReach * quarterDegree < 0.2001 ∧ photonReach * quarterDegree < 0.4401 ∧ chargedReach * quarterDegree < 0.66 ∧
    neutralReach * quarterDegree < 0.78 ∧ puppiReach * quarterDegree < 1.0601 := by
  obtain ⟨a, b, c, d, e⟩ := C90_numbers
  obtain ⟨u1, u2⟩ := unit_bounds
  norm_num at a b c d e u1 u2 ⊢
  refine ⟨?_, ?_, ?_, ?_, ?_⟩ <;> nlinarith

/-- **C93**, a limit: two directions 4.4 apart, both within 2.2 of the centre, are linked as if they were 0.07 apart. -/
theorem C93_wrap : ∃ a b : RealDir, Quantised quarterDegree (504 : EtaPhi).toInt a.1 ∧ Quantised quarterDegree (-504 : EtaPhi).toInt b.1 ∧
    |a.1| ≤ 2.2 ∧ |b.1| ≤ 2.2 ∧ a.2 = 0 ∧ b.2 = 0 ∧ 4.39 < deltaR a b ∧ dr2_int 504 0 (-504) 0 < PFALGO3_DR2MAX_EM_CALO := by
  obtain ⟨u1, u2⟩ := unit_bounds
  have e : ((504 : EtaPhi).toInt : ℝ) = 504 := by rw [show (504 : EtaPhi).toInt = 504 by decide]; norm_num
  have e' : ((-504 : EtaPhi).toInt : ℝ) = -504 := by rw [show (-504 : EtaPhi).toInt = -504 by decide]; norm_num
  norm_num at u1 u2
  refine ⟨(504 * quarterDegree, 0), (-504 * quarterDegree, 0), ?_, ?_, ?_, ?_, rfl, rfl, ?_, by decide⟩
  · unfold Quantised
    rw [e, sub_self, abs_zero]
    positivity
  · unfold Quantised
    rw [e', sub_self, abs_zero]
    positivity
  · rw [abs_le]
    norm_num
    constructor <;> linarith
  · rw [abs_le]
    norm_num
    constructor <;> linarith
  · unfold deltaR
    apply Real.lt_sqrt_of_sq_lt
    norm_num
    nlinarith

theorem stands_grid {e p : EtaPhi} (he : |e.toInt| ≤ 252) (hp : |p.toInt| ≤ 252) : Stands e p (e.toInt * quarterDegree, p.toInt * quarterDegree) := by
  obtain ⟨u1, u2⟩ := unit_bounds
  norm_num at u1 u2
  have k : ∀ n : ℤ, |n| ≤ 252 → |(n : ℝ) * quarterDegree| ≤ 1.1 := by
    intro n hn
    have h : |(n : ℝ)| ≤ 252 := by exact_mod_cast hn
    rw [abs_mul, abs_of_pos (by linarith : 0 < quarterDegree)]
    norm_num
    nlinarith
  have q : ∀ n : ℤ, Quantised quarterDegree n (n * quarterDegree) := by
    intro n
    unfold Quantised
    rw [sub_self, abs_zero]
    positivity
  exact ⟨q _, q _, k _ he, k _ hp⟩

/-- **C93**, non-vacuity: a physical event with directions, in which a track of 25 GeV is confirmed by a calorimeter cluster. -/
example : ∃ (inp : PFInputs 1 1 1 1) (d : Directions 1 1 1 1), HasDirections inp d ∧ Physical inp ∧
    (pfalgo3_full inp (old0 1 1 1 1) (mem0 1 1)).map (fun o => (o.outch 0).hwPt) = .ok 100 := by
  refine ⟨⟨fun _ => ⟨0, 0, 100, 100⟩, fun _ => ⟨110, 3, 0, 0, false⟩, fun _ => ⟨100, 5, 10, 20, 0, true⟩, fun _ => ⟨0, 0, -100, 7⟩⟩,
    ⟨fun _ => _, fun _ => _, fun _ => _, fun _ => _⟩, ⟨fun _ => stands_grid ?_ ?_, fun _ => stands_grid ?_ ?_, fun _ => stands_grid ?_ ?_,
      fun _ => stands_grid ?_ ?_⟩, ?_, ?_⟩
  all_goals first | decide | (constructor <;> decide) | decide +kernel

end Verif
