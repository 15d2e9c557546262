import Verif.Proofs.Puppi
/-! # C22–C25, C48 — PUPPI -/
namespace Verif
open Spec

variable {NT NN : Nat}

/-! ### C22: firmware and reference -/

/-- **C22.** If every sum fits in an `int`, both are defined and give every neutral of non-zero pt the
specified PUPPI pt and leave every other field alone; for a null neutral the firmware writes 0 where
the reference leaves the old value. -/
theorem C22_puppi_agree (table : PuppiTable) (pfch : Arr NT PFChargedObj) (ne : Arr NN PFNeutralObj)
    (Z0 : Z0) (h : ∀ n, puppiSum pfch Z0 (ne n) ≤ 2147483647) :
    ∃ hw ref, simple_puppi_hw table pfch ne Z0 = .ok hw ∧ simple_puppi_ref table pfch ne Z0 = .ok ref ∧
      ∀ n,
        hw n = { ne n with hwPtPuppi := reg 16 (puppiPt table (puppiSum pfch Z0 (ne n)) (ne n).hwPt.toInt) } ∧
        ((ne n).hwPt ≠ 0 → ref n = hw n) ∧
        ((ne n).hwPt = 0 → ref n = ne n ∧ (hw n).hwPtPuppi = 0) := by
  have h0 := fun n => puppiSum_nonneg pfch Z0 (ne n)
  choose w hw using fun n => ref_weight_eq table (h0 n) (ne n).hwPt
  refine ⟨fun n => puppi_hw_weight table (puppiSum pfch Z0 (ne n)) (ne n),
    fun n => if (ne n).hwPt = 0 then ne n else
      { ne n with hwPtPuppi := reg 16 (puppiPt table (puppiSum pfch Z0 (ne n)) (ne n).hwPt.toInt) },
    ?_, ?_, fun n => ⟨hw_weight_eq table (h0 n) (h n) (ne n), fun hn => ?_, fun hn => ⟨if_pos hn, ?_⟩⟩⟩
  · unfold simple_puppi_hw
    rw [buildM_ok (fun n => puppiSum pfch Z0 (ne n)) (fun n => puppi_hw_sum_eq pfch (ne n) Z0 (h n))]
    rfl
  · unfold simple_puppi_ref
    apply buildM_ok
    intro n
    unfold puppi_ref_one
    split
    · rfl
    · rw [puppi_ref_sum_eq, if_pos (h n), Run.ok_bind, (hw n).1, Run.ok_bind, (hw n).2]
  · exact (if_neg hn).trans (hw_weight_eq table (h0 n) (h n) (ne n)).symm
  · show (puppi_hw_weight table (puppiSum pfch Z0 (ne n)) (ne n)).hwPtPuppi = 0
    rw [hw_weight_eq table (h0 n) (h n) (ne n), hn]
    show reg 16 (puppiPt table _ (0 : Pt).toInt) = 0
    unfold puppiPt
    have : (0 : Pt).toInt = 0 := by decide
    rw [this]
    split
    · rfl
    · split
      · rw [Int.zero_mul]; rfl
      · rfl

/-- **C22.** The reference is defined exactly when the sums of the non-null neutrals fit; otherwise it
overflows an `int`. -/
theorem C22_ref_defined_iff (table : PuppiTable) (pfch : Arr NT PFChargedObj)
    (ne : Arr NN PFNeutralObj) (Z0 : Z0) :
    (∃ ref, simple_puppi_ref table pfch ne Z0 = .ok ref) ↔
      ∀ n, (ne n).hwPt ≠ 0 → puppiSum pfch Z0 (ne n) ≤ 2147483647 := by
  constructor
  · rintro ⟨ref, h⟩ n hn
    have := buildM_eq_ok.mp h n
    unfold puppi_ref_one at this
    rw [if_neg hn, puppi_ref_sum_eq] at this
    by_contra hc
    rw [if_neg hc, Run.error_bind] at this
    cases this
  · intro h
    apply buildM_exists
    intro n
    unfold puppi_ref_one
    split
    · exact ⟨_, rfl⟩
    · rename_i hn
      obtain ⟨w, hw, _⟩ := ref_weight_eq table (puppiSum_nonneg pfch Z0 (ne n)) (ne n).hwPt
      rw [puppi_ref_sum_eq, if_pos (h n hn), Run.ok_bind, hw, Run.ok_bind]
      exact ⟨_, rfl⟩

/-- A charged candidate of pt 400 GeV (1600 in units of 0.25 GeV) on top of a neutral. -/
def hardTrack : PFChargedObj := ⟨1600, 0, 0, 0, 0⟩
/-- A neutral of pt 100. -/
def softNeutral : PFNeutralObj := ⟨100, 0, 0, 1, 0⟩

/-- **C22.** The bound is reached in practice: one 400 GeV charged candidate on top of the neutral
overflows the reference. -/
theorem C22_ref_overflow (table : PuppiTable) :
    simple_puppi_ref (NT := 1) (NN := 1) table (fun _ => hardTrack) (fun _ => softNeutral) 0 =
      .error .intOverflow := by
  have : puppiSum (fun _ : Fin 1 => hardTrack) 0 softNeutral > 2147483647 := by decide
  have h1 : puppi_ref_one table (fun _ : Fin 1 => hardTrack) 0 softNeutral = .error .intOverflow := by
    unfold puppi_ref_one
    rw [if_neg (by decide), puppi_ref_sum_eq, if_neg (by omega)]
    rfl
  unfold simple_puppi_ref buildM
  simp only [h1]
  rfl

/-- Non-vacuity of C22: a sum that fits, in the middle of the table. -/
example : puppiSum (fun _ : Fin 2 => (⟨40, 10, 10, 0, 0⟩ : PFChargedObj)) 0 softNeutral = 546100 ∧
    (simple_puppi_hw (NT := 2) (NN := 1) (fun i => if i.val = 533 then 128 else 0)
      (fun _ => ⟨40, 10, 10, 0, 0⟩) (fun _ => softNeutral) 0).map (fun o => (o 0).hwPtPuppi) = .ok 50 := by
  decide +kernel

/-! ### C23: PUPPI only scales down -/

/-- **C23.** In every defined run of the firmware, overflow or not: nothing but `hwPtPuppi` changes,
and a non-negative pt is only scaled down. -/
theorem C23_scales_down (table : PuppiTable) (pfch : Arr NT PFChargedObj) (ne out : Arr NN PFNeutralObj)
    (Z0 : Z0) (h : simple_puppi_hw table pfch ne Z0 = .ok out) (n : Fin NN) :
    (out n).hwPt = (ne n).hwPt ∧ (out n).hwEta = (ne n).hwEta ∧ (out n).hwPhi = (ne n).hwPhi ∧
    (out n).hwId = (ne n).hwId ∧
    (0 ≤ (ne n).hwPt.toInt →
      0 ≤ (out n).hwPtPuppi.toInt ∧ (out n).hwPtPuppi.toInt ≤ (ne n).hwPt.toInt) := by
  unfold simple_puppi_hw at h
  obtain ⟨sums, _, h⟩ := Run.bind_eq_ok.mp h
  injection h with h
  subst h
  simp only []
  unfold puppi_hw_weight
  simp only []
  split
  · refine ⟨rfl, rfl, rfl, rfl, fun hp => ?_⟩
    have hr := pt_range (ne n).hwPt
    generalize (if (reg 32 (shr (sums n) 10)).toNat = 0 then (0 : BitVec 8) else table _) = w
    have hw : (w.toNat : Int) < 256 := by have := w.isLt; omega
    have hs : shr ((ne n).hwPt.toInt * (w.toNat : Int)) 8 = (ne n).hwPt.toInt * (w.toNat : Int) / 256 := rfl
    show 0 ≤ (reg 16 (shr ((ne n).hwPt.toInt * (w.toNat : Int)) 8)).toInt ∧
      (reg 16 (shr ((ne n).hwPt.toInt * (w.toNat : Int)) 8)).toInt ≤ _
    rw [hs]
    have h1 : 0 ≤ (ne n).hwPt.toInt * (w.toNat : Int) := Int.mul_nonneg hp (by omega)
    have h2 : (ne n).hwPt.toInt * (w.toNat : Int) ≤ (ne n).hwPt.toInt * 256 :=
      Int.mul_le_mul_of_nonneg_left (by omega) hp
    rw [reg16_toInt (by omega) (by omega)]
    omega
  · exact ⟨rfl, rfl, rfl, rfl, fun hp => ⟨hp, le_refl _⟩⟩

/-- Non-vacuity of C23: the firmware wraps instead of overflowing on the hard track above. -/
example : (simple_puppi_hw (NT := 1) (NN := 1) (fun _ => 0) (fun _ => hardTrack)
    (fun _ => softNeutral) 0).map (fun o => (o 0).hwPtPuppi) = .ok 100 := by decide +kernel

/-! ### C24: locality -/

/-- The sum of one neutral in the firmware depends only on the near candidates, overflow or not. -/
theorem puppi_hw_sum_local (pfch pfch' : Arr NT PFChargedObj) (ne : PFNeutralObj) (Z0 : Z0)
    (h : ∀ t, PuppiNear Z0 ne (pfch t) ∨ PuppiNear Z0 ne (pfch' t) → pfch t = pfch' t) :
    puppi_hw_sum pfch ne Z0 = puppi_hw_sum pfch' ne Z0 := by
  unfold puppi_hw_sum
  congr 1
  funext it s
  have e1 := puppi_body pfch ne Z0 it (cint (s + lut_shift15_divide (puppi_pt2_shift (pfch it))
        (reg 9 (shr (dr2_int (pfch it).hwEta (pfch it).hwPhi ne.hwEta ne.hwPhi) 5)))) (.ok s) _ (fun _ => rfl)
  have e2 := puppi_body pfch' ne Z0 it (cint (s + lut_shift15_divide (puppi_pt2_shift (pfch' it))
        (reg 9 (shr (dr2_int (pfch' it).hwEta (pfch' it).hwPhi ne.hwEta ne.hwPhi) 5)))) (.ok s) _ (fun _ => rfl)
  refine e1.trans (Eq.trans ?_ e2.symm)
  by_cases hn : PuppiNear Z0 ne (pfch it) ∨ PuppiNear Z0 ne (pfch' it)
  · rw [h it hn]
  · rw [if_neg (fun hh => hn (Or.inl hh)), if_neg (fun hh => hn (Or.inr hh))]

/-- **C24.** In defined runs the result for a neutral depends only on that neutral and on the charged
candidates within 256 in z0 of the vertex and `dR² ≤ 8404` of it. -/
theorem C24_local (table : PuppiTable) (pfch pfch' : Arr NT PFChargedObj) {NN' : Nat}
    (ne out : Arr NN PFNeutralObj) (ne' out' : Arr NN' PFNeutralObj) (Z0 : Z0) (n : Fin NN) (n' : Fin NN')
    (hn : ne n = ne' n')
    (hnear : ∀ t, PuppiNear Z0 (ne n) (pfch t) ∨ PuppiNear Z0 (ne n) (pfch' t) → pfch t = pfch' t)
    (h : simple_puppi_hw table pfch ne Z0 = .ok out) (h' : simple_puppi_hw table pfch' ne' Z0 = .ok out') :
    out n = out' n' := by
  unfold simple_puppi_hw at h h'
  obtain ⟨s, hs, h⟩ := Run.bind_eq_ok.mp h
  obtain ⟨s', hs', h'⟩ := Run.bind_eq_ok.mp h'
  injection h with h
  injection h' with h'
  subst h h'
  have a := buildM_eq_ok.mp hs n
  have b := buildM_eq_ok.mp hs' n'
  rw [puppi_hw_sum_local pfch pfch' (ne n) Z0 hnear, hn] at a
  rw [a] at b
  injection b with b
  simp only [hn, b]

/-- **C24.** Without near candidates the PUPPI pt is 0 (both firmware and, for non-null neutrals,
reference). -/
theorem C24_isolated (table : PuppiTable) (pfch : Arr NT PFChargedObj) (ne out : Arr NN PFNeutralObj)
    (Z0 : Z0) (n : Fin NN) (hnear : ∀ t, ¬ PuppiNear Z0 (ne n) (pfch t))
    (h : simple_puppi_hw table pfch ne Z0 = .ok out) : (out n).hwPtPuppi = 0 := by
  have hz : puppiSum pfch Z0 (ne n) = 0 := by
    unfold puppiSum
    apply Finset.sum_eq_zero
    intro t _
    rw [if_neg (hnear t)]
  unfold simple_puppi_hw at h
  obtain ⟨s, hs, h⟩ := Run.bind_eq_ok.mp h
  injection h with h
  subst h
  have a := buildM_eq_ok.mp hs n
  rw [puppi_hw_sum_eq pfch (ne n) Z0 (by rw [hz]; decide), hz] at a
  injection a with a
  show (puppi_hw_weight table (s n) (ne n)).hwPtPuppi = 0
  rw [← a, hw_weight_eq table (le_refl _) (by decide)]
  show reg 16 (puppiPt table 0 _) = 0
  unfold puppiPt
  rw [if_pos (by decide)]
  rfl

/-- **C24.** With a large enough sum (that fits in an `int`) the neutral keeps its full pt. -/
theorem C24_full_pt (table : PuppiTable) (pfch : Arr NT PFChargedObj) (ne out : Arr NN PFNeutralObj)
    (Z0 : Z0) (n : Fin NN) (h1 : 1174 * 1024 ≤ puppiSum pfch Z0 (ne n))
    (h2 : puppiSum pfch Z0 (ne n) ≤ 2147483647)
    (h : simple_puppi_hw table pfch ne Z0 = .ok out) : (out n).hwPtPuppi = (ne n).hwPt := by
  unfold simple_puppi_hw at h
  obtain ⟨s, hs, h⟩ := Run.bind_eq_ok.mp h
  injection h with h
  subst h
  have a := buildM_eq_ok.mp hs n
  rw [puppi_hw_sum_eq pfch (ne n) Z0 h2] at a
  injection a with a
  show (puppi_hw_weight table (s n) (ne n)).hwPtPuppi = _
  rw [← a, hw_weight_eq table (by omega) h2]
  show reg 16 (puppiPt table _ _) = _
  unfold puppiPt
  rw [if_neg (by omega), dif_neg (by omega)]
  exact BitVec.ofInt_toInt

/-- Non-vacuity of C24: a sum in the saturated range. -/
example : 1174 * 1024 ≤ puppiSum (fun _ : Fin 1 => (⟨200, 10, 10, 0, 0⟩ : PFChargedObj)) 0 softNeutral ∧
    puppiSum (fun _ : Fin 1 => (⟨200, 10, 10, 0, 0⟩ : PFChargedObj)) 0 softNeutral ≤ 2147483647 := by
  decide

/-! ### C25: the reciprocal table -/

/-- **C25.** Inside the cone the 9-bit index `dr2 >> 5` is exact. -/
theorem C25_index_exact (e1 p1 e2 p2 : EtaPhi) (h : dist2 e1 p1 e2 p2 ≤ 8404) :
    ((reg 9 (shr (dr2_int e1 p1 e2 p2) 5)).toNat : Int) = dist2 e1 p1 e2 p2 / 32 := by
  rw [dr2_int_eq_dist2]
  exact puppi_dr2short (dist2_nonneg ..) h

/-- **C25.** For a non-zero denominator the table product is below the exact quotient by less than
the numerator — when the product fits in an `int`, which is always so for denominators of 2 or more. -/
theorem C25_division_accuracy (num : BitVec 17) (den : BitVec 9) (hd : 0 < den.toNat)
    (hfit : 2 ≤ den.toNat ∨ num.toNat < 65536) :
    (den.toNat : Int) * lut_shift15_divide num den ≤ num.toNat * 32768 ∧
    (num.toNat : Int) * 32768 <
      den.toNat * (lut_shift15_divide num den + num.toNat) + (if num.toNat = 0 then 1 else 0) := by
  rw [lut_divide]
  have hn : (num.toNat : Int) < 131072 := by have := num.isLt; omega
  have hdd : (den.toNat : Int) < 512 := by have := den.isLt; omega
  rw [max_eq_right (by omega : (1 : Int) ≤ den.toNat)]
  have hq0 : (0 : Int) ≤ 32768 / (den.toNat : Int) := Int.ediv_nonneg (by decide) (by omega)
  have hmul : (den.toNat : Int) * (32768 / (den.toNat : Int)) ≤ 32768 := Int.mul_ediv_self_le (by omega)
  have hlt : 32768 < (den.toNat : Int) * (32768 / (den.toNat : Int)) + den.toNat :=
    Int.lt_mul_ediv_self_add (by omega)
  have hfits : (num.toNat : Int) * (32768 / (den.toNat : Int)) ≤ 2147483647 := by
    rcases hfit with h2 | h2
    · have : 32768 / (den.toNat : Int) ≤ 16384 := by
        apply Int.le_of_lt_add_one
        apply Int.ediv_lt_of_lt_mul (by omega)
        omega
      nlinarith
    · have : 32768 / (den.toNat : Int) ≤ 32768 := Int.ediv_le_self _ (by decide)
      nlinarith
  have hn0 : (0 : Int) ≤ num.toNat := by omega
  rw [toCInt_of_le (by have := Int.mul_nonneg hn0 hq0; omega) hfits]
  constructor
  · nlinarith
  · split
    · rename_i h0; rw [h0]; norm_num
    · rename_i h0
      have : (1 : Int) ≤ num.toNat := by omega
      nlinarith

/-- **C25.** For a denominator of 1 the product can wrap to a negative `int`. -/
theorem C25_division_wraps : lut_shift15_divide 131071 1 = -32768 := by decide

/-- Non-vacuity of C25. -/
example : lut_shift15_divide 1000 7 = 4681000 ∧ (1000 * 32768 / 7 : Int) = 4681142 := by decide

/-! ### C48: monotonicity -/

/-- The PUPPI pt grows with the sum if the table does. -/
theorem puppiPt_mono (table : PuppiTable) (hm : ∀ i j : Fin PUPPI_TABLE_SIZE, i ≤ j →
    (table i).toNat ≤ (table j).toNat) {s s' pt : Int} (h0 : 0 ≤ pt) (hss : s ≤ s') :
    puppiPt table s pt ≤ puppiPt table s' pt := by
  have hfrac : ∀ w : BitVec 8, 0 ≤ pt * (w.toNat : Int) / 256 ∧ pt * (w.toNat : Int) / 256 ≤ pt := by
    intro w
    have hw : (w.toNat : Int) < 256 := by have := w.isLt; omega
    have h1 : 0 ≤ pt * (w.toNat : Int) := Int.mul_nonneg h0 (by omega)
    have h2 : pt * (w.toNat : Int) ≤ pt * 256 := Int.mul_le_mul_of_nonneg_left (by omega) h0
    omega
  unfold puppiPt
  by_cases a : s < 1024
  · rw [if_pos a]
    split
    · exact le_refl _
    · split
      · exact (hfrac _).1
      · exact h0
  · rw [if_neg a, if_neg (by omega)]
    by_cases b : s' < 1174 * 1024
    · rw [dif_pos b, dif_pos (by omega)]
      apply Int.ediv_le_ediv (by decide)
      apply Int.mul_le_mul_of_nonneg_left _ h0
      have := hm ⟨(s / 1024).toNat, by unfold PUPPI_TABLE_SIZE; omega⟩
        ⟨(s' / 1024).toNat, by unfold PUPPI_TABLE_SIZE; omega⟩ (by
          show (s / 1024).toNat ≤ (s' / 1024).toNat
          omega)
      exact_mod_cast this
    · rw [dif_neg b]
      split
      · exact (hfrac _).2
      · exact le_refl _

/-- **C48.** More charged energy never lowers the PUPPI pt, for a non-decreasing table and sums that fit
in an `int`: if each candidate of the first event is either not near or is also in the second event
with at least the same |pt|, the PUPPI pt of the neutral does not decrease. -/
theorem C48_more_charged_more_pt (table : PuppiTable) (hm : ∀ i j : Fin PUPPI_TABLE_SIZE, i ≤ j →
    (table i).toNat ≤ (table j).toNat) (pfch pfch' : Arr NT PFChargedObj) (ne out out' : Arr NN PFNeutralObj)
    (Z0 : Z0) (n : Fin NN) (hpt : 0 ≤ (ne n).hwPt.toInt)
    (hmore : ∀ t, PuppiNear Z0 (ne n) (pfch t) →
      (pfch t).hwPt.toInt ^ 2 ≤ (pfch' t).hwPt.toInt ^ 2 ∧ (pfch' t).hwEta = (pfch t).hwEta ∧
      (pfch' t).hwPhi = (pfch t).hwPhi ∧ (pfch' t).hwZ0 = (pfch t).hwZ0)
    (hfit : puppiSum pfch' Z0 (ne n) ≤ 2147483647)
    (h : simple_puppi_hw table pfch ne Z0 = .ok out) (h' : simple_puppi_hw table pfch' ne Z0 = .ok out') :
    (out n).hwPtPuppi.toInt ≤ (out' n).hwPtPuppi.toInt := by
  have hle : puppiSum pfch Z0 (ne n) ≤ puppiSum pfch' Z0 (ne n) := by
    unfold puppiSum
    apply Finset.sum_le_sum
    intro t _
    by_cases hn : PuppiNear Z0 (ne n) (pfch t)
    · obtain ⟨h1, h2, h3, h4⟩ := hmore t hn
      have hn' : PuppiNear Z0 (ne n) (pfch' t) := by
        unfold PuppiNear at hn ⊢
        rw [h2, h3, h4]; exact hn
      rw [if_pos hn, if_pos hn']
      unfold puppiTerm
      rw [h2, h3]
      apply Int.mul_le_mul_of_nonneg_right
      · omega
      · exact Int.ediv_nonneg (by decide) (by omega)
    · rw [if_neg hn]
      split
      · exact puppiTerm_nonneg ..
      · exact le_refl _
  have h0 := puppiSum_nonneg pfch Z0 (ne n)
  unfold simple_puppi_hw at h h'
  obtain ⟨s, hs, h⟩ := Run.bind_eq_ok.mp h
  obtain ⟨s', hs', h'⟩ := Run.bind_eq_ok.mp h'
  injection h with h
  injection h' with h'
  subst h h'
  have a := buildM_eq_ok.mp hs n
  have b := buildM_eq_ok.mp hs' n
  rw [puppi_hw_sum_eq pfch (ne n) Z0 (by omega)] at a
  rw [puppi_hw_sum_eq pfch' (ne n) Z0 hfit] at b
  injection a with a
  injection b with b
  show (puppi_hw_weight table (s n) (ne n)).hwPtPuppi.toInt ≤ (puppi_hw_weight table (s' n) (ne n)).hwPtPuppi.toInt
  rw [← a, ← b, hw_weight_eq table h0 (by omega), hw_weight_eq table (by omega) hfit]
  have hb := pt_range (ne n).hwPt
  have hbound : ∀ x, 0 ≤ puppiPt table x (ne n).hwPt.toInt ∧
      puppiPt table x (ne n).hwPt.toInt ≤ (ne n).hwPt.toInt := by
    intro x
    have c1 := puppiPt_mono table hm hpt (show min x 0 ≤ x by omega)
    have c2 := puppiPt_mono table hm hpt (show x ≤ max x 2000000 by omega)
    have e1 : puppiPt table (min x 0) (ne n).hwPt.toInt = 0 := if_pos (by omega)
    have e2 : puppiPt table (max x 2000000) (ne n).hwPt.toInt = (ne n).hwPt.toInt := by
      unfold puppiPt
      rw [if_neg (by omega), dif_neg (by omega)]
    omega
  have m := puppiPt_mono table hm hpt hle
  have b1 := hbound (puppiSum pfch Z0 (ne n))
  have b2 := hbound (puppiSum pfch' Z0 (ne n))
  show (reg 16 (puppiPt table (puppiSum pfch Z0 (ne n)) (ne n).hwPt.toInt)).toInt ≤
    (reg 16 (puppiPt table (puppiSum pfch' Z0 (ne n)) (ne n).hwPt.toInt)).toInt
  rw [reg16_toInt (by omega) (by omega), reg16_toInt (by omega) (by omega)]
  exact m

/-- **C48.** Without the bound the firmware breaks this: a neutral next to
a 512 GeV candidate has its full pt, and nothing once a 16 GeV one is added (the sum wraps to zero). -/
theorem C48_wrap_counterexample :
    let table : PuppiTable := fun i => if i.val < 1000 then 0 else 255
    let near : PFChargedObj := ⟨2047, 0, 0, 0, 0⟩
    (simple_puppi_hw (NT := 2) (NN := 1) table
      (fun t => if t = 0 then near else ⟨0, 0, 0, 0, 0⟩) (fun _ => softNeutral) 0).map
        (fun o => (o 0).hwPtPuppi) = .ok 100 ∧
    (simple_puppi_hw (NT := 2) (NN := 1) table
      (fun t => if t = 0 then near else ⟨64, 0, 0, 0, 0⟩) (fun _ => softNeutral) 0).map
        (fun o => (o 0).hwPtPuppi) = .ok 0 := by
  decide +kernel

end Verif
