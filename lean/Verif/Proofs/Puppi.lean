import Verif.Model.Puppi
import Verif.Spec.Puppi
import Verif.Proofs.Links
import Verif.Proofs.Sums
/-! # PUPPI -/
namespace Verif
open Spec

variable {NT NN : Nat}

theorem cint_neg_ok {x : Int} (h : 2147483647 < x) : cint x = .error .intOverflow := by
  unfold cint; rw [if_neg (by omega)]

/-- Accumulating non-negative terms into an `int` is defined exactly when the total fits. -/
theorem loopM_cintsum {n : Nat} (c : Fin n → Prop) [DecidablePred c] (x : Fin n → Int)
    (hx : ∀ i, c i → 0 ≤ x i) (f : Fin n → Int → Run Int)
    (hf : ∀ i s, 0 ≤ s → f i s = if c i then cint (s + x i) else .ok s) :
    loopM f 0 = if (∑ i, if c i then x i else 0) ≤ 2147483647 then
      .ok (∑ i, if c i then x i else 0) else .error .intOverflow := by
  have nn : ∀ l : List (Fin n), 0 ≤ (l.map (fun i => if c i then x i else 0)).sum := by
    intro l
    apply List.sum_nonneg
    intro y hy
    obtain ⟨t, _, rfl⟩ := List.mem_map.mp hy
    split
    · exact hx t ‹_›
    · exact le_refl _
  have key : ∀ (l : List (Fin n)) (a : Int), 0 ≤ a → a ≤ 2147483647 →
      l.foldlM (fun s i => f i s) a =
        if a + (l.map (fun i => if c i then x i else 0)).sum ≤ 2147483647 then
          .ok (a + (l.map (fun i => if c i then x i else 0)).sum) else .error .intOverflow := by
    intro l
    induction l with
    | nil => intro a _ h; simp only [List.foldlM_nil, List.map_nil, List.sum_nil, Int.add_zero]; rw [if_pos h]; rfl
    | cons i l ih =>
      intro a ha h
      rw [List.foldlM_cons, hf i a ha, List.map_cons, List.sum_cons]
      by_cases hc : c i
      · rw [if_pos hc, if_pos hc]
        have hxi := hx i hc
        have hl := nn l
        by_cases hb : a + x i ≤ 2147483647
        · rw [cint_ok (by omega) hb, Run.ok_bind, ih _ (by omega) hb, Int.add_assoc]
        · rw [cint_neg_ok (by omega), Run.error_bind, if_neg (by omega)]
      · rw [if_neg hc, if_neg hc, Run.ok_bind, ih _ ha h, Int.zero_add]
  have := key (List.finRange n) 0 (le_refl _) (by decide)
  rw [Int.zero_add] at this
  rw [Fin.sum_univ_def]
  exact this

theorem puppi_outside_iff (Z0 : Z0) (c : PFChargedObj) :
    puppi_outside Z0 c = false ↔ (Z0.toInt - c.hwZ0.toInt).natAbs ≤ 256 := by
  unfold puppi_outside
  have h : (reg 10 256 : Verif.Z0).toInt = 256 := by decide
  simp only [h, Bool.or_eq_false_iff, decide_eq_false_iff_not]
  omega

theorem puppi_pt2 (c : PFChargedObj) :
    ((puppi_pt2_shift c).toNat : Int) = min (c.hwPt.toInt ^ 2 / 32) 131071 ∧
      0 ≤ min (c.hwPt.toInt ^ 2 / 32) 131071 := by
  unfold puppi_pt2_shift shr
  have h0 : 0 ≤ c.hwPt.toInt ^ 2 := sq_nonneg _
  have e : c.hwPt.toInt * c.hwPt.toInt = c.hwPt.toInt ^ 2 := by ring
  rw [e]
  generalize c.hwPt.toInt ^ 2 = p at h0
  have hp : (0 : Int) ≤ p / 32 := by omega
  refine ⟨?_, by omega⟩
  show ((reg 17 (if p / 32 < 131071 then p / 32 else 131071)).toNat : Int) = _
  rw [reg_toNat_of_lt]
  · split <;> omega
  · split <;> omega
  · split
    · norm_num; omega
    · norm_num

theorem puppi_dr2short {d : Int} (h0 : 0 ≤ d) (h : d ≤ 8404) :
    ((reg 9 (shr d 5)).toNat : Int) = d / 32 := by
  have e : shr d 5 = d / 32 := rfl
  rw [e, reg_toNat_of_lt] <;> norm_num <;> omega

theorem lut_invert (i : Fin 512) :
    ((lut_shift15_invert i).toNat : Int) = 32768 / max 1 (i.val : Int) := by
  unfold lut_shift15_invert
  split
  · rename_i h; rw [h]; decide
  · rename_i h
    rw [max_eq_right (by omega)]
    rw [reg_toNat_of_lt]
    · exact Int.ediv_nonneg (by decide) (by omega)
    · have : (32768 : Int) / (i.val : Int) ≤ 32768 := Int.ediv_le_self _ (by decide)
      norm_num
      omega

theorem lut_divide (num : BitVec 17) (den : BitVec 9) :
    lut_shift15_divide num den = toCInt ((num.toNat : Int) * (32768 / max 1 (den.toNat : Int))) := by
  unfold lut_shift15_divide
  rw [lut_invert]
  rfl

theorem puppiTerm_nonneg (ne : PFNeutralObj) (c : PFChargedObj) : 0 ≤ puppiTerm ne c := by
  unfold puppiTerm
  apply Int.mul_nonneg (puppi_pt2 c).2
  exact Int.ediv_nonneg (by decide) (by omega)

/-- The term of the firmware, before the conversion to `int`. -/
theorem hw_term (ne : PFNeutralObj) (c : PFChargedObj)
    (h : dist2 c.hwEta c.hwPhi ne.hwEta ne.hwPhi ≤ 8404) :
    lut_shift15_divide (puppi_pt2_shift c) (reg 9 (shr (dr2_int c.hwEta c.hwPhi ne.hwEta ne.hwPhi) 5)) =
      toCInt (puppiTerm ne c) := by
  rw [lut_divide, (puppi_pt2 c).1, dr2_int_eq_dist2, puppi_dr2short (dist2_nonneg ..) h]
  rfl

theorem toCInt_of_le {x : Int} (h0 : -2147483648 ≤ x) (h : x ≤ 2147483647) : toCInt x = x :=
  Int.bmod_eq_of_le (by omega) (by omega)

theorem puppiSum_nonneg (pfch : Fin NT → PFChargedObj) (Z0 : Z0) (ne : PFNeutralObj) :
    0 ≤ puppiSum pfch Z0 ne := by
  unfold puppiSum
  apply Finset.sum_nonneg
  intro t _
  split
  · exact puppiTerm_nonneg ..
  · exact le_refl _

theorem puppiTerm_le_sum (pfch : Fin NT → PFChargedObj) (Z0 : Z0) (ne : PFNeutralObj) (t : Fin NT)
    (h : PuppiNear Z0 ne (pfch t)) : puppiTerm ne (pfch t) ≤ puppiSum pfch Z0 ne := by
  unfold puppiSum
  have := Finset.single_le_sum (f := fun t => if PuppiNear Z0 ne (pfch t) then puppiTerm ne (pfch t) else 0)
    (s := Finset.univ) (fun i _ => by
      show 0 ≤ (if PuppiNear Z0 ne (pfch i) then puppiTerm ne (pfch i) else 0)
      split
      · exact puppiTerm_nonneg ..
      · exact le_refl _) (Finset.mem_univ t)
  simpa [h] using this

/-- The body of both loops with an arbitrary accumulation step. -/
theorem puppi_body (pfch : Arr NT PFChargedObj) (ne : PFNeutralObj) (Z0 : Z0) (it : Fin NT)
    (step stay r : Run Int)
    (h : dist2 (pfch it).hwEta (pfch it).hwPhi ne.hwEta ne.hwPhi ≤ 8404 → step = r) :
    (if puppi_outside Z0 (pfch it) then stay
      else if dr2_int (pfch it).hwEta (pfch it).hwPhi ne.hwEta ne.hwPhi ≤ 8404 then step else stay) =
    if PuppiNear Z0 ne (pfch it) then r else stay := by
  have ho := puppi_outside_iff Z0 (pfch it)
  rw [dr2_int_eq_dist2]
  cases hout : puppi_outside Z0 (pfch it) with
  | true =>
    rw [if_pos rfl, if_neg]
    intro hn
    rw [ho.mpr hn.1] at hout
    cases hout
  | false =>
    rw [if_neg (by decide)]
    by_cases hd : dist2 (pfch it).hwEta (pfch it).hwPhi ne.hwEta ne.hwPhi ≤ 8404
    · rw [if_pos hd, h hd, if_pos ⟨ho.mp hout, hd⟩]
    · rw [if_neg hd, if_neg (fun hn => hd hn.2)]

/-- The reference is defined exactly when the sum fits. -/
theorem puppi_ref_sum_eq (pfch : Arr NT PFChargedObj) (ne : PFNeutralObj) (Z0 : Z0) :
    puppi_ref_sum pfch ne Z0 = if puppiSum pfch Z0 ne ≤ 2147483647 then .ok (puppiSum pfch Z0 ne)
      else .error .intOverflow := by
  unfold puppi_ref_sum
  refine loopM_cintsum (fun t => PuppiNear Z0 ne (pfch t)) (fun t => puppiTerm ne (pfch t))
    (fun t _ => puppiTerm_nonneg ..) _ (fun it s hs => ?_)
  refine puppi_body pfch ne Z0 it _ (.ok s) _ (fun hd => ?_)
  have h1 := puppi_dr2short (dist2_nonneg (pfch it).hwEta (pfch it).hwPhi ne.hwEta ne.hwPhi) hd
  have ht : min (shr ((pfch it).hwPt.toInt * (pfch it).hwPt.toInt) 5) 131071 *
      (32768 / (if (reg 9 (shr (dr2_int (pfch it).hwEta (pfch it).hwPhi ne.hwEta ne.hwPhi) 5)).toNat > 0
        then ((reg 9 (shr (dr2_int (pfch it).hwEta (pfch it).hwPhi ne.hwEta ne.hwPhi) 5)).toNat : Int)
        else 1)) = puppiTerm ne (pfch it) := by
    rw [dr2_int_eq_dist2]
    unfold puppiTerm
    have e : shr ((pfch it).hwPt.toInt * (pfch it).hwPt.toInt) 5 = (pfch it).hwPt.toInt ^ 2 / 32 := by
      rw [sq]; rfl
    rw [e, ← h1]
    congr 2
    split <;> omega
  simp only []
  rw [ht]
  have h0 := puppiTerm_nonneg ne (pfch it)
  by_cases hb : puppiTerm ne (pfch it) ≤ 2147483647
  · rw [cint_ok (by omega) hb, Run.ok_bind]
  · rw [cint_neg_ok (by omega), Run.error_bind, cint_neg_ok (by omega)]

/-- The firmware computes the sum when it fits. -/
theorem puppi_hw_sum_eq (pfch : Arr NT PFChargedObj) (ne : PFNeutralObj) (Z0 : Z0)
    (h : puppiSum pfch Z0 ne ≤ 2147483647) :
    puppi_hw_sum pfch ne Z0 = .ok (puppiSum pfch Z0 ne) := by
  unfold puppi_hw_sum
  have hb : ∀ (it : Fin NT) (s : Int), 0 ≤ s →
      (if puppi_outside Z0 (pfch it) then (.ok s : Run Int)
      else
        let dr2 := dr2_int (pfch it).hwEta (pfch it).hwPhi ne.hwEta ne.hwPhi
        if dr2 ≤ 8404 then
          let dr2short : BitVec 9 := reg 9 (shr dr2 5)
          cint (s + lut_shift15_divide (puppi_pt2_shift (pfch it)) dr2short)
        else .ok s) = if PuppiNear Z0 ne (pfch it) then cint (s + puppiTerm ne (pfch it)) else .ok s := by
    intro it s hs
    by_cases hn : PuppiNear Z0 ne (pfch it)
    · refine puppi_body pfch ne Z0 it _ (.ok s) _ (fun hd => ?_)
      have h1 := puppiTerm_le_sum pfch Z0 ne it hn
      have h0 := puppiTerm_nonneg ne (pfch it)
      simp only []
      rw [hw_term ne (pfch it) hd, toCInt_of_le (by omega) (by omega)]
    · rw [if_neg hn]
      have := puppi_body pfch ne Z0 it (cint (s + lut_shift15_divide (puppi_pt2_shift (pfch it))
        (reg 9 (shr (dr2_int (pfch it).hwEta (pfch it).hwPhi ne.hwEta ne.hwPhi) 5)))) (.ok s) _ (fun _ => rfl)
      rw [if_neg hn] at this
      exact this
  have := loopM_cintsum (fun t => PuppiNear Z0 ne (pfch t)) (fun t => puppiTerm ne (pfch t))
    (fun t _ => puppiTerm_nonneg ..) _ hb
  rw [if_pos (show (∑ i, if PuppiNear Z0 ne (pfch i) then puppiTerm ne (pfch i) else 0) ≤ 2147483647
    from h)] at this
  exact this

theorem hw_weight_eq (table : PuppiTable) {sum : Int} (h0 : 0 ≤ sum) (h : sum ≤ 2147483647)
    (ne : PFNeutralObj) :
    puppi_hw_weight table sum ne = { ne with hwPtPuppi := reg 16 (puppiPt table sum ne.hwPt.toInt) } := by
  unfold puppi_hw_weight puppiPt
  have e : shr sum 10 = sum / 1024 := rfl
  have ht : ((reg 32 (sum / 1024)).toNat : Int) = sum / 1024 := by
    rw [reg_toNat_of_lt] <;> norm_num <;> omega
  have ht' : (reg 32 (sum / 1024)).toNat = (sum / 1024).toNat := by omega
  simp only [e, ht']
  by_cases h1 : sum < 1024
  · rw [dif_pos (by unfold PUPPI_TABLE_SIZE; omega), if_pos h1, if_pos (by omega)]
    show { ne with hwPtPuppi := reg 16 (shr (ne.hwPt.toInt * 0) 8) } = _
    rw [Int.mul_zero]; rfl
  · by_cases h2 : sum < 1174 * 1024
    · rw [dif_pos (by unfold PUPPI_TABLE_SIZE; omega), if_neg h1, if_neg (by omega), dif_pos h2]
      rfl
    · rw [dif_neg (by unfold PUPPI_TABLE_SIZE; omega), if_neg h1, dif_neg h2]
      congr 1
      exact (BitVec.ofInt_toInt ..).symm

theorem ref_weight_eq (table : PuppiTable) {sum : Int} (h0 : 0 ≤ sum) (pt : Pt) :
    ∃ w, puppi_ref_weight table sum = .ok w ∧ shr (pt.toInt * w) 8 = puppiPt table sum pt.toInt := by
  unfold puppi_ref_weight puppiPt
  have e : shr sum 10 = sum / 1024 := rfl
  simp only [e]
  by_cases h1 : sum < 1024
  · refine ⟨0, by rw [if_neg (by omega)], ?_⟩
    rw [if_pos h1, Int.mul_zero]; rfl
  · rw [if_pos (by omega), if_neg h1]
    by_cases h2 : sum < 1174 * 1024
    · have hlt : (sum / 1024).toNat < 1174 := by omega
      refine ⟨((table ⟨(sum / 1024).toNat, hlt⟩).toNat : Int), ?_, ?_⟩
      · rw [if_neg (by omega)]
        have hidx : (if sum / 1024 ≥ (PUPPI_TABLE_SIZE : Int) then (PUPPI_TABLE_SIZE : Int) else sum / 1024) =
            sum / 1024 := if_neg (by unfold PUPPI_TABLE_SIZE; omega)
        simp only [hidx]
        rw [dif_pos ⟨by omega, hlt⟩]
      · rw [dif_pos h2]; rfl
    · refine ⟨256, by rw [if_pos (by omega)], ?_⟩
      rw [dif_neg h2]
      unfold shr
      norm_num

end Verif
