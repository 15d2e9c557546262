import Verif.Spec.PuppiOrder
import Verif.Props.Puppi
/-! # C22 (definedness of the firmware) and C87: the order of the PUPPI inputs -/
namespace Verif
open Spec
variable {NT NN : Nat}

theorem loopM_wrapsum {n : Nat} (x : Fin n → Int) (f : Fin n → Int → Run Int)
    (hf : ∀ i s, FitsInt s → f i s = cint (s + x i)) (s : Int) :
    loopM f 0 = .ok s ↔ (∀ k, FitsInt (((List.ofFn x).take k).sum)) ∧ s = (List.ofFn x).sum := by
  have key : ∀ (l : List (Fin n)) (a s : Int), FitsInt a →
      (l.foldlM (fun s i => f i s) a = (.ok s : Run Int) ↔
        (∀ k, FitsInt (a + ((l.map x).take k).sum)) ∧ s = a + (l.map x).sum) := by
    intro l
    induction l with
    | nil =>
      intro a s ha
      simp only [List.foldlM_nil, List.map_nil, List.take_nil, List.sum_nil, Int.add_zero]
      constructor
      · intro h; cases h; exact ⟨fun _ => ha, rfl⟩
      · rintro ⟨-, rfl⟩; rfl
    | cons i l ih =>
      intro a s ha
      rw [List.foldlM_cons, hf i a ha, List.map_cons, List.sum_cons]
      by_cases h : FitsInt (a + x i)
      · have hc : cint (a + x i) = .ok (a + x i) := by unfold cint; exact if_pos h
        rw [hc]
        refine Iff.trans (ih (a + x i) s h) ?_
        constructor
        · rintro ⟨h1, h2⟩
          refine ⟨fun k => ?_, by omega⟩
          cases k with
          | zero => simpa using ha
          | succ k => rw [List.take_succ_cons, List.sum_cons, ← add_assoc]; exact h1 k
        · rintro ⟨h1, h2⟩
          refine ⟨fun k => ?_, by omega⟩
          have := h1 (k + 1)
          rwa [List.take_succ_cons, List.sum_cons, ← add_assoc] at this
      · have hc : cint (a + x i) = .error .intOverflow := by unfold cint; exact if_neg h
        rw [hc]
        constructor
        · intro h; cases h
        · rintro ⟨h1, -⟩
          have := h1 1
          rw [List.take_succ_cons, List.take_zero, List.sum_cons, List.sum_nil, Int.add_zero] at this
          exact absurd this h
  have := key (List.finRange n) 0 s ⟨by decide, by decide⟩
  simp only [Int.zero_add, ← List.ofFn_eq_map] at this
  exact this

theorem puppi_hw_sum_iff (pfch : Arr NT PFChargedObj) (ne : PFNeutralObj) (Z0 : Z0) (s : Int) :
    puppi_hw_sum pfch ne Z0 = .ok s ↔
      (∀ k, FitsInt (((wrappedTerms pfch Z0 ne).take k).sum)) ∧ s = (wrappedTerms pfch Z0 ne).sum := by
  unfold puppi_hw_sum wrappedTerms
  refine loopM_wrapsum _ _ (fun it s hs => ?_) s
  have := puppi_body pfch ne Z0 it (cint (s + lut_shift15_divide (puppi_pt2_shift (pfch it))
        (reg 9 (shr (dr2_int (pfch it).hwEta (pfch it).hwPhi ne.hwEta ne.hwPhi) 5)))) (.ok s)
        (cint (s + (puppiTerm ne (pfch it)).bmod (2 ^ 32))) (fun hd => by rw [hw_term ne (pfch it) hd]; rfl)
  refine Eq.trans this ?_
  by_cases hn : PuppiNear Z0 ne (pfch it)
  · rw [if_pos hn, if_pos hn]
  · rw [if_neg hn, if_neg hn, Int.add_zero]
    unfold cint
    exact (if_pos hs).symm

theorem hw_weight_neg (table : PuppiTable) {sum : Int} (h0 : sum < 0) (h : -2147483648 ≤ sum) (ne : PFNeutralObj) :
    puppi_hw_weight table sum ne = { ne with hwPtPuppi := ne.hwPt } := by
  unfold puppi_hw_weight
  have e : shr sum 10 = sum / 1024 := rfl
  have ht : ((reg 32 (sum / 1024)).toNat : Int) = sum / 1024 + 4294967296 := by
    show ((BitVec.ofInt 32 (sum / 1024)).toNat : Int) = _
    rw [BitVec.toNat_ofInt]
    omega
  simp only [e]
  rw [dif_neg (by unfold PUPPI_TABLE_SIZE; omega)]

/-- C22: the PUPPI firmware is defined exactly if, for every neutral (empty ones too), the sum fits in an `int` after
every track, each product being reduced to 32 bits. -/
theorem C22_hw_defined_iff (table : PuppiTable) (pfch : Arr NT PFChargedObj) (ne : Arr NN PFNeutralObj) (Z0 : Z0) :
    (∃ hw, simple_puppi_hw table pfch ne Z0 = .ok hw) ↔
      ∀ n k, FitsInt (((wrappedTerms pfch Z0 (ne n)).take k).sum) := by
  unfold simple_puppi_hw
  constructor
  · rintro ⟨hw, h⟩ n k
    obtain ⟨sums, h1, -⟩ := Run.bind_eq_ok.mp h
    exact ((puppi_hw_sum_iff pfch (ne n) Z0 (sums n)).mp (buildM_eq_ok.mp h1 n)).1 k
  · intro h
    exact ⟨_, Run.bind_eq_ok.mpr ⟨_, buildM_eq_ok.mpr fun n => (puppi_hw_sum_iff pfch (ne n) Z0 _).mpr ⟨h n, rfl⟩, rfl⟩⟩

/-- C22: and then the result is that of the sum of the reduced products, a negative sum counting as a large one. -/
theorem C22_hw_value (table : PuppiTable) (pfch : Arr NT PFChargedObj) (ne hw : Arr NN PFNeutralObj) (Z0 : Z0)
    (h : simple_puppi_hw table pfch ne Z0 = .ok hw) (n : Fin NN) :
    hw n = if (wrappedTerms pfch Z0 (ne n)).sum < 0 then { ne n with hwPtPuppi := (ne n).hwPt }
      else { ne n with hwPtPuppi := reg 16 (puppiPt table (wrappedTerms pfch Z0 (ne n)).sum (ne n).hwPt.toInt) } := by
  unfold simple_puppi_hw at h
  obtain ⟨sums, h1, h2⟩ := Run.bind_eq_ok.mp h
  cases h2
  obtain ⟨h3, h4⟩ := (puppi_hw_sum_iff pfch (ne n) Z0 (sums n)).mp (buildM_eq_ok.mp h1 n)
  have h5 := h3 NT
  rw [List.take_of_length_le (by unfold wrappedTerms; rw [List.length_ofFn]), ← h4] at h5
  rw [← h4]
  show puppi_hw_weight table (sums n) (ne n) = _
  by_cases hn : sums n < 0
  · rw [if_pos hn, hw_weight_neg table hn h5.1]
  · rw [if_neg hn, hw_weight_eq table (by omega) h5.2]

/-! ### The order of the candidates -/

theorem wrappedTerms_perm (σ : Equiv.Perm (Fin NT)) (pfch : Arr NT PFChargedObj) (Z0 : Z0) (ne : PFNeutralObj) :
    (wrappedTerms (fun t => pfch (σ t)) Z0 ne).sum = (wrappedTerms pfch Z0 ne).sum := by
  unfold wrappedTerms
  rw [List.sum_ofFn, List.sum_ofFn]
  exact Equiv.sum_comp σ (fun t => if PuppiNear Z0 ne (pfch t) then (puppiTerm ne (pfch t)).bmod (2 ^ 32) else 0)

theorem puppiSum_perm (σ : Equiv.Perm (Fin NT)) (pfch : Arr NT PFChargedObj) (Z0 : Z0) (ne : PFNeutralObj) :
    puppiSum (fun t => pfch (σ t)) Z0 ne = puppiSum pfch Z0 ne := by
  unfold puppiSum
  exact Equiv.sum_comp σ (fun t => if PuppiNear Z0 ne (pfch t) then puppiTerm ne (pfch t) else 0)

/-- C87: the reference does not depend on the order of the charged candidates, and lists the neutrals in the order given:
it is defined for one order exactly if it is for another, with the same result for each neutral. -/
theorem C87_reference (table : PuppiTable) (pfch : Arr NT PFChargedObj) (ne : Arr NN PFNeutralObj) (Z0 : Z0)
    (σ : Equiv.Perm (Fin NT)) (τ : Equiv.Perm (Fin NN)) :
    (∀ ref, simple_puppi_ref table pfch ne Z0 = .ok ref →
      simple_puppi_ref table (fun t => pfch (σ t)) (fun n => ne (τ n)) Z0 = .ok (fun n => ref (τ n))) ∧
    ((∃ ref, simple_puppi_ref table (fun t => pfch (σ t)) (fun n => ne (τ n)) Z0 = .ok ref) ↔
      ∃ ref, simple_puppi_ref table pfch ne Z0 = .ok ref) := by
  constructor
  · intro ref h
    refine buildM_eq_ok.mpr fun n => ?_
    have h1 := buildM_eq_ok.mp h (τ n)
    rw [← h1]
    unfold puppi_ref_one
    rw [puppi_ref_sum_eq, puppi_ref_sum_eq, puppiSum_perm]
  · rw [C22_ref_defined_iff, C22_ref_defined_iff]
    constructor
    · intro h n hn
      have := h (τ.symm n)
      simp only [Equiv.apply_symm_apply, puppiSum_perm] at this
      exact this hn
    · intro h n hn
      rw [puppiSum_perm]
      exact h (τ n) hn

/-- C87: the firmware gives the same result for each neutral in whatever order charged candidates and neutrals come, if
it is defined for both orders. -/
theorem C87_firmware (table : PuppiTable) (pfch : Arr NT PFChargedObj) (ne hw hw' : Arr NN PFNeutralObj) (Z0 : Z0)
    (σ : Equiv.Perm (Fin NT)) (τ : Equiv.Perm (Fin NN)) (h : simple_puppi_hw table pfch ne Z0 = .ok hw)
    (h' : simple_puppi_hw table (fun t => pfch (σ t)) (fun n => ne (τ n)) Z0 = .ok hw') (n : Fin NN) :
    hw' n = hw (τ n) := by
  rw [C22_hw_value table _ _ hw' Z0 h' n, C22_hw_value table _ _ hw Z0 h (τ n), wrappedTerms_perm]

/-- C87: it may be defined for one order and not for another: 350 GeV, 362.25 GeV, 350 GeV at the same place as the
neutral is fine, because the square of the second wraps to a negative number, but 350, 350, 362.25 overflows. -/
theorem C87_order_overflow (table : PuppiTable) :
    let c : Int → PFChargedObj := fun pt => ⟨reg 16 pt, 0, 0, 0, 0⟩
    let order (a b d : Int) : Arr 3 PFChargedObj := fun t => if t = 0 then c a else if t = 1 then c b else c d
    (∃ hw, simple_puppi_hw (NN := 1) table (order 1400 1449 1400) (fun _ => softNeutral) 0 = .ok hw) ∧
    ¬ ∃ hw, simple_puppi_hw (NN := 1) table (order 1400 1400 1449) (fun _ => softNeutral) 0 = .ok hw := by
  intro c order
  rw [C22_hw_defined_iff, C22_hw_defined_iff]
  have e1 : wrappedTerms (order 1400 1449 1400) 0 softNeutral = [2007040000, -2144993280, 2007040000] := by decide +kernel
  have e2 : wrappedTerms (order 1400 1400 1449) 0 softNeutral = [2007040000, 2007040000, -2144993280] := by decide +kernel
  constructor
  · intro n k
    rw [e1]
    unfold FitsInt
    match k with
    | 0 => decide
    | 1 => decide
    | 2 => decide
    | k + 3 => simp
  · intro h
    have := h 0 2
    rw [e2] at this
    unfold FitsInt at this
    revert this
    decide

end Verif
