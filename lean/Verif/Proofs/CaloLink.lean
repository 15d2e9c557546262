import Verif.Proofs.Links
namespace Verif
open Spec

theorem calc_dptscale_eq (e : Pt) (h : 0 ≤ e.toInt) :
    calc_dptscale PFALGO3_DR2MAX_TK_CALO e = .ok (fwScale e.toInt) := by
  unfold calc_dptscale fwScale
  split
  · rw [if_neg (by omega)]
    congr 1
    unfold dr2max_times_pterr2_inv refScale PFALGO3_DR2MAX_TK_CALO
    obtain ⟨n, hn⟩ := Int.eq_ofNat_of_zero_le h
    rw [hn]
    simp only [Int.toNat_natCast]
    have hden : max 1 ((n : Int) ^ 2) = ((if n = 0 then 1 else n * n : Nat) : Int) := by
      split
      · rename_i h0; subst h0; rfl
      · rename_i h0
        have : 1 ≤ n * n := Nat.mul_pos (by omega) (by omega)
        rw [max_eq_right]
        · push_cast; ring
        · have h2 : (n : Int) ^ 2 = ((n * n : Nat) : Int) := by push_cast; ring
          rw [h2]; exact_mod_cast this
    rw [hden]
    norm_num
    split <;> omega
  · rfl

theorem fwScale_nonneg (e : Int) : 0 ≤ fwScale e ∧ fwScale e ≤ 131071 := by
  unfold fwScale
  split
  · have : 0 ≤ refScale e := by
      unfold refScale
      exact Int.ediv_nonneg (by decide) (le_trans (by decide) (le_max_left _ _))
    omega
  · omega

/-- The pt term of the metric is below 4·756 when the deficit is below two sigma. -/
theorem scaled_lt {d e s : Int} (hd0 : 0 ≤ d) (hd : d < 2 * e)
    (hs0 : 0 ≤ s) (hs : s ≤ 193536 / max 1 (e ^ 2)) : d ^ 2 * s / 256 < 3024 := by
  have he : 1 ≤ e := by omega
  have he2 : 1 ≤ e ^ 2 := by nlinarith
  rw [max_eq_right he2] at hs
  have h1 : s * e ^ 2 ≤ 193536 :=
    le_trans (mul_le_mul_of_nonneg_right hs (by omega)) (Int.ediv_mul_le _ (by omega))
  have h2 : d ^ 2 ≤ 4 * e ^ 2 - 1 := by nlinarith
  have h3 : d ^ 2 * s ≤ (4 * e ^ 2 - 1) * s := mul_le_mul_of_nonneg_right h2 hs0
  have h4 : d ^ 2 * s ≤ 4 * 193536 - s := by nlinarith
  rcases eq_or_lt_of_le hs0 with h0 | h0
  · subst h0; simp
  · have : d ^ 2 * s < 774144 := by omega
    omega

theorem caloPtMin_eq (t : TkObj) (h0 : 0 ≤ t.hwPt.toInt) (he : 0 ≤ t.hwPtErr.toInt)
    (hw : -32768 ≤ t.hwPt.toInt - 2 * t.hwPtErr.toInt) :
    (caloPtMin t).toInt = max 0 (t.hwPt.toInt - 2 * t.hwPtErr.toInt) := by
  unfold caloPtMin
  simp only []
  have := pt_range t.hwPt
  rw [reg16_toInt hw (by omega)]
  split
  · rw [max_eq_left (by omega)]; rfl
  · rw [reg16_toInt hw (by omega), max_eq_right (by omega)]

theorem dr2_dpt_val (e1 p1 e2 p2 : EtaPhi) (pt1 pt2 : Pt) (err : Int)
    (h1 : 0 ≤ pt1.toInt) (h2 : 0 ≤ pt2.toInt) (he : 0 ≤ err)
    (hpt : max 0 (pt1.toInt - 2 * err) < pt2.toInt) :
    dr2_dpt_int_cap e1 p1 e2 p2 pt1 pt2 (reg 18 (fwScale err)) (reg 12 (756 : Nat))
        (reg 12 ((5 * 756 : Nat) : Int)) =
      if dist2 e1 p1 e2 p2 < 756 then
        reg 12 (dist2 e1 p1 e2 p2 + (max 0 (pt1.toInt - pt2.toInt)) ^ 2 * fwScale err / 256)
      else reg 12 ((5 * 756 : Nat) : Int) := by
  have r1 := pt_range pt1
  have r2 := pt_range pt2
  have hs := fwScale_nonneg err
  have hscale : (reg 18 (fwScale err)).toInt = fwScale err := by
    rw [reg_toInt]; exact Int.bmod_eq_of_le (by omega) (by omega)
  have hm1 : ((reg 12 ((756 : Nat) : Int) : BitVec 12).toNat : Int) = 756 := by decide
  have hm2 : ((reg 12 ((5 * 756 : Nat) : Int) : BitVec 12).toNat : Int) = 3780 := by decide
  have hdpt0 : (reg 16 (pt1.toInt - pt2.toInt)).toInt = pt1.toInt - pt2.toInt :=
    reg16_toInt (by omega) (by omega)
  have hdr : (reg 10 (e1.toInt - e2.toInt)).toInt * (reg 10 (e1.toInt - e2.toInt)).toInt +
      (reg 10 (p1.toInt - p2.toInt)).toInt * (reg 10 (p1.toInt - p2.toInt)).toInt =
      dist2 e1 p1 e2 p2 := by rw [← dr2_int_eq_dist2]; rfl
  have hd0 := dist2_nonneg e1 p1 e2 p2
  unfold dr2_dpt_int_cap
  simp only [hdr, hscale, hm1, hm2]
  generalize dist2 e1 p1 e2 p2 = D at *
  -- the clipped pt difference
  have hdpt : (if (reg 16 (pt1.toInt - pt2.toInt)).toInt < 0 then (0 : Pt)
      else reg 16 (pt1.toInt - pt2.toInt)).toInt = max 0 (pt1.toInt - pt2.toInt) := by
    rw [hdpt0]
    split
    · rw [max_eq_left (by omega)]; rfl
    · rw [hdpt0, max_eq_right (by omega)]
  rw [hdpt]
  have hD : max 0 (pt1.toInt - pt2.toInt) = 0 ∨ max 0 (pt1.toInt - pt2.toInt) < 2 * err := by omega
  have hdpos : 0 ≤ max 0 (pt1.toInt - pt2.toInt) := le_max_left _ _
  have hdub : max 0 (pt1.toInt - pt2.toInt) < 32768 := by omega
  generalize max 0 (pt1.toInt - pt2.toInt) = d at *
  -- the squared difference times the scale
  have hprod : (if d > 5792 then reg 26 33554431 else reg 26 (d * d)).toInt * fwScale err =
      d ^ 2 * fwScale err := by
    split
    · rename_i hbig
      have : ¬ err < 512 := by omega
      have : fwScale err = 0 := by unfold fwScale; rw [if_neg this]
      rw [this]; ring
    · rename_i hsm
      have hsq : d * d ≤ 5792 * 5792 := by nlinarith
      have : (reg 26 (d * d)).toInt = d * d := by
        rw [reg_toInt]
        exact Int.bmod_eq_of_le (by have := mul_self_nonneg d; omega) (by omega)
      rw [this]; ring
  rw [hprod]
  have hshr : shr (d ^ 2 * fwScale err) 8 = d ^ 2 * fwScale err / 256 := rfl
  rw [hshr]
  have hterm0 : 0 ≤ d ^ 2 * fwScale err / 256 :=
    Int.ediv_nonneg (mul_nonneg (pow_nonneg hdpos 2) hs.1) (by decide)
  have hterm : d ^ 2 * fwScale err / 256 < 3024 := by
    rcases hD with h | h
    · rw [h]; simp
    · by_cases h512 : err < 512
      · apply scaled_lt hdpos h hs.1
        unfold fwScale refScale
        rw [if_pos h512]
        exact min_le_right _ _
      · have : fwScale err = 0 := by unfold fwScale; rw [if_neg h512]
        rw [this]; simp
  have hcint : ∀ x : Int, 0 ≤ x → x < 1000000 → toCInt x = x := by
    intro x h1 h2
    unfold toCInt
    exact Int.bmod_eq_of_le (by omega) (by omega)
  by_cases hlt : D < 756
  · rw [if_pos hlt, hcint _ (by omega) (by omega), if_pos ⟨hlt, by omega⟩]
  · rw [if_neg hlt, if_neg (fun h => hlt h.1)]

theorem tk2calo_link_ok {NT NC : Nat} (calo : Arr NC HadCaloObj) (track : Arr NT TkObj)
    (herr : ∀ t, 0 ≤ (track t).hwPtErr.toInt) :
    ∃ link, tk2calo_link_drdpt calo track = .ok link ∧
      ∀ t, 0 ≤ (track t).hwPt.toInt → -32768 ≤ (track t).hwPt.toInt - 2 * (track t).hwPtErr.toInt →
      ∀ h, link t h = true ↔
        FirstMin (fun h => max 0 ((track t).hwPt.toInt - 2 * (track t).hwPtErr.toInt) <
              (calo h).hwPt.toInt ∧
            dist2 (track t).hwEta (track t).hwPhi (calo h).hwEta (calo h).hwPhi < 756)
          (fun h => dist2 (track t).hwEta (track t).hwPhi (calo h).hwEta (calo h).hwPhi +
            (max 0 ((track t).hwPt.toInt - (calo h).hwPt.toInt)) ^ 2 *
              fwScale (track t).hwPtErr.toInt / 256) h := by
  let g : Arr NT (Arr NC (BitVec 12)) := fun it icalo =>
      if (calo icalo).hwPt.toInt > (caloPtMin (track it)).toInt then
        dr2_dpt_int_cap (track it).hwEta (track it).hwPhi (calo icalo).hwEta (calo icalo).hwPhi
          (track it).hwPt (calo icalo).hwPt (reg 18 (fwScale (track it).hwPtErr.toInt))
          (reg 12 (756 : Nat)) (reg 12 ((5 * 756 : Nat) : Int))
      else reg 12 ((5 * 756 : Nat) : Int)
  have hb : tk2calo_drdptvals PFALGO3_DR2MAX_TK_CALO calo track = .ok g := by
    unfold tk2calo_drdptvals
    apply buildM_ok
    intro i
    rw [calc_dptscale_eq _ (herr i)]
    rfl
  refine ⟨pick_closest (5 * 756) g, ?_, ?_⟩
  · unfold tk2calo_link_drdpt
    rw [hb]; rfl
  · intro t hpt hw h
    have hmin := caloPtMin_eq (track t) hpt (herr t) hw
    have hm2 : ((reg 12 ((5 * 756 : Nat) : Int) : BitVec 12).toNat : Int) = 3780 := by decide
    have hval : ∀ j, max 0 ((track t).hwPt.toInt - 2 * (track t).hwPtErr.toInt) <
        (calo j).hwPt.toInt → g t j =
        if dist2 (track t).hwEta (track t).hwPhi (calo j).hwEta (calo j).hwPhi < 756 then
          reg 12 (dist2 (track t).hwEta (track t).hwPhi (calo j).hwEta (calo j).hwPhi +
            (max 0 ((track t).hwPt.toInt - (calo j).hwPt.toInt)) ^ 2 *
              fwScale (track t).hwPtErr.toInt / 256)
        else reg 12 ((5 * 756 : Nat) : Int) := by
      intro j hj
      simp only [g]
      rw [hmin, if_pos hj]
      exact dr2_dpt_val _ _ _ _ _ _ _ hpt (by omega) (herr t) hj
    apply pick_closest_iff
    · rintro j ⟨hj1, hj2⟩
      rw [hval j hj1, if_pos hj2, hm2]
      have hd0 := dist2_nonneg (track t).hwEta (track t).hwPhi (calo j).hwEta (calo j).hwPhi
      have hs := fwScale_nonneg (track t).hwPtErr.toInt
      have h0 : 0 ≤ (max 0 ((track t).hwPt.toInt - (calo j).hwPt.toInt)) ^ 2 *
              fwScale (track t).hwPtErr.toInt / 256 :=
        Int.ediv_nonneg (mul_nonneg (sq_nonneg _) hs.1) (by decide)
      have hterm : (max 0 ((track t).hwPt.toInt - (calo j).hwPt.toInt)) ^ 2 *
              fwScale (track t).hwPtErr.toInt / 256 < 3024 := by
        by_cases hz : max 0 ((track t).hwPt.toInt - (calo j).hwPt.toInt) = 0
        · rw [hz]; simp
        · by_cases h512 : (track t).hwPtErr.toInt < 512
          · apply scaled_lt (le_max_left _ _) (e := (track t).hwPtErr.toInt) (by omega) hs.1
            unfold fwScale refScale
            rw [if_pos h512]
            exact min_le_right _ _
          · have : fwScale (track t).hwPtErr.toInt = 0 := by unfold fwScale; rw [if_neg h512]
            rw [this]; simp
      refine ⟨?_, by omega⟩
      rw [reg_toNat_of_lt (by omega) (by omega)]
    · intro j hj
      by_cases hj1 : max 0 ((track t).hwPt.toInt - 2 * (track t).hwPtErr.toInt) <
        (calo j).hwPt.toInt
      · rw [hval j hj1, if_neg (fun h => hj ⟨hj1, h⟩)]
      · simp only [g]
        rw [hmin, if_neg hj1]

end Verif
