import Verif.Props.PFAgree2
import Mathlib.Algebra.Order.BigOperators.Group.Finset
/-! # Where the energy goes: property C66 -/
open scoped BigOperators
namespace Verif
open Spec
variable {NT NC NE NM NS : Nat}

section
variable {inp : PFInputs NT NC NE NM} {v : Variant} (hv : Valid inp v)
include hv

theorem emTk_nonneg (c : Fin NE) : 0 ≤ emTrackPt inp c := by
  unfold emTrackPt
  refine Finset.sum_nonneg fun t _ => ?_
  split
  · exact hv.trackPt t
  · exact le_refl _

theorem emSb_nonneg (h : Fin NC) : 0 ≤ emSub inp h := by
  unfold emSub
  refine Finset.sum_nonneg fun t _ => ?_
  split
  · exact hv.emPt t
  · exact le_refl _

theorem caloTk_nonneg (h : Fin NC) : 0 ≤ caloTrackPt inp v h := by
  unfold caloTrackPt
  refine Finset.sum_nonneg fun t _ => ?_
  split
  · exact hv.trackPt t
  · exact le_refl _

theorem photonPt_bounds (c : Fin NE) : 0 ≤ photonPt inp c ∧
    photonPt inp c + emTrackPt inp c ≤ max (inp.emcalo c).hwPt.toInt (emTrackPt inp c) := by
  have h0 := emTk_nonneg hv c
  have h1 := hv.emPt c
  unfold photonPt emDiff
  split
  · omega
  · split <;> omega

theorem photonPt_le (c : Fin NE) : photonPt inp c ≤ (inp.emcalo c).hwPt.toInt := by
  have h0 := emTk_nonneg hv c
  have h1 := hv.emPt c
  unfold photonPt emDiff
  split
  · omega
  · split <;> omega

omit hv in
theorem photonPt_zero {c : Fin NE} (h : ¬ IsEM inp c) : photonPt inp c = 0 := by
  unfold IsEM at h
  unfold photonPt
  rw [if_neg (fun e => h (Or.inl e)), if_neg (fun e => h (Or.inr (Or.inl e.1)))]

theorem hadPt_bounds (h : Fin NC) : 0 ≤ hadPt inp v h ∧ hadPt inp v h + emSub inp h ≤ max (inp.hadcalo h).hwPt.toInt (emSub inp h) := by
  have h0 := emSb_nonneg hv h
  have h1 := hv.hadPt h
  unfold hadPt
  split
  · omega
  · rename_i hr
    unfold Removed at hr
    rw [not_or] at hr
    omega

theorem neutralPt_bounds (h : Fin NC) : 0 ≤ neutralPt inp v h ∧
    neutralPt inp v h + caloTrackPt inp v h ≤ max (hadPt inp v h) (caloTrackPt inp v h) := by
  have h0 := caloTk_nonneg hv h
  have h1 := (hadPt_bounds hv h).1
  unfold neutralPt caloDiff
  split
  · omega
  · split <;> omega

theorem neutralPt_le (h : Fin NC) : neutralPt inp v h ≤ hadPt inp v h := by
  have := neutralPt_bounds hv h
  have h0 := caloTk_nonneg hv h
  have h1 := (hadPt_bounds hv h).1
  omega

/-- Sum of photons linked to a cluster. -/
theorem photons_le_emSub (h : Fin NC) [DecidablePred fun c => HadMatch inp c h] :
    (∑ c, if HadMatch inp c h then photonPt inp c else 0) ≤ emSub inp h := by
  unfold emSub
  refine Finset.sum_le_sum fun c _ => ?_
  by_cases hm : HadMatch inp c h
  · rw [if_pos hm]
    by_cases he : IsEM inp c
    · rw [if_pos ⟨hm, he⟩]
      exact photonPt_le hv c
    · rw [if_neg (fun x => he x.2), photonPt_zero he]
  · rw [if_neg hm, if_neg (fun x => hm x.1)]

end

theorem sum_topN {T : Type} {key : T → Int} {cand out : List T} (h : TopN key cand out) (hn : ∀ x ∈ cand, 0 ≤ key x) :
    (out.map key).sum ≤ (cand.map key).sum := by
  obtain ⟨_, rest, hp, _⟩ := h
  rw [← (hp.map key).sum_eq, List.map_append, List.sum_append]
  have : 0 ≤ (rest.map key).sum := by
    apply List.sum_nonneg
    intro x hx
    obtain ⟨y, hy, rfl⟩ := List.mem_map.mp hx
    exact hn y (hp.mem_iff.mp (List.mem_append_right _ hy))
  omega

theorem outne_sum {inp : PFInputs NT NC NE NM} {v : Variant} (hv : Valid inp v) {ne : Arr NC PFNeutralObj} (tmp : Arr NS PFNeutralObj)
    (hne : ∀ h, NeutralOut (neutralPt inp v h) (inp.hadcalo h).hwEta (inp.hadcalo h).hwPhi 1 (ne h)) :
    (∑ i, (ptsort_hwopt tmp ne i).hwPt.toInt) ≤ (∑ h, neutralPt inp v h) ∧
    (NC ≤ NS → (∑ i, (ptsort_hwopt tmp ne i).hwPt.toInt) = ∑ h, neutralPt inp v h) := by
  have e : (∑ h, neutralPt inp v h) = ((List.ofFn ne).map key).sum := by
    rw [List.map_ofFn, List.sum_ofFn]
    exact Finset.sum_congr rfl fun h _ => (hne h).1.symm
  have e' : (∑ i, (ptsort_hwopt tmp ne i).hwPt.toInt) = ((List.ofFn (ptsort_hwopt tmp ne)).map key).sum := by
    rw [List.map_ofFn, List.sum_ofFn]
    rfl
  have hnn : ∀ i, 0 ≤ key (ne i) := fun i => by
    show 0 ≤ (ne i).hwPt.toInt
    rw [(hne i).1]; exact (neutralPt_bounds hv i).1
  have hz : ((List.ofFn (zeros tmp)).map key).sum = 0 := by
    rw [List.map_ofFn, List.sum_ofFn]
    exact Finset.sum_eq_zero fun i _ => key_zeros tmp i
  rw [e, e']
  constructor
  · have := sum_topN (hwopt_topN_zeros tmp ne) (by
      intro x hx
      rcases List.mem_append.mp hx with hx | hx
      · obtain ⟨i, rfl⟩ := (List.mem_ofFn' ne x).mp hx; exact hnn i
      · obtain ⟨i, rfl⟩ := (List.mem_ofFn' (zeros tmp) x).mp hx; exact le_of_eq (key_zeros tmp i).symm)
    rw [List.map_append, List.sum_append, hz] at this
    omega
  · intro hN
    rw [hwopt_nonneg tmp ne hnn, List.take_append, List.map_append, List.sum_append, List.take_of_length_le (by rw [(sortL_perm _).length_eq]; simpa using hN),
      ((sortL_perm (List.ofFn ne)).map key).sum_eq]
    have : ((List.take (NS - (sortL (List.ofFn ne)).length) (List.ofFn (zeros tmp))).map key).sum = 0 := by
      apply List.sum_eq_zero
      intro x hx
      obtain ⟨y, hy, rfl⟩ := List.mem_map.mp hx
      obtain ⟨i, rfl⟩ := (List.mem_ofFn' (zeros tmp) y).mp (List.mem_of_mem_take hy)
      exact key_zeros tmp i
    omega

open Classical in
/-- The balance of C66 for either variant of the rules, given photons and neutral list as specified. -/
theorem no_double_counting {inp : PFInputs NT NC NE NM} {v : Variant} (hv : Valid inp v) {pho : Arr NE PFNeutralObj} {S : Int}
    (hpho : ∀ c, (pho c).hwPt.toInt = photonPt inp c) (hle : S ≤ ∑ h, neutralPt inp v h) :
    (∀ c, 0 ≤ (pho c).hwPt.toInt ∧
      (pho c).hwPt.toInt + emTrackPt inp c ≤ max (inp.emcalo c).hwPt.toInt (emTrackPt inp c)) ∧
    S + (∑ h, caloTrackPt inp v h) ≤ (∑ h, max (hadPt inp v h) (caloTrackPt inp v h)) ∧
    S + (∑ c, (pho c).hwPt.toInt) ≤ (∑ h, max (inp.hadcalo h).hwPt.toInt (emSub inp h)) +
        ∑ c, if ∃ h, HadMatch inp c h then 0 else (inp.emcalo c).hwPt.toInt := by
  refine ⟨fun c => ?_, ?_, ?_⟩
  · rw [hpho c]
    exact photonPt_bounds hv c
  · have : (∑ h, neutralPt inp v h) + (∑ h, caloTrackPt inp v h) ≤
        ∑ h, max (hadPt inp v h) (caloTrackPt inp v h) := by
      rw [← Finset.sum_add_distrib]
      exact Finset.sum_le_sum fun h _ => (neutralPt_bounds hv h).2
    omega
  · have e : (∑ c, (pho c).hwPt.toInt) = ∑ c, photonPt inp c := Finset.sum_congr rfl fun c _ => hpho c
    have split : ∀ c, photonPt inp c ≤ (∑ h, if HadMatch inp c h then photonPt inp c else 0) +
        (if ∃ h, HadMatch inp c h then 0 else (inp.emcalo c).hwPt.toInt) := by
      intro c
      by_cases hx : ∃ h, HadMatch inp c h
      · obtain ⟨h, hh⟩ := hx
        rw [if_pos ⟨h, hh⟩]
        have := Finset.single_le_sum (f := fun h => if HadMatch inp c h then photonPt inp c else 0) (s := Finset.univ)
          (fun h _ => by
            show (0 : Int) ≤ if HadMatch inp c h then photonPt inp c else 0
            split
            · exact (photonPt_bounds hv c).1
            · exact le_refl _) (Finset.mem_univ h)
        simp only [if_pos hh] at this
        omega
      · rw [if_neg hx]
        have : (∑ h, if HadMatch inp c h then photonPt inp c else 0) = 0 :=
          Finset.sum_eq_zero fun h _ => if_neg fun hh => hx ⟨h, hh⟩
        have := photonPt_le hv c
        omega
    have h2 : (∑ c, photonPt inp c) ≤ (∑ h, ∑ c, if HadMatch inp c h then photonPt inp c else 0) +
        ∑ c, if ∃ h, HadMatch inp c h then 0 else (inp.emcalo c).hwPt.toInt := by
      rw [Finset.sum_comm, ← Finset.sum_add_distrib]
      exact Finset.sum_le_sum fun c _ => split c
    have h3 : (∑ h, neutralPt inp v h) + (∑ h, ∑ c, if HadMatch inp c h then photonPt inp c else 0) ≤
        ∑ h, max (inp.hadcalo h).hwPt.toInt (emSub inp h) := by
      rw [← Finset.sum_add_distrib]
      refine Finset.sum_le_sum fun h _ => ?_
      have a := photons_le_emSub hv h
      have b := neutralPt_le hv h
      have c := (hadPt_bounds hv h).2
      omega
    rw [e]
    omega

/-- What C66 says is not lost, for either variant of the rules. -/
theorem nothing_lost {inp : PFInputs NT NC NE NM} {v : Variant} {pho : Arr NE PFNeutralObj}
    (hpho : ∀ c, (pho c).hwPt.toInt = photonPt inp c) :
    (∀ c, let d := (inp.emcalo c).hwPt.toInt - emTrackPt inp c - (pho c).hwPt.toInt
      d ≤ 0 ∨ 2 * d ^ 2 ≤ 3 * emErr2 inp c) ∧
    ∃ lost : Fin NC → Int, (∀ h, 0 ≤ lost h ∧ 2 * lost h ^ 2 ≤ 3 * caloTrackErr2 inp v h) ∧
      (∑ h, hadPt inp v h) ≤ (∑ h, neutralPt inp v h) + (∑ h, caloTrackPt inp v h) + ∑ h, lost h := by
  refine ⟨fun c => ?_, fun h => max 0 (hadPt inp v h - caloTrackPt inp v h - neutralPt inp v h), fun h => ⟨le_max_left _ _, ?_⟩, ?_⟩
  · simp only []
    rw [hpho c]
    unfold photonPt emDiff
    split
    · rename_i h; left; omega
    · split
      · left; omega
      · rename_i h2
        by_cases h3 : 0 < (inp.emcalo c).hwPt.toInt - emTrackPt inp c
        · right
          rw [Int.sub_zero]
          exact not_lt.mp fun h => h2 ⟨h3, h⟩
        · left; omega
  · have herr : 0 ≤ caloTrackErr2 inp v h := by
      unfold caloTrackErr2
      refine Finset.sum_nonneg fun t _ => ?_
      split
      · exact sq_nonneg _
      · exact le_refl _
    have hz : 2 * (0 : Int) ^ 2 ≤ 3 * caloTrackErr2 inp v h := by omega
    show 2 * (max 0 (hadPt inp v h - caloTrackPt inp v h - neutralPt inp v h)) ^ 2 ≤ _
    unfold neutralPt caloDiff
    split
    · rw [max_eq_left (by omega)]; exact hz
    · split
      · rw [max_eq_left (by omega)]; exact hz
      · rename_i h2
        by_cases h3 : 0 < hadPt inp v h - caloTrackPt inp v h
        · rw [max_eq_right (by omega), Int.sub_zero]
          exact not_lt.mp fun h => h2 ⟨h3, h⟩
        · rw [max_eq_left (by omega)]; exact hz
  · rw [← Finset.sum_add_distrib, ← Finset.sum_add_distrib]
    refine Finset.sum_le_sum fun h _ => ?_
    omega

open Classical in
/-- **C66.** Calorimeter energy is not counted twice: the photons and the neutral hadrons together have at
most the pt of the calorimeter clusters (or, where that is larger, of the EM clusters inside them) and of
the EM clusters that belong to no calorimeter cluster.  In detail: photon `c` and the tracks of its EM
cluster have at most the pt of the cluster, or of the tracks. -/
theorem C66_no_double_counting (inp : PFInputs NT NC NE NM) (old : PFOutputs NT NE NS NM)
    (mem : PFScratch NC NS) (hv : Valid inp fwVariant) :
    ∃ out, pfalgo3_full inp old mem = .ok out ∧
      (∀ c, 0 ≤ (out.outpho c).hwPt.toInt ∧
        (out.outpho c).hwPt.toInt + emTrackPt inp c ≤ max (inp.emcalo c).hwPt.toInt (emTrackPt inp c)) ∧
      (∑ i, (out.outne i).hwPt.toInt) + (∑ h, caloTrackPt inp fwVariant h) ≤
        (∑ h, max (hadPt inp fwVariant h) (caloTrackPt inp fwVariant h)) ∧
      (∑ i, (out.outne i).hwPt.toInt) + (∑ c, (out.outpho c).hwPt.toInt) ≤
        (∑ h, max (inp.hadcalo h).hwPt.toInt (emSub inp h)) +
          ∑ c, if ∃ h, HadMatch inp c h then 0 else (inp.emcalo c).hwPt.toInt := by
  obtain ⟨out, ne, h1, hch, hpho, hmu, hne, hsort⟩ := fw_meets_spec inp old mem hv
  have hle := (outne_sum hv mem.tmp (fun h => (hne h).1)).1
  rw [← hsort] at hle
  exact ⟨out, h1, no_double_counting hv (fun c => (hpho c).1.1) hle⟩

open Classical in
/-- **C66.** The same of the reference. -/
theorem C66_no_double_counting_ref (inp : PFInputs NT NC NE NM) (old : PFOutputs NT NE NS NM)
    (mem : Arr NC PFNeutralObj) (hv : Valid inp refVariant) :
    ∃ out, pfalgo3_full_ref inp old mem = .ok out ∧
      (∀ c, 0 ≤ (out.outpho c).hwPt.toInt ∧
        (out.outpho c).hwPt.toInt + emTrackPt inp c ≤ max (inp.emcalo c).hwPt.toInt (emTrackPt inp c)) ∧
      (∑ i, (out.outne i).hwPt.toInt) + (∑ h, caloTrackPt inp refVariant h) ≤
        (∑ h, max (hadPt inp refVariant h) (caloTrackPt inp refVariant h)) ∧
      (∑ i, (out.outne i).hwPt.toInt) + (∑ c, (out.outpho c).hwPt.toInt) ≤
        (∑ h, max (inp.hadcalo h).hwPt.toInt (emSub inp h)) +
          ∑ c, if ∃ h, HadMatch inp c h then 0 else (inp.emcalo c).hwPt.toInt := by
  obtain ⟨out, ne, h1, -, -, hpho, -, hne, hsort⟩ := ref_meets_spec_all inp old mem hv
  rw [← ptsort_eq] at hsort
  have hle := (outne_sum (valid_noGhosts hv) (fun i => { old.outne i with hwPt := 0, hwEta := 0, hwPhi := 0, hwId := 0 }) hne).1
  rw [← hsort] at hle
  obtain ⟨a, b, c⟩ := no_double_counting (valid_noGhosts hv) (fun c => (hpho c).1) hle
  refine ⟨out, h1, a, ?_, c⟩
  simp only [caloTrackPt_noGhosts hv.toSane] at b
  exact b

/-- **C66.** Nothing significant is lost: what an EM cluster has beyond its tracks and its photon is within
the significance cut (twice its square is at most three squared errors), and the same for what is left
of a calorimeter cluster — provided the neutral list has room (`NC ≤ NS`), all neutral hadrons are in it. -/
theorem C66_nothing_lost (inp : PFInputs NT NC NE NM) (old : PFOutputs NT NE NS NM)
    (mem : PFScratch NC NS) (hv : Valid inp fwVariant) :
    ∃ (out : PFOutputs NT NE NS NM) (lost : Fin NC → Int), pfalgo3_full inp old mem = .ok out ∧
      (∀ c, let d := (inp.emcalo c).hwPt.toInt - emTrackPt inp c - (out.outpho c).hwPt.toInt
        d ≤ 0 ∨ 2 * d ^ 2 ≤ 3 * emErr2 inp c) ∧
      (∀ h, 0 ≤ lost h ∧ 2 * lost h ^ 2 ≤ 3 * caloTrackErr2 inp fwVariant h) ∧
      (NC ≤ NS → (∑ h, hadPt inp fwVariant h) ≤
        (∑ i, (out.outne i).hwPt.toInt) + (∑ h, caloTrackPt inp fwVariant h) + ∑ h, lost h) := by
  obtain ⟨out, ne, h1, hch, hpho, hmu, hne, hsort⟩ := fw_meets_spec inp old mem hv
  have hle := (outne_sum hv mem.tmp (fun h => (hne h).1)).2
  rw [← hsort] at hle
  obtain ⟨a, lost, b, c⟩ := nothing_lost (v := fwVariant) fun c => (hpho c).1.1
  exact ⟨out, lost, h1, a, b, fun hN => by rw [hle hN]; exact c⟩

/-- **C66.** The same of the reference; empty track slots carry no error. -/
theorem C66_nothing_lost_ref (inp : PFInputs NT NC NE NM) (old : PFOutputs NT NE NS NM)
    (mem : Arr NC PFNeutralObj) (hv : Valid inp refVariant) :
    ∃ (out : PFOutputs NT NE NS NM) (lost : Fin NC → Int), pfalgo3_full_ref inp old mem = .ok out ∧
      (∀ c, let d := (inp.emcalo c).hwPt.toInt - emTrackPt inp c - (out.outpho c).hwPt.toInt
        d ≤ 0 ∨ 2 * d ^ 2 ≤ 3 * emErr2 inp c) ∧
      (∀ h, 0 ≤ lost h ∧ 2 * lost h ^ 2 ≤ 3 * caloTrackErr2 (noGhosts inp) refVariant h) ∧
      (NC ≤ NS → (∑ h, hadPt inp refVariant h) ≤
        (∑ i, (out.outne i).hwPt.toInt) + (∑ h, caloTrackPt inp refVariant h) + ∑ h, lost h) := by
  obtain ⟨out, ne, h1, -, -, hpho, -, hne, hsort⟩ := ref_meets_spec_all inp old mem hv
  rw [← ptsort_eq] at hsort
  have hle := (outne_sum (valid_noGhosts hv) (fun i => { old.outne i with hwPt := 0, hwEta := 0, hwPhi := 0, hwId := 0 }) hne).2
  rw [← hsort] at hle
  obtain ⟨a, lost, b, c⟩ := nothing_lost (inp := noGhosts inp) (v := refVariant) fun c => (hpho c).1
  simp only [caloTrackPt_noGhosts hv.toSane] at c
  exact ⟨out, lost, h1, a, b, fun hN => by rw [hle hN]; exact c⟩

/-- Non-vacuity: the ordinary event meets the hypotheses, has a photon and a neutral hadron, and room for all neutrals. -/
example : Valid ordinary fwVariant ∧ (pfalgo3_full ordinary (old0 3 2 2 1) (mem0 2 2)).map (fun o =>
      ((o.outpho 1).hwPt, (o.outne 0).hwPt)) = .ok (80, 180) :=
  ⟨physical_valid _ ordinary_physical _, by decide +kernel⟩

/-- Non-vacuity: and the same for the reference. -/
example : Valid ordinary refVariant ∧ (pfalgo3_full_ref ordinary (old0 3 2 2 1) (mem0 2 2).outne_all).map (fun o =>
      ((o.outpho 1).hwPt, (o.outne 0).hwPt)) = .ok (80, 180) :=
  ⟨physical_valid _ ordinary_physical _, by decide +kernel⟩

end Verif
