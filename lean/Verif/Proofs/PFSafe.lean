import Verif.Proofs.PFFirmware
/-! # When `pfalgo3_full` is free of undefined behaviour -/
open scoped BigOperators
namespace Verif
variable {NT NC NE NM NS : Nat}

theorem tk2em_emalgo_total (calo : Arr NE EmCaloObj) (sumtk : Arr NE Pt)
    (h : ∀ c, 4 * (calo c).hwPtErr.toInt ^ 2 ≤ 2147483647) :
    ∃ em, tk2em_emalgo calo sumtk = .ok em := by
  apply buildM_exists
  intro c
  by_cases hz : sumtk c = 0
  · exact ⟨_, if_pos hz⟩
  · rw [if_neg hz]
    have h1 := h c
    have h2 : (calo c).hwPtErr.toInt ^ 2 = (calo c).hwPtErr.toInt * (calo c).hwPtErr.toInt := by ring
    have h3 := mul_self_nonneg (calo c).hwPtErr.toInt
    rw [h2] at h1
    have hs : shr ((calo c).hwPtErr.toInt * (calo c).hwPtErr.toInt) 1 =
      (calo c).hwPtErr.toInt * (calo c).hwPtErr.toInt / 2 := rfl
    simp only [hs]
    rw [cint_ok (by omega) (by omega), cint_ok (by omega) (by omega)]
    exact ⟨_, rfl⟩

theorem pfalgo3_full_total (inp : PFInputs NT NC NE NM) (old : PFOutputs NT NE NS NM)
    (mem : PFScratch NC NS) (herr : ∀ t, 0 ≤ (inp.track t).hwPtErr.toInt)
    (hem : ∀ c, 4 * (inp.emcalo c).hwPtErr.toInt ^ 2 ≤ 2147483647)
    (htk : 3 * ∑ t, (inp.track t).hwPtErr.toInt ^ 2 ≤ 2 * 2147483647) :
    ∃ out, pfalgo3_full inp old mem = .ok out := by
  obtain ⟨em, h1⟩ := tk2em_emalgo_total inp.emcalo (fwSumEm inp old) hem
  obtain ⟨link, h2, _⟩ := tk2calo_link_ok (fwSub inp em) inp.track herr
  have hsq : (tk2calo_tkerr2 inp.track) = fun t => (inp.track t).hwPtErr.toInt ^ 2 := by
    funext t; unfold tk2calo_tkerr2; ring
  let c : Fin NC → Fin NT → Bool := fun h t => !fwEle inp old em t && link t h && !(fwMu inp old).2 t
  have hle : ∀ h, (∑ t, if c h t then (inp.track t).hwPtErr.toInt ^ 2 else 0) ≤
      ∑ t, (inp.track t).hwPtErr.toInt ^ 2 := fun h => sum_ite_le _ _ (fun t => sq_nonneg _)
  have hge : ∀ h, 0 ≤ (∑ t, if c h t then (inp.track t).hwPtErr.toInt ^ 2 else 0) :=
    fun h => sum_ite_nonneg _ _ (fun t => sq_nonneg _)
  let sums : Arr NC (Pt × Int) := fun h =>
    (reg 16 (∑ t, if c h t then (inp.track t).hwPt.toInt else 0),
      ∑ t, if c h t then (inp.track t).hwPtErr.toInt ^ 2 else 0)
  have h3 : tk2calo_sumtk inp.track (fwEle inp old em) (fwMu inp old).2 (tk2calo_tkerr2 inp.track) link
      = .ok sums := by
    unfold tk2calo_sumtk
    rw [hsq]
    refine buildM_ok _ (fun h => ?_)
    have := hle h
    have := hge h
    exact loopM_errsum (c h) (fun t => (inp.track t).hwPt.toInt)
      (fun t => (inp.track t).hwPtErr.toInt ^ 2) (fun t => sq_nonneg _) (by omega)
  have h4 : ∃ ne, tk2calo_caloalgo (fwSub inp em) (fun i => (sums i).1) (fun i => (sums i).2)
      mem.outne_all = .ok ne := by
    apply buildM_exists
    intro h
    have hq : ∃ p, tk2calo_calopt (fwSub inp em h) (sums h).1 (sums h).2 = .ok p := by
      unfold tk2calo_calopt
      have a1 := hle h
      have a2 := hge h
      have hs : shr (sums h).2 1 = (sums h).2 / 2 := rfl
      have a3 : (sums h).2 = ∑ t, if c h t then (inp.track t).hwPtErr.toInt ^ 2 else 0 := rfl
      split
      · exact ⟨_, rfl⟩
      · simp only []
        split
        · rw [hs, cint_ok (by omega) (by omega)]
          exact ⟨_, rfl⟩
        · exact ⟨_, rfl⟩
    obtain ⟨p, hp⟩ := hq
    rw [hp]
    exact ⟨_, rfl⟩
  obtain ⟨ne, h4⟩ := h4
  exact ⟨_, (pfalgo3_full_ok_iff inp old mem _).mpr ⟨em, link, sums, ne, h1, h2, h3, h4, rfl⟩⟩

theorem pfalgo3_full_negative_error (inp : PFInputs NT NC NE NM) (old : PFOutputs NT NE NS NM)
    (mem : PFScratch NC NS) (t : Fin NT) (herr : (inp.track t).hwPtErr.toInt < 0) :
    ∃ f, pfalgo3_full inp old mem = .error f := by
  cases h : pfalgo3_full inp old mem with
  | error f => exact ⟨f, rfl⟩
  | ok out =>
    exfalso
    obtain ⟨em, link, sums, ne, _, h2, _⟩ := (pfalgo3_full_ok_iff inp old mem out).mp h
    unfold tk2calo_link_drdpt at h2
    obtain ⟨dr, hd, _⟩ := Run.bind_eq_ok.mp h2
    have := buildM_eq_ok.mp hd t
    obtain ⟨s, hs, _⟩ := Run.bind_eq_ok.mp this
    unfold calc_dptscale at hs
    rw [if_pos (by omega), if_pos herr] at hs
    cases hs

theorem pfalgo3_full_em_overflow (inp : PFInputs NT NC NE NM) (old : PFOutputs NT NE NS NM)
    (mem : PFScratch NC NS) (c : Fin NE) (hz : fwSumEm inp old c ≠ 0)
    (herr : 2147483647 < 4 * (inp.emcalo c).hwPtErr.toInt ^ 2) :
    ∃ f, pfalgo3_full inp old mem = .error f := by
  cases h : pfalgo3_full inp old mem with
  | error f => exact ⟨f, rfl⟩
  | ok out =>
    exfalso
    obtain ⟨em, link, sums, ne, h1, _⟩ := (pfalgo3_full_ok_iff inp old mem out).mp h
    have := buildM_eq_ok.mp h1 c
    rw [if_neg hz] at this
    obtain ⟨s, hs, _⟩ := Run.bind_eq_ok.mp this
    have := (cint_eq_ok.mp hs).1
    have h2 : (inp.emcalo c).hwPtErr.toInt ^ 2 =
      (inp.emcalo c).hwPtErr.toInt * (inp.emcalo c).hwPtErr.toInt := by ring
    omega

end Verif
