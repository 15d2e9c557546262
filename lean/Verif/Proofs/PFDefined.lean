import Verif.Proofs.PFPerm
import Verif.Proofs.PFGhosts
import Verif.Spec.PFDefined
/-! # Exactly when PF has no undefined behaviour -/
open Classical
open scoped BigOperators
namespace Verif
open Spec
variable {NT NC NE NM NS : Nat}

section
variable {inp : PFInputs NT NC NE NM} {old : PFOutputs NT NE NS NM} {v : Variant}

theorem fw_emalgo_conv (hv : Sane inp v) {em : Arr NE (Bool × Pt)}
    (h : tk2em_emalgo inp.emcalo (fwSumEm inp old) = .ok em) (c : Fin NE) (hz : emTrackPt inp c ≠ 0) :
    4 * emErr2 inp c ≤ 2147483647 := by
  have h0 := emTrackPt_nonneg inp hv.trackPt c
  have h1 := hv.emSum c
  have hs : (fwSumEm inp old c).toInt = emTrackPt inp c := by
    rw [fwSumEm_eq inp old hv.trackPt c, reg16_toInt (by omega) (by omega)]
  have hc := buildM_eq_ok.mp h c
  rw [if_neg (fun e => hz (by rw [← hs, e]; rfl))] at hc
  obtain ⟨x, hx, -⟩ := Run.bind_eq_ok.mp hc
  have := (cint_eq_ok.mp hx).1.2
  unfold emErr2
  have e : (inp.emcalo c).hwPtErr.toInt ^ 2 = (inp.emcalo c).hwPtErr.toInt * (inp.emcalo c).hwPtErr.toInt := by ring
  omega

theorem fw_calosum_conv {link : Arr NT (Arr NC Bool)}
    (hlink : ∀ t h, link t h = true ↔ CaloMatch inp v t h) {isEle isMu : Arr NT Bool}
    (hele : ∀ t, isEle t = true ↔ IsEle inp t) (hmu : ∀ t, isMu t = true ↔ IsMu inp t) {sums}
    (hs : tk2calo_sumtk inp.track isEle isMu (tk2calo_tkerr2 inp.track) link = .ok sums) (h : Fin NC) :
    caloTrackErr2 inp v h ≤ 2147483647 := by
  have := loopM_errsum_ok (fun t => !isEle t && link t h && !isMu t) (fun t => (inp.track t).hwPt.toInt)
    (tk2calo_tkerr2 inp.track) (buildM_eq_ok.mp hs h)
  refine le_trans (le_of_eq ?_) this
  unfold caloTrackErr2
  refine Finset.sum_congr rfl fun t _ => ?_
  have hc : (!isEle t && link t h && !isMu t) = true ↔ HadronLink inp v t h := by
    unfold HadronLink
    rw [← hlink t h, ← hele t, ← hmu t]
    cases isEle t <;> cases link t h <;> cases isMu t <;> simp
  by_cases hl : HadronLink inp v t h
  · rw [if_pos hl, if_pos (hc.mpr hl)]; unfold tk2calo_tkerr2; ring
  · rw [if_neg hl, if_neg (fun e => hl (hc.mp e))]

theorem fw_caloalgo_conv (hv : Sane inp v) (calo : Arr NC HadCaloObj)
    (hpt : ∀ h, (calo h).hwPt.toInt = hadPt inp v h) {sums : Arr NC (Pt × Int)}
    (hs : ∀ h, (sums h).1.toInt = caloTrackPt inp v h ∧ (sums h).2 = caloTrackErr2 inp v h)
    {mem ne : Arr NC PFNeutralObj}
    (hok : tk2calo_caloalgo calo (fun i => (sums i).1) (fun i => (sums i).2) mem = .ok ne) (h : Fin NC)
    (hz : caloTrackPt inp v h ≠ 0) (hp : 0 < caloDiff inp v h) : 3 * caloTrackErr2 inp v h ≤ 4294967295 := by
  obtain ⟨s1, s2⟩ := hs h
  have h0 := caloTrackPt_nonneg hv h
  have h1 := hv.hadSum h
  have hr := hadPt_range hv h
  have hpr := pt_range (inp.hadcalo h).hwPt
  have hd : (reg 16 ((calo h).hwPt.toInt - (sums h).1.toInt)).toInt = caloDiff inp v h := by
    rw [hpt h, s1, reg16_toInt (by omega) (by omega)]; rfl
  obtain ⟨p, hc, -⟩ := Run.bind_eq_ok.mp (buildM_eq_ok.mp hok h)
  unfold tk2calo_calopt at hc
  rw [if_neg (fun (e : (sums h).1 = 0) => hz (by rw [← s1, e]; rfl))] at hc
  simp only [hd] at hc
  rw [if_pos hp] at hc
  obtain ⟨x, hx, -⟩ := Run.bind_eq_ok.mp hc
  have := (cint_eq_ok.mp hx).1.2
  rw [s2] at this
  have hshr : shr (caloTrackErr2 inp v h) 1 = caloTrackErr2 inp v h / 2 := rfl
  rw [hshr] at this
  omega

end

/-- The firmware on sane inputs is defined only if the squared errors fit. -/
theorem fw_defined_conv {inp : PFInputs NT NC NE NM} {old : PFOutputs NT NE NS NM} {mem : PFScratch NC NS}
    (hv : Sane inp fwVariant) {out : PFOutputs NT NE NS NM} (hok : pfalgo3_full inp old mem = .ok out) :
    ErrorsFit inp fwVariant ∧ ∀ h, caloTrackPt inp fwVariant h ≠ 0 → 0 < caloDiff inp fwVariant h → 3 * caloTrackErr2 inp fwVariant h ≤ 4294967295 := by
  obtain ⟨em, link, sums, ne, hem, hlink, hsums, hne, -⟩ := (pfalgo3_full_ok_iff inp old mem out).mp hok
  have hE1 := fw_emalgo_conv hv hem
  obtain ⟨em', hem', hspec⟩ := fw_emalgo_of (old := old) hv hE1
  rw [hem] at hem'
  injection hem' with e
  subst e
  have hIsEM : ∀ c, (em c).1 = true ↔ IsEM inp c := fun c => (hspec c).1
  obtain ⟨link', hlink', hlinkspec⟩ := fw_calolink hv rfl rfl hIsEM
  rw [hlink] at hlink'
  injection hlink' with e
  subst e
  have hele := fwEle_iff (old := old) hv hIsEM
  have hmu := fwMu_isMu inp old hv.trackPt
  have hE2 := fw_calosum_conv hlinkspec hele hmu hsums
  obtain ⟨sums', hsums', hsumspec⟩ := fw_calosum hv hE2 hlinkspec hele hmu
  rw [hsums] at hsums'
  injection hsums' with e
  subst e
  exact ⟨⟨hE1, hE2⟩, fw_caloalgo_conv hv (fwSub inp em) (fun h => (fwSub_spec hv rfl hIsEM h).1) hsumspec hne⟩

/-! ### The reference -/
section
variable {inp : PFInputs NT NC NE NM} {v : Variant}

theorem ref_em_conv (hv : Sane inp v) {isMu : Arr NT Bool} (hmu : ∀ t, isMu t = true ↔ IsMu inp t) {oldpho : Arr NE PFNeutralObj} {em}
    (hok : pfalgo3_em_ref inp.emcalo inp.hadcalo inp.track isMu oldpho = .ok em) (c : Fin NE) (hz : emTrackPt inp c ≠ 0) :
    4 * emErr2 inp c ≤ 2147483647 := by
  have h0 := emTrackPt_nonneg inp hv.trackPt c
  have h1 := hv.emSum c
  unfold pfalgo3_em_ref at hok
  simp only [] at hok
  obtain ⟨g, hg, -⟩ := Run.bind_eq_ok.mp hok
  have hc := buildM_eq_ok.mp hg c
  have hrefl : (fun it => if (inp.track it).hwPt.toInt > 0 ∧ isMu it = false then
      best_match_ref_em PFALGO3_DR2MAX_TK_EM inp.emcalo (inp.track it) else none) =
      refTk2em inp isMu := rfl
  rw [hrefl, refSum_eq hmu hv.trackPt c] at hc
  unfold em_ref_algo at hc
  rw [reg16_toInt (by omega) (by omega), if_pos (by omega)] at hc
  obtain ⟨x, hx, -⟩ := Run.bind_eq_ok.mp hc
  have := (cint_eq_ok.mp hx).1.2
  unfold emErr2
  have e : (inp.emcalo c).hwPtErr.toInt ^ 2 = (inp.emcalo c).hwPtErr.toInt * (inp.emcalo c).hwPtErr.toInt := by ring
  omega

theorem ref_subpt_conv (hv : Sane inp v) {calo : HadCaloObj} {sum : Pt} {err : Int} {p : Pt} (h : Fin NC)
    (s1 : sum.toInt = caloTrackPt inp v h)
    (s2 : err = caloTrackErr2 inp v h) (hok : calo_subpt_ref calo sum err = .ok p) (hz : caloTrackPt inp v h ≠ 0) :
    3 * caloTrackErr2 inp v h ≤ 4294967295 := by
  have h0 := caloTrackPt_nonneg hv h
  unfold calo_subpt_ref at hok
  rw [s1, s2, if_pos (by omega)] at hok
  obtain ⟨x, hx, -⟩ := Run.bind_eq_ok.mp hok
  have := (cint_eq_ok.mp hx).1.2
  have hshr : shr (caloTrackErr2 inp v h) 1 = caloTrackErr2 inp v h / 2 := rfl
  rw [hshr] at this
  omega

theorem ref_tkhad_conv (hv : Sane inp v) (hscale : v.scale = refScale)
    (hempty : ∀ t, (inp.track t).hwPt.toInt = 0 → (inp.track t).hwPtErr.toInt = 0)
    {calo : Arr NC HadCaloObj}
    (hc : ∀ h, (calo h).hwPt.toInt = hadPt inp v h ∧
        (calo h).hwEta = (inp.hadcalo h).hwEta ∧ (calo h).hwPhi = (inp.hadcalo h).hwPhi)
    {isEle isMu : Arr NT Bool}
    (hele : ∀ t, isEle t = true ↔ 0 < (inp.track t).hwPt.toInt ∧ IsEle inp t)
    (hmu : ∀ t, isMu t = true ↔ IsMu inp t) {good0 : Arr NT Bool} {s}
    (hok : tkhad_ref calo inp.track isEle isMu good0 = .ok s) (h : Fin NC) : caloTrackErr2 inp v h ≤ 2147483647 := by
  let fe : Fin NC → Fin NT → Int := fun h t => if HadronLink inp v t h then (inp.track t).hwPtErr.toInt ^ 2 else 0
  have huniq : ∀ t h h', HadronLink inp v t h → HadronLink inp v t h' → h = h' :=
    fun t h h' a b => firstMin_unique a.1 b.1
  have := loopM_induct_ok (fun k (s : TkHadState NT NC) => ∀ h, s.calo_sumtkErr2 h = prefixSum k (fe h) ∧ s.calo_sumtkErr2 h ≤ 2147483647)
    _ _ s (by
      intro h
      simp [prefixSum]) (by
      intro k s s1 ih hb
      have keep : s1 = s → (∀ h, fe h k = 0) →
          ∀ h, s1.calo_sumtkErr2 h = prefixSum (k.val + 1) (fe h) ∧ s1.calo_sumtkErr2 h ≤ 2147483647 := by
        intro e hz h
        rw [prefixSum_succ, hz h, Int.add_zero, e]
        exact ih h
      by_cases hcond : (inp.track k).hwPt.toInt > 0 ∧ isEle k = false ∧ isMu k = false
      · rw [if_pos hcond] at hb
        have hnotEle : ¬ IsEle inp k := by
          intro h
          have := (hele k).mpr ⟨hcond.1, h⟩
          rw [hcond.2.1] at this; cases this
        have hnotMu : ¬ IsMu inp k := by
          intro h
          have := (hmu k).mpr h
          rw [hcond.2.2] at this; cases this
        obtain ⟨r, hr, hspec⟩ := ref_calo_link hv hscale hc k
        rw [hr] at hb
        simp only [Run.ok_bind] at hb
        have hHL : ∀ h, HadronLink inp v k h ↔ r = some h := by
          intro h
          rw [hspec h]
          unfold HadronLink
          exact ⟨fun hh => hh.1, fun hh => ⟨hh, hnotEle, hnotMu⟩⟩
        cases r with
        | none =>
          injection hb with hb
          refine keep hb.symm fun h => ?_
          have : ¬ HadronLink inp v k h := by rw [hHL h]; simp
          simp only [fe, if_neg this]
        | some ic =>
          have hlk : HadronLink inp v k ic := (hHL ic).mpr rfl
          have hfe : fe ic k = (inp.track k).hwPtErr.toInt * (inp.track k).hwPtErr.toInt := by
            simp only [fe, if_pos hlk]; ring
          simp only [] at hb
          obtain ⟨x, hx, hb⟩ := Run.bind_eq_ok.mp hb
          obtain ⟨⟨_, h2⟩, h3⟩ := cint_eq_ok.mp hx
          injection hb with hb
          intro h
          rw [← hb]
          by_cases hh : h = ic
          · subst hh
            simp only [Arr.set_same]
            rw [prefixSum_succ, hfe, ← (ih h).1]
            exact ⟨h3, by omega⟩
          · simp only [Arr.set_ne _ _ hh]
            have hn : ¬ HadronLink inp v k h := fun hl => hh (huniq k h ic hl hlk)
            have e2 : fe h k = 0 := by simp only [fe, if_neg hn]
            rw [prefixSum_succ, e2, Int.add_zero]
            exact ih h
      · rw [if_neg hcond] at hb
        injection hb with hb
        refine keep hb.symm fun h => ?_
        have h0 := hv.trackPt k
        by_cases hp : (inp.track k).hwPt.toInt > 0
        · have hno : ¬ HadronLink inp v k h := by
            intro hl
            apply hcond
            refine ⟨hp, ?_, ?_⟩
            · by_contra hh
              exact hl.2.1 ((hele k).mp (by simpa using hh)).2
            · by_contra hh
              exact hl.2.2 ((hmu k).mp (by simpa using hh))
          simp only [fe, if_neg hno]
        · have hz2 := hempty k (by omega)
          simp only [fe, hz2]
          simp) hok
  have := (this h)
  rw [prefixSum_full] at this
  have e : caloTrackErr2 inp v h = ∑ t, fe h t := rfl
  omega

end

/-- The reference on sane inputs is defined only if the squared errors fit. -/
theorem ref_defined_conv {inp : PFInputs NT NC NE NM} {old : PFOutputs NT NE NS NM} {mem : Arr NC PFNeutralObj}
    (hv : Sane inp refVariant) (hempty : ∀ t, (inp.track t).hwPt.toInt = 0 → (inp.track t).hwPtErr.toInt = 0)
    {out : PFOutputs NT NE NS NM} (hok : pfalgo3_full_ref inp old mem = .ok out) :
    ErrorsFit inp refVariant ∧ ∀ h, caloTrackPt inp refVariant h ≠ 0 → 3 * caloTrackErr2 inp refVariant h ≤ 4294967295 := by
  obtain ⟨-, hmu⟩ := mu_ref_spec inp
  unfold pfalgo3_full_ref at hok
  simp only [] at hok
  obtain ⟨em, hem, hok⟩ := Run.bind_eq_ok.mp hok
  have hE1 := ref_em_conv hv hmu hem
  obtain ⟨em', hem', hele, hpho, hcalo⟩ := ref_em_stage hv hE1 rfl hmu old.outpho
  rw [hem] at hem'
  injection hem' with e
  subst e
  obtain ⟨s, hs, hok⟩ := Run.bind_eq_ok.mp hok
  have hE2 := ref_tkhad_conv hv rfl hempty hcalo hele hmu hs
  obtain ⟨s', hs', -, hsum⟩ := ref_tkhad hv hE2 rfl hempty hcalo hele hmu _
  rw [hs] at hs'
  injection hs' with e
  subst e
  obtain ⟨sp, hsp, -⟩ := Run.bind_eq_ok.mp hok
  exact ⟨⟨hE1, hE2⟩, fun h => ref_subpt_conv hv h (hsum h).1 (hsum h).2 (buildM_eq_ok.mp hsp h)⟩

end Verif
