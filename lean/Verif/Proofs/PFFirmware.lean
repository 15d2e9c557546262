import Verif.Proofs.CaloLink
import Verif.Proofs.Muon
import Verif.Proofs.Sums
/-! # The firmware PF meets the declarative specification -/
open Classical
open scoped BigOperators
namespace Verif
open Spec

variable {NT NC NE NM NS : Nat}

/-! ### Stages of the firmware -/

def fwMu (inp : PFInputs NT NC NE NM) (old : PFOutputs NT NE NS NM) :
    Arr NM PFChargedObj × Arr NT Bool :=
  spfph_mualgo inp.mu inp.track (spfph_mutrk_link inp.mu inp.track) old.outmu (fun _ => false)

def fwEmLink (inp : PFInputs NT NC NE NM) (old : PFOutputs NT NE NS NM) : Arr NT (Arr NE Bool) :=
  tk2em_link inp.emcalo inp.track (fwMu inp old).2

def fwSumEm (inp : PFInputs NT NC NE NM) (old : PFOutputs NT NE NS NM) : Arr NE Pt :=
  tk2em_sumtk inp.track (fwEmLink inp old)

def fwEle (inp : PFInputs NT NC NE NM) (old : PFOutputs NT NE NS NM) (em : Arr NE (Bool × Pt)) :
    Arr NT Bool :=
  tk2em_elealgo (fwEmLink inp old) (fun i => (em i).1)

def fwSub (inp : PFInputs NT NC NE NM) (em : Arr NE (Bool × Pt)) : Arr NC HadCaloObj :=
  let sk := em2calo_sumem inp.emcalo (fun i => (em i).1) (em2calo_link inp.emcalo inp.hadcalo)
  em2calo_sub inp.hadcalo (fun i => (sk i).1) (fun i => (sk i).2)

/-- What a successful run of `pfalgo3_full` went through. -/
theorem pfalgo3_full_ok_iff (inp : PFInputs NT NC NE NM) (old : PFOutputs NT NE NS NM)
    (mem : PFScratch NC NS) (out : PFOutputs NT NE NS NM) :
    pfalgo3_full inp old mem = .ok out ↔
      ∃ em link sums neall,
        tk2em_emalgo inp.emcalo (fwSumEm inp old) = .ok em ∧
        tk2calo_link_drdpt (fwSub inp em) inp.track = .ok link ∧
        tk2calo_sumtk inp.track (fwEle inp old em) (fwMu inp old).2 (tk2calo_tkerr2 inp.track) link
          = .ok sums ∧
        tk2calo_caloalgo (fwSub inp em) (fun i => (sums i).1) (fun i => (sums i).2) mem.outne_all
          = .ok neall ∧
        out = { outch := tk2calo_tkalgo inp.track (fwEle inp old em) (fwMu inp old).2 link,
                outpho := tk2em_photons inp.emcalo (fun i => (em i).2) old.outpho,
                outne := ptsort_hwopt mem.tmp neall,
                outmu := (fwMu inp old).1 } := by
  unfold pfalgo3_full
  simp only [Run.bind_eq_ok]
  constructor
  · rintro ⟨em, hem, link, hl, sums, hs, ne, hn, h⟩
    exact ⟨em, link, sums, ne, hem, hl, hs, hn, by injection h with h; exact h.symm⟩
  · rintro ⟨em, link, sums, ne, hem, hl, hs, hn, h⟩
    exact ⟨em, hem, link, hl, sums, hs, ne, hn, by rw [h]; rfl⟩

/-! ### Muons and EM linking -/

section
variable (inp : PFInputs NT NC NE NM) (old : PFOutputs NT NE NS NM)

theorem fwMu_link_iff (htk : ∀ t, 0 ≤ (inp.track t).hwPt.toInt) (m : Fin NM) (t : Fin NT) :
    (0 < (inp.mu m).hwPt.toInt ∧ spfph_mutrk_link inp.mu inp.track t m = true) ↔
      MuMatch inp m t := by
  unfold MuMatch
  constructor
  · rintro ⟨h, hl⟩
    exact ⟨h, (mutrk_link_iff inp.mu inp.track m h htk t).mp hl⟩
  · rintro ⟨h, hl⟩
    exact ⟨h, (mutrk_link_iff inp.mu inp.track m h htk t).mpr hl⟩

theorem fwMu_isMu (htk : ∀ t, 0 ≤ (inp.track t).hwPt.toInt) (t : Fin NT) :
    (fwMu inp old).2 t = true ↔ IsMu inp t := by
  have h := (mualgo_spec inp.mu inp.track (spfph_mutrk_link inp.mu inp.track) old.outmu
    (fun _ => false) (fun m i j => mutrk_link_unique inp.mu inp.track m i j)).2.2 t
  unfold fwMu IsMu
  rw [h]
  simp only [Bool.false_eq_true, false_or]
  exact exists_congr (fun m => fwMu_link_iff inp htk m t)

theorem fwMu_out (htk : ∀ t, 0 ≤ (inp.track t).hwPt.toInt) (m : Fin NM) :
    MuOut inp m ((fwMu inp old).1 m) := by
  have h := mualgo_spec inp.mu inp.track (spfph_mutrk_link inp.mu inp.track) old.outmu
    (fun _ => false) (fun m i j => mutrk_link_unique inp.mu inp.track m i j)
  constructor
  · intro t ht
    obtain ⟨h1, h2⟩ := (fwMu_link_iff inp htk m t).mpr ht
    exact h.1 m t h1 h2
  · intro hn
    refine h.2.1 m ?_
    by_cases hp : 0 < (inp.mu m).hwPt.toInt
    · refine Or.inr (fun t => ?_)
      by_contra hc
      exact hn ⟨t, (fwMu_link_iff inp htk m t).mp ⟨hp, by simpa using hc⟩⟩
    · exact Or.inl hp

theorem fwEmLink_iff (htk : ∀ t, 0 ≤ (inp.track t).hwPt.toInt) (t : Fin NT) (c : Fin NE) :
    fwEmLink inp old t c = true ↔ EmMatch inp t c := by
  unfold fwEmLink
  rw [tk2em_link_iff]
  unfold EmMatch
  refine and_congr ?_ Iff.rfl
  rw [← fwMu_isMu inp old htk t]
  simp

theorem fwSumEm_eq (htk : ∀ t, 0 ≤ (inp.track t).hwPt.toInt) (c : Fin NE) :
    fwSumEm inp old c = reg 16 (emTrackPt inp c) := by
  unfold fwSumEm tk2em_sumtk
  rw [loop_regsum (fun it => fwEmLink inp old it c) (fun it => (inp.track it).hwPt.toInt)]
  congr 1
  unfold emTrackPt
  refine Finset.sum_congr rfl (fun t _ => ?_)
  by_cases h : EmMatch inp t c
  · rw [if_pos h, if_pos ((fwEmLink_iff inp old htk t c).mpr h)]
  · rw [if_neg h, if_neg (fun h' => h ((fwEmLink_iff inp old htk t c).mp h'))]

theorem emTrackPt_nonneg (htk : ∀ t, 0 ≤ (inp.track t).hwPt.toInt) (c : Fin NE) :
    0 ≤ emTrackPt inp c := sum_ite_nonneg _ _ htk

end

/-- The EM decision of one cluster, on exact values. -/
theorem em_decision (pt sum err : Int) :
    let d := pt - sum
    let e := err * err
    (((d > 0 ∧ d * d ≤ e + e / 2) ∨ (d < 0 ∧ d * d < e * 4)) ∨ d > 0) ↔
      (0 < d ∨ (d < 0 ∧ d ^ 2 < 4 * err ^ 2)) := by
  intro d e
  have h1 : d ^ 2 = d * d := by ring
  have h2 : err ^ 2 = e := by show err ^ 2 = err * err; ring
  rw [h1, h2]
  constructor
  · rintro ((h | h) | h)
    · exact Or.inl h.1
    · exact Or.inr ⟨h.1, by omega⟩
    · exact Or.inl h
  · rintro (h | h)
    · exact Or.inr h
    · exact Or.inl (Or.inr ⟨h.1, by omega⟩)

theorem sq_gt_iff (d e : Int) : (d * d > e + e / 2) ↔ 3 * e < 2 * d ^ 2 := by
  have h1 : d ^ 2 = d * d := by ring
  rw [h1]; omega

section
variable {inp : PFInputs NT NC NE NM} {old : PFOutputs NT NE NS NM}

/-- The EM stage is defined and computes the specified decision and photon pt. -/
theorem fw_emalgo_of {v : Variant} (hv : Sane inp v) (hE : ∀ c, emTrackPt inp c ≠ 0 → 4 * emErr2 inp c ≤ 2147483647) :
    ∃ em, tk2em_emalgo inp.emcalo (fwSumEm inp old) = .ok em ∧
      ∀ c, ((em c).1 = true ↔ IsEM inp c) ∧ (em c).2.toInt = photonPt inp c := by
  have key : ∀ c, ∃ r : Bool × Pt,
      (if fwSumEm inp old c = 0 then (.ok (true, (inp.emcalo c).hwPt) : Run (Bool × Pt))
      else do
        let ptdiff : Pt := reg 16 ((inp.emcalo c).hwPt.toInt - (fwSumEm inp old c).toInt)
        let ptdiff2 : Int := ptdiff.toInt * ptdiff.toInt
        let sigma2 : Int := (inp.emcalo c).hwPtErr.toInt * (inp.emcalo c).hwPtErr.toInt
        let sigma2Lo ← cint (sigma2 * 4)
        let sigma2Hi ← cint (sigma2 + shr sigma2 1)
        .ok <|
          if (ptdiff.toInt > 0 ∧ ptdiff2 ≤ sigma2Hi) ∨ (ptdiff.toInt < 0 ∧ ptdiff2 < sigma2Lo) then
            (true, 0)
          else if ptdiff.toInt > 0 then (true, ptdiff)
          else (false, 0)) = .ok r ∧
      ((r.1 = true ↔ IsEM inp c) ∧ r.2.toInt = photonPt inp c) := by
    intro c
    have h0 := emTrackPt_nonneg inp hv.trackPt c
    have h1 := hv.emSum c
    have hs : (fwSumEm inp old c).toInt = emTrackPt inp c := by
      rw [fwSumEm_eq inp old hv.trackPt c, reg16_toInt (by omega) (by omega)]
    have hz : fwSumEm inp old c = 0 ↔ emTrackPt inp c = 0 := by
      constructor
      · intro h; rw [h] at hs; rw [← hs]; rfl
      · intro h; rw [fwSumEm_eq inp old hv.trackPt c, h]; rfl
    by_cases hzero : emTrackPt inp c = 0
    · refine ⟨_, if_pos (hz.mpr hzero), ?_, ?_⟩
      · simp [IsEM, hzero]
      · simp [photonPt, hzero]
    · rw [if_neg (fun h => hzero (hz.mp h))]
      have hpt := pt_range (inp.emcalo c).hwPt
      have hpt0 := hv.emPt c
      have hd : (reg 16 ((inp.emcalo c).hwPt.toInt - (fwSumEm inp old c).toInt)).toInt =
          emDiff inp c := by
        rw [hs, reg16_toInt (by omega) (by omega)]; rfl
      have herr := hE c hzero
      have he : (inp.emcalo c).hwPtErr.toInt * (inp.emcalo c).hwPtErr.toInt = emErr2 inp c := by
        unfold emErr2; ring
      have he0 : 0 ≤ emErr2 inp c := by rw [← he]; exact mul_self_nonneg _
      simp only [he, hd]
      rw [cint_ok (by omega) (by omega)]
      have hshr : shr (emErr2 inp c) 1 = emErr2 inp c / 2 := rfl
      rw [hshr]
      simp only [Run.ok_bind]
      rw [cint_ok (by omega) (by omega)]
      simp only [Run.ok_bind]
      refine ⟨_, rfl, ?_⟩
      have hsq : emDiff inp c ^ 2 = emDiff inp c * emDiff inp c := by ring
      unfold IsEM photonPt
      simp only [hzero, if_false, false_or, hsq]
      by_cases hc : (emDiff inp c > 0 ∧ emDiff inp c * emDiff inp c ≤ emErr2 inp c + emErr2 inp c / 2) ∨
          (emDiff inp c < 0 ∧ emDiff inp c * emDiff inp c < emErr2 inp c * 4)
      · rw [if_pos hc]
        refine ⟨?_, ?_⟩
        · simp only [true_iff]
          rcases hc with hc | hc
          · exact Or.inl hc.1
          · exact Or.inr ⟨hc.1, by omega⟩
        · rw [if_neg]
          · rfl
          · omega
      · rw [if_neg hc]
        by_cases hp : emDiff inp c > 0
        · rw [if_pos hp]
          refine ⟨by simp only [true_iff]; exact Or.inl hp, ?_⟩
          rw [if_pos (by omega)]
          exact hd
        · rw [if_neg hp]
          refine ⟨?_, ?_⟩
          · simp only [Bool.false_eq_true, false_iff]
            omega
          · rw [if_neg (by omega)]; rfl
  refine ⟨fun c => Classical.choose (key c), buildM_ok _ (fun c => (Classical.choose_spec (key c)).1),
    fun c => (Classical.choose_spec (key c)).2⟩

theorem fw_emalgo {v : Variant} (hv : Valid inp v) :
    ∃ em, tk2em_emalgo inp.emcalo (fwSumEm inp old) = .ok em ∧
      ∀ c, ((em c).1 = true ↔ IsEM inp c) ∧ (em c).2.toInt = photonPt inp c :=
  fw_emalgo_of hv.toSane hv.emErr

theorem fwEle_iff {v : Variant} (hv : Sane inp v) {em : Arr NE (Bool × Pt)}
    (hem : ∀ c, (em c).1 = true ↔ IsEM inp c) (t : Fin NT) :
    fwEle inp old em t = true ↔ IsEle inp t := by
  unfold fwEle tk2em_elealgo IsEle
  have h := loop_induct (n := NE) (fun k (s : Bool) => s = true ↔
      ∃ c : Fin NE, c.val < k ∧ EmMatch inp t c ∧ IsEM inp c)
    (fun icalo ele => if (em icalo).1 && fwEmLink inp old t icalo then true else ele) false
    (by simp)
    (by
      intro k s ih
      by_cases hk : EmMatch inp t k ∧ IsEM inp k
      · have : ((em k).1 && fwEmLink inp old t k) = true := by
          rw [Bool.and_eq_true]
          exact ⟨(hem k).mpr hk.2, (fwEmLink_iff inp old hv.trackPt t k).mpr hk.1⟩
        rw [if_pos this]
        simp only [true_iff]
        exact ⟨k, by omega, hk⟩
      · have : ¬ ((em k).1 && fwEmLink inp old t k) = true := by
          rw [Bool.and_eq_true]
          exact fun h => hk ⟨(fwEmLink_iff inp old hv.trackPt t k).mp h.2, (hem k).mp h.1⟩
        rw [if_neg this, ih]
        constructor
        · rintro ⟨c, hc, h⟩; exact ⟨c, by omega, h⟩
        · rintro ⟨c, hc, h⟩
          refine ⟨c, ?_, h⟩
          have : c.val ≠ k.val := fun e => hk (by rw [← Fin.ext e]; exact h)
          omega)
  rw [h]
  exact ⟨fun ⟨c, _, h⟩ => ⟨c, h⟩, fun ⟨c, h⟩ => ⟨c, c.isLt, h⟩⟩

theorem emSub_nonneg (hem : ∀ c, 0 ≤ (inp.emcalo c).hwPt.toInt) (h : Fin NC) :
    0 ≤ emSub inp h := sum_ite_nonneg _ _ hem

/-- `em2calo_sumem`: the sum is the specified one and `keep` is never set. -/
theorem fw_sumem {em : Arr NE (Bool × Pt)} (hem : ∀ c, (em c).1 = true ↔ IsEM inp c) (h : Fin NC) :
    em2calo_sumem inp.emcalo (fun i => (em i).1) (em2calo_link inp.emcalo inp.hadcalo) h =
      (reg 16 (emSub inp h), false) := by
  unfold em2calo_sumem
  have h1 := loop_regsum (w := 16)
    (fun e => em2calo_link inp.emcalo inp.hadcalo e h && (em e).1)
    (fun e => (inp.emcalo e).hwPt.toInt)
  have h2 : (∑ i, if (em2calo_link inp.emcalo inp.hadcalo i h && (em i).1) = true
      then (inp.emcalo i).hwPt.toInt else 0) = emSub inp h := by
    unfold emSub
    refine Finset.sum_congr rfl (fun e _ => ?_)
    have : (em2calo_link inp.emcalo inp.hadcalo e h && (em e).1) = true ↔
        HadMatch inp e h ∧ IsEM inp e := by
      rw [Bool.and_eq_true, hem e, em2calo_link_iff]
      exact Iff.rfl
    by_cases hc : HadMatch inp e h ∧ IsEM inp e
    · rw [if_pos hc, if_pos (this.mpr hc)]
    · rw [if_neg hc, if_neg (fun h => hc (this.mp h))]
  rw [h2] at h1
  rw [← h1]
  have h3 := loop_induct (n := NE)
    (fun _ (s : (Pt × Bool) × Pt) => s.1 = (s.2, false))
    (fun iem s =>
      ((if em2calo_link inp.emcalo inp.hadcalo iem h then
          if (em iem).1 then (reg 16 (s.1.1.toInt + (inp.emcalo iem).hwPt.toInt), s.1.2)
          else (s.1.1, false)
        else s.1),
       if em2calo_link inp.emcalo inp.hadcalo iem h && (em iem).1 then
          reg 16 (s.2.toInt + (inp.emcalo iem).hwPt.toInt) else s.2))
    (((0 : Pt), false), (0 : Pt)) rfl
    (by
      intro k s ih
      simp only [ih]
      cases em2calo_link inp.emcalo inp.hadcalo k h <;> cases (em k).1 <;> simp)
  have pair : ∀ {α β : Type} (n : Nat) (f : Fin n → α → α) (g : Fin n → β → β) (a : α) (b : β),
      loop (fun i (s : α × β) => (f i s.1, g i s.2)) (a, b) = (loop f a, loop g b) := by
    intro α β n f g a b
    induction n with
    | zero => simp [loop_zero]
    | succ n ih => rw [loop_succ, loop_succ, loop_succ, ih]
  rw [pair NE (fun iem (s : Pt × Bool) => if em2calo_link inp.emcalo inp.hadcalo iem h then
          if (em iem).1 then (reg 16 (s.1.toInt + (inp.emcalo iem).hwPt.toInt), s.2)
          else (s.1, false)
        else s) (fun iem (s : Pt) => if em2calo_link inp.emcalo inp.hadcalo iem h && (em iem).1 then
          reg 16 (s.toInt + (inp.emcalo iem).hwPt.toInt) else s)] at h3
  exact h3

/-- The subtracted clusters: pt is what is specified, position kept unless removed. -/
theorem fwSub_spec {v : Variant} (hv : Sane inp v) (hprot : v.protect = false)
    {em : Arr NE (Bool × Pt)} (hem : ∀ c, (em c).1 = true ↔ IsEM inp c) (h : Fin NC) :
    (fwSub inp em h).hwPt.toInt = hadPt inp v h ∧
    (hadPt inp v h ≠ 0 → (fwSub inp em h).hwEta = (inp.hadcalo h).hwEta ∧
      (fwSub inp em h).hwPhi = (inp.hadcalo h).hwPhi) := by
  unfold fwSub em2calo_sub
  simp only [fw_sumem hem]
  have h0 := emSub_nonneg hv.emPt h
  have h1 := hv.subSum h
  have hp0 := hv.hadPt h
  have he0 := hv.hadEmPt h
  have hp := pt_range (inp.hadcalo h).hwPt
  have he := pt_range (inp.hadcalo h).hwEmPt
  have hs : (reg 16 (emSub inp h)).toInt = emSub inp h := reg16_toInt (by omega) (by omega)
  rw [hs]
  have hd : (reg 16 ((inp.hadcalo h).hwPt.toInt - emSub inp h)).toInt =
      (inp.hadcalo h).hwPt.toInt - emSub inp h := reg16_toInt (by omega) (by omega)
  have hde : (reg 16 ((inp.hadcalo h).hwEmPt.toInt - emSub inp h)).toInt =
      (inp.hadcalo h).hwEmPt.toInt - emSub inp h := reg16_toInt (by omega) (by omega)
  have s4 : shr (inp.hadcalo h).hwPt.toInt 4 = (inp.hadcalo h).hwPt.toInt / 16 := rfl
  have s3 : shr (inp.hadcalo h).hwEmPt.toInt 3 = (inp.hadcalo h).hwEmPt.toInt / 8 := rfl
  have hrem : ((reg 16 ((inp.hadcalo h).hwPt.toInt - emSub inp h)).toInt ≤
      shr (inp.hadcalo h).hwPt.toInt 4 ∨ ((inp.hadcalo h).hwIsEM = true ∧
        (reg 16 ((inp.hadcalo h).hwEmPt.toInt - emSub inp h)).toInt ≤
          shr (inp.hadcalo h).hwEmPt.toInt 3 ∧ True)) ↔ Removed inp v h := by
    unfold Removed
    rw [hd, hde, s4, s3, hprot]
    refine or_congr (by omega) (and_congr Iff.rfl (and_congr (by omega) (by simp)))
  by_cases hr : Removed inp v h
  · rw [if_pos (hrem.mpr hr)]
    unfold hadPt
    rw [if_pos hr]
    exact ⟨rfl, fun h => absurd rfl h⟩
  · rw [if_neg (fun h => hr (hrem.mp h))]
    unfold hadPt
    rw [if_neg hr]
    exact ⟨hd, fun _ => ⟨rfl, rfl⟩⟩

theorem hadPt_range {v : Variant} (hv : Sane inp v) (h : Fin NC) :
    0 ≤ hadPt inp v h ∧ hadPt inp v h ≤ (inp.hadcalo h).hwPt.toInt := by
  have h0 := emSub_nonneg hv.emPt h
  have hp0 := hv.hadPt h
  unfold hadPt
  split
  · omega
  · rename_i hr
    unfold Removed at hr
    omega

/-- Track to calorimeter links. -/
theorem fw_calolink {v : Variant} (hv : Sane inp v) (hprot : v.protect = false)
    (hscale : v.scale = fwScale)
    {em : Arr NE (Bool × Pt)} (hem : ∀ c, (em c).1 = true ↔ IsEM inp c) :
    ∃ link, tk2calo_link_drdpt (fwSub inp em) inp.track = .ok link ∧
      ∀ t h, link t h = true ↔ CaloMatch inp v t h := by
  obtain ⟨link, hl, hspec⟩ := tk2calo_link_ok (fwSub inp em) inp.track hv.trackErr
  refine ⟨link, hl, fun t h => ?_⟩
  rw [hspec t (hv.trackPt t) (hv.window t) h]
  unfold CaloMatch
  have hpos : ∀ j, (fwSub inp em j).hwPt.toInt = hadPt inp v j := fun j => (fwSub_spec hv hprot hem j).1
  have hpp : ∀ j, max 0 ((inp.track t).hwPt.toInt - 2 * (inp.track t).hwPtErr.toInt) <
      hadPt inp v j → dist2 (inp.track t).hwEta (inp.track t).hwPhi (fwSub inp em j).hwEta
        (fwSub inp em j).hwPhi = tkHadDist2 inp t j := by
    intro j hj
    have hne : hadPt inp v j ≠ 0 := by
      have := le_max_left (0 : Int) ((inp.track t).hwPt.toInt - 2 * (inp.track t).hwPtErr.toInt)
      omega
    obtain ⟨e1, e2⟩ := (fwSub_spec hv hprot hem j).2 hne
    rw [e1, e2]; rfl
  apply firstMin_congr
  · intro j
    unfold Compatible
    rw [hpos j]
    refine and_congr_right (fun hj => ?_)
    rw [hpp j hj]
  · intro j hj
    unfold metric
    rw [hpos j] at hj ⊢
    rw [hpp j hj.1, hscale]

/-- Sums of the tracks linked to each calorimeter cluster. -/
theorem fw_calosum {v : Variant} (hv : Sane inp v) (hE : ∀ h, caloTrackErr2 inp v h ≤ 2147483647) {link : Arr NT (Arr NC Bool)}
    (hlink : ∀ t h, link t h = true ↔ CaloMatch inp v t h) {isEle isMu : Arr NT Bool}
    (hele : ∀ t, isEle t = true ↔ IsEle inp t) (hmu : ∀ t, isMu t = true ↔ IsMu inp t) :
    ∃ sums, tk2calo_sumtk inp.track isEle isMu (tk2calo_tkerr2 inp.track) link = .ok sums ∧
      ∀ h, (sums h).1.toInt = caloTrackPt inp v h ∧ (sums h).2 = caloTrackErr2 inp v h := by
  have key : ∀ h : Fin NC, loopM (fun it (s : Pt × Int) =>
        if !isEle it && link it h && !isMu it then do
          let sumerr ← cint (s.2 + tk2calo_tkerr2 inp.track it)
          .ok (reg 16 (s.1.toInt + (inp.track it).hwPt.toInt), sumerr)
        else .ok s) ((0 : Pt), (0 : Int)) =
      .ok (reg 16 (caloTrackPt inp v h), caloTrackErr2 inp v h) := by
    intro h
    have hc : ∀ t, (!isEle t && link t h && !isMu t) = true ↔ HadronLink inp v t h := by
      intro t
      unfold HadronLink
      rw [← hlink t h, ← hele t, ← hmu t]
      cases isEle t <;> cases link t h <;> cases isMu t <;> simp
    have hsq : ∀ t, tk2calo_tkerr2 inp.track t = (inp.track t).hwPtErr.toInt ^ 2 := by
      intro t; unfold tk2calo_tkerr2; ring
    have sumeq : ∀ f : Fin NT → Int, (∑ t, if (!isEle t && link t h && !isMu t) = true then f t else 0) =
        ∑ t, if HadronLink inp v t h then f t else 0 := by
      intro f
      refine Finset.sum_congr rfl (fun t _ => ?_)
      by_cases hh : HadronLink inp v t h
      · rw [if_pos hh, if_pos ((hc t).mpr hh)]
      · rw [if_neg hh, if_neg (fun h => hh ((hc t).mp h))]
    have hb := hE h
    have hT : (tk2calo_tkerr2 inp.track) = fun t => (inp.track t).hwPtErr.toInt ^ 2 := funext hsq
    rw [hT]
    rw [loopM_errsum (fun t => !isEle t && link t h && !isMu t) (fun t => (inp.track t).hwPt.toInt)
      (fun t => (inp.track t).hwPtErr.toInt ^ 2) (fun t => sq_nonneg _)
      (by rw [sumeq]; unfold caloTrackErr2 at hb; omega)]
    rw [sumeq, sumeq]
    rfl
  refine ⟨fun h => (reg 16 (caloTrackPt inp v h), caloTrackErr2 inp v h), buildM_ok _ key,
    fun h => ⟨?_, rfl⟩⟩
  have h0 : 0 ≤ caloTrackPt inp v h := sum_ite_nonneg _ _ hv.trackPt
  have h1 := hv.hadSum h
  exact reg16_toInt (by omega) (by omega)

theorem caloTrackPt_nonneg {v : Variant} (hv : Sane inp v) (h : Fin NC) :
    0 ≤ caloTrackPt inp v h := sum_ite_nonneg _ _ hv.trackPt

theorem caloTrackErr2_nonneg {v : Variant} (h : Fin NC) :
    0 ≤ caloTrackErr2 inp v h := sum_ite_nonneg _ _ (fun _ => sq_nonneg _)

/-- The neutral candidates before sorting. -/
theorem fw_caloalgo {v : Variant} (hv : Sane inp v)
    (hE : ∀ h, caloTrackPt inp v h ≠ 0 → 0 < caloDiff inp v h → 3 * caloTrackErr2 inp v h ≤ 4294967295) (calo : Arr NC HadCaloObj)
    (hpt : ∀ h, (calo h).hwPt.toInt = hadPt inp v h)
    (hpos : ∀ h, hadPt inp v h ≠ 0 → (calo h).hwEta = (inp.hadcalo h).hwEta ∧
      (calo h).hwPhi = (inp.hadcalo h).hwPhi)
    {sums : Arr NC (Pt × Int)}
    (hs : ∀ h, (sums h).1.toInt = caloTrackPt inp v h ∧ (sums h).2 = caloTrackErr2 inp v h)
    (mem : Arr NC PFNeutralObj) :
    ∃ ne, tk2calo_caloalgo calo (fun i => (sums i).1) (fun i => (sums i).2) mem = .ok ne ∧
      ∀ h, NeutralOut (neutralPt inp v h) (inp.hadcalo h).hwEta (inp.hadcalo h).hwPhi 1 (ne h) ∧
        (ne h).hwPtPuppi = (mem h).hwPtPuppi := by
  have key : ∀ h : Fin NC, ∃ p : Pt, p.toInt = neutralPt inp v h ∧
      tk2calo_calopt (calo h) (sums h).1 (sums h).2 = .ok p := by
    intro h
    unfold tk2calo_calopt
    obtain ⟨s1, s2⟩ := hs h
    have h0 := caloTrackPt_nonneg hv h
    have h1 := hv.hadSum h
    have e0 := caloTrackErr2_nonneg (inp := inp) (v := v) h
    have e1 := hE h
    have hr := hadPt_range hv h
    have hpr := pt_range (inp.hadcalo h).hwPt
    by_cases hz : caloTrackPt inp v h = 0
    · refine ⟨(calo h).hwPt, ?_, ?_⟩
      · rw [hpt h]; unfold neutralPt; rw [if_pos hz]
      · rw [if_pos]
        apply BitVec.eq_of_toInt_eq
        rw [s1, hz]; rfl
    · rw [if_neg (by intro hc; rw [hc] at s1; exact hz (by rw [← s1]; rfl))]
      have hd : (reg 16 ((calo h).hwPt.toInt - (sums h).1.toInt)).toInt = caloDiff inp v h := by
        rw [hpt h, s1, reg16_toInt (by omega) (by omega)]; rfl
      simp only [hd, s2]
      have hshr : shr (caloTrackErr2 inp v h) 1 = caloTrackErr2 inp v h / 2 := rfl
      rw [hshr]
      unfold neutralPt
      rw [if_neg hz]
      by_cases hp : caloDiff inp v h > 0
      · have e1 := e1 hz hp
        rw [if_pos hp, cint_ok (by omega) (by omega)]
        simp only [Run.ok_bind]
        refine ⟨_, ?_, rfl⟩
        by_cases hq : 3 * caloTrackErr2 inp v h < 2 * caloDiff inp v h ^ 2
        · rw [if_pos ((sq_gt_iff _ _).mpr hq), if_pos ⟨hp, hq⟩, hd]
        · rw [if_neg (fun h => hq ((sq_gt_iff _ _).mp h)), if_neg (fun h => hq h.2)]; rfl
      · rw [if_neg hp]
        refine ⟨_, ?_, rfl⟩
        rw [if_neg (fun h => hp h.1)]; rfl
  let p : Fin NC → Pt := fun h => Classical.choose (key h)
  have hp : ∀ h, (p h).toInt = neutralPt inp v h := fun h => (Classical.choose_spec (key h)).1
  have hp2 := fun h => (Classical.choose_spec (key h)).2
  let ne : Arr NC PFNeutralObj := fun h => { mem h with
      hwPt := p h,
      hwEta := if p h ≠ 0 then (calo h).hwEta else 0,
      hwPhi := if p h ≠ 0 then (calo h).hwPhi else 0,
      hwId := if p h ≠ 0 then PID_Neutral else 0 }
  refine ⟨ne, buildM_ok _ (fun h => ?_), fun h => ⟨⟨hp h, ?_, ?_⟩, rfl⟩⟩
  · have hb : ∀ {x : Run Pt} {q : Pt} {f : Pt → Run PFNeutralObj}, x = .ok q → (x >>= f) = f q := by
      intro x q f hx; rw [hx]; rfl
    exact hb (hp2 h)
  · intro hne
    have hpz : p h ≠ 0 := by
      intro hc; apply hne; rw [← hp h, hc]; rfl
    have hh : hadPt inp v h ≠ 0 := by
      intro hc
      apply hne
      have h0 := caloTrackPt_nonneg hv h
      unfold neutralPt caloDiff
      rw [hc]
      split
      · rfl
      · rw [if_neg]; omega
    obtain ⟨q1, q2⟩ := hpos h hh
    refine ⟨?_, ?_, ?_⟩
    · show (if p h ≠ 0 then (calo h).hwEta else 0) = _
      rw [if_pos hpz, q1]
    · show (if p h ≠ 0 then (calo h).hwPhi else 0) = _
      rw [if_pos hpz, q2]
    · show (if p h ≠ 0 then PID_Neutral else 0) = _
      rw [if_pos hpz]; rfl
  · intro hz
    have hpz : p h = 0 := by
      apply BitVec.eq_of_toInt_eq; rw [hp h, hz]; rfl
    refine ⟨?_, ?_, ?_⟩
    · show (if p h ≠ 0 then (calo h).hwEta else 0) = _
      rw [if_neg (by simpa using hpz)]
    · show (if p h ≠ 0 then (calo h).hwPhi else 0) = _
      rw [if_neg (by simpa using hpz)]
    · show (if p h ≠ 0 then PID_Neutral else 0) = _
      rw [if_neg (by simpa using hpz)]

theorem fw_tkalgo {v : Variant} {link : Arr NT (Arr NC Bool)}
    (hlink : ∀ t h, link t h = true ↔ CaloMatch inp v t h) {isEle isMu : Arr NT Bool}
    (hele : ∀ t, isEle t = true ↔ IsEle inp t) (hmu : ∀ t, isMu t = true ↔ IsMu inp t) (t : Fin NT) :
    tk2calo_tkalgo inp.track isEle isMu link t = chargedOut inp v t := by
  have c40 : (reg 16 PFALGO3_TK_MAXINVPT_LOOSE : Pt).toInt = 40 := by decide
  have c80 : (reg 16 PFALGO3_TK_MAXINVPT_TIGHT : Pt).toInt = 80 := by decide
  unfold tk2calo_tkalgo chargedOut
  simp only []
  have hgood : (isMu t || isEle t || decide ((inp.track t).hwPt.toInt <
      (if (inp.track t).hwTightQuality then (reg 16 PFALGO3_TK_MAXINVPT_TIGHT : Pt)
        else reg 16 PFALGO3_TK_MAXINVPT_LOOSE).toInt) ||
        (List.finRange NC).any (fun i => link t i)) = true ↔ Kept inp v t := by
    unfold Kept lowPt
    rw [Bool.or_eq_true, Bool.or_eq_true, Bool.or_eq_true, hmu t, hele t, decide_eq_true_eq]
    have e1 : ((if (inp.track t).hwTightQuality then (reg 16 PFALGO3_TK_MAXINVPT_TIGHT : Pt)
        else reg 16 PFALGO3_TK_MAXINVPT_LOOSE).toInt) =
        if (inp.track t).hwTightQuality then 80 else 40 := by
      split
      · exact c80
      · exact c40
    have e2 : (List.finRange NC).any (fun i => link t i) = true ↔ ∃ h, CaloMatch inp v t h := by
      rw [List.any_eq_true]
      constructor
      · rintro ⟨h, _, hh⟩; exact ⟨h, (hlink t h).mp hh⟩
      · rintro ⟨h, hh⟩; exact ⟨h, List.mem_finRange h, (hlink t h).mpr hh⟩
    rw [e1, e2, or_assoc, or_assoc]
  by_cases hk : Kept inp v t
  · rw [if_pos hk, if_pos (hgood.mpr hk)]
    have e : (if isEle t then PID_Electron else if isMu t then PID_Muon else PID_Charged) =
        (if IsEle inp t then (3 : ParticleId) else if IsMu inp t then 4 else 0) := by
      by_cases h1 : IsEle inp t
      · rw [if_pos h1, if_pos ((hele t).mpr h1)]; rfl
      · rw [if_neg h1, if_neg (fun h => h1 ((hele t).mp h))]
        by_cases h2 : IsMu inp t
        · rw [if_pos h2, if_pos ((hmu t).mpr h2)]; rfl
        · rw [if_neg h2, if_neg (fun h => h2 ((hmu t).mp h))]; rfl
    rw [e]
  · rw [if_neg hk, if_neg (fun h => hk (hgood.mp h))]

theorem fw_photons {em : Arr NE (Bool × Pt)} (hem : ∀ c, (em c).2.toInt = photonPt inp c)
    (oldpho : Arr NE PFNeutralObj) (c : Fin NE) :
    NeutralOut (photonPt inp c) (inp.emcalo c).hwEta (inp.emcalo c).hwPhi 2
      (tk2em_photons inp.emcalo (fun i => (em i).2) oldpho c) ∧
    (tk2em_photons inp.emcalo (fun i => (em i).2) oldpho c).hwPtPuppi = (oldpho c).hwPtPuppi := by
  unfold tk2em_photons
  refine ⟨⟨hem c, ?_, ?_⟩, rfl⟩
  · intro hne
    have hz : (em c).2 ≠ 0 := by intro hc; apply hne; rw [← hem c, hc]; rfl
    simp only [if_pos hz]
    exact ⟨trivial, trivial, rfl⟩
  · intro hz
    have hz : (em c).2 = 0 := by apply BitVec.eq_of_toInt_eq; rw [hem c, hz]; rfl
    simp [hz]

end

/-- The firmware on sane inputs whose squared errors fit: no fault, and every output is what the specification says. -/
theorem fw_meets_spec_of (inp : PFInputs NT NC NE NM) (old : PFOutputs NT NE NS NM)
    (mem : PFScratch NC NS) (hv : Sane inp fwVariant) (hE1 : ∀ c, emTrackPt inp c ≠ 0 → 4 * emErr2 inp c ≤ 2147483647)
    (hE2 : ∀ h, caloTrackErr2 inp fwVariant h ≤ 2147483647)
    (hE3 : ∀ h, caloTrackPt inp fwVariant h ≠ 0 → 0 < caloDiff inp fwVariant h → 3 * caloTrackErr2 inp fwVariant h ≤ 4294967295) :
    ∃ out ne, pfalgo3_full inp old mem = .ok out ∧
      (∀ t, out.outch t = chargedOut inp fwVariant t) ∧
      (∀ c, NeutralOut (photonPt inp c) (inp.emcalo c).hwEta (inp.emcalo c).hwPhi 2 (out.outpho c) ∧
        (out.outpho c).hwPtPuppi = (old.outpho c).hwPtPuppi) ∧
      (∀ m, MuOut inp m (out.outmu m)) ∧
      (∀ h, NeutralOut (neutralPt inp fwVariant h) (inp.hadcalo h).hwEta (inp.hadcalo h).hwPhi 1 (ne h) ∧
        (ne h).hwPtPuppi = (mem.outne_all h).hwPtPuppi) ∧
      out.outne = ptsort_hwopt mem.tmp ne := by
  obtain ⟨em, hem, hemspec⟩ := fw_emalgo_of (old := old) hv hE1
  have hIsEM : ∀ c, (em c).1 = true ↔ IsEM inp c := fun c => (hemspec c).1
  obtain ⟨link, hlink, hlinkspec⟩ := fw_calolink hv rfl rfl hIsEM
  have hele := fwEle_iff (old := old) hv hIsEM
  have hmu := fwMu_isMu inp old hv.trackPt
  obtain ⟨sums, hsums, hsumspec⟩ := fw_calosum hv hE2 hlinkspec hele hmu
  obtain ⟨ne, hne, hnespec⟩ := fw_caloalgo hv hE3 (fwSub inp em) (fun h => (fwSub_spec hv rfl hIsEM h).1)
    (fun h => (fwSub_spec hv rfl hIsEM h).2) hsumspec mem.outne_all
  refine ⟨_, ne, (pfalgo3_full_ok_iff inp old mem _).mpr ⟨em, link, sums, ne, hem, hlink, hsums, hne, rfl⟩,
    ?_, ?_, ?_, hnespec, rfl⟩
  · exact fun t => fw_tkalgo hlinkspec hele hmu t
  · exact fun c => fw_photons (fun c => (hemspec c).2) old.outpho c
  · exact fun m => fwMu_out inp old hv.trackPt m

/-- The firmware on valid inputs. -/
theorem fw_meets_spec (inp : PFInputs NT NC NE NM) (old : PFOutputs NT NE NS NM)
    (mem : PFScratch NC NS) (hv : Valid inp fwVariant) :
    ∃ out ne, pfalgo3_full inp old mem = .ok out ∧
      (∀ t, out.outch t = chargedOut inp fwVariant t) ∧
      (∀ c, NeutralOut (photonPt inp c) (inp.emcalo c).hwEta (inp.emcalo c).hwPhi 2 (out.outpho c) ∧
        (out.outpho c).hwPtPuppi = (old.outpho c).hwPtPuppi) ∧
      (∀ m, MuOut inp m (out.outmu m)) ∧
      (∀ h, NeutralOut (neutralPt inp fwVariant h) (inp.hadcalo h).hwEta (inp.hadcalo h).hwPhi 1 (ne h) ∧
        (ne h).hwPtPuppi = (mem.outne_all h).hwPtPuppi) ∧
      out.outne = ptsort_hwopt mem.tmp ne :=
  fw_meets_spec_of inp old mem hv.toSane hv.emErr
    (fun h => by have := hv.hadErr h; have := caloTrackErr2_nonneg (inp := inp) (v := fwVariant) h; omega)
    (fun h _ _ => by have := hv.hadErr h; omega)

end Verif
