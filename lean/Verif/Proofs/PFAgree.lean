import Verif.Proofs.PFFacts
/-! # Firmware and reference PF agree where the two variants coincide -/
open scoped BigOperators
namespace Verif
open Spec Classical
variable {NT NC NE NM NS : Nat} {inp : PFInputs NT NC NE NM}

theorem fwScale_eq_refScale {e : Int} (h : 2 ≤ e) : fwScale e = refScale e := by
  have h4 : 4 ≤ e ^ 2 := by nlinarith
  unfold fwScale
  split
  · apply min_eq_right
    unfold refScale
    rw [max_eq_right (by omega)]
    apply Int.ediv_le_of_le_mul (by omega)
    nlinarith
  · rename_i h5
    unfold refScale
    have : 262144 ≤ e ^ 2 := by nlinarith
    rw [max_eq_right (by omega)]
    symm
    exact Int.ediv_eq_zero_of_lt (by decide) (by omega)

theorem removed_iff (hc : VariantsCoincide inp) (h : Fin NC) :
    Removed inp fwVariant h ↔ Removed inp refVariant h := by
  unfold Removed
  constructor
  · rintro (h1 | ⟨h1, h2, _⟩)
    · exact Or.inl h1
    · by_cases hh : HasHadronicEM inp h
      · rcases hc.keep h hh h1 with h3 | h3
        · exact Or.inl h3
        · omega
      · exact Or.inr ⟨h1, h2, fun hx => hh hx.2⟩
  · rintro (h1 | ⟨h1, h2, _⟩)
    · exact Or.inl h1
    · exact Or.inr ⟨h1, h2, fun hx => by cases hx.1⟩

theorem hadPt_eq (hc : VariantsCoincide inp) (h : Fin NC) :
    hadPt inp fwVariant h = hadPt inp refVariant h := by
  unfold hadPt
  by_cases hr : Removed inp fwVariant h
  · rw [if_pos hr, if_pos ((removed_iff hc h).mp hr)]
  · rw [if_neg hr, if_neg (fun hh => hr ((removed_iff hc h).mpr hh))]

theorem compatible_iff (hc : VariantsCoincide inp) (t : Fin NT) (h : Fin NC) :
    Compatible inp fwVariant t h ↔ Compatible inp refVariant t h := by
  unfold Compatible; rw [hadPt_eq hc h]

theorem metric_eq_of_no_deficit (hc : VariantsCoincide inp) (t : Fin NT) (h : Fin NC)
    (hd : (inp.track t).hwPt.toInt ≤ hadPt inp fwVariant h) :
    metric inp fwVariant t h = metric inp refVariant t h := by
  unfold metric
  rw [← hadPt_eq hc h, max_eq_left (by omega)]
  simp

theorem firstMin_of_unique {n : Nat} {P : Fin n → Prop} {f g : Fin n → Int} (i : Fin n)
    (hu : ∀ a b, P a → P b → a = b) : FirstMin P f i ↔ FirstMin P g i := by
  have key : ∀ f' : Fin n → Int, FirstMin P f' i ↔ P i := by
    intro f'
    refine ⟨fun h => h.1, fun h => ⟨h, fun j hj => ?_⟩⟩
    rw [hu j i hj h]
    exact ⟨le_refl _, fun hlt => absurd hlt (lt_irrefl _)⟩
  rw [key f, key g]

theorem caloMatch_iff (hc : VariantsCoincide inp) (herr : ∀ t, 0 ≤ (inp.track t).hwPtErr.toInt)
    (t : Fin NT) (h : Fin NC) : CaloMatch inp fwVariant t h ↔ CaloMatch inp refVariant t h := by
  unfold CaloMatch
  have e0 := herr t
  have hmet : (∀ j, Compatible inp fwVariant t j →
      metric inp fwVariant t j = metric inp refVariant t j) →
      (FirstMin (Compatible inp fwVariant t) (metric inp fwVariant t) h ↔
        FirstMin (Compatible inp refVariant t) (metric inp refVariant t) h) := fun hm =>
    firstMin_congr h (fun j => compatible_iff hc t j) hm
  rcases lt_or_ge (inp.track t).hwPtErr.toInt 2 with h2 | h2
  · rcases lt_or_ge (inp.track t).hwPtErr.toInt 1 with h1 | h1
    · have hz : (inp.track t).hwPtErr.toInt = 0 := by omega
      apply hmet
      intro j hj
      apply metric_eq_of_no_deficit hc
      have := lt_of_le_of_lt (le_max_right _ _) hj.1
      rw [hz] at this
      omega
    · have hone : (inp.track t).hwPtErr.toInt = 1 := by omega
      rcases hc.scale t hone with hs | hs
      · exact hmet (fun j hj => metric_eq_of_no_deficit hc t j (hs j hj))
      · have e : Compatible inp fwVariant t = Compatible inp refVariant t := by
          funext j; exact propext (compatible_iff hc t j)
        rw [← e]
        exact firstMin_of_unique h hs
  · apply hmet
    intro j _
    unfold metric
    rw [hadPt_eq hc j]
    show _ + _ * fwScale _ / 256 = _ + _ * refScale _ / 256
    rw [fwScale_eq_refScale h2]

theorem hadronLink_iff (hc : VariantsCoincide inp) (herr : ∀ t, 0 ≤ (inp.track t).hwPtErr.toInt)
    (t : Fin NT) (h : Fin NC) : HadronLink inp fwVariant t h ↔ HadronLink inp refVariant t h := by
  unfold HadronLink; rw [caloMatch_iff hc herr]

theorem caloSums_eq (hc : VariantsCoincide inp) (herr : ∀ t, 0 ≤ (inp.track t).hwPtErr.toInt)
    (h : Fin NC) : caloTrackPt inp fwVariant h = caloTrackPt inp refVariant h ∧
      caloTrackErr2 inp fwVariant h = caloTrackErr2 inp refVariant h := by
  unfold caloTrackPt caloTrackErr2
  constructor <;>
  · refine Finset.sum_congr rfl (fun t _ => ?_)
    have := hadronLink_iff hc herr t h
    by_cases hl : HadronLink inp fwVariant t h
    · rw [if_pos hl, if_pos (this.mp hl)]
    · rw [if_neg hl, if_neg (fun hh => hl (this.mpr hh))]

theorem neutralPt_eq (hc : VariantsCoincide inp) (herr : ∀ t, 0 ≤ (inp.track t).hwPtErr.toInt)
    (h : Fin NC) : neutralPt inp fwVariant h = neutralPt inp refVariant h := by
  unfold neutralPt caloDiff
  rw [(caloSums_eq hc herr h).1, (caloSums_eq hc herr h).2, hadPt_eq hc h]

theorem chargedOut_eq (hc : VariantsCoincide inp) (herr : ∀ t, 0 ≤ (inp.track t).hwPtErr.toInt)
    (t : Fin NT) : chargedOut inp fwVariant t = chargedOut inp refVariant t := by
  have hk : Kept inp fwVariant t ↔ Kept inp refVariant t := by
    unfold Kept
    have : (∃ h, CaloMatch inp fwVariant t h) ↔ ∃ h, CaloMatch inp refVariant t h :=
      exists_congr (fun h => caloMatch_iff hc herr t h)
    rw [this]
  unfold chargedOut
  by_cases h : Kept inp fwVariant t
  · rw [if_pos h, if_pos (hk.mp h)]
  · rw [if_neg h, if_neg (fun hh => h (hk.mpr hh))]

theorem valid_transfer (hc : VariantsCoincide inp) (hv : Valid inp fwVariant) :
    Valid inp refVariant where
  trackPt := hv.trackPt
  trackErr := hv.trackErr
  window := hv.window
  emPt := hv.emPt
  hadPt := hv.hadPt
  hadEmPt := hv.hadEmPt
  emSum := hv.emSum
  emErr := hv.emErr
  subSum := hv.subSum
  hadSum := fun h => by rw [← (caloSums_eq hc hv.trackErr h).1]; exact hv.hadSum h
  hadErr := fun h => by rw [← (caloSums_eq hc hv.trackErr h).2]; exact hv.hadErr h

/-- Same pt, and same position and id unless null. -/
def SameNeutral (a b : PFNeutralObj) : Prop :=
  a.hwPt = b.hwPt ∧ (a.hwPt ≠ 0 → a.hwEta = b.hwEta ∧ a.hwPhi = b.hwPhi ∧ a.hwId = b.hwId)

theorem pf_equals_ne_iff (a b : PFNeutralObj) : pf_equals_ne a b = true ↔ SameNeutral a b := by
  unfold pf_equals_ne SameNeutral
  by_cases h : a.hwPt = 0
  · simp only [h, if_true, decide_eq_true_eq, ne_eq, not_true_eq_false, false_implies, and_true]
    exact eq_comm
  · rw [if_neg h]
    simp only [Bool.and_eq_true, decide_eq_true_eq, and_assoc]
    exact ⟨fun hh => ⟨hh.1, fun _ => hh.2⟩, fun hh => ⟨hh.1, hh.2 h⟩⟩

theorem neutralOut_same {pt : Int} {eta phi : EtaPhi} {id : ParticleId} {a b : PFNeutralObj}
    (ha : NeutralOut pt eta phi id a) (hb : NeutralOut pt eta phi id b) : SameNeutral a b := by
  have hpt : a.hwPt = b.hwPt := BitVec.eq_of_toInt_eq (by rw [ha.1, hb.1])
  refine ⟨hpt, fun hn => ?_⟩
  have hne : pt ≠ 0 := by
    intro h
    apply hn
    apply BitVec.eq_of_toInt_eq
    rw [ha.1, h]; rfl
  have h1 := ha.2.1 hne
  have h2 := hb.2.1 hne
  exact ⟨h1.1.trans h2.1.symm, h1.2.1.trans h2.2.1.symm, h1.2.2.trans h2.2.2.symm⟩

theorem pf_equals_ch_of_eq {a b : PFChargedObj} (h : a = b) : pf_equals_ch a b = true := by
  subst h
  unfold pf_equals_ch
  split
  · rename_i h; simp [h]
  · simp

theorem muOut_unique {m : Fin NM} {a b : PFChargedObj} (ha : MuOut inp m a) (hb : MuOut inp m b) :
    a = b := by
  by_cases h : ∃ t, MuMatch inp m t
  · obtain ⟨t, ht⟩ := h
    rw [ha.1 t ht, hb.1 t ht]
  · rw [ha.2 h, hb.2 h]

/-- The agreement theorem. -/
theorem fw_ref_agree (inp : PFInputs NT NC NE NM) (old old' : PFOutputs NT NE NS NM)
    (mem : PFScratch NC NS) (mem' : Arr NC PFNeutralObj) (hv : Valid inp fwVariant)
    (hempty : ∀ t, (inp.track t).hwPt.toInt = 0 → (inp.track t).hwPtErr.toInt = 0)
    (hc : VariantsCoincide inp) :
    ∃ out out', pfalgo3_full inp old mem = .ok out ∧ pfalgo3_full_ref inp old' mem' = .ok out' ∧
      (∀ t, pf_equals_ch (out'.outch t) (out.outch t) = true) ∧
      (∀ c, pf_equals_ne (out'.outpho c) (out.outpho c) = true) ∧
      (∀ i, pf_equals_ne (out'.outne i) (out.outne i) = true) ∧
      (∀ m, pf_equals_ch (out'.outmu m) (out.outmu m) = true) := by
  obtain ⟨out, ne, h1, hch, hpho, hmu, hne, hsort⟩ := fw_meets_spec inp old mem hv
  obtain ⟨out', ne', h1', hch', hch0', hpho', hmu', hne', hsort'⟩ :=
    ref_meets_spec inp old' mem' (valid_transfer hc hv) hempty
  refine ⟨out, out', h1, h1', fun t => ?_, fun c => ?_, fun i => ?_, fun m => ?_⟩
  · rcases eq_or_lt_of_le (hv.trackPt t) with hz | hp
    · unfold pf_equals_ch
      rw [if_pos (hch0' t hz.symm), hch t]
      have : (chargedOut inp fwVariant t).hwPt = 0 := by
        unfold chargedOut
        split
        · apply BitVec.eq_of_toInt_eq; rw [← hz]; rfl
        · rfl
      simp [this]
    · apply pf_equals_ch_of_eq
      rw [hch' t hp, hch t, chargedOut_eq hc hv.trackErr t]
  · rw [pf_equals_ne_iff]
    exact neutralOut_same (hpho' c) (hpho c).1
  · rw [pf_equals_ne_iff, hsort, hsort', ← ptsort_eq]
    refine hwopt_rel (R := SameNeutral) (fun a b h => ?_) (fun i => ?_) (fun h => ?_) i
    · show a.hwPt.toInt = b.hwPt.toInt
      rw [h.1]
    · exact ⟨rfl, fun h => absurd rfl h⟩
    · refine neutralOut_same (hne' h) ?_
      rw [← neutralPt_eq hc hv.trackErr h]
      exact (hne h).1
  · exact pf_equals_ch_of_eq (muOut_unique (hmu' m) (hmu m))

end Verif
