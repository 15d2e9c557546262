import Verif.Spec.PFPart
import Mathlib.Algebra.BigOperators.Group.Finset.Basic
import Mathlib.Tactic.Linarith
import Mathlib.Algebra.Order.BigOperators.Group.Finset
/-! # Particle flow on a part of an event -/
open Classical
open scoped BigOperators
namespace Verif.Spec
variable {NT NC NE NM nt nc ne nm : Nat}

theorem firstMin_part {n k : Nat} {f : Fin k → Fin n} (hi : Function.Injective f) {P : Fin n → Prop} {Q : Fin k → Prop}
    (hPQ : ∀ a, P (f a) ↔ Q a) (hr : ∀ i, P i → Has f i) {F : Fin n → Int} {G : Fin k → Int} (hF : ∀ a, F (f a) = G a)
    (ho : KeepsTies f Q G) (a : Fin k) : FirstMin P F (f a) ↔ FirstMin Q G a := by
  unfold FirstMin
  rw [hPQ]
  refine and_congr_right fun ha => ⟨fun h b hb => ?_, fun h i hp => ?_⟩
  · obtain ⟨h1, h2⟩ := h (f b) ((hPQ b).mpr hb)
    rw [hF, hF] at h1 h2
    refine ⟨h1, fun hba => lt_of_le_of_ne h1 fun he => ?_⟩
    have h3 : f b ≤ f a := ho b a hba hb ha he.symm
    have h4 : f b ≠ f a := fun h => (ne_of_lt hba) (hi h)
    exact absurd (h2 (lt_of_le_of_ne h3 h4)) (by omega)
  · obtain ⟨b, rfl⟩ := hr i hp
    have hb := (hPQ b).mp hp
    obtain ⟨h1, h2⟩ := h b hb
    rw [hF, hF]
    refine ⟨h1, fun hba => lt_of_le_of_ne h1 fun he => ?_⟩
    rcases lt_trichotomy a b with hab | hab | hab
    · exact absurd (ho a b hab ha hb he) (not_le.mpr hba)
    · subst hab; exact absurd hba (lt_irrefl _)
    · exact absurd (h2 hab) (by omega)

theorem sum_part {n k : Nat} {f : Fin k → Fin n} (hi : Function.Injective f) {g : Fin n → Int} {g' : Fin k → Int}
    (hg : ∀ a, g (f a) = g' a) (h0 : ∀ i, ¬ Has f i → g i = 0) : ∑ i, g i = ∑ a, g' a := by
  refine (Finset.sum_of_injOn f hi.injOn (fun _ _ => Finset.mem_coe.mpr (Finset.mem_univ _)) (fun i _ h => h0 i ?_) (fun a _ => (hg a).symm)).symm
  rintro ⟨a, rfl⟩
  exact h ⟨a, by simp, rfl⟩

section
variable {v : Variant} {inp : PFInputs NT NC NE NM} {p : PFInputs nt nc ne nm}
  {ft : Fin nt → Fin NT} {fh : Fin nc → Fin NC} {fe : Fin ne → Fin NE} {fm : Fin nm → Fin NM}
  (hp : Part v inp p ft fh fe fm) (ho : Ordered v p ft fh fe)
  (hem : ∀ c, 0 ≤ (inp.emcalo c).hwPt.toInt) (hhp : ∀ h, 0 ≤ (inp.hadcalo h).hwPt.toInt)
include hp

theorem muDist2_part (m : Fin nm) (t : Fin nt) : muDist2 inp (fm m) (ft t) = muDist2 p m t := by
  unfold muDist2; rw [hp.mu, hp.track]
theorem muDpt_part (m : Fin nm) (t : Fin nt) : muDpt inp (fm m) (ft t) = muDpt p m t := by
  unfold muDpt; rw [hp.mu, hp.track]
theorem tkEmDist2_part (t : Fin nt) (c : Fin ne) : tkEmDist2 inp (ft t) (fe c) = tkEmDist2 p t c := by
  unfold tkEmDist2; rw [hp.track, hp.em]
theorem emHadDist2_part (e : Fin ne) (h : Fin nc) : emHadDist2 inp (fe e) (fh h) = emHadDist2 p e h := by
  unfold emHadDist2; rw [hp.em, hp.had]
theorem tkHadDist2_part (t : Fin nt) (h : Fin nc) : tkHadDist2 inp (ft t) (fh h) = tkHadDist2 p t h := by
  unfold tkHadDist2; rw [hp.track, hp.had]

include ho in
theorem muMatch_part (m : Fin nm) (t : Fin nt) : MuMatch inp (fm m) (ft t) ↔ MuMatch p m t := by
  unfold MuMatch
  rw [hp.mu]
  refine and_congr_right fun hpos => firstMin_part hp.injT (fun a => ?_) (fun i hi => ?_) (muDpt_part hp m) (ho.mu m) t
  · rw [muDist2_part hp, muDpt_part hp]
  · rcases hp.muTk m i hi.1 with h | h
    · exact h
    · have h2 := hi.2
      unfold muDpt at h2
      rw [h, hp.mu] at h2
      omega

theorem muMatch_has (m : Fin nm) (t : Fin NT) (h : MuMatch inp (fm m) t) : Has ft t := by
  obtain ⟨h0, ⟨h1, h2⟩, _⟩ := h
  rcases hp.muTk m t h1 with h | h
  · exact h
  · unfold muDpt at h2
    rw [h] at h2
    omega

theorem muMatch_of (m : Fin NM) (t : Fin nt) (h : MuMatch inp m (ft t)) : Has fm m := by
  obtain ⟨h0, ⟨h1, h2⟩, _⟩ := h
  rcases hp.tkMu m t h1 with h | h
  · exact h
  · omega

include ho in
theorem isMu_part (t : Fin nt) : IsMu inp (ft t) ↔ IsMu p t := by
  constructor
  · rintro ⟨m, hm⟩
    obtain ⟨m, rfl⟩ := muMatch_of hp m t hm
    exact ⟨m, (muMatch_part hp ho m t).mp hm⟩
  · rintro ⟨m, hm⟩
    exact ⟨fm m, (muMatch_part hp ho m t).mpr hm⟩

include ho in
theorem emMatch_part (t : Fin nt) (c : Fin ne) : EmMatch inp (ft t) (fe c) ↔ EmMatch p t c := by
  unfold EmMatch
  rw [isMu_part hp ho]
  exact and_congr_right fun _ => firstMin_part hp.injE (fun a => by rw [tkEmDist2_part hp]) (fun i hi => hp.tkEm t i hi)
    (tkEmDist2_part hp t) (ho.em t) c

include ho in
theorem emTrackPt_part (c : Fin ne) : emTrackPt inp (fe c) = emTrackPt p c := by
  refine sum_part hp.injT (fun t => ?_) (fun t ht => ?_)
  · simp only [emMatch_part hp ho, hp.track]
  · split
    · rename_i h
      rcases hp.emTk t c h.2.1 with h | h
      · exact absurd h ht
      · exact h
    · rfl

include ho in
theorem emDiff_part (c : Fin ne) : emDiff inp (fe c) = emDiff p c := by
  unfold emDiff; rw [hp.em, emTrackPt_part hp ho]
theorem emErr2_part (c : Fin ne) : emErr2 inp (fe c) = emErr2 p c := by
  unfold emErr2; rw [hp.em]
include ho in
theorem isEM_part (c : Fin ne) : IsEM inp (fe c) ↔ IsEM p c := by
  unfold IsEM; rw [emTrackPt_part hp ho, emDiff_part hp ho, emErr2_part hp]
include ho in
theorem photonPt_part (c : Fin ne) : photonPt inp (fe c) = photonPt p c := by
  unfold photonPt; rw [hp.em, emTrackPt_part hp ho, emDiff_part hp ho, emErr2_part hp]

include ho in
theorem isEle_part (t : Fin nt) : IsEle inp (ft t) ↔ IsEle p t := by
  constructor
  · rintro ⟨c, h1, h2⟩
    obtain ⟨c, rfl⟩ := hp.tkEm t c h1.2.1
    exact ⟨c, (emMatch_part hp ho t c).mp h1, (isEM_part hp ho c).mp h2⟩
  · rintro ⟨c, h1, h2⟩
    exact ⟨fe c, (emMatch_part hp ho t c).mpr h1, (isEM_part hp ho c).mpr h2⟩

include ho hem in
theorem hadMatch_part (e : Fin ne) (h : Fin nc) : HadMatch inp (fe e) (fh h) ↔ HadMatch p e h := by
  unfold HadMatch
  refine firstMin_part hp.injH (fun a => ?_) (fun i hi => ?_) (emHadDist2_part hp e) (ho.had e) h
  · rw [hp.em, hp.had, emHadDist2_part hp]
  · rcases hp.emHad e i hi.2 with h | h
    · exact h
    · have := hi.1
      have := hem (fe e)
      omega

include ho hem in
theorem emSub_part (h : Fin nc) : emSub inp (fh h) = emSub p h := by
  refine sum_part hp.injE (fun e => ?_) (fun e he => ?_)
  · simp only [hadMatch_part hp ho hem, isEM_part hp ho, hp.em]
  · split
    · rename_i h'
      rcases hp.hadEm e h h'.1.1.2 with h | h
      · exact absurd h he
      · exact h.2
    · rfl

include ho hem in
theorem removed_part (h : Fin nc) : Removed inp v (fh h) ↔ Removed p v h := by
  unfold Removed
  rw [hp.had, emSub_part hp ho hem]
  have : (v.protect = true ∧ HasHadronicEM inp (fh h)) ↔ (v.protect = true ∧ HasHadronicEM p h) := by
    refine and_congr_right fun hv => ⟨?_, ?_⟩
    · rintro ⟨e, h1, h2⟩
      rcases hp.hadEm e h h1.1.2 with h' | h'
      · obtain ⟨e, rfl⟩ := h'
        exact ⟨e, (hadMatch_part hp ho hem e h).mp h1, fun h3 => h2 ((isEM_part hp ho e).mpr h3)⟩
      · rw [hv] at h'; exact absurd h'.1 (by decide)
    · rintro ⟨e, h1, h2⟩
      exact ⟨fe e, (hadMatch_part hp ho hem e h).mpr h1, fun h3 => h2 ((isEM_part hp ho e).mp h3)⟩
  rw [this]

include ho hem in
theorem hadPt_part (h : Fin nc) : hadPt inp v (fh h) = hadPt p v h := by
  unfold hadPt
  simp only [removed_part hp ho hem, hp.had, emSub_part hp ho hem]

omit hp in
include hem in
theorem hadPt_le (h : Fin NC) : hadPt inp v h ≤ max 0 (inp.hadcalo h).hwPt.toInt := by
  have h0 : 0 ≤ emSub inp h := Finset.sum_nonneg fun e _ => by split <;> simp [hem]
  unfold hadPt
  split <;> omega

include ho hem in
theorem compatible_part (t : Fin nt) (h : Fin nc) : Compatible inp v (ft t) (fh h) ↔ Compatible p v t h := by
  unfold Compatible
  rw [hp.track, hadPt_part hp ho hem, tkHadDist2_part hp]

include hem in
theorem compatible_has (t : Fin nt) (h : Fin NC) (hc : Compatible inp v (ft t) h) : Has fh h := by
  rcases hp.tkHad t h hc.2 with h' | h'
  · exact h'
  · have h1 := hc.1
    have h2 := hadPt_le (v := v) hem h
    rw [h'] at h2
    omega

include ho hem in
theorem metric_part (t : Fin nt) (h : Fin nc) : metric inp v (ft t) (fh h) = metric p v t h := by
  unfold metric
  rw [hp.track, hadPt_part hp ho hem, tkHadDist2_part hp]

include ho hem in
theorem caloMatch_part (t : Fin nt) (h : Fin nc) : CaloMatch inp v (ft t) (fh h) ↔ CaloMatch p v t h :=
  firstMin_part hp.injH (compatible_part hp ho hem t) (compatible_has hp hem t) (metric_part hp ho hem t) (ho.calo t) h

include ho hem in
theorem hadronLink_part (t : Fin nt) (h : Fin nc) : HadronLink inp v (ft t) (fh h) ↔ HadronLink p v t h := by
  unfold HadronLink
  rw [caloMatch_part hp ho hem, isEle_part hp ho, isMu_part hp ho]

include ho hem in
theorem caloTrackPt_part (h : Fin nc) : caloTrackPt inp v (fh h) = caloTrackPt p v h := by
  refine sum_part hp.injT (fun t => ?_) (fun t ht => ?_)
  · simp only [hadronLink_part hp ho hem, hp.track]
  · split
    · rename_i h'
      rcases hp.hadTk t h h'.1.1.2 with h | h
      · exact absurd h ht
      · exact h.1
    · rfl

include ho hem in
theorem caloTrackErr2_part (h : Fin nc) : caloTrackErr2 inp v (fh h) = caloTrackErr2 p v h := by
  refine sum_part hp.injT (fun t => ?_) (fun t ht => ?_)
  · simp only [hadronLink_part hp ho hem, hp.track]
  · split
    · rename_i h'
      rcases hp.hadTk t h h'.1.1.2 with h | h
      · exact absurd h ht
      · rw [h.2]; rfl
    · rfl

include ho hem in
theorem neutralPt_part (h : Fin nc) : neutralPt inp v (fh h) = neutralPt p v h := by
  unfold neutralPt caloDiff
  rw [caloTrackPt_part hp ho hem, caloTrackErr2_part hp ho hem, hadPt_part hp ho hem]

include ho hem in
theorem neutralSeen_part (h : Fin nc) : neutralSeen inp v (fh h) = neutralSeen p v h := by
  unfold neutralSeen
  rw [neutralPt_part hp ho hem, hp.had]

include ho hem in
theorem kept_part (t : Fin nt) : Kept inp v (ft t) ↔ Kept p v t := by
  unfold Kept lowPt
  rw [isMu_part hp ho, isEle_part hp ho, hp.track]
  have : (∃ h, CaloMatch inp v (ft t) h) ↔ ∃ h, CaloMatch p v t h := by
    constructor
    · rintro ⟨h, hc⟩
      obtain ⟨h, rfl⟩ := compatible_has hp hem t h hc.1
      exact ⟨h, (caloMatch_part hp ho hem t h).mp hc⟩
    · rintro ⟨h, hc⟩
      exact ⟨fh h, (caloMatch_part hp ho hem t h).mpr hc⟩
  rw [this]

include ho hem in
theorem chargedOut_part (t : Fin nt) : chargedOut inp v (ft t) = chargedOut p v t := by
  unfold chargedOut
  simp only [kept_part hp ho hem, isEle_part hp ho, isMu_part hp ho, hp.track]

include ho in
theorem muOut_part (m : Fin nm) (o o' : PFChargedObj) (h : MuOut inp (fm m) o) (h' : MuOut p m o') : o = o' := by
  by_cases hm : ∃ t, MuMatch p m t
  · obtain ⟨t, ht⟩ := hm
    rw [h.1 _ ((muMatch_part hp ho m t).mpr ht), h'.1 _ ht, hp.track]
  · rw [h'.2 hm, h.2]
    rintro ⟨t, ht⟩
    obtain ⟨t, rfl⟩ := muMatch_has hp m t ht
    exact hm ⟨t, (muMatch_part hp ho m t).mp ht⟩

include ho in
/-- Inputs whose part is taken alone are valid if those of the event are. -/
theorem valid_part (hv : Valid inp v) : Valid p v where
  trackPt t := hp.track t ▸ hv.trackPt (ft t)
  trackErr t := hp.track t ▸ hv.trackErr (ft t)
  window t := hp.track t ▸ hv.window (ft t)
  emPt c := hp.em c ▸ hv.emPt (fe c)
  hadPt h := hp.had h ▸ hv.hadPt (fh h)
  hadEmPt h := hp.had h ▸ hv.hadEmPt (fh h)
  emSum c := emTrackPt_part hp ho c ▸ hv.emSum (fe c)
  emErr c := emTrackPt_part hp ho c ▸ emErr2_part hp c ▸ hv.emErr (fe c)
  subSum h := emSub_part hp ho hv.emPt h ▸ hv.subSum (fh h)
  hadSum h := caloTrackPt_part hp ho hv.emPt h ▸ hv.hadSum (fh h)
  hadErr h := caloTrackErr2_part hp ho hv.emPt h ▸ hv.hadErr (fh h)

end
end Verif.Spec
