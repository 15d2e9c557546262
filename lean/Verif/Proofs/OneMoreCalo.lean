import Verif.Spec.OneMoreCalo
import Verif.Proofs.OneMore
import Verif.Spec.PFGhosts
import Verif.Proofs.Links
/-! # One more calorimeter cluster -/
open Classical
open scoped BigOperators
namespace Verif.Spec
variable {NT NC NE NM : Nat} {inp inp' : PFInputs NT NC NE NM} {h0 : Fin NC} {v : Variant}

/-- With one more candidate, a first minimum stays where it was or goes to the new one. -/
theorem firstMin_more {n : Nat} {P P' : Fin n → Prop} {f f' : Fin n → Int} {i0 : Fin n} (hP : ∀ j, j ≠ i0 → (P' j ↔ P j))
    (hf : ∀ j, j ≠ i0 → f' j = f j) (hn : ¬ P i0) {i : Fin n} (hi : i ≠ i0) (h : FirstMin P' f' i) : FirstMin P f i := by
  refine ⟨(hP i hi).mp h.1, fun j hj => ?_⟩
  have ne : j ≠ i0 := fun e => hn (e ▸ hj)
  have := h.2 j ((hP j ne).mpr hj)
  rwa [hf i hi, hf j ne] at this

namespace OneMoreCalo
variable (H : OneMoreCalo inp inp' h0)
include H

theorem muMatch (m : Fin NM) (t : Fin NT) : MuMatch inp' m t ↔ MuMatch inp m t := by
  unfold MuMatch muDist2 muDpt
  rw [H.mu, H.track]

theorem isMu (t : Fin NT) : IsMu inp' t ↔ IsMu inp t := exists_congr fun m => H.muMatch m t

theorem emMatch (t : Fin NT) (c : Fin NE) : EmMatch inp' t c ↔ EmMatch inp t c := by
  unfold EmMatch tkEmDist2
  rw [H.isMu, H.track, H.em]

theorem emTrackPt (c : Fin NE) : Spec.emTrackPt inp' c = Spec.emTrackPt inp c := by
  unfold Spec.emTrackPt
  simp only [H.emMatch, H.track]

theorem isEM (c : Fin NE) : IsEM inp' c ↔ IsEM inp c := by
  unfold IsEM emDiff emErr2
  rw [H.emTrackPt, H.em]

theorem photonPt (c : Fin NE) : Spec.photonPt inp' c = Spec.photonPt inp c := by
  unfold Spec.photonPt emDiff emErr2
  rw [H.emTrackPt, H.em]

theorem isEle (t : Fin NT) : IsEle inp' t ↔ IsEle inp t :=
  exists_congr fun c => and_congr (H.emMatch t c) (H.isEM c)

theorem muOut {m : Fin NM} {o o' : PFChargedObj} (h : MuOut inp m o) (h' : MuOut inp' m o') : o' = o := by
  by_cases he : ∃ t, MuMatch inp m t
  · obtain ⟨t, ht⟩ := he
    rw [h.1 t ht, h'.1 t ((H.muMatch m t).mpr ht), H.track]
  · rw [h.2 he, h'.2 fun ⟨t, ht⟩ => he ⟨t, (H.muMatch m t).mp ht⟩]

variable (hem : ∀ c, 0 ≤ (inp.emcalo c).hwPt.toInt)
include hem

theorem hadMatch {e : Fin NE} {h : Fin NC} (hh : h ≠ h0) (hm : HadMatch inp' e h) : HadMatch inp e h := by
  refine firstMin_more (i0 := h0) (fun j hj => ?_) (fun j hj => ?_) ?_ hh hm
  · unfold emHadDist2
    rw [H.em, H.others j hj]
  · unfold emHadDist2
    rw [H.em, H.others j hj]
  · intro hc
    have := hc.1
    have := hem e
    rw [H.freeEmPt] at *
    omega

theorem emSub_le {h : Fin NC} (hh : h ≠ h0) : Spec.emSub inp' h ≤ Spec.emSub inp h := by
  unfold Spec.emSub
  refine Finset.sum_le_sum fun e _ => ?_
  have := hem e
  by_cases k : HadMatch inp' e h ∧ IsEM inp' e
  · rw [if_pos k, if_pos ⟨H.hadMatch hem hh k.1, (H.isEM e).mp k.2⟩, H.em]
  · rw [if_neg k]
    split
    · exact this
    · exact le_refl _

/-- The rules without protection leave no less of the other clusters than before. -/
theorem hadPt_le (hv : v.protect = false) {h : Fin NC} (hh : h ≠ h0) (hs : 0 ≤ Spec.hadPt inp' v h) :
    Spec.hadPt inp v h ≤ Spec.hadPt inp' v h := by
  have a := H.emSub_le hem hh
  by_cases r : Removed inp v h
  · have : Spec.hadPt inp v h = 0 := if_pos r
    rw [this]
    exact hs
  · have r' : ¬ Removed inp' v h := by
      intro r'
      refine r ?_
      unfold Removed at r' ⊢
      rw [H.others h hh] at r'
      rcases r' with r' | ⟨r1, r2, -⟩
      · left
        omega
      · right
        exact ⟨r1, by omega, fun hc => by rw [hv] at hc; exact Bool.noConfusion hc.1⟩
    unfold Spec.hadPt
    rw [if_neg r, if_neg r', H.others h hh]
    omega

omit H hem in
/-- Nothing is left of a free slot. -/
theorem hadPt_free {inp : PFInputs NT NC NE NM} {h0 : Fin NC} (hem : ∀ c, 0 ≤ (inp.emcalo c).hwPt.toInt)
    (f : (inp.hadcalo h0).hwPt.toInt = 0) : Spec.hadPt inp v h0 = 0 := by
  have : Removed inp v h0 := by
    left
    have : 0 ≤ Spec.emSub inp h0 := Finset.sum_nonneg fun e _ => by
      split
      · exact hem e
      · exact le_refl _
    rw [f]
    omega
  exact if_pos this

theorem compatible_ne {t : Fin NT} {h : Fin NC} (hc : Compatible inp v t h) : h ≠ h0 := by
  rintro rfl
  have := hc.1
  rw [hadPt_free hem H.freePt] at this
  omega

/-- A track that had a cluster has one. -/
theorem caloMatch_exists (hle : ∀ h, h ≠ h0 → Spec.hadPt inp v h ≤ Spec.hadPt inp' v h) {t : Fin NT} (h : ∃ h, CaloMatch inp v t h) :
    ∃ h, CaloMatch inp' v t h := by
  obtain ⟨h, hc, -⟩ := h
  have ne := H.compatible_ne hem hc
  refine firstMin_exists ⟨h, ?_⟩
  unfold Compatible tkHadDist2 at hc ⊢
  rw [H.track, H.others h ne]
  exact ⟨lt_of_lt_of_le hc.1 (hle h ne), hc.2⟩

/-- A track that was kept is kept. -/
theorem kept (hle : ∀ h, h ≠ h0 → Spec.hadPt inp v h ≤ Spec.hadPt inp' v h) {t : Fin NT} (h : Kept inp v t) : Kept inp' v t := by
  unfold Kept lowPt at h ⊢
  rw [H.isMu, H.isEle, H.track]
  rcases h with h | h | h | h
  · exact .inl h
  · exact .inr (.inl h)
  · exact .inr (.inr (.inl h))
  · exact .inr (.inr (.inr (H.caloMatch_exists hem hle h)))

theorem chargedOut (hle : ∀ h, h ≠ h0 → Spec.hadPt inp v h ≤ Spec.hadPt inp' v h) {t : Fin NT} (h : (Spec.chargedOut inp v t).hwPt ≠ 0) :
    Spec.chargedOut inp' v t = Spec.chargedOut inp v t := by
  have k : Kept inp v t := by
    by_contra k
    unfold Spec.chargedOut at h
    rw [if_neg k] at h
    exact h rfl
  unfold Spec.chargedOut
  rw [if_pos k, if_pos (H.kept hem hle k), H.track]
  simp only [H.isEle, H.isMu]

/-! ### When the new cluster attracts no EM cluster -/

variable (hno : ∀ e, ¬ HadMatch inp' e h0)
include hno

theorem hadMatch_iff (e : Fin NE) {h : Fin NC} (hh : h ≠ h0) : HadMatch inp' e h ↔ HadMatch inp e h := by
  refine ⟨H.hadMatch hem hh, fun hm => ?_⟩
  obtain ⟨j, hj⟩ := firstMin_exists (P := fun h => (inp'.emcalo e).hwPt.toInt / 2 < (inp'.hadcalo h).hwEmPt.toInt ∧ emHadDist2 inp' e h < 525)
    (f := emHadDist2 inp' e) ⟨h, by
      have := hm.1
      unfold emHadDist2 at this ⊢
      rw [H.em, H.others h hh]
      exact this⟩
  have nj : j ≠ h0 := fun k => hno e (k ▸ hj)
  have hj' := H.hadMatch hem nj hj
  have e1 := hm.2 j hj'.1
  have e2 := hj'.2 h hm.1
  have : j = h := by
    rcases lt_trichotomy j h with k | k | k
    · have := e1.2 k; omega
    · exact k
    · have := e2.2 k; omega
  exact this ▸ hj

theorem emSub_eq {h : Fin NC} (hh : h ≠ h0) : Spec.emSub inp' h = Spec.emSub inp h := by
  unfold Spec.emSub
  simp only [H.hadMatch_iff hem hno _ hh, H.isEM, H.em]

theorem hadPt_eq {h : Fin NC} (hh : h ≠ h0) : Spec.hadPt inp' v h = Spec.hadPt inp v h := by
  have : Removed inp' v h ↔ Removed inp v h := by
    unfold Removed HasHadronicEM
    simp only [H.emSub_eq hem hno hh, H.others h hh, H.hadMatch_iff hem hno _ hh, H.isEM]
  unfold Spec.hadPt
  simp only [this, H.emSub_eq hem hno hh, H.others h hh]

theorem caloMatch {t : Fin NT} {h : Fin NC} (hh : h ≠ h0) (hc : CaloMatch inp' v t h) : CaloMatch inp v t h := by
  refine firstMin_more (i0 := h0) (fun j hj => ?_) (fun j hj => ?_) (fun k => H.compatible_ne hem k rfl) hh hc
  · unfold Compatible tkHadDist2
    rw [H.track, H.hadPt_eq hem hno hj, H.others j hj]
  · unfold metric tkHadDist2
    rw [H.track, H.hadPt_eq hem hno hj, H.others j hj]

theorem hadronLink {t : Fin NT} {h : Fin NC} (hh : h ≠ h0) (hl : HadronLink inp' v t h) : HadronLink inp v t h :=
  ⟨H.caloMatch hem hno hh hl.1, fun k => hl.2.1 ((H.isEle t).mpr k), fun k => hl.2.2 ((H.isMu t).mpr k)⟩

/-- Tracks only leave the other clusters, so their neutrals do not lose. -/
theorem neutralPt_le (hp : ∀ t, 0 ≤ (inp.track t).hwPt.toInt) {h : Fin NC} (hh : h ≠ h0) (hs : 0 ≤ Spec.hadPt inp v h) :
    Spec.neutralPt inp v h ≤ Spec.neutralPt inp' v h := by
  have sum : ∀ f : TkObj → Int, (∀ t, 0 ≤ f (inp.track t)) → (∑ t, if HadronLink inp' v t h then f (inp'.track t) else 0) ≤
      ∑ t, if HadronLink inp v t h then f (inp.track t) else 0 := by
    intro f hf
    refine Finset.sum_le_sum fun t _ => ?_
    rw [H.track]
    by_cases k : HadronLink inp' v t h
    · rw [if_pos k, if_pos (H.hadronLink hem hno hh k)]
    · rw [if_neg k]
      split
      · exact hf t
      · exact le_refl _
  have a : Spec.caloTrackPt inp' v h ≤ Spec.caloTrackPt inp v h := sum (fun t => t.hwPt.toInt) hp
  have b : Spec.caloTrackErr2 inp' v h ≤ Spec.caloTrackErr2 inp v h := sum (fun t => t.hwPtErr.toInt ^ 2) fun t => sq_nonneg _
  have c : 0 ≤ Spec.caloTrackPt inp' v h := Finset.sum_nonneg fun t _ => by
    split
    · rw [H.track]
      exact hp t
    · exact le_refl _
  unfold Spec.neutralPt caloDiff
  rw [H.hadPt_eq hem hno hh]
  generalize Spec.hadPt inp v h = A at *
  generalize Spec.caloTrackPt inp v h = S at *
  generalize Spec.caloTrackErr2 inp v h = E at *
  generalize Spec.caloTrackPt inp' v h = S' at *
  generalize Spec.caloTrackErr2 inp' v h = E' at *
  by_cases h1 : S' = 0
  · rw [if_pos h1]
    split
    · exact le_refl _
    · split
      · omega
      · exact hs
  · rw [if_neg h1, if_neg (show ¬ S = 0 by omega)]
    by_cases h2 : 0 < A - S ∧ 3 * E < 2 * (A - S) ^ 2
    · rw [if_pos h2, if_pos ⟨by omega, by nlinarith [h2.1, h2.2]⟩]
      omega
    · rw [if_neg h2]
      split
      · omega
      · exact le_refl _

omit hem hno in
theorem noGhosts : OneMoreCalo (Spec.noGhosts inp) (Spec.noGhosts inp') h0 where
  track := by
    unfold Spec.noGhosts
    simp only [H.track]
  em := H.em
  mu := H.mu
  others := H.others
  freePt := H.freePt
  freeEmPt := H.freeEmPt

end OneMoreCalo
end Verif.Spec
