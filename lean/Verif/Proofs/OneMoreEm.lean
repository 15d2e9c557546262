import Verif.Spec.OneMoreEm
import Verif.Proofs.OneMoreCalo
/-! # One more EM cluster -/
open Classical
open scoped BigOperators
namespace Verif.Spec
variable {NT NC NE NM : Nat} {inp inp' : PFInputs NT NC NE NM} {c0 : Fin NE} {v : Variant}

/-- When one candidate gets worse or is lost, a first minimum that was elsewhere stays. -/
theorem firstMin_worse {n : Nat} {P P' : Fin n → Prop} {f f' : Fin n → Int} {k : Fin n} (hP : ∀ j, j ≠ k → (P' j ↔ P j)) (hk : P' k → P k)
    (hf : ∀ j, j ≠ k → f' j = f j) (hfk : P' k → f k ≤ f' k) {i : Fin n} (hi : i ≠ k) (h : FirstMin P f i) : FirstMin P' f' i := by
  refine ⟨(hP i hi).mpr h.1, fun j hj => ?_⟩
  by_cases e : j = k
  · subst e
    have := h.2 j (hk hj)
    have := hfk hj
    rw [hf i hi]
    exact ⟨by omega, fun hl => by have := (h.2 j (hk hj)).2 hl; omega⟩
  · rw [hf i hi, hf j e]
    exact h.2 j ((hP j e).mp hj)

namespace OneMoreEm
variable (H : OneMoreEm inp inp' c0)
include H

theorem muMatch (m : Fin NM) (t : Fin NT) : MuMatch inp' m t ↔ MuMatch inp m t := by
  unfold MuMatch muDist2 muDpt
  rw [H.mu, H.track]

theorem isMu (t : Fin NT) : IsMu inp' t ↔ IsMu inp t := exists_congr fun m => H.muMatch m t

theorem muOut {m : Fin NM} {o o' : PFChargedObj} (h : MuOut inp m o) (h' : MuOut inp' m o') : o' = o := by
  by_cases he : ∃ t, MuMatch inp m t
  · obtain ⟨t, ht⟩ := he
    rw [h.1 t ht, h'.1 t ((H.muMatch m t).mpr ht), H.track]
  · rw [h.2 he, h'.2 fun ⟨t, ht⟩ => he ⟨t, (H.muMatch m t).mp ht⟩]

theorem emMatch {t : Fin NT} (ht : 0 < (inp.track t).hwPt.toInt) (c : Fin NE) : EmMatch inp' t c ↔ EmMatch inp t c := by
  unfold EmMatch
  rw [H.isMu]
  refine and_congr_right fun _ => firstMin_same (fun j => ?_) (fun j hj => ?_) c
  · by_cases e : j = c0
    · subst e
      exact iff_of_false (not_lt.mpr (H.noTrack t ht)) (not_lt.mpr (H.noTrackFree t ht))
    · unfold tkEmDist2
      rw [H.track, H.others j e]
  · have e : j ≠ c0 := fun e => by
      subst e
      have := H.noTrackFree t ht
      omega
    unfold tkEmDist2
    rw [H.track, H.others j e]

theorem not_emMatch {t : Fin NT} (ht : 0 < (inp.track t).hwPt.toInt) : ¬ EmMatch inp t c0 := fun h => by
  have := H.noTrackFree t ht
  have := h.2.1
  omega

/-- Sums over tracks, of something free track slots do not have. -/
theorem sum_same {P P' : Fin NT → Prop} (hP : ∀ t, 0 < (inp.track t).hwPt.toInt → (P' t ↔ P t)) (f : TkObj → Int)
    (hf : ∀ t, ¬ 0 < (inp.track t).hwPt.toInt → f (inp.track t) = 0) :
    (∑ t, if P' t then f (inp'.track t) else 0) = ∑ t, if P t then f (inp.track t) else 0 := by
  rw [H.track]
  refine Finset.sum_congr rfl fun t _ => ?_
  by_cases ht : 0 < (inp.track t).hwPt.toInt
  · simp only [hP t ht]
  · rw [hf t ht, ite_self, ite_self]

theorem emTrackPt (c : Fin NE) : Spec.emTrackPt inp' c = Spec.emTrackPt inp c :=
  H.sum_same (fun _ ht => H.emMatch ht c) (fun t => t.hwPt.toInt) fun t ht => (H.freeTrack t ht).1

theorem emTrackPt_new : Spec.emTrackPt inp c0 = 0 := Finset.sum_eq_zero fun t _ => by
  by_cases ht : 0 < (inp.track t).hwPt.toInt
  · exact if_neg (H.not_emMatch ht)
  · rw [(H.freeTrack t ht).1, ite_self]

theorem isEM_new : IsEM inp' c0 := Or.inl (by rw [H.emTrackPt, H.emTrackPt_new])

theorem isEM_free : IsEM inp c0 := Or.inl H.emTrackPt_new

theorem isEM (c : Fin NE) : IsEM inp' c ↔ IsEM inp c := by
  by_cases e : c = c0
  · subst e
    exact iff_of_true H.isEM_new H.isEM_free
  · unfold IsEM emDiff emErr2
    rw [H.emTrackPt, H.others c e]

theorem photonPt {c : Fin NE} (hc : c ≠ c0) : Spec.photonPt inp' c = Spec.photonPt inp c := by
  unfold Spec.photonPt emDiff emErr2
  rw [H.emTrackPt, H.others c hc]

theorem photonPt_new : Spec.photonPt inp' c0 = (inp'.emcalo c0).hwPt.toInt := if_pos (by rw [H.emTrackPt, H.emTrackPt_new])

theorem photonPt_free : Spec.photonPt inp c0 = 0 := by
  rw [← H.freePt]
  exact if_pos H.emTrackPt_new

theorem isEle {t : Fin NT} (ht : 0 < (inp.track t).hwPt.toInt) : IsEle inp' t ↔ IsEle inp t :=
  exists_congr fun c => and_congr (H.emMatch ht c) (H.isEM c)

theorem hadMatch {e : Fin NE} (he : e ≠ c0) (h : Fin NC) : HadMatch inp' e h ↔ HadMatch inp e h := by
  unfold HadMatch emHadDist2
  rw [H.others e he, H.had]

theorem hasHadronicEM (h : Fin NC) : HasHadronicEM inp' h ↔ HasHadronicEM inp h := by
  constructor
  · rintro ⟨e, h1, h2⟩
    have he : e ≠ c0 := fun e' => h2 (e' ▸ H.isEM_new)
    exact ⟨e, (H.hadMatch he h).mp h1, fun h3 => h2 ((H.isEM e).mpr h3)⟩
  · rintro ⟨e, h1, h2⟩
    have he : e ≠ c0 := fun e' => h2 (e' ▸ H.isEM_free)
    exact ⟨e, (H.hadMatch he h).mpr h1, fun h3 => h2 ((H.isEM e).mp h3)⟩

/-- The new cluster is subtracted from the calorimeter cluster it belongs to. -/
theorem emSub (h : Fin NC) : Spec.emSub inp' h = Spec.emSub inp h + if HadMatch inp' c0 h then (inp'.emcalo c0).hwPt.toInt else 0 := by
  unfold Spec.emSub
  rw [← Finset.add_sum_erase _ _ (Finset.mem_univ c0),
    ← Finset.add_sum_erase (a := c0) (f := fun e => if HadMatch inp e h ∧ IsEM inp e then (inp.emcalo e).hwPt.toInt else 0) _ (Finset.mem_univ c0)]
  have e1 : (if HadMatch inp c0 h ∧ IsEM inp c0 then (inp.emcalo c0).hwPt.toInt else 0) = 0 := by rw [H.freePt]; split <;> rfl
  have e2 : (∑ e ∈ Finset.univ.erase c0, if HadMatch inp' e h ∧ IsEM inp' e then (inp'.emcalo e).hwPt.toInt else 0) =
      ∑ e ∈ Finset.univ.erase c0, if HadMatch inp e h ∧ IsEM inp e then (inp.emcalo e).hwPt.toInt else 0 := by
    refine Finset.sum_congr rfl fun e he => ?_
    have he' := Finset.ne_of_mem_erase he
    rw [H.others e he']
    simp only [H.hadMatch he', H.isEM]
  have e3 : (HadMatch inp' c0 h ∧ IsEM inp' c0) ↔ HadMatch inp' c0 h := and_iff_left H.isEM_new
  rw [e1, e2]
  simp only [e3]
  omega

theorem hadPt {h : Fin NC} (hn : ¬ HadMatch inp' c0 h) : Spec.hadPt inp' v h = Spec.hadPt inp v h := by
  have es : Spec.emSub inp' h = Spec.emSub inp h := by rw [H.emSub, if_neg hn]; omega
  have : Removed inp' v h ↔ Removed inp v h := by
    unfold Removed
    rw [es, H.had, H.hasHadronicEM]
  unfold Spec.hadPt
  simp only [this, es, H.had]

/-- No more is left of a calorimeter cluster than before. -/
theorem hadPt_le (hp : 0 ≤ (inp'.emcalo c0).hwPt.toInt) {h : Fin NC} (hs : 0 ≤ Spec.hadPt inp v h) : Spec.hadPt inp' v h ≤ Spec.hadPt inp v h := by
  have es : Spec.emSub inp h ≤ Spec.emSub inp' h := by rw [H.emSub]; split <;> omega
  by_cases r : Removed inp' v h
  · have : Spec.hadPt inp' v h = 0 := if_pos r
    rw [this]
    exact hs
  · have r0 : ¬ Removed inp v h := by
      intro r0
      refine r ?_
      unfold Removed at r0 ⊢
      rw [H.had, H.hasHadronicEM]
      rcases r0 with r0 | ⟨r1, r2, r3⟩
      · left
        omega
      · right
        exact ⟨r1, by omega, r3⟩
    unfold Spec.hadPt
    rw [if_neg r, if_neg r0, H.had]
    omega

variable (hs : ∀ h, 0 ≤ Spec.hadPt inp v h) (hp : 0 ≤ (inp'.emcalo c0).hwPt.toInt)
include hs hp

theorem compatible {t : Fin NT} {h : Fin NC} (hc : Compatible inp' v t h) : Compatible inp v t h := by
  unfold Compatible tkHadDist2 at hc ⊢
  rw [H.track, H.had] at hc
  exact ⟨lt_of_lt_of_le hc.1 (H.hadPt_le hp (hs h)), hc.2⟩

omit hs hp in
theorem compatible_other {t : Fin NT} {h : Fin NC} (hn : ¬ HadMatch inp' c0 h) : Compatible inp' v t h ↔ Compatible inp v t h := by
  unfold Compatible tkHadDist2
  rw [H.track, H.had, H.hadPt hn]

omit hs hp in
theorem metric_other {t : Fin NT} {h : Fin NC} (hn : ¬ HadMatch inp' c0 h) : metric inp' v t h = metric inp v t h := by
  unfold metric tkHadDist2
  rw [H.track, H.had, H.hadPt hn]

theorem metric_le (hsc : ∀ x, 0 ≤ v.scale x) (t : Fin NT) (h : Fin NC) : metric inp v t h ≤ metric inp' v t h := by
  have a := H.hadPt_le (v := v) hp (hs h)
  unfold metric tkHadDist2
  rw [H.track, H.had]
  refine Int.add_le_add_left (Int.ediv_le_ediv (by decide) (Int.mul_le_mul_of_nonneg_right ?_ (hsc _))) _
  have h1 : 0 ≤ max 0 ((inp.track t).hwPt.toInt - Spec.hadPt inp v h) := le_max_left _ _
  have h2 : max 0 ((inp.track t).hwPt.toInt - Spec.hadPt inp v h) ≤ max 0 ((inp.track t).hwPt.toInt - Spec.hadPt inp' v h) := by omega
  nlinarith

/-- A track that was linked to another calorimeter cluster stays linked to it. -/
theorem caloMatch_stays (hsc : ∀ x, 0 ≤ v.scale x) {t : Fin NT} {h : Fin NC} (hn : ¬ HadMatch inp' c0 h) (hm : CaloMatch inp v t h) : CaloMatch inp' v t h := by
  by_cases he : ∃ k, HadMatch inp' c0 k
  · obtain ⟨k, hk⟩ := he
    have hne : ∀ j, j ≠ k → ¬ HadMatch inp' c0 j := fun j hj h' => hj (firstMin_unique h' hk)
    exact firstMin_worse (k := k) (fun j hj => H.compatible_other (hne j hj)) (H.compatible hs hp) (fun j hj => H.metric_other (hne j hj))
      (fun _ => H.metric_le hs hp hsc t k) (fun e => hn (e ▸ hk)) hm
  · exact (firstMin_same (fun j => H.compatible_other fun h => he ⟨j, h⟩) (fun j _ => H.metric_other fun h => he ⟨j, h⟩) h).mpr hm

/-- A track that has a cluster had one. -/
theorem caloMatch_had {t : Fin NT} (h : ∃ h, CaloMatch inp' v t h) : ∃ h, CaloMatch inp v t h :=
  let ⟨h, hm⟩ := h
  firstMin_exists ⟨h, H.compatible hs hp hm.1⟩

/-- If no track was linked to the calorimeter cluster the EM cluster belongs to, all links are as they were. -/
theorem caloMatch_iff (hsc : ∀ x, 0 ≤ v.scale x) {t : Fin NT} (hno : ∀ k, HadMatch inp' c0 k → ¬ CaloMatch inp v t k) (h : Fin NC) :
    CaloMatch inp' v t h ↔ CaloMatch inp v t h := by
  constructor
  · intro hm
    obtain ⟨k, hk⟩ := H.caloMatch_had hs hp ⟨h, hm⟩
    have : CaloMatch inp' v t k := H.caloMatch_stays hs hp hsc (fun h' => hno k h' hk) hk
    rw [firstMin_unique hm this]
    exact hk
  · intro hm
    exact H.caloMatch_stays hs hp hsc (fun h' => hno h h' hm) hm

theorem kept_of {t : Fin NT} (ht : 0 < (inp.track t).hwPt.toInt) (h : Kept inp' v t) : Kept inp v t := by
  unfold Kept lowPt at h ⊢
  rw [H.isMu, H.isEle ht, H.track] at h
  rcases h with h | h | h | h
  · exact .inl h
  · exact .inr (.inl h)
  · exact .inr (.inr (.inl h))
  · exact .inr (.inr (.inr (H.caloMatch_had hs hp h)))

/-- The candidate of a track is lost or stays as it is. -/
theorem chargedOut_of {t : Fin NT} (ht : 0 < (inp.track t).hwPt.toInt) (h : (Spec.chargedOut inp' v t).hwPt ≠ 0) :
    Spec.chargedOut inp' v t = Spec.chargedOut inp v t := by
  have k : Kept inp' v t := by
    by_contra k
    unfold Spec.chargedOut at h
    rw [if_neg k] at h
    exact h rfl
  unfold Spec.chargedOut
  rw [if_pos k, if_pos (H.kept_of hs hp ht k), H.track]
  simp only [H.isEle ht, H.isMu]

/-- The candidate of a track that was not a hadron linked to the calorimeter cluster in question. -/
theorem chargedOut (hsc : ∀ x, 0 ≤ v.scale x) {t : Fin NT} (ht : 0 < (inp.track t).hwPt.toInt) (hno : ∀ k, HadMatch inp' c0 k → ¬ HadronLink inp v t k) :
    Spec.chargedOut inp' v t = Spec.chargedOut inp v t := by
  have k : Kept inp' v t ↔ Kept inp v t := by
    refine ⟨H.kept_of hs hp ht, fun h => ?_⟩
    by_cases he : IsEle inp t
    · exact .inr (.inl ((H.isEle ht).mpr he))
    · by_cases hm : IsMu inp t
      · exact .inl ((H.isMu t).mpr hm)
      · unfold Kept lowPt at h ⊢
        rw [H.track]
        rcases h with h | h | h | ⟨h, hl⟩
        · exact absurd h hm
        · exact absurd h he
        · exact .inr (.inr (.inl h))
        · exact .inr (.inr (.inr ⟨h, H.caloMatch_stays hs hp hsc (fun h' => hno h h' ⟨hl, he, hm⟩) hl⟩))
  unfold Spec.chargedOut
  simp only [k, H.isEle ht, H.isMu, H.track]

/-- The links of hadrons are as they were if none was to the calorimeter cluster in question. -/
theorem hadronLink (hsc : ∀ x, 0 ≤ v.scale x) {t : Fin NT} (ht : 0 < (inp.track t).hwPt.toInt) (hno : ∀ k, HadMatch inp' c0 k → ¬ HadronLink inp v t k)
    (h : Fin NC) : HadronLink inp' v t h ↔ HadronLink inp v t h := by
  unfold HadronLink
  rw [H.isEle ht, H.isMu]
  refine and_congr_left fun ⟨he, hm⟩ => H.caloMatch_iff hs hp hsc (fun k hk hl => hno k hk ⟨hl, he, hm⟩) h

theorem neutral_same (hsc : ∀ x, 0 ≤ v.scale x)
    (hno : ∀ t k, 0 < (inp.track t).hwPt.toInt → HadMatch inp' c0 k → ¬ HadronLink inp v t k) (h : Fin NC) :
    Spec.caloTrackPt inp' v h = Spec.caloTrackPt inp v h ∧ Spec.caloTrackErr2 inp' v h = Spec.caloTrackErr2 inp v h :=
  ⟨H.sum_same (fun t ht => H.hadronLink hs hp hsc ht (fun k => hno t k ht) h) (fun t => t.hwPt.toInt) fun t ht => (H.freeTrack t ht).1,
   H.sum_same (fun t ht => H.hadronLink hs hp hsc ht (fun k => hno t k ht) h) (fun t => t.hwPtErr.toInt ^ 2) fun t ht => by
     rw [(H.freeTrack t ht).2]; rfl⟩

/-- Other calorimeter clusters give the same neutral. -/
theorem neutralPt_other (hsc : ∀ x, 0 ≤ v.scale x)
    (hno : ∀ t k, 0 < (inp.track t).hwPt.toInt → HadMatch inp' c0 k → ¬ HadronLink inp v t k) {h : Fin NC} (hn : ¬ HadMatch inp' c0 h) :
    Spec.neutralPt inp' v h = Spec.neutralPt inp v h := by
  obtain ⟨a, b⟩ := H.neutral_same hs hp hsc hno h
  unfold Spec.neutralPt caloDiff
  rw [H.hadPt hn, a, b]

/-- The calorimeter cluster the new EM cluster belongs to gives what is left of it. -/
theorem neutralPt_this (hsc : ∀ x, 0 ≤ v.scale x)
    (hno : ∀ t k, 0 < (inp.track t).hwPt.toInt → HadMatch inp' c0 k → ¬ HadronLink inp v t k) {h : Fin NC} (hn : HadMatch inp' c0 h) :
    Spec.neutralPt inp' v h = Spec.hadPt inp' v h ∧ Spec.neutralPt inp v h = Spec.hadPt inp v h := by
  have a := (H.neutral_same hs hp hsc hno h).1
  have b : Spec.caloTrackPt inp v h = 0 := Finset.sum_eq_zero fun t _ => by
    by_cases ht : 0 < (inp.track t).hwPt.toInt
    · exact if_neg (hno t h ht hn)
    · rw [(H.freeTrack t ht).1, ite_self]
  rw [b] at a
  exact ⟨if_pos a, if_pos b⟩

omit hs hp in
theorem noGhosts : OneMoreEm (Spec.noGhosts inp) (Spec.noGhosts inp') c0 where
  had := H.had
  track := by
    unfold Spec.noGhosts
    simp only [H.track]
  mu := H.mu
  others := H.others
  freePt := H.freePt
  noTrack := H.noTrack
  noTrackFree := H.noTrackFree
  freeTrack := fun t ht => ⟨(H.freeTrack t ht).1, by
    show (if 0 < (inp.track t).hwPt.toInt then (inp.track t).hwPtErr else 0).toInt = 0
    rw [if_neg (show ¬ 0 < (inp.track t).hwPt.toInt from ht)]; rfl⟩

end OneMoreEm

theorem fwVariant_nonneg (x : Int) : 0 ≤ fwVariant.scale x := by
  show 0 ≤ fwScale x
  have : 0 ≤ refScale x := Int.ediv_nonneg (by decide) (by omega)
  unfold fwScale
  split <;> omega

theorem refVariant_nonneg (x : Int) : 0 ≤ refVariant.scale x := Int.ediv_nonneg (by decide) (by omega)

end Verif.Spec
