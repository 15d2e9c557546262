import Verif.Spec.WithoutMuons
import Verif.Proofs.OneMore
import Verif.Proofs.Links
/-! # The event without its muons -/
open Classical
open scoped BigOperators
namespace Verif.Spec
variable {NT NC NE NM NM' : Nat} {inp : PFInputs NT NC NE NM} {inp0 : PFInputs NT NC NE NM'} {v : Variant}

/-- A track matched to a muon is not empty. -/
theorem muMatch_pos {m : Fin NM} {t : Fin NT} (h : MuMatch inp m t) : 0 < (inp.track t).hwPt.toInt := by
  have h1 := h.1
  have h2 := h.2.1.2
  unfold muDpt at h2
  omega

theorem isMu_pos {t : Fin NT} (h : IsMu inp t) : 0 < (inp.track t).hwPt.toInt := let ⟨_, hm⟩ := h; muMatch_pos hm

namespace WithoutMuons
variable (W : WithoutMuons inp inp0)
include W

theorem no_muMatch (m : Fin NM') (t : Fin NT) : ¬ MuMatch inp0 m t := fun h => by
  have := W.none m
  have := h.1
  omega

theorem no_isMu (t : Fin NT) : ¬ IsMu inp0 t := fun ⟨m, h⟩ => W.no_muMatch m t h

theorem emMatch {t : Fin NT} (ht : ¬ IsMu inp t) (c : Fin NE) : EmMatch inp0 t c ↔ EmMatch inp t c := by
  unfold EmMatch tkEmDist2
  rw [W.others t ht, W.em]
  exact and_congr_left fun _ => iff_of_true (W.no_isMu t) ht

theorem emTrackPt (c : Fin NE) : Spec.emTrackPt inp0 c = Spec.emTrackPt inp c := by
  unfold Spec.emTrackPt
  refine Finset.sum_congr rfl fun t _ => ?_
  by_cases e : IsMu inp t
  · rw [if_neg (c := EmMatch inp t c) (fun h => h.1 e), W.freePt t e]
    split <;> rfl
  · rw [W.others t e]
    simp only [W.emMatch e]

theorem isEM (c : Fin NE) : IsEM inp0 c ↔ IsEM inp c := by
  unfold IsEM emDiff emErr2
  rw [W.emTrackPt, W.em]

theorem photonPt (c : Fin NE) : Spec.photonPt inp0 c = Spec.photonPt inp c := by
  unfold Spec.photonPt emDiff emErr2
  rw [W.emTrackPt, W.em]

theorem isEle {t : Fin NT} (ht : ¬ IsMu inp t) : IsEle inp0 t ↔ IsEle inp t :=
  exists_congr fun c => and_congr (W.emMatch ht c) (W.isEM c)

theorem hadMatch (e : Fin NE) (h : Fin NC) : HadMatch inp0 e h ↔ HadMatch inp e h := by
  unfold HadMatch emHadDist2
  rw [W.em, W.had]

theorem emSub (h : Fin NC) : Spec.emSub inp0 h = Spec.emSub inp h := by
  unfold Spec.emSub
  simp only [W.hadMatch, W.isEM, W.em]

theorem hadPt (h : Fin NC) : Spec.hadPt inp0 v h = Spec.hadPt inp v h := by
  have : Removed inp0 v h ↔ Removed inp v h := by
    unfold Removed HasHadronicEM
    simp only [W.emSub, W.had, W.hadMatch, W.isEM]
  unfold Spec.hadPt
  simp only [this, W.emSub, W.had]

theorem caloMatch {t : Fin NT} (ht : ¬ IsMu inp t) (h : Fin NC) : CaloMatch inp0 v t h ↔ CaloMatch inp v t h := by
  unfold CaloMatch
  refine firstMin_same (fun j => ?_) (fun j _ => ?_) h
  · unfold Compatible tkHadDist2
    rw [W.others t ht, W.hadPt, W.had]
  · unfold metric tkHadDist2
    rw [W.others t ht, W.hadPt, W.had]

theorem sum_links (f : TkObj → Int) (h0 : ∀ t, IsMu inp t → f (inp0.track t) = 0) (h : Fin NC) :
    (∑ t, if HadronLink inp0 v t h then f (inp0.track t) else 0) = ∑ t, if HadronLink inp v t h then f (inp.track t) else 0 := by
  refine Finset.sum_congr rfl fun t _ => ?_
  by_cases e : IsMu inp t
  · rw [if_neg (c := HadronLink inp v t h) (fun h => h.2.2 e), h0 t e]
    split <;> rfl
  · have : HadronLink inp0 v t h ↔ HadronLink inp v t h := by
      unfold HadronLink
      rw [W.caloMatch e, W.isEle e]
      exact and_congr_right fun _ => and_congr_right fun _ => iff_of_true (W.no_isMu t) e
    rw [W.others t e]
    simp only [this]

theorem caloTrackPt (h : Fin NC) : Spec.caloTrackPt inp0 v h = Spec.caloTrackPt inp v h := W.sum_links (fun t => t.hwPt.toInt) W.freePt h

theorem caloTrackErr2 (h : Fin NC) : Spec.caloTrackErr2 inp0 v h = Spec.caloTrackErr2 inp v h :=
  W.sum_links (fun t => t.hwPtErr.toInt ^ 2) (fun t ht => by show _ ^ 2 = _; rw [W.freeErr t ht]; rfl) h

theorem neutralSeen : Spec.neutralSeen inp0 v = Spec.neutralSeen inp v := by
  funext h
  unfold Spec.neutralSeen Spec.neutralPt caloDiff
  rw [W.caloTrackPt, W.caloTrackErr2, W.hadPt, W.had]

theorem chargedOut {t : Fin NT} (ht : ¬ IsMu inp t) : Spec.chargedOut inp0 v t = Spec.chargedOut inp v t := by
  have hk : Kept inp0 v t ↔ Kept inp v t := by
    unfold Kept lowPt
    simp only [W.isEle ht, W.others t ht, W.caloMatch ht, ht, W.no_isMu t]
  unfold Spec.chargedOut
  simp only [hk, W.isEle ht, W.others t ht, ht, W.no_isMu t]

omit W in
theorem chargedOut_mu {t : Fin NT} (ht : IsMu inp t) : Spec.chargedOut inp v t = muonOf (inp.track t) := by
  unfold Spec.chargedOut
  rw [if_pos (show Kept inp v t from Or.inl ht), if_neg (fun ⟨c, h, _⟩ => h.1 ht), if_pos ht]
  rfl

theorem valid (hv : Valid inp v) : Valid inp0 v where
  trackPt t := by
    by_cases e : IsMu inp t
    · rw [W.freePt t e]
    · rw [W.others t e]; exact hv.trackPt t
  trackErr t := by
    by_cases e : IsMu inp t
    · rw [W.freeErr t e]
    · rw [W.others t e]; exact hv.trackErr t
  window t := by
    by_cases e : IsMu inp t
    · rw [W.freeErr t e, W.freePt t e]; decide
    · rw [W.others t e]; exact hv.window t
  emPt := W.em ▸ hv.emPt
  hadPt := W.had ▸ hv.hadPt
  hadEmPt := W.had ▸ hv.hadEmPt
  emSum c := by rw [W.emTrackPt]; exact hv.emSum c
  subSum h := by rw [W.emSub]; exact hv.subSum h
  hadSum h := by rw [W.caloTrackPt]; exact hv.hadSum h
  emErr c := by
    have := hv.emErr c
    unfold emErr2 at this ⊢
    rwa [W.emTrackPt, W.em]
  hadErr h := by rw [W.caloTrackErr2]; exact hv.hadErr h

theorem noGhosts : WithoutMuons (Spec.noGhosts inp) (Spec.noGhosts inp0) where
  had := W.had
  em := W.em
  none := W.none
  others t ht := by
    unfold Spec.noGhosts
    simp only [W.others t ht]
  freePt := W.freePt
  freeErr t ht := by
    unfold Spec.noGhosts
    dsimp only
    split
    · exact W.freeErr t ht
    · rfl

end WithoutMuons

namespace OneMoreMuon
variable {inp inp' : PFInputs NT NC NE NM} {m0 : Fin NM} (H : OneMoreMuon inp inp' m0)
include H

theorem muMatch {m : Fin NM} (hm : m ≠ m0) (t : Fin NT) : MuMatch inp' m t ↔ MuMatch inp m t := by
  unfold MuMatch muDist2 muDpt
  rw [H.others m hm, H.track]

theorem isMu (t : Fin NT) : IsMu inp' t ↔ IsMu inp t ∨ MuMatch inp' m0 t := by
  constructor
  · rintro ⟨m, h⟩
    by_cases e : m = m0
    · exact Or.inr (e ▸ h)
    · exact Or.inl ⟨m, (H.muMatch e t).mp h⟩
  · rintro (⟨m, h⟩ | h)
    · have : m ≠ m0 := fun e => by
        subst e
        have := H.free
        have := h.1
        omega
      exact ⟨m, (H.muMatch this t).mpr h⟩
    · exact ⟨m0, h⟩

end OneMoreMuon

theorem firstMin_without {n : Nat} {P P' : Fin n → Prop} {f f' : Fin n → Int} {k : Fin n} (hP : ∀ j, j ≠ k → (P' j ↔ P j)) (hk : ¬ P' k)
    (hf : ∀ j, j ≠ k → f' j = f j) (hnot : ¬ FirstMin P f k) (i : Fin n) : FirstMin P' f' i ↔ FirstMin P f i := by
  by_cases e : i = k
  · subst e
    exact iff_of_false (fun h => hk h.1) hnot
  · constructor
    · rintro ⟨h1, h2⟩
      have hi := (hP i e).mp h1
      have hpart : ∀ j, j ≠ k → P j → f i ≤ f j ∧ (j < i → f i < f j) := fun j hj hPj => by
        have := h2 j ((hP j hj).mpr hPj)
        rwa [hf i e, hf j hj] at this
      by_contra hc
      obtain ⟨b, hb⟩ := firstMin_exists (P := P) (f := f) ⟨i, hi⟩
      have hbk : b ≠ k := fun h => hnot (h ▸ hb)
      have a1 := hpart b hbk hb.1
      have a2 := hb.2 i hi
      have e1 : f b = f i := le_antisymm a2.1 a1.1
      have : i = b := le_antisymm (not_lt.mp fun hl => by have := a1.2 hl; omega) (not_lt.mp fun hl => by have := a2.2 hl; omega)
      exact hc (this ▸ hb)
    · rintro ⟨h1, h2⟩
      refine ⟨(hP i e).mpr h1, fun j hj => ?_⟩
      have hjk : j ≠ k := fun h => hk (h ▸ hj)
      rw [hf i e, hf j hjk]
      exact h2 j ((hP j hjk).mp hj)

/-- A track that no muon is matched to can go without changing the match of any muon. -/
theorem muMatch_dropTrack {t0 : Fin NT} (h0 : ¬ IsMu inp t0) (m : Fin NM) (t : Fin NT) : MuMatch (dropTrack inp t0) m t ↔ MuMatch inp m t := by
  unfold MuMatch
  refine and_congr_right fun hp => firstMin_without (k := t0) (fun j hj => ?_) (fun h => ?_) (fun j hj => ?_) (fun h => h0 ⟨m, hp, h⟩) t
  · unfold muDist2 muDpt dropTrack
    simp only [if_neg hj]
  · have h2 := h.2
    have hp : 0 < ((dropTrack inp t0).mu m).hwPt.toInt := hp
    have e : ((dropTrack inp t0).track t0).hwPt.toInt = 0 := by
      unfold dropTrack
      simp
    unfold muDpt at h2
    rw [e] at h2
    omega
  · unfold muDpt dropTrack
    simp only [if_neg hj]

end Verif.Spec
