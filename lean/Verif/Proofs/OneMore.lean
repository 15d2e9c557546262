import Verif.Spec.OneMore
import Verif.Spec.PFPart
import Verif.Spec.PFGhosts
import Mathlib.Tactic.Linarith
import Mathlib.Algebra.Order.BigOperators.Group.Finset
/-! # One more track -/
open Classical
open scoped BigOperators
namespace Verif.Spec
variable {NT NC NE NM : Nat} {inp inp' : PFInputs NT NC NE NM} {t0 : Fin NT} {v : Variant}

/-- `FirstMin` when the candidates and their values agree. -/
theorem firstMin_same {n : Nat} {P P' : Fin n → Prop} {f f' : Fin n → Int} (hP : ∀ j, P' j ↔ P j) (hf : ∀ j, P j → f' j = f j)
    (i : Fin n) : FirstMin P' f' i ↔ FirstMin P f i := by
  unfold FirstMin
  constructor
  · rintro ⟨h1, h2⟩
    refine ⟨(hP i).mp h1, fun j hj => ?_⟩
    have := h2 j ((hP j).mpr hj)
    rwa [hf i ((hP i).mp h1), hf j hj] at this
  · rintro ⟨h1, h2⟩
    refine ⟨(hP i).mpr h1, fun j hj => ?_⟩
    rw [hf i h1, hf j ((hP j).mp hj)]
    exact h2 j ((hP j).mp hj)

namespace OneMoreTrack
variable (H : OneMoreTrack inp inp' t0)
include H

theorem muMatch (m : Fin NM) (t : Fin NT) : MuMatch inp' m t ↔ MuMatch inp m t := by
  unfold MuMatch
  rw [H.mu]
  refine and_congr_right fun hp => firstMin_same (fun j => ?_) (fun j hj => ?_) t
  · by_cases e : j = t0
    · subst e
      refine iff_of_false (by have := H.noMuon m; rwa [H.mu] at this) fun h => ?_
      have h2 := h.2
      unfold muDpt at h2
      rw [H.freePt] at h2
      omega
    · unfold muDist2 muDpt
      rw [H.others j e, H.mu]
  · by_cases e : j = t0
    · subst e
      have h2 := hj.2
      unfold muDpt at h2
      rw [H.freePt] at h2
      omega
    · unfold muDpt
      rw [H.others j e, H.mu]

theorem isMu (t : Fin NT) : IsMu inp' t ↔ IsMu inp t := exists_congr fun m => H.muMatch m t

theorem not_isMu : ¬ IsMu inp' t0 := by
  rintro ⟨m, -, h, -⟩
  exact H.noMuon m h

theorem emMatch {t : Fin NT} (ht : t ≠ t0) (c : Fin NE) : EmMatch inp' t c ↔ EmMatch inp t c := by
  unfold EmMatch tkEmDist2
  rw [H.isMu, H.others t ht, H.em]

theorem not_emMatch (c : Fin NE) : ¬ EmMatch inp' t0 c := fun h => by
  have := H.noEm c
  have := h.2.1
  omega

theorem emTrackPt (c : Fin NE) : Spec.emTrackPt inp' c = Spec.emTrackPt inp c := by
  unfold Spec.emTrackPt
  refine Finset.sum_congr rfl fun t _ => ?_
  by_cases e : t = t0
  · subst e
    rw [if_neg (H.not_emMatch c), H.freePt]
    split <;> rfl
  · rw [H.others t e]
    simp only [H.emMatch e]

theorem isEM (c : Fin NE) : IsEM inp' c ↔ IsEM inp c := by
  unfold IsEM emDiff emErr2
  rw [H.emTrackPt, H.em]

theorem photonPt (c : Fin NE) : Spec.photonPt inp' c = Spec.photonPt inp c := by
  unfold Spec.photonPt emDiff emErr2
  rw [H.emTrackPt, H.em]

theorem isEle {t : Fin NT} (ht : t ≠ t0) : IsEle inp' t ↔ IsEle inp t :=
  exists_congr fun c => and_congr (H.emMatch ht c) (H.isEM c)

theorem not_isEle : ¬ IsEle inp' t0 := fun ⟨c, h, _⟩ => H.not_emMatch c h

theorem hadMatch (e : Fin NE) (h : Fin NC) : HadMatch inp' e h ↔ HadMatch inp e h := by
  unfold HadMatch emHadDist2
  rw [H.em, H.had]

theorem emSub (h : Fin NC) : Spec.emSub inp' h = Spec.emSub inp h := by
  unfold Spec.emSub
  simp only [H.hadMatch, H.isEM, H.em]

theorem hadPt (h : Fin NC) : Spec.hadPt inp' v h = Spec.hadPt inp v h := by
  have : Removed inp' v h ↔ Removed inp v h := by
    unfold Removed HasHadronicEM
    simp only [H.emSub, H.had, H.hadMatch, H.isEM]
  unfold Spec.hadPt
  simp only [this, H.emSub, H.had]

theorem caloMatch {t : Fin NT} (ht : t ≠ t0) (h : Fin NC) : CaloMatch inp' v t h ↔ CaloMatch inp v t h := by
  unfold CaloMatch
  refine firstMin_same (fun j => ?_) (fun j _ => ?_) h
  · unfold Compatible tkHadDist2
    rw [H.others t ht, H.hadPt, H.had]
  · unfold metric tkHadDist2
    rw [H.others t ht, H.hadPt, H.had]

theorem hadronLink {t : Fin NT} (ht : t ≠ t0) (h : Fin NC) : HadronLink inp' v t h ↔ HadronLink inp v t h := by
  unfold HadronLink
  rw [H.caloMatch ht, H.isEle ht, H.isMu]

theorem hadronLink_new (h : Fin NC) : HadronLink inp' v t0 h ↔ CaloMatch inp' v t0 h :=
  ⟨fun hl => hl.1, fun hc => ⟨hc, H.not_isEle, H.not_isMu⟩⟩

/-- A sum over the linked tracks grows by what the new track contributes. -/
theorem sum_links (f : TkObj → Int) (h0 : f (inp.track t0) = 0) (h : Fin NC) :
    (∑ t, if HadronLink inp' v t h then f (inp'.track t) else 0) =
      (∑ t, if HadronLink inp v t h then f (inp.track t) else 0) + if CaloMatch inp' v t0 h then f (inp'.track t0) else 0 := by
  rw [← Finset.add_sum_erase _ _ (Finset.mem_univ t0), ← Finset.add_sum_erase (a := t0) (f := fun t => if HadronLink inp v t h then f (inp.track t) else 0) _ (Finset.mem_univ t0)]
  have e : (if HadronLink inp v t0 h then f (inp.track t0) else 0) = 0 := by rw [h0]; split <;> rfl
  have e2 : (∑ t ∈ Finset.univ.erase t0, if HadronLink inp' v t h then f (inp'.track t) else 0) =
      ∑ t ∈ Finset.univ.erase t0, if HadronLink inp v t h then f (inp.track t) else 0 := by
    refine Finset.sum_congr rfl fun t ht => ?_
    have ht' := Finset.ne_of_mem_erase ht
    rw [H.others t ht']
    simp only [H.hadronLink ht']
  rw [e, e2]
  simp only [H.hadronLink_new]
  omega

theorem caloTrackPt (h : Fin NC) : Spec.caloTrackPt inp' v h = Spec.caloTrackPt inp v h +
    if CaloMatch inp' v t0 h then (inp'.track t0).hwPt.toInt else 0 :=
  H.sum_links (fun t => t.hwPt.toInt) H.freePt h

theorem caloTrackErr2 (h : Fin NC) : Spec.caloTrackErr2 inp' v h = Spec.caloTrackErr2 inp v h +
    if CaloMatch inp' v t0 h then (inp'.track t0).hwPtErr.toInt ^ 2 else 0 :=
  H.sum_links (fun t => t.hwPtErr.toInt ^ 2) (by show _ ^ 2 = _; rw [H.freeErr]; rfl) h

theorem neutralPt_eq {h : Fin NC} (hn : ¬ CaloMatch inp' v t0 h) : Spec.neutralPt inp' v h = Spec.neutralPt inp v h := by
  unfold Spec.neutralPt caloDiff
  rw [H.caloTrackPt, H.caloTrackErr2, if_neg hn, if_neg hn, H.hadPt, add_zero, add_zero]

theorem trackPt_nonneg (hp : ∀ t, 0 ≤ (inp'.track t).hwPt.toInt) (t : Fin NT) : 0 ≤ (inp.track t).hwPt.toInt := by
  by_cases e : t = t0
  · rw [e, H.freePt]
  · rw [← H.others t e]
    exact hp t

theorem neutralPt_le (hp : ∀ t, 0 ≤ (inp'.track t).hwPt.toInt) (h : Fin NC) (hh : 0 ≤ Spec.hadPt inp v h) :
    Spec.neutralPt inp' v h ≤ Spec.neutralPt inp v h := by
  by_cases hc : CaloMatch inp' v t0 h
  · have hS : 0 ≤ Spec.caloTrackPt inp v h := Finset.sum_nonneg fun t _ => by
      split
      · exact H.trackPt_nonneg hp t
      · exact le_refl _
    have p0 := hp t0
    have e0 := sq_nonneg (inp'.track t0).hwPtErr.toInt
    unfold Spec.neutralPt caloDiff
    rw [H.caloTrackPt, H.caloTrackErr2, if_pos hc, if_pos hc, H.hadPt]
    generalize Spec.hadPt inp v h = A at *
    generalize Spec.caloTrackPt inp v h = S at *
    generalize Spec.caloTrackErr2 inp v h = E at *
    generalize (inp'.track t0).hwPt.toInt = p at *
    generalize (inp'.track t0).hwPtErr.toInt ^ 2 = e at *
    by_cases h1 : S = 0
    · rw [if_pos h1]
      split
      · exact le_refl _
      · split
        · omega
        · exact hh
    · rw [if_neg h1, if_neg (by omega)]
      by_cases h2 : 0 < A - (S + p) ∧ 3 * (E + e) < 2 * (A - (S + p)) ^ 2
      · rw [if_pos h2, if_pos ⟨by omega, by nlinarith [h2.1, h2.2]⟩]
        omega
      · rw [if_neg h2]
        split
        · omega
        · exact le_refl _
  · exact le_of_eq (H.neutralPt_eq hc)

theorem kept {t : Fin NT} (ht : t ≠ t0) : Kept inp' v t ↔ Kept inp v t := by
  unfold Kept lowPt
  simp only [H.isMu, H.isEle ht, H.others t ht, H.caloMatch ht]

theorem chargedOut {t : Fin NT} (ht : t ≠ t0) : Spec.chargedOut inp' v t = Spec.chargedOut inp v t := by
  unfold Spec.chargedOut
  simp only [H.kept ht, H.isMu, H.isEle ht, H.others t ht]

theorem chargedOut_new : Spec.chargedOut inp' v t0 = if lowPt inp' t0 ∨ ∃ h, CaloMatch inp' v t0 h then
    { hwPt := (inp'.track t0).hwPt, hwEta := (inp'.track t0).hwEta, hwPhi := (inp'.track t0).hwPhi, hwId := 0, hwZ0 := (inp'.track t0).hwZ0 }
    else { hwPt := 0, hwEta := 0, hwPhi := 0, hwId := 0, hwZ0 := 0 } := by
  unfold Spec.chargedOut
  rw [if_neg H.not_isEle, if_neg H.not_isMu]
  have : Kept inp' v t0 ↔ (lowPt inp' t0 ∨ ∃ h, CaloMatch inp' v t0 h) := by
    unfold Kept
    exact ⟨fun h => h.resolve_left H.not_isMu |>.resolve_left H.not_isEle, fun h => .inr (.inr h)⟩
  simp only [this]

theorem muOut {m : Fin NM} {o o' : PFChargedObj} (h : MuOut inp m o) (h' : MuOut inp' m o') : o' = o := by
  by_cases he : ∃ t, MuMatch inp m t
  · obtain ⟨t, ht⟩ := he
    have ne : t ≠ t0 := by
      rintro rfl
      exact H.noMuon m ((H.muMatch m t).mpr ht).2.1
    rw [h.1 t ht, h'.1 t ((H.muMatch m t).mpr ht), H.others t ne]
  · rw [h.2 he, h'.2 fun ⟨t, ht⟩ => he ⟨t, (H.muMatch m t).mp ht⟩]

/-- If the event with the track is within the limits, so is the event without. -/
theorem valid (hv : Valid inp' v) : Valid inp v where
  trackPt := H.trackPt_nonneg hv.trackPt
  trackErr t := by
    by_cases e : t = t0
    · rw [e, H.freeErr]
    · rw [← H.others t e]
      exact hv.trackErr t
  window t := by
    by_cases e : t = t0
    · rw [e, H.freeErr, H.freePt]
      decide
    · rw [← H.others t e]
      exact hv.window t
  emPt := H.em ▸ hv.emPt
  hadPt := H.had ▸ hv.hadPt
  hadEmPt := H.had ▸ hv.hadEmPt
  emSum c := by rw [← H.emTrackPt]; exact hv.emSum c
  subSum h := by rw [← H.emSub]; exact hv.subSum h
  hadSum h := by
    have a := hv.hadSum h
    have b := hv.trackPt t0
    rw [H.caloTrackPt] at a
    split at a <;> omega
  emErr c := by
    have := hv.emErr c
    rw [H.emTrackPt] at this
    unfold emErr2 at this ⊢
    rwa [H.em] at this
  hadErr h := by
    have a := hv.hadErr h
    have b := sq_nonneg (inp'.track t0).hwPtErr.toInt
    rw [H.caloTrackErr2] at a
    split at a <;> omega

theorem noGhosts : OneMoreTrack (Spec.noGhosts inp) (Spec.noGhosts inp') t0 where
  had := H.had
  em := H.em
  mu := H.mu
  others t ht := by
    unfold Spec.noGhosts
    simp only [H.others t ht]
  freePt := H.freePt
  freeErr := by
    unfold Spec.noGhosts
    dsimp only
    split
    · exact H.freeErr
    · rfl
  noMuon := H.noMuon
  noEm := H.noEm

end OneMoreTrack

/-! ### Smaller candidates rank lower -/

/-- In a descending list the `k`-th is at least `x` if and only if more than `k` are. -/
theorem le_getElem_iff_countP {l : List Int} (hl : l.Pairwise fun a b => b ≤ a) (x : Int) :
    ∀ k, (∃ h : k < l.length, x ≤ l[k]) ↔ k < l.countP fun y => decide (x ≤ y) := by
  induction l with
  | nil => simp
  | cons a l ih =>
    intro k
    have hl' := List.pairwise_cons.mp hl
    by_cases hx : x ≤ a
    · rw [List.countP_cons_of_pos (by simpa using hx)]
      cases k with
      | zero => simp [hx]
      | succ k =>
        have := ih hl'.2 k
        simp only [List.length_cons, List.getElem_cons_succ, Nat.add_lt_add_iff_right]
        exact this
    · have hz : (a :: l).countP (fun y => decide (x ≤ y)) = 0 := by
        rw [List.countP_eq_zero]
        intro y hy
        rcases List.mem_cons.mp hy with rfl | hy
        · simpa using hx
        · have := hl'.1 y hy
          simp only [decide_eq_true_eq]
          omega
      rw [hz]
      refine iff_of_false ?_ (by omega)
      rintro ⟨hk, h⟩
      have hm : (a :: l)[k] ∈ a :: l := List.getElem_mem hk
      rcases List.mem_cons.mp hm with e | e
      · omega
      · have := hl'.1 _ e
        omega


theorem neutralsByPt_desc {n : Nat} (s : Fin n → Seen) : ((neutralsByPt s).map Prod.fst).Pairwise fun a b => b ≤ a := by
  rw [List.pairwise_map]
  have tr : IsTrans Seen (fun a b => b.1 ≤ a.1) := ⟨fun _ _ _ h1 h2 => Int.le_trans h2 h1⟩
  have tt : Std.Total (fun a b : Seen => b.1 ≤ a.1) := ⟨fun a b => Int.le_total _ _⟩
  exact List.pairwise_insertionSort _ _

theorem neutralsByPt_count {n : Nat} (s : Fin n → Seen) {x : Int} (hx : 0 < x) :
    ((neutralsByPt s).map Prod.fst).countP (fun y => decide (x ≤ y)) = (List.finRange n).countP fun h => decide (x ≤ (s h).1) := by
  unfold neutralsByPt
  rw [List.countP_map, (List.perm_insertionSort _ _).countP_eq, List.countP_filter, (List.reverse_perm _).countP_eq, List.ofFn_eq_map,
    List.countP_map]
  refine List.countP_congr fun h _ => ?_
  simp only [Function.comp_apply, Bool.and_eq_true, decide_eq_true_eq]
  omega

/-- If every candidate has at most the pt it had, so has every place of the list. -/
theorem fit_le {n : Nat} {s s' : Fin n → Seen} (h0 : ∀ h, 0 ≤ (s h).1) (hle : ∀ h, (s' h).1 ≤ (s h).1) (N k : Nat)
    (hk : k < (fit N (neutralsByPt s')).length) (hk' : k < (fit N (neutralsByPt s)).length) :
    (fit N (neutralsByPt s'))[k].1 ≤ (fit N (neutralsByPt s))[k].1 := by
  have hmem : ∀ (s : Fin n → Seen) {k : Nat} (h : k < (neutralsByPt s).length), ∃ i, (neutralsByPt s)[k] = s i := by
    intro s k h
    have m := List.getElem_mem h
    have m2 := (List.mem_insertionSort _).mp m
    have m3 := List.mem_reverse.mp (List.mem_filter.mp m2).1
    obtain ⟨i, hi⟩ := (List.mem_ofFn' _ _).mp m3
    exact ⟨i, hi.symm⟩
  unfold fit at hk hk' ⊢
  rw [List.getElem_take, List.getElem_take]
  have nn : 0 ≤ ((neutralsByPt s ++ List.replicate N ((0, 0, 0, 0) : Seen))[k]'(by
      rw [List.length_take] at hk'; omega)).1 := by
    rw [List.getElem_append]
    split
    · rename_i h
      obtain ⟨i, hi⟩ := hmem s h
      rw [hi]
      exact h0 i
    · rw [List.getElem_replicate]
  by_cases hp : 0 < ((neutralsByPt s' ++ List.replicate N ((0, 0, 0, 0) : Seen))[k]'(by
      rw [List.length_take] at hk; omega)).1
  · have hl : k < (neutralsByPt s').length := by
      by_contra hl
      rw [List.getElem_append_right (by omega), List.getElem_replicate] at hp
      exact absurd hp (by decide)
    rw [List.getElem_append_left hl] at hp ⊢
    have a := (le_getElem_iff_countP (neutralsByPt_desc s') (neutralsByPt s')[k].1 k).mp
      ⟨by rw [List.length_map]; exact hl, by rw [List.getElem_map]⟩
    rw [neutralsByPt_count _ hp] at a
    have b := Nat.lt_of_lt_of_le a (List.countP_mono_left (q := fun h => decide ((neutralsByPt s')[k].1 ≤ (s h).1)) fun h _ e => by
      have := hle h
      simp only [decide_eq_true_eq] at e ⊢
      omega)
    rw [← neutralsByPt_count _ hp] at b
    obtain ⟨h1, h2⟩ := (le_getElem_iff_countP (neutralsByPt_desc s) _ k).mpr b
    rw [List.length_map] at h1
    rw [List.getElem_append_left h1]
    rwa [List.getElem_map] at h2
  · omega

end Verif.Spec
