import Verif.Spec.PFGhosts
import Verif.Proofs.PFReference
/-! # The reference PF and the errors of empty track slots -/
open Classical
open scoped BigOperators
namespace Verif
open Spec
variable {NT NC NE NM NS : Nat}

theorem noGhosts_err_pos {inp : PFInputs NT NC NE NM} {t : Fin NT} (h : 0 < (inp.track t).hwPt.toInt) :
    (noGhosts inp).track t = inp.track t := by
  show ({ inp.track t with hwPtErr := if 0 < (inp.track t).hwPt.toInt then (inp.track t).hwPtErr else 0 } : TkObj) = _
  rw [if_pos h]

theorem noGhosts_err_zero {inp : PFInputs NT NC NE NM} {t : Fin NT} (h : (inp.track t).hwPt.toInt = 0) :
    ((noGhosts inp).track t).hwPtErr = 0 := by
  show (if 0 < (inp.track t).hwPt.toInt then (inp.track t).hwPtErr else 0) = 0
  rw [if_neg (by omega)]

/-- An event whose empty slots are clean is left alone. -/
theorem noGhosts_id {inp : PFInputs NT NC NE NM} (h0 : ∀ t, 0 ≤ (inp.track t).hwPt.toInt)
    (h : ∀ t, (inp.track t).hwPt.toInt = 0 → (inp.track t).hwPtErr.toInt = 0) : noGhosts inp = inp := by
  have : (noGhosts inp).track = inp.track := by
    funext t
    rcases eq_or_lt_of_le (h0 t) with z | z
    · have e : (inp.track t).hwPtErr = 0 := BitVec.eq_of_toInt_eq (by rw [h t z.symm]; rfl)
      show ({ inp.track t with hwPtErr := if 0 < (inp.track t).hwPt.toInt then (inp.track t).hwPtErr else 0 } : TkObj) = _
      rw [e, ite_self, ← e]
    · exact noGhosts_err_pos z
  cases inp
  simp only [noGhosts] at this ⊢
  rw [this]

theorem tkhad_noGhosts (inp : PFInputs NT NC NE NM) (calo : Arr NC HadCaloObj) (isEle isMu good : Arr NT Bool) :
    tkhad_ref calo inp.track isEle isMu good = tkhad_ref calo (noGhosts inp).track isEle isMu good := by
  unfold tkhad_ref
  congr 1
  funext it s
  by_cases h : 0 < (inp.track it).hwPt.toInt
  · rw [noGhosts_err_pos h]
  · rw [if_neg (fun hh => h hh.1), if_neg (fun hh => h hh.1)]

/-- The reference never looks at the pt error of an empty track slot: on every event whatever, the result
(candidates or undefined behaviour) is that on the event with those errors cleared. -/
theorem ref_noGhosts (inp : PFInputs NT NC NE NM) (old : PFOutputs NT NE NS NM) (mem : Arr NC PFNeutralObj) :
    pfalgo3_full_ref inp old mem = pfalgo3_full_ref (noGhosts inp) old mem := by
  unfold pfalgo3_full_ref
  simp only [tkhad_noGhosts inp]
  rfl

/-- The links of an event do not depend on the errors of empty slots. -/
theorem caloMatch_noGhosts {inp : PFInputs NT NC NE NM} {v : Variant} (hpt : ∀ t, 0 ≤ (inp.track t).hwPt.toInt)
    (herr : ∀ t, 0 ≤ (inp.track t).hwPtErr.toInt) (hhad : ∀ h, 0 ≤ hadPt inp v h) (t : Fin NT) (h : Fin NC) :
    CaloMatch (noGhosts inp) v t h ↔ CaloMatch inp v t h := by
  rcases eq_or_lt_of_le (hpt t) with z | z
  · have e1 : Compatible (noGhosts inp) v t = Compatible inp v t := by
      funext h
      show (max 0 ((inp.track t).hwPt.toInt - 2 * ((noGhosts inp).track t).hwPtErr.toInt) < hadPt inp v h ∧
        tkHadDist2 inp t h < 756) = _
      unfold Compatible
      have := herr t
      rw [noGhosts_err_zero z.symm, ← z, max_eq_left (by decide), max_eq_left (by omega)]
    have e2 : metric (noGhosts inp) v t = metric inp v t := by
      funext h
      show tkHadDist2 inp t h + (max 0 ((inp.track t).hwPt.toInt - hadPt inp v h)) ^ 2 *
        v.scale ((noGhosts inp).track t).hwPtErr.toInt / 256 = _
      unfold metric
      have := hhad h
      rw [← z, max_eq_left (by omega)]
      simp
    unfold CaloMatch
    rw [e1, e2]
  · have e1 : Compatible (noGhosts inp) v t = Compatible inp v t := by
      funext h
      show (max 0 ((inp.track t).hwPt.toInt - 2 * ((noGhosts inp).track t).hwPtErr.toInt) < hadPt inp v h ∧
        tkHadDist2 inp t h < 756) = _
      rw [noGhosts_err_pos z]
      rfl
    have e2 : metric (noGhosts inp) v t = metric inp v t := by
      funext h
      show tkHadDist2 inp t h + (max 0 ((inp.track t).hwPt.toInt - hadPt inp v h)) ^ 2 *
        v.scale ((noGhosts inp).track t).hwPtErr.toInt / 256 = _
      rw [noGhosts_err_pos z]
      rfl
    unfold CaloMatch
    rw [e1, e2]

theorem hadronLink_noGhosts {inp : PFInputs NT NC NE NM} {v : Variant} (hv : Sane inp v) (t : Fin NT) (h : Fin NC) :
    HadronLink (noGhosts inp) v t h ↔ HadronLink inp v t h :=
  and_congr_left' (caloMatch_noGhosts hv.trackPt hv.trackErr (fun h => (hadPt_range hv h).1) t h)

theorem kept_noGhosts {inp : PFInputs NT NC NE NM} {v : Variant} (hv : Sane inp v) (t : Fin NT) :
    Kept (noGhosts inp) v t ↔ Kept inp v t :=
  or_congr Iff.rfl (or_congr Iff.rfl (or_congr Iff.rfl (exists_congr fun h =>
    caloMatch_noGhosts hv.trackPt hv.trackErr (fun h => (hadPt_range hv h).1) t h)))

theorem chargedOut_noGhosts {inp : PFInputs NT NC NE NM} {v : Variant} (hv : Sane inp v) (t : Fin NT) :
    chargedOut (noGhosts inp) v t = chargedOut inp v t := by
  unfold chargedOut
  by_cases k : Kept inp v t
  · rw [if_pos k, if_pos ((kept_noGhosts hv t).mpr k)]
    rfl
  · rw [if_neg k, if_neg (fun h => k ((kept_noGhosts hv t).mp h))]

theorem caloTrackPt_noGhosts {inp : PFInputs NT NC NE NM} {v : Variant} (hv : Sane inp v) (h : Fin NC) :
    caloTrackPt (noGhosts inp) v h = caloTrackPt inp v h := by
  unfold caloTrackPt
  refine Finset.sum_congr rfl fun t _ => ?_
  by_cases k : HadronLink inp v t h
  · rw [if_pos k, if_pos ((hadronLink_noGhosts hv t h).mpr k)]
    rfl
  · rw [if_neg k, if_neg (fun hh => k ((hadronLink_noGhosts hv t h).mp hh))]

theorem caloTrackErr2_noGhosts {inp : PFInputs NT NC NE NM} {v : Variant} (hv : Sane inp v) (h : Fin NC) :
    caloTrackErr2 (noGhosts inp) v h ≤ caloTrackErr2 inp v h := by
  unfold caloTrackErr2
  refine Finset.sum_le_sum fun t _ => ?_
  by_cases k : HadronLink inp v t h
  · rw [if_pos k, if_pos ((hadronLink_noGhosts hv t h).mpr k)]
    rcases eq_or_lt_of_le (hv.trackPt t) with z | z
    · rw [noGhosts_err_zero z.symm]
      exact sq_nonneg _
    · rw [noGhosts_err_pos z]
  · rw [if_neg k, if_neg (fun hh => k ((hadronLink_noGhosts hv t h).mp hh))]

theorem sane_noGhosts {inp : PFInputs NT NC NE NM} {v : Variant} (hv : Sane inp v) : Sane (noGhosts inp) v where
  trackPt := hv.trackPt
  trackErr := fun t => by
    rcases eq_or_lt_of_le (hv.trackPt t) with z | z
    · rw [noGhosts_err_zero z.symm]; decide
    · rw [noGhosts_err_pos z]; exact hv.trackErr t
  window := fun t => by
    rcases eq_or_lt_of_le (hv.trackPt t) with z | z
    · rw [noGhosts_err_zero z.symm]
      show -32768 ≤ (inp.track t).hwPt.toInt - _
      rw [← z]; decide
    · rw [noGhosts_err_pos z]; exact hv.window t
  emPt := hv.emPt
  hadPt := hv.hadPt
  hadEmPt := hv.hadEmPt
  emSum := hv.emSum
  subSum := hv.subSum
  hadSum := fun h => by rw [caloTrackPt_noGhosts hv]; exact hv.hadSum h

theorem valid_noGhosts {inp : PFInputs NT NC NE NM} {v : Variant} (hv : Valid inp v) : Valid (noGhosts inp) v where
  toSane := sane_noGhosts hv.toSane
  emErr := hv.emErr
  hadErr := fun h => le_trans (by have := caloTrackErr2_noGhosts hv.toSane h; omega) (hv.hadErr h)

/-- `ref_meets_spec` whatever the empty slots hold. -/
theorem ref_meets_spec_all (inp : PFInputs NT NC NE NM) (old : PFOutputs NT NE NS NM)
    (mem : Arr NC PFNeutralObj) (hv : Valid inp refVariant) :
    ∃ out ne, pfalgo3_full_ref inp old mem = .ok out ∧
      (∀ t, 0 < (inp.track t).hwPt.toInt → out.outch t = chargedOut inp refVariant t) ∧
      (∀ t, (inp.track t).hwPt.toInt = 0 → (out.outch t).hwPt = 0) ∧
      (∀ c, NeutralOut (photonPt inp c) (inp.emcalo c).hwEta (inp.emcalo c).hwPhi 2 (out.outpho c)) ∧
      (∀ m, MuOut inp m (out.outmu m)) ∧
      (∀ h, NeutralOut (neutralPt (noGhosts inp) refVariant h) (inp.hadcalo h).hwEta (inp.hadcalo h).hwPhi 1 (ne h)) ∧
      out.outne = ptsort_ref (fun i => { old.outne i with hwPt := 0, hwEta := 0, hwPhi := 0, hwId := 0 }) ne := by
  obtain ⟨out, ne, h1, h2, h3, h4, h5, h6, h7⟩ := ref_meets_spec (noGhosts inp) old mem (valid_noGhosts hv)
    (fun t z => by
      have z' : (inp.track t).hwPt.toInt = 0 := z
      rw [noGhosts_err_zero z']; rfl)
  rw [← ref_noGhosts] at h1
  exact ⟨out, ne, h1, fun t z => by rw [h2 t z, chargedOut_noGhosts hv.toSane], h3, h4, h5, h6, h7⟩

end Verif
