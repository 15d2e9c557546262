import Verif.Proofs.PFDefined
import Verif.Props.PFAgree
/-! # Exactly when PF has undefined behaviour: property C01, firmware and reference -/
open scoped BigOperators
namespace Verif
open Spec
variable {NT NC NE NM NS : Nat}

/-- **C01.** On a sane event the firmware has no undefined behaviour exactly when the squared errors it computes fit an
`int`, and so do one and a half times those of the tracks of a calorimeter cluster with an excess over its tracks. -/
theorem C01_defined_iff (inp : PFInputs NT NC NE NM) (old : PFOutputs NT NE NS NM) (mem : PFScratch NC NS)
    (hs : Sane inp fwVariant) :
    (∃ out, pfalgo3_full inp old mem = .ok out) ↔ ErrorsFit inp fwVariant ∧
      ∀ h, caloTrackPt inp fwVariant h ≠ 0 → 0 < caloDiff inp fwVariant h →
        3 * caloTrackErr2 inp fwVariant h / 2 ≤ 2147483647 := by
  have e : ∀ x : Int, 3 * x / 2 ≤ 2147483647 ↔ 3 * x ≤ 4294967295 := by intro x; omega
  simp only [e]
  constructor
  · rintro ⟨out, hok⟩
    exact fw_defined_conv hs hok
  · rintro ⟨⟨h1, h2⟩, h3⟩
    obtain ⟨out, _, hok, _⟩ := fw_meets_spec_of inp old mem hs h1 h2 h3
    exact ⟨out, hok⟩

/-- **C01.** On a sane event the reference has no undefined behaviour exactly when the squared errors fit an `int`, and
so do one and a half times those of the tracks of any calorimeter cluster with tracks; empty track slots do not count. -/
theorem C01_ref_defined_iff (inp : PFInputs NT NC NE NM) (old : PFOutputs NT NE NS NM) (mem : Arr NC PFNeutralObj)
    (hs : Sane inp refVariant) :
    (∃ out, pfalgo3_full_ref inp old mem = .ok out) ↔ ErrorsFit (noGhosts inp) refVariant ∧
      ∀ h, caloTrackPt inp refVariant h ≠ 0 → 3 * caloTrackErr2 (noGhosts inp) refVariant h / 2 ≤ 2147483647 := by
  have e : ∀ x : Int, 3 * x / 2 ≤ 2147483647 ↔ 3 * x ≤ 4294967295 := by intro x; omega
  simp only [e, ← caloTrackPt_noGhosts hs]
  have hempty : ∀ t, ((noGhosts inp).track t).hwPt.toInt = 0 → ((noGhosts inp).track t).hwPtErr.toInt = 0 := by
    intro t z
    have z' : (inp.track t).hwPt.toInt = 0 := z
    rw [noGhosts_err_zero z']; rfl
  rw [ref_noGhosts]
  constructor
  · rintro ⟨out, hok⟩
    exact ref_defined_conv (sane_noGhosts hs) hempty hok
  · rintro ⟨⟨h1, h2⟩, h3⟩
    obtain ⟨out, _, hok, _⟩ := ref_meets_spec_of (noGhosts inp) old mem (sane_noGhosts hs) h1 h2 h3 hempty
    exact ⟨out, hok⟩

/-- **C01.** A sane event is never silently wrong: where the firmware has no undefined behaviour, every output is as
specified. -/
theorem C01_defined_correct (inp : PFInputs NT NC NE NM) (old : PFOutputs NT NE NS NM) (mem : PFScratch NC NS)
    (hs : Sane inp fwVariant) {out : PFOutputs NT NE NS NM} (hok : pfalgo3_full inp old mem = .ok out) :
    ∃ ne : Arr NC PFNeutralObj,
      (∀ t, out.outch t = chargedOut inp fwVariant t) ∧
      (∀ c, NeutralOut (photonPt inp c) (inp.emcalo c).hwEta (inp.emcalo c).hwPhi 2 (out.outpho c)) ∧
      (∀ m, MuOut inp m (out.outmu m)) ∧
      (∀ h, NeutralOut (neutralPt inp fwVariant h) (inp.hadcalo h).hwEta (inp.hadcalo h).hwPhi 1 (ne h)) ∧
      TopN key (List.ofFn ne ++ List.ofFn (zeros mem.tmp)) (List.ofFn out.outne) := by
  obtain ⟨⟨h1, h2⟩, h3⟩ := fw_defined_conv hs hok
  obtain ⟨out', ne, hok', a, b, c, d, e⟩ := fw_meets_spec_of inp old mem hs h1 h2 h3
  rw [hok] at hok'
  injection hok' with hok'
  subst hok'
  exact ⟨ne, a, fun c => (b c).1, c, fun h => (d h).1, e ▸ hwopt_topN_zeros mem.tmp ne⟩

/-- **C01.** The same of the reference. -/
theorem C01_ref_defined_correct (inp : PFInputs NT NC NE NM) (old : PFOutputs NT NE NS NM) (mem : Arr NC PFNeutralObj)
    (hs : Sane inp refVariant) {out : PFOutputs NT NE NS NM} (hok : pfalgo3_full_ref inp old mem = .ok out) :
    ∃ ne : Arr NC PFNeutralObj,
      (∀ t, 0 < (inp.track t).hwPt.toInt → out.outch t = chargedOut inp refVariant t) ∧
      (∀ t, (inp.track t).hwPt.toInt = 0 → (out.outch t).hwPt = 0) ∧
      (∀ c, NeutralOut (photonPt inp c) (inp.emcalo c).hwEta (inp.emcalo c).hwPhi 2 (out.outpho c)) ∧
      (∀ m, MuOut inp m (out.outmu m)) ∧
      (∀ h, NeutralOut (neutralPt (noGhosts inp) refVariant h) (inp.hadcalo h).hwEta (inp.hadcalo h).hwPhi 1 (ne h)) ∧
      TopN key (List.ofFn ne ++ List.ofFn (zeros (fun i =>
        { old.outne i with hwPt := 0, hwEta := 0, hwPhi := 0, hwId := 0 }))) (List.ofFn out.outne) := by
  have hempty : ∀ t, ((noGhosts inp).track t).hwPt.toInt = 0 → ((noGhosts inp).track t).hwPtErr.toInt = 0 := by
    intro t z
    have z' : (inp.track t).hwPt.toInt = 0 := z
    rw [noGhosts_err_zero z']; rfl
  rw [ref_noGhosts] at hok
  obtain ⟨⟨h1, h2⟩, h3⟩ := ref_defined_conv (sane_noGhosts hs) hempty hok
  obtain ⟨out', ne, hok', a, a', b, c, d, e⟩ := ref_meets_spec_of (noGhosts inp) old mem (sane_noGhosts hs) h1 h2 h3 hempty
  rw [hok] at hok'
  injection hok' with hok'
  subst hok'
  refine ⟨ne, fun t z => by rw [a t z, chargedOut_noGhosts hs], a', b, c, d, ?_⟩
  rw [e, ← ptsort_eq]
  exact hwopt_topN_zeros _ ne

/-- Four tracks of pt 5070 and pt error 18919 on a calorimeter cluster of pt 100. -/
def deficitEvent : PFInputs 4 1 0 0 where
  emcalo := fun i => i.elim0
  hadcalo := fun _ => ⟨100, 0, 0, 0, false⟩
  track := fun _ => ⟨5070, 18919, 0, 0, 0, false⟩
  mu := fun i => i.elim0

open Classical in
theorem deficitEvent_sane (v : Variant) : Sane deficitEvent v where
  trackPt := by decide
  trackErr := by decide
  window := by decide
  emPt := by decide
  hadPt := by decide
  hadEmPt := by decide
  emSum := fun c => c.elim0
  subSum := fun h => by decide +revert
  hadSum := fun h => le_trans (sum_ite_le _ _ (by decide)) (by decide)

/-- **C01.** The two conditions differ: on this sane event (a cluster with less pt than its tracks) the reference
computes a limit that overflows, the firmware does not compute it. -/
theorem C01_ref_overflows_where_firmware_does_not :
    pfalgo3_full_ref deficitEvent (old0 4 0 1 0) (mem0 1 1).outne_all = .error .intOverflow ∧
    (pfalgo3_full deficitEvent (old0 4 0 1 0) (mem0 1 1)).map (fun o => ((o.outch 0).hwPt, (o.outne 0).hwPt)) = .ok (5070, 0) :=
  ⟨Run.eq_error_of_fault (by decide +kernel), by decide +kernel⟩

/-- Non-vacuity: sane events on which both implementations, or only one, are defined. -/
example : Sane ordinary fwVariant ∧ Sane ordinary refVariant ∧ Sane deficitEvent fwVariant ∧ Sane deficitEvent refVariant :=
  ⟨(physical_valid _ ordinary_physical _).toSane, (physical_valid _ ordinary_physical _).toSane, deficitEvent_sane _, deficitEvent_sane _⟩

end Verif
