import Verif.Props.Detector
/-! # C71 — the declared size of a region in eta -/
namespace Verif
open Spec

/-- **C71.** The areas of the declared size in eta are disjoint and together they are exactly the part of the detector below 256 units
(1.12), out of 342 (1.5). -/
theorem C71_declared_eta (eta : Int) :
    ((∃ ie, -ETA_FID_SIZE ≤ 2 * (eta - etaC ie) ∧ 2 * (eta - etaC ie) ≤ ETA_FID_SIZE) ↔ -256 ≤ eta ∧ eta ≤ 256) ∧
    ∀ ie je, (-ETA_FID_SIZE ≤ 2 * (eta - etaC ie) ∧ 2 * (eta - etaC ie) ≤ ETA_FID_SIZE) → (-ETA_FID_SIZE ≤ 2 * (eta - etaC je) ∧ 2 * (eta - etaC je) ≤ ETA_FID_SIZE) → ie = je := by
  have e : ETA_FID_SIZE = 171 := by decide
  have c : etaC 0 = -171 ∧ etaC 1 = 0 ∧ etaC 2 = 171 := by decide
  obtain ⟨c0, c1, c2⟩ := c
  have three : ∀ i : Fin 3, i = 0 ∨ i = 1 ∨ i = 2 := by decide
  rw [e]
  constructor
  · constructor
    · rintro ⟨ie, h⟩
      rcases three ie with rfl | rfl | rfl <;> simp only [c0, c1, c2] at h <;> omega
    · rintro ⟨h1, h2⟩
      by_cases a : eta < -85
      · exact ⟨0, by rw [c0]; omega⟩
      · by_cases b : eta ≤ 85
        · exact ⟨1, by rw [c1]; omega⟩
        · exact ⟨2, by rw [c2]; omega⟩
  · intro ie je h h'
    rcases three ie with rfl | rfl | rfl <;> rcases three je with rfl | rfl | rfl <;> simp only [c0, c1, c2] at h h' <;> first | rfl | omega

/-- **C71**, a case: 300 units is inside the detector and in no area. -/
example : (-342 : Int) ≤ 300 ∧ (300 : Int) ≤ 342 ∧ ¬ ((-256 : Int) ≤ 300 ∧ (300 : Int) ≤ 256) := by decide

end Verif
