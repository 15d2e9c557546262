import Verif.Model.Compare
import Verif.Spec.Compare
/-! # C47 — the comparison helpers of the test benches -/
namespace Verif
open Spec

theorem sameObj_equivalence {T K : Type} {pt : T → Pt} {fields : T → K}
    (hpt : ∀ a b, fields a = fields b → pt a = pt b) : Equivalence (SameObj pt fields) := by
  refine ⟨fun a => ?_, ?_, ?_⟩
  · by_cases h : pt a = 0
    · exact Or.inl ⟨h, h⟩
    · exact Or.inr ⟨h, rfl⟩
  · rintro a b (⟨h, h'⟩ | ⟨h, h'⟩)
    · exact Or.inl ⟨h', h⟩
    · exact Or.inr ⟨by rw [← hpt a b h']; exact h, h'.symm⟩
  · rintro a b c (⟨h, h'⟩ | ⟨h, h'⟩) (⟨k, k'⟩ | ⟨k, k'⟩)
    · exact Or.inl ⟨h, k'⟩
    · exact absurd h' k
    · exact absurd (hpt a b h' ▸ k) (by intro e; exact h (by rw [hpt a b h']; exact k))
    · exact Or.inr ⟨h, h'.trans k'⟩

/-- **C47.** Each helper holds exactly when both objects are null or all compared fields agree. -/
theorem C47_equals_iff :
    (∀ a b, had_equals a b = true ↔ SameObj HadCaloObj.hwPt hadFields a b) ∧
    (∀ a b, em_equals a b = true ↔ SameObj EmCaloObj.hwPt emFields a b) ∧
    (∀ a b, track_equals a b = true ↔ SameObj TkObj.hwPt trackFields a b) ∧
    (∀ a b, mu_equals a b = true ↔ SameObj MuObj.hwPt muFields a b) ∧
    (∀ a b, pf_equals_ch a b = true ↔ SameObj PFChargedObj.hwPt chFields a b) ∧
    (∀ a b, pf_equals_ne a b = true ↔ SameObj PFNeutralObj.hwPt neFields a b) := by
  refine ⟨?_, ?_, ?_, ?_, ?_, ?_⟩ <;> intro a b
  · unfold had_equals SameObj hadFields
    by_cases h : a.hwPt = 0#16 <;> simp [h, and_assoc]
  · unfold em_equals SameObj emFields
    by_cases h : a.hwPt = 0#16 <;> simp [h, and_assoc]
  · unfold track_equals SameObj trackFields
    by_cases h : a.hwPt = 0#16 <;> simp [h, and_assoc]
  · unfold mu_equals SameObj muFields
    by_cases h : a.hwPt = 0#16 <;> simp [h, and_assoc]
  · unfold pf_equals_ch SameObj chFields
    by_cases h : a.hwPt = 0#16 <;> simp [h, and_assoc]
  · unfold pf_equals_ne SameObj neFields
    by_cases h : a.hwPt = 0#16 <;> simp [h, and_assoc]

/-- **C47.** The helpers are equivalence relations. -/
theorem C47_equivalence :
    Equivalence (fun a b => had_equals a b = true) ∧ Equivalence (fun a b => em_equals a b = true) ∧
    Equivalence (fun a b => track_equals a b = true) ∧ Equivalence (fun a b => mu_equals a b = true) ∧
    Equivalence (fun a b => pf_equals_ch a b = true) ∧
    Equivalence (fun a b => pf_equals_ne a b = true) := by
  obtain ⟨h1, h2, h3, h4, h5, h6⟩ := C47_equals_iff
  simp only [h1, h2, h3, h4, h5, h6]
  refine ⟨sameObj_equivalence ?_, sameObj_equivalence ?_, sameObj_equivalence ?_,
    sameObj_equivalence ?_, sameObj_equivalence ?_, sameObj_equivalence ?_⟩ <;>
  · intro a b h
    exact congrArg Prod.fst h

/-- **C47.** Blind spots: the quality bit of tracks and the PUPPI pt of neutrals are not compared. -/
theorem C47_blind_spots :
    (∀ (a : TkObj) (q : Bool), track_equals a { a with hwTightQuality := q } = true) ∧
    (∀ (a : PFNeutralObj) (p : Pt), pf_equals_ne a { a with hwPtPuppi := p } = true) := by
  obtain ⟨_, _, h3, _, _, h6⟩ := C47_equals_iff
  constructor
  · intro a q
    rw [h3]
    by_cases h : a.hwPt = 0
    · exact Or.inl ⟨h, h⟩
    · exact Or.inr ⟨h, rfl⟩
  · intro a p
    rw [h6]
    by_cases h : a.hwPt = 0
    · exact Or.inl ⟨h, h⟩
    · exact Or.inr ⟨h, rfl⟩

/-- **C47.** `count_nonzero` counts the objects of positive pt. -/
theorem C47_count_nonzero {T : Type} [HasPt T] {N : Nat} (objs : Arr N T) :
    count_nonzero objs = (List.finRange N).countP (fun i => decide (0 < (HasPt.pt (objs i)).toInt)) := by
  unfold count_nonzero loop
  have key : ∀ (l : List (Fin N)) (a : Nat), l.foldl (fun ret i =>
      if (HasPt.pt (objs i)).toInt > 0 then ret + 1 else ret) a =
      a + l.countP (fun i => decide (0 < (HasPt.pt (objs i)).toInt)) := by
    intro l
    induction l with
    | nil => intro a; rfl
    | cons i l ih =>
      intro a
      rw [List.foldl_cons, ih, List.countP_cons]
      by_cases h : (HasPt.pt (objs i)).toInt > 0
      · rw [if_pos h, if_pos (by simpa using h)]; omega
      · rw [if_neg h, if_neg (by simpa using h)]; omega
  rw [key, Nat.zero_add]

/-- Non-vacuity: objects that differ in a compared field are told apart. -/
example : pf_equals_ne ⟨5, 1, 2, 1, 0⟩ ⟨5, 1, 3, 1, 0⟩ = false ∧
    pf_equals_ne ⟨0, 1, 2, 1, 0⟩ ⟨0, 1, 3, 1, 0⟩ = true := by decide +kernel

end Verif
