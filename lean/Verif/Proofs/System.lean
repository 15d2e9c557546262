import Verif.Spec.System
import Verif.Proofs.DetectorPuppi
import Verif.Model.Compare
/-! # Sums over a region and over the detector; PUPPI on equal candidates -/
open scoped BigOperators
namespace Verif
open Spec

section
variable {T : Type} [RegObj T] [LawfulReg T]

omit [RegObj T] [LawfulReg T] in
theorem sum_take_le {f : T → Int} (hf : ∀ x, 0 ≤ f x) (n : Nat) (l : List T) : ((l.take n).map f).sum ≤ (l.map f).sum := by
  conv_rhs => rw [← List.take_append_drop n l, List.map_append, List.sum_append]
  have : 0 ≤ ((l.drop n).map f).sum := List.sum_nonneg (by
    intro x hx
    obtain ⟨y, -, rfl⟩ := List.mem_map.mp hx
    exact hf y)
  omega

omit [LawfulReg T] in
theorem best_sum_le {f : T → Int} (hf : ∀ x, 0 ≤ f x) (n : Nat) (l : List T) : ((best n l).map f).sum ≤ (l.map f).sum := by
  unfold best
  refine le_trans (sum_take_le hf _ _) ?_
  rw [((List.perm_insertionSort byPt _).map f).sum_eq, filter_sum']
  refine List.sum_le_sum fun o _ => ?_
  by_cases h : decide (0 < ptOf o) = true
  · rw [if_pos h]
  · rw [if_neg h]; exact hf o

/-- A sum over a region, of something that does not depend on the position, is at most that over the detector. -/
theorem region_sum_le {NFPS : Nat} {NSEC NSE NREG : Nat} {fib rest : Arr (NFPS * N_IN_SECTORS) (List T)}
    {regions : Arr N_OUT_REGIONS (Arr NREG T)} (hrun : regionize_ref NSEC NSE NREG fib = .ok (rest, regions)) (ir : Fin 18)
    {g : T → Int} (hg : ∀ x, 0 < ptOf x → 0 ≤ g x) (hphi : ∀ d x, g (phiMove d x) = g x) (heta : ∀ ie x, g (etaRel ie x) = g x)
    (hclear : g RegObj.clear = 0) :
    ∑ i, g (regions ir i) ≤ detSum g (arrivals NSEC fib) := by
  have h := C33_ref_content NSEC NSE NREG fib rest regions hrun ir
  change List.ofFn (regions ir) = pad NREG (region NREG NSE (regionEta ir) (regionPhi ir) (arrivals NSEC fib)) at h
  have hs := C33_sorted NSEC NSE NREG fib rest regions hrun ir
  generalize regionPhi ir = ip at *
  generalize regionEta ir = ie at *
  let f : T → Int := fun x => if 0 < ptOf x then g x else 0
  have hf : ∀ x, 0 ≤ f x := fun x => by
    by_cases hx : 0 < ptOf x
    · show (0 : Int) ≤ if 0 < ptOf x then g x else 0
      rw [if_pos hx]; exact hg x hx
    · show (0 : Int) ≤ if 0 < ptOf x then g x else 0
      rw [if_neg hx]
  have fphi : ∀ d x, f (phiMove d x) = f x := fun d x => by
    show (if 0 < ptOf (phiMove d x) then g (phiMove d x) else 0) = (if 0 < ptOf x then g x else 0)
    rw [ptOf_phiMove, hphi]
  have feta : ∀ ie x, f (etaRel ie x) = f x := fun ie x => by
    show (if 0 < ptOf (etaRel ie x) then g (etaRel ie x) else 0) = (if 0 < ptOf x then g x else 0)
    rw [ptOf_etaRel, heta]
  have fclear : f RegObj.clear = 0 := by
    show (if 0 < ptOf (RegObj.clear : T) then g RegObj.clear else 0) = 0
    rw [hclear]; exact ite_self _
  have e1 : ∑ i, g (regions ir i) = ∑ i, f (regions ir i) := by
    refine Finset.sum_congr rfl fun i _ => ?_
    rcases hs.2 i with hp | hc
    · show g _ = if 0 < ptOf (regions ir i) then g (regions ir i) else 0
      rw [if_pos (show 0 < ptOf (regions ir i) from hp)]
    · rw [hc, hclear, fclear]
  have hsl : ∀ (l : List T) (d : Int), (((slice NSE ie l).map (phiMove d)).map f).sum ≤ (l.map f).sum := by
    intro l d
    rw [List.map_map, show f ∘ phiMove d = f from funext fun x => fphi d x]
    unfold slice
    refine le_trans (best_sum_le hf _ _) ?_
    rw [List.map_map, show f ∘ etaRel ie = f from funext fun x => feta ie x, filter_sum']
    refine List.sum_le_sum fun o _ => ?_
    by_cases ho : inSlice ie o = true
    · rw [if_pos ho]
    · rw [if_neg ho]; exact hf o
  rw [e1, ← List.sum_ofFn, show (List.ofFn fun i => f (regions ir i)) = (List.ofFn (regions ir)).map f by rw [List.map_ofFn]; rfl, h]
  unfold region
  rw [pad_sum fclear (best_length _ _)]
  refine le_trans (best_sum_le hf _ _) ?_
  unfold candidates
  rw [List.map_append, List.sum_append, List.map_append, List.sum_append]
  refine le_trans (add_le_add (add_le_add (hsl _ _) (hsl _ _)) (hsl _ _)) ?_
  have e0 : secOf ip 0 = ⟨2 * ip.val, by omega⟩ := by apply Fin.ext; show (2 * ip.val + 0) % 12 = 2 * ip.val; omega
  have e1 : secOf ip 1 = ⟨2 * ip.val + 1, by omega⟩ := by apply Fin.ext; show (2 * ip.val + 1) % 12 = 2 * ip.val + 1; omega
  have e2 : secOf ip 2 = ⟨(2 * ip.val + 2) % 12, by omega⟩ := rfl
  rw [← e0, ← e1, ← e2]
  have e3 := (Fin.sum_univ_three (fun k : Fin 3 => ((arrivals NSEC fib (secOf ip k)).map f).sum)).symm
  rw [e3]
  unfold detSum
  have e4 : ∑ k : Fin 3, ((arrivals NSEC fib (secOf ip k)).map f).sum =
      ∑ s ∈ Finset.univ.map ⟨secOf ip, secOf_inj ip⟩, ((arrivals NSEC fib s).map f).sum := by
    rw [Finset.sum_map]; rfl
  rw [e4]
  refine Finset.sum_le_sum_of_subset_of_nonneg (Finset.subset_univ _) fun s _ _ => List.sum_nonneg ?_
  intro x hx
  obtain ⟨y, -, rfl⟩ := List.mem_map.mp hx
  exact hf y

/-- An object of a region is a moved object of the detector, or null. -/
theorem region_from {NFPS : Nat} {NSEC NSE NREG : Nat} {fib rest : Arr (NFPS * N_IN_SECTORS) (List T)}
    {regions : Arr N_OUT_REGIONS (Arr NREG T)} (hrun : regionize_ref NSEC NSE NREG fib = .ok (rest, regions)) (ir : Fin 18)
    (i : Fin NREG) : regions ir i = RegObj.clear ∨
      ∃ s, ∃ o ∈ arrivals NSEC fib s, ∃ d, 0 < ptOf o ∧ regions ir i = phiMove d (etaRel (regionEta ir) o) := by
  rcases (C33_sorted NSEC NSE NREG fib rest regions hrun ir).2 i with hp | hc
  · obtain ⟨k, o, ho, -, -, e⟩ := C34_nothing_invented NSEC NSE NREG fib rest regions hrun ir i hp
    refine Or.inr ⟨secOf (regionPhi ir) k, o, ho, _, ?_, e⟩
    have : 0 < ptOf (regions ir i) := hp
    rw [e, ptOf_phiMove, ptOf_etaRel] at this
    exact this
  · exact Or.inl hc

end

/-- Charged candidates that the comparison of the benches accepts give the same PUPPI sums. -/
theorem puppiSum_equals {NT : Nat} {ch ch' : Arr NT PFChargedObj} (h : ∀ t, pf_equals_ch (ch' t) (ch t) = true) (Z0 : Z0)
    (ne : PFNeutralObj) : puppiSum ch' Z0 ne = puppiSum ch Z0 ne := by
  unfold puppiSum
  refine Finset.sum_congr rfl fun t _ => ?_
  have ht := h t
  unfold pf_equals_ch at ht
  by_cases h0 : (ch' t).hwPt = 0
  · rw [if_pos h0] at ht
    have h1 : (ch t).hwPt = 0 := of_decide_eq_true ht
    unfold puppiTerm
    rw [h0, h1, show (0 : Pt).toInt = 0 from rfl]
    simp
  · rw [if_neg h0] at ht
    simp only [Bool.and_eq_true, decide_eq_true_eq] at ht
    obtain ⟨⟨⟨⟨e1, e2⟩, e3⟩, -⟩, e5⟩ := ht
    refine if_congr ?_ ?_ rfl
    · unfold PuppiNear; rw [e2, e3, e5]
    · unfold puppiTerm; rw [e1, e2, e3]

theorem puppiSum_pos {NT : Nat} (ch : Arr NT PFChargedObj) (Z0 : Z0) {ne ne' : PFNeutralObj} (h1 : ne.hwEta = ne'.hwEta)
    (h2 : ne.hwPhi = ne'.hwPhi) : puppiSum ch Z0 ne = puppiSum ch Z0 ne' := by
  unfold puppiSum
  refine Finset.sum_congr rfl fun t _ => if_congr ?_ ?_ rfl
  · unfold PuppiNear; rw [h1, h2]
  · unfold puppiTerm; rw [h1, h2]

end Verif
