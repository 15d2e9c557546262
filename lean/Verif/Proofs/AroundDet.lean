import Verif.Spec.Around
import Verif.Proofs.Around
import Verif.Proofs.DetectorPuppi
import Verif.Proofs.Filter
/-! # What a region contains around a direction -/
open Classical
namespace Verif
open Spec

section
variable {T : Type} [RegObj T] [LawfulReg T]

theorem dist2_dirIn {ie : Fin 3} {ip : Fin 6} {P : Pos} (hc : Covers ie ip P) {s : Fin 12} {o : T} (h : Inside ie ip s o) :
    dist2 (dirIn ie ip P).1 (dirIn ie ip P).2 (RegObj.eta (place ie ip s o)) (RegObj.phi (place ie ip s o)) = detDist2 P (posOf s o) := by
  have a := inside_eta h
  have b := h.2
  obtain ⟨c1, c2, c3, c4⟩ := hc
  have he : ∀ ie, etaLo ie - etaC ie ≥ -171 ∧ etaHi ie - etaC ie ≤ 171 := by decide
  have he := he ie
  have e1 : (dirIn ie ip P).1.toInt = P.eta - etaC ie := reg10_toInt (by omega) (by omega)
  have e2 : (dirIn ie ip P).2.toInt = (P.phi - 120 * (2 * ip.val + 1)).bmod 1440 := reg10_toInt (by omega) (by omega)
  rw [← dr2_int_eq_dist2]
  rw [dr2_int_exact _ _ _ _ (by rw [inside_eta_toInt h, e1]; omega) (by rw [inside_phi_toInt h, e2]; omega)]
  rw [inside_eta_toInt h, inside_phi_toInt h, e1, e2]
  unfold detDist2 posOf
  simp only []
  rw [bmod_eq (x := P.phi - (120 * s.val + (RegObj.phi o).toInt)) (y := (P.phi - 120 * (2 * ip.val + 1)).bmod 1440 - relPhi ip s (RegObj.phi o).toInt) 1440 rfl _ (by omega) (by omega)]
  · ring
  · unfold relPhi
    have d := Int.bmod_def (P.phi - 120 * (2 * (ip.val : Int) + 1)) 1440
    omega

/-- The objects of a region around a direction, from the sectors. -/
noncomputable def regionAround (ie : Fin 3) (near : Fin 3 → List T) : List T :=
  (((near 0).filter (inSlice ie)).map (etaRel ie) |>.insertionSort byPt |>.map (phiMove (-120))) ++
  (((near 1).filter (inSlice ie)).map (etaRel ie) |>.insertionSort byPt |>.map (phiMove 0)) ++
  (((near 2).filter (inSlice ie)).map (etaRel ie) |>.insertionSort byPt |>.map (phiMove 120)) |>.insertionSort byPt

theorem byPt_total (a b : T) : byPt a b ∨ byPt b a := le_total _ _
theorem byPt_trans (a b c : T) (h1 : byPt a b) (h2 : byPt b c) : byPt a c := le_trans h2 h1

/-- One sector. -/
theorem slice_around {ie : Fin 3} {ip : Fin 6} {P : Pos} (hc : Covers ie ip P) {R : ℝ} {nse : Nat} (k : Fin 3) {l : List T}
    (hphi : ∀ o ∈ l, 0 < ptOf o → -60 ≤ (RegObj.phi o).toInt ∧ (RegObj.phi o).toInt ≤ 60) (hl : (window ie l).length ≤ nse) :
    ((slice nse ie l).map (phiMove (120 * ((k.val : Int) - 1)))).filter
      (isAround R (dirIn ie ip P) (fun o : T => RegObj.pt o = 0) fun o => (RegObj.eta o, RegObj.phi o)) =
    ((((detAround R P (secOf ip k) l).filter (inSlice ie)).map (etaRel ie)).insertionSort byPt).map (phiMove (120 * ((k.val : Int) - 1))) := by
  unfold slice best
  rw [List.take_of_length_le (by rw [List.length_insertionSort, filter_window]; exact hl), List.filter_map,
    filter_insertionSort byPt byPt_total byPt_trans, List.filter_filter, List.filter_map, List.filter_filter]
  unfold detAround
  rw [List.filter_filter]
  congr 3
  refine List.filter_congr fun o ho => ?_
  rw [Bool.eq_iff_iff, Bool.and_eq_true, Bool.and_eq_true, Function.comp_apply, Bool.and_eq_true]
  rw [Function.comp_apply, isAround_iff, decide_eq_true_iff, decide_eq_true_iff, ptOf_etaRel]
  constructor
  · rintro ⟨⟨⟨h1, h2⟩, h3⟩, h4⟩
    obtain ⟨q1, q2⟩ := sector_inside (ip := ip) (k := k) h4 (hphi o ho h3)
    rw [q2] at h2
    refine ⟨h4, h3, ?_⟩
    rw [← dist2_dirIn hc q1]
    exact h2
  · rintro ⟨h4, h3, h2⟩
    obtain ⟨q1, q2⟩ := sector_inside (ip := ip) (k := k) h4 (hphi o ho h3)
    refine ⟨⟨⟨?_, ?_⟩, h3⟩, h4⟩
    · intro e
      have : ptOf (phiMove (120 * ((k.val : Int) - 1)) (etaRel ie o)) = 0 := by unfold ptOf; rw [e]; rfl
      rw [ptOf_phiMove, ptOf_etaRel] at this
      omega
    · rw [q2]
      rw [← dist2_dirIn hc q1] at h2
      exact h2

/-- A region that is not overfull. -/
theorem region_around {NFPS : Nat} {NSEC NSE NREG : Nat} {fib rest : Arr (NFPS * N_IN_SECTORS) (List T)}
    {regions : Arr N_OUT_REGIONS (Arr NREG T)} (hrun : regionize_ref NSEC NSE NREG fib = .ok (rest, regions)) (ir : Fin 18)
    (hphi : ∀ s, ∀ o ∈ arrivals NSEC fib s, 0 < ptOf o → -60 ≤ (RegObj.phi o).toInt ∧ (RegObj.phi o).toInt ≤ 60)
    (hfit : Fits NSE NREG (regionEta ir) (regionPhi ir) (arrivals NSEC fib)) {P : Pos} (hc : Covers (regionEta ir) (regionPhi ir) P) (R : ℝ) :
    around R (dirIn (regionEta ir) (regionPhi ir) P) (fun o : T => RegObj.pt o = 0) (fun o => (RegObj.eta o, RegObj.phi o))
      (List.ofFn (regions ir)) =
    regionAround (regionEta ir) fun k => detAround R P (secOf (regionPhi ir) k) (arrivals NSEC fib (secOf (regionPhi ir) k)) := by
  have h := C33_ref_content NSEC NSE NREG fib rest regions hrun ir
  change List.ofFn (regions ir) = pad NREG (region NREG NSE (regionEta ir) (regionPhi ir) (arrivals NSEC fib)) at h
  generalize regionPhi ir = ip at *
  generalize regionEta ir = ie at *
  obtain ⟨f1, f2, f3, f4⟩ := hfit
  have hl : ∀ s, (slice NSE ie (arrivals NSEC fib s)).length ≤ (window ie (arrivals NSEC fib s)).length := by
    intro s
    unfold slice best
    rw [← filter_window, List.length_take, List.length_insertionSort]
    exact Nat.min_le_right _ _
  have hcl : (candidates NSE ie ip (arrivals NSEC fib)).length ≤ NREG := by
    unfold candidates
    rw [List.length_append, List.length_append, List.length_map, List.length_map, List.length_map]
    have := hl ⟨2 * ip.val, by omega⟩
    have := hl ⟨2 * ip.val + 1, by omega⟩
    have := hl ⟨(2 * ip.val + 2) % 12, by omega⟩
    omega
  show (List.ofFn (regions ir)).filter (isAround R (dirIn ie ip P) (fun o : T => RegObj.pt o = 0) fun o => (RegObj.eta o, RegObj.phi o)) = _
  have hq : isAround R (dirIn ie ip P) (fun o : T => RegObj.pt o = 0) (fun o => (RegObj.eta o, RegObj.phi o)) (RegObj.clear : T) = false := by
    rw [Bool.eq_false_iff]
    intro e
    exact (isAround_iff.mp e).1 LawfulReg.pt_clear
  have hr : (List.replicate (NREG - (region NREG NSE ie ip (arrivals NSEC fib)).length) (RegObj.clear : T)).filter
      (isAround R (dirIn ie ip P) (fun o : T => RegObj.pt o = 0) fun o => (RegObj.eta o, RegObj.phi o)) = [] := by
    rw [List.filter_eq_nil_iff]
    intro x hx e
    rw [List.eq_of_mem_replicate hx, hq] at e
    exact absurd e (by decide)
  rw [h, pad_of_le (show (region NREG NSE ie ip (arrivals NSEC fib)).length ≤ NREG from best_length _ _), List.filter_append, hr, List.append_nil]
  unfold region best
  rw [List.take_of_length_le (by rw [List.length_insertionSort]; exact le_trans (List.length_filter_le _ _) hcl),
    filter_insertionSort byPt byPt_total byPt_trans]
  have hpos : ∀ x ∈ candidates NSE ie ip (arrivals NSEC fib), 0 < ptOf x := by
    intro x hx
    obtain ⟨k, o, ho, rfl⟩ := (mem_region_list (nse := NSE) (ie := ie) (ip := ip) (arr := arrivals NSEC fib)).mp hx
    rw [ptOf_phiMove]
    exact (good_best _ _).pos o ho
  rw [List.filter_eq_self.mpr fun x hx => decide_eq_true (hpos x hx)]
  unfold candidates regionAround
  have e0 : secOf ip 0 = ⟨2 * ip.val, by omega⟩ := by apply Fin.ext; show (2 * ip.val + 0) % 12 = 2 * ip.val; omega
  have e1 : secOf ip 1 = ⟨2 * ip.val + 1, by omega⟩ := by apply Fin.ext; show (2 * ip.val + 1) % 12 = 2 * ip.val + 1; omega
  have e2 : secOf ip 2 = ⟨(2 * ip.val + 2) % 12, by omega⟩ := rfl
  have s0 := slice_around hc (R := R) (nse := NSE) 0 (hphi (secOf ip 0)) (e0 ▸ f1)
  have s1 := slice_around hc (R := R) (nse := NSE) 1 (hphi (secOf ip 1)) (e1 ▸ f2)
  have s2 := slice_around hc (R := R) (nse := NSE) 2 (hphi (secOf ip 2)) (e2 ▸ f3)
  rw [List.filter_append, List.filter_append, ← e0, ← e1, ← e2]
  exact congrArg (List.insertionSort byPt) (congrArg₂ _ (congrArg₂ _ s0 s1) s2)

end
end Verif
