import Verif.Spec.Detector
import Verif.Props.Regionizer
import Verif.Proofs.Links
import Mathlib.Tactic.Linarith
/-! # From the detector to the regions -/
namespace Verif
open Spec

section
variable {T U : Type} [RegObj T] [LawfulReg T] [RegObj U] [LawfulReg U]

theorem place_eta (ie : Fin 3) (ip : Fin 6) (s : Fin 12) (o : T) :
    RegObj.eta (place ie ip s o) = BitVec.ofInt 10 ((RegObj.eta o).toInt - etaC ie) := by
  unfold place; rw [LawfulReg.eta_setPhi, LawfulReg.eta_setEta]

theorem place_phi (ie : Fin 3) (ip : Fin 6) (s : Fin 12) (o : T) :
    RegObj.phi (place ie ip s o) = BitVec.ofInt 10 (relPhi ip s (RegObj.phi o).toInt) := by
  unfold place; rw [LawfulReg.phi_setPhi]

theorem ptOf_place (ie : Fin 3) (ip : Fin 6) (s : Fin 12) (o : T) : ptOf (place ie ip s o) = ptOf o := by
  unfold place ptOf; rw [LawfulReg.pt_setPhi, LawfulReg.pt_setEta]

omit [LawfulReg T] in
theorem inside_eta {ie : Fin 3} {ip : Fin 6} {s : Fin 12} {o : T} (h : Inside ie ip s o) :
    -171 ≤ (RegObj.eta o).toInt - etaC ie ∧ (RegObj.eta o).toInt - etaC ie ≤ 171 := by
  have hs := of_decide_eq_true h.1
  have he : ∀ ie, etaLo ie - etaC ie ≥ -171 ∧ etaHi ie - etaC ie ≤ 171 := by decide
  have := he ie
  omega

theorem inside_eta_toInt {ie : Fin 3} {ip : Fin 6} {s : Fin 12} {o : T} (h : Inside ie ip s o) :
    (RegObj.eta (place ie ip s o)).toInt = (RegObj.eta o).toInt - etaC ie := by
  have := inside_eta h
  rw [place_eta]
  exact reg10_toInt (by omega) (by omega)

theorem inside_phi_toInt {ie : Fin 3} {ip : Fin 6} {s : Fin 12} {o : T} (h : Inside ie ip s o) :
    (RegObj.phi (place ie ip s o)).toInt = relPhi ip s (RegObj.phi o).toInt := by
  have := h.2
  rw [place_phi]
  exact reg10_toInt (by omega) (by omega)

theorem bmod_eq {x y m : Int} (n : Nat) (hn : (n : Int) = m) (h : m ∣ x - y) (h1 : -m < 2 * y) (h2 : 2 * y < m) : x.bmod n = y := by
  have e : x.bmod n = y.bmod n := by
    have : (n : Int) ∣ x - y := hn ▸ h
    obtain ⟨k, hk⟩ := this
    rw [show x = y + n * k by omega, Int.add_mul_bmod_self_left]
  rw [e]
  apply Int.bmod_eq_of_le_mul_two <;> omega

/-- The distance of two objects of a region is their distance in the detector. -/
theorem dr2_place {ie : Fin 3} {ip : Fin 6} {s s' : Fin 12} {o : T} {o' : U} (h : Inside ie ip s o) (h' : Inside ie ip s' o') :
    dist2 (RegObj.eta (place ie ip s o)) (RegObj.phi (place ie ip s o)) (RegObj.eta (place ie ip s' o')) (RegObj.phi (place ie ip s' o')) =
      detDist2 (posOf s o) (posOf s' o') := by
  have a := inside_eta h
  have a' := inside_eta h'
  have b := h.2
  have b' := h'.2
  rw [← dr2_int_eq_dist2]
  rw [dr2_int_exact _ _ _ _ (by rw [inside_eta_toInt h, inside_eta_toInt h']; omega)
    (by rw [inside_phi_toInt h, inside_phi_toInt h']; omega)]
  rw [inside_eta_toInt h, inside_eta_toInt h', inside_phi_toInt h, inside_phi_toInt h']
  unfold detDist2 posOf
  simp only []
  rw [bmod_eq (y := relPhi ip s (RegObj.phi o).toInt - relPhi ip s' (RegObj.phi o').toInt) 1440 rfl _ (by omega) (by omega)]
  · ring
  · unfold relPhi
    omega

theorem sq_bound {x : Int} (h : x ^ 2 ≤ 57 ^ 2) : -57 ≤ x ∧ x ≤ 57 := by
  constructor <;> nlinarith

omit [LawfulReg T] [LawfulReg U] in
/-- What is near an object for which a region is responsible is inside the region, and not at its edge. -/
theorem near_inside {ie : Fin 3} {ip : Fin 6} {s s' : Fin 12} {o : T} {o' : U} (hf : Fiducial ie ip (posOf s o)) (hp : Proper o)
    (hp' : Proper o') (hd : detDist2 (posOf s o) (posOf s' o') ≤ 3249) :
    Inside ie ip s' o' ∧ -180 < relPhi ip s' (RegObj.phi o').toInt ∧ relPhi ip s' (RegObj.phi o').toInt < 180 := by
  obtain ⟨p1, p2, p3, p4, p5⟩ := hp
  obtain ⟨q1, q2, q3, q4, q5⟩ := hp'
  obtain ⟨f0, f1, f2, f3, f4⟩ := hf
  unfold detDist2 at hd
  unfold posOf at hd f0 f1 f2 f3 f4
  simp only [] at hd f0 f1 f2 f3 f4
  generalize hA : (RegObj.eta o).toInt = A at *
  generalize hA' : (RegObj.eta o').toInt = A' at *
  generalize hB : (RegObj.phi o).toInt = B at *
  generalize hB' : (RegObj.phi o').toInt = B' at *
  have n1 := sq_nonneg (A - A')
  have n2 := sq_nonneg ((120 * (s.val : Int) + B - (120 * (s'.val : Int) + B')).bmod 1440)
  have he : (A - A') ^ 2 ≤ 57 ^ 2 := by omega
  have hφ : ((120 * (s.val : Int) + B - (120 * (s'.val : Int) + B')).bmod 1440) ^ 2 ≤ 57 ^ 2 := by omega
  have he1 := sq_bound he
  have hφ1 := sq_bound hφ
  have hs := s.isLt
  have hs' := s'.isLt
  have hip := ip.isLt
  have e1 : relPhi ip s' B' = (120 * (s.val : Int) + B - 120 * (2 * ip.val + 1)).bmod 1440 -
      (120 * (s.val : Int) + B - (120 * (s'.val : Int) + B')).bmod 1440 := by
    unfold relPhi
    have d1 := Int.bmod_def (120 * (s.val : Int) + B - 120 * (2 * (ip.val : Int) + 1)) 1440
    have d2 := Int.bmod_def (120 * (s.val : Int) + B - (120 * (s'.val : Int) + B')) 1440
    omega
  refine ⟨⟨?_, ?_, ?_⟩, ?_, ?_⟩
  · unfold inSlice
    rw [hA']
    apply decide_eq_true
    unfold etaLo etaHi
    match ie with
    | 0 => have := f0 rfl; constructor <;> simp <;> omega
    | 1 => have := f1 rfl; constructor <;> simp <;> omega
    | 2 => have := f2 rfl; constructor <;> simp <;> omega
  all_goals (first | rw [e1] | rw [hB', e1]); omega

omit [LawfulReg T] in
theorem fiducial_inside {ie : Fin 3} {ip : Fin 6} {s : Fin 12} {o : T} (hf : Fiducial ie ip (posOf s o)) (hp : Proper o) : Inside ie ip s o :=
  (near_inside hf hp hp (by unfold detDist2; simp)).1

/-- The sector of an object that is inside a region, and the shift given to it. -/
theorem inside_sector {ie : Fin 3} {ip : Fin 6} {s : Fin 12} {o : T} (hp : Proper o)
    (h1 : -180 < relPhi ip s (RegObj.phi o).toInt) (h2 : relPhi ip s (RegObj.phi o).toInt < 180) :
    ∃ k : Fin 3, secOf ip k = s ∧ phiMove (120 * ((k.val : Int) - 1)) (etaRel ie o) = place ie ip s o := by
  obtain ⟨p1, p2, p3, p4, p5⟩ := hp
  have hs := s.isLt
  have hip := ip.isLt
  have key : ∀ k : Fin 3, secOf ip k = s → phiMove (120 * ((k.val : Int) - 1)) (etaRel ie o) = place ie ip s o := by
    intro k hk
    have hk' : (2 * ip.val + k.val) % 12 = s.val := congrArg Fin.val hk
    have := k.isLt
    unfold phiMove etaRel place
    rw [LawfulReg.phi_setEta]
    congr 2
    unfold relPhi
    omega
  have : ∃ k : Fin 3, secOf ip k = s := by
    unfold relPhi at h1 h2
    have : (s.val + 12 - 2 * ip.val) % 12 < 3 := by omega
    refine ⟨⟨(s.val + 12 - 2 * ip.val) % 12, this⟩, ?_⟩
    apply Fin.ext
    show (2 * ip.val + (s.val + 12 - 2 * ip.val) % 12) % 12 = s.val
    omega
  obtain ⟨k, hk⟩ := this
  exact ⟨k, hk, key k hk⟩

/-- The other way round: an object of a sector of the region. -/
theorem sector_inside {ie : Fin 3} {ip : Fin 6} {k : Fin 3} {o : T} (he : inSlice ie o = true)
    (hφ : -60 ≤ (RegObj.phi o).toInt ∧ (RegObj.phi o).toInt ≤ 60) :
    Inside ie ip (secOf ip k) o ∧ phiMove (120 * ((k.val : Int) - 1)) (etaRel ie o) = place ie ip (secOf ip k) o := by
  have hip := ip.isLt
  have hk := k.isLt
  have e : relPhi ip (secOf ip k) (RegObj.phi o).toInt = (RegObj.phi o).toInt + 120 * ((k.val : Int) - 1) := by
    unfold relPhi
    show (120 * (((2 * ip.val + k.val) % 12 : Nat) : Int) + _ - _ + 720) % 1440 - 720 = _
    omega
  refine ⟨⟨he, by omega, by omega⟩, ?_⟩
  unfold phiMove etaRel place
  rw [LawfulReg.phi_setEta, e]

/-- Every object of a region comes from the detector. -/
theorem region_source {NFPS : Nat} {NSEC NSE NREG : Nat} {fib rest : Arr (NFPS * N_IN_SECTORS) (List T)}
    {regions : Arr N_OUT_REGIONS (Arr NREG T)} (hrun : regionize_ref NSEC NSE NREG fib = .ok (rest, regions))
    (hphi : ∀ s, ∀ o ∈ arrivals NSEC fib s, 0 < ptOf o → -60 ≤ (RegObj.phi o).toInt ∧ (RegObj.phi o).toInt ≤ 60)
    (ir : Fin 18) (i : Fin NREG) (hp : 0 < ptOf (regions ir i)) :
    ∃ s, ∃ o ∈ arrivals NSEC fib s, Inside (regionEta ir) (regionPhi ir) s o ∧ regions ir i = place (regionEta ir) (regionPhi ir) s o := by
  obtain ⟨k, o, ho, h1, h2, e⟩ := C34_nothing_invented NSEC NSE NREG fib rest regions hrun ir i hp
  have hpo : 0 < ptOf o := by rw [e, ptOf_phiMove, ptOf_etaRel] at hp; exact hp
  have := sector_inside (ie := regionEta ir) (ip := regionPhi ir) (k := k) (o := o) (decide_eq_true ⟨h1, h2⟩) (hphi _ o ho hpo)
  exact ⟨_, o, ho, this.1, e.trans this.2⟩

omit [LawfulReg T] in
theorem filter_window {ie : Fin 3} [LawfulReg T] (l : List T) :
    (((l.filter (inSlice ie)).map (etaRel ie)).filter fun o => decide (0 < ptOf o)).length = (window ie l).length := by
  rw [List.filter_map, List.length_map, List.filter_filter]
  congr 1
  apply List.filter_congr
  intro x _
  simp only [Function.comp, ptOf_etaRel]

/-- In a region that is not overfull every object inside is delivered. -/
theorem region_complete {NFPS : Nat} {NSEC NSE NREG : Nat} {fib rest : Arr (NFPS * N_IN_SECTORS) (List T)}
    {regions : Arr N_OUT_REGIONS (Arr NREG T)} (hrun : regionize_ref NSEC NSE NREG fib = .ok (rest, regions)) (ir : Fin 18)
    (hfit : Fits NSE NREG (regionEta ir) (regionPhi ir) (arrivals NSEC fib)) (k : Fin 3) (o : T)
    (ho : o ∈ arrivals NSEC fib (secOf (regionPhi ir) k)) (hp : 0 < ptOf o) (hs : inSlice (regionEta ir) o = true) :
    ∃ i, regions ir i = phiMove (120 * ((k.val : Int) - 1)) (etaRel (regionEta ir) o) := by
  have h := C33_ref_content NSEC NSE NREG fib rest regions hrun ir
  generalize hip : regionPhi ir = ip at *
  generalize hie : regionEta ir = ie at *
  obtain ⟨f1, f2, f3, f4⟩ := hfit
  have hk : ∀ k : Fin 3, (window ie (arrivals NSEC fib (secOf ip k))).length ≤ NSE := by
    have e0 : secOf ip 0 = ⟨2 * ip.val, by omega⟩ := by apply Fin.ext; show (2 * ip.val + 0) % 12 = 2 * ip.val; omega
    have e1 : secOf ip 1 = ⟨2 * ip.val + 1, by omega⟩ := by apply Fin.ext; show (2 * ip.val + 1) % 12 = 2 * ip.val + 1; omega
    intro k
    match k with
    | 0 => rw [e0]; exact f1
    | 1 => rw [e1]; exact f2
    | 2 => exact f3
  have hm : etaRel ie o ∈ slice NSE ie (arrivals NSEC fib (secOf ip k)) := by
    apply mem_best_of
    · rw [filter_window]; exact hk k
    · exact List.mem_map.mpr ⟨o, List.mem_filter.mpr ⟨ho, hs⟩, rfl⟩
    · rw [ptOf_etaRel]; exact hp
  have hc := (mem_region_list (nse := NSE) (ie := ie) (ip := ip) (arr := arrivals NSEC fib)).mpr ⟨k, _, hm, rfl⟩
  refine Holds.exists h (best_length _ _) (mem_best_of ?_ hc (by rw [ptOf_phiMove, ptOf_etaRel]; exact hp))
  refine le_trans (List.length_filter_le _ _) ?_
  have hl : ∀ s, (slice NSE ie (arrivals NSEC fib s)).length ≤ (window ie (arrivals NSEC fib s)).length := by
    intro s
    unfold slice best
    rw [← filter_window, List.length_take, List.length_insertionSort]
    exact Nat.min_le_right _ _
  show (candidates NSE ie ip (arrivals NSEC fib)).length ≤ NREG
  unfold candidates
  rw [List.length_append, List.length_append, List.length_map, List.length_map, List.length_map]
  have := hl ⟨2 * ip.val, by omega⟩
  have := hl ⟨2 * ip.val + 1, by omega⟩
  have := hl ⟨(2 * ip.val + 2) % 12, by omega⟩
  omega

end
end Verif
