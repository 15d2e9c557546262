import Verif.Spec.DetectorPuppi
import Verif.Proofs.Detector
import Verif.Proofs.Puppi
/-! # The PUPPI sum of a region and of the detector -/
open scoped BigOperators
namespace Verif
open Spec

section
variable {T U : Type} [RegObj T] [LawfulReg T] [RegObj U] [LawfulReg U]

omit [LawfulReg T] in
theorem filter_sum {f : T → Int} (hf : ∀ x, ¬ 0 < ptOf x → f x = 0) (l : List T) :
    ((l.filter fun o => decide (0 < ptOf o)).map f).sum = (l.map f).sum := by
  induction l with
  | nil => rfl
  | cons a l ih =>
    rw [List.filter_cons]
    by_cases h : 0 < ptOf a
    · rw [if_pos (decide_eq_true h), List.map_cons, List.sum_cons, ih, List.map_cons, List.sum_cons]
    · rw [if_neg (by simpa using h), ih, List.map_cons, List.sum_cons, hf a h, Int.zero_add]

omit [LawfulReg T] in
theorem best_sum {f : T → Int} (hf : ∀ x, ¬ 0 < ptOf x → f x = 0) {n : Nat} {l : List T}
    (hl : (l.filter fun o => decide (0 < ptOf o)).length ≤ n) : ((best n l).map f).sum = (l.map f).sum := by
  unfold best
  rw [List.take_of_length_le (by rw [List.length_insertionSort]; exact hl)]
  rw [((List.perm_insertionSort byPt _).map f).sum_eq]
  exact filter_sum hf l

omit [LawfulReg T] in
theorem pad_sum {f : T → Int} (hc : f RegObj.clear = 0) {n : Nat} {l : List T} (hl : l.length ≤ n) :
    ((pad n l).map f).sum = (l.map f).sum := by
  rw [pad_of_le hl, List.map_append, List.sum_append, List.map_replicate, hc, List.sum_replicate]
  simp

omit [LawfulReg T] in
theorem filter_sum' {p : T → Bool} {f : T → Int} (l : List T) :
    ((l.filter p).map f).sum = (l.map fun o => if p o = true then f o else 0).sum := by
  induction l with
  | nil => rfl
  | cons a l ih =>
    rw [List.filter_cons, List.map_cons, List.sum_cons]
    by_cases h : p a = true
    · rw [if_pos h, if_pos h, List.map_cons, List.sum_cons, ih]
    · rw [if_neg h, if_neg h, ih, Int.zero_add]

/-- A sum over a region that is not overfull is a sum over what its three sectors send. -/
theorem region_sum {NFPS : Nat} {NSEC NSE NREG : Nat} {fib rest : Arr (NFPS * N_IN_SECTORS) (List T)}
    {regions : Arr N_OUT_REGIONS (Arr NREG T)} (hrun : regionize_ref NSEC NSE NREG fib = .ok (rest, regions)) (ir : Fin 18)
    (hfit : Fits NSE NREG (regionEta ir) (regionPhi ir) (arrivals NSEC fib)) {f : T → Int} (hf : ∀ x, ¬ 0 < ptOf x → f x = 0) :
    ∑ i, f (regions ir i) = ∑ k : Fin 3, ((arrivals NSEC fib (secOf (regionPhi ir) k)).map fun o =>
      if inSlice (regionEta ir) o = true then f (phiMove (120 * ((k.val : Int) - 1)) (etaRel (regionEta ir) o)) else 0).sum := by
  have h := C33_ref_content NSEC NSE NREG fib rest regions hrun ir
  change List.ofFn (regions ir) = pad NREG (region NREG NSE (regionEta ir) (regionPhi ir) (arrivals NSEC fib)) at h
  generalize regionPhi ir = ip at *
  generalize regionEta ir = ie at *
  obtain ⟨f1, f2, f3, f4⟩ := hfit
  have hw : ∀ l : List T, (window ie l).length ≤ NSE → ∀ d : Int, ((slice NSE ie l).map fun o => f (phiMove d o)).sum =
      (l.map fun o => if inSlice ie o = true then f (phiMove d (etaRel ie o)) else 0).sum := by
    intro l hl d
    unfold slice
    rw [best_sum (f := fun o => f (phiMove d o)) (fun x hx => hf _ (by rw [ptOf_phiMove]; exact hx)) (by rw [filter_window]; exact hl),
      List.map_map, filter_sum']
    rfl
  have hl : ∀ s, (slice NSE ie (arrivals NSEC fib s)).length ≤ (window ie (arrivals NSEC fib s)).length := by
    intro s
    unfold slice best
    rw [← filter_window, List.length_take, List.length_insertionSort]
    exact Nat.min_le_right _ _
  have hclear : f RegObj.clear = 0 := hf _ (by unfold ptOf; rw [LawfulReg.pt_clear]; decide)
  rw [← List.sum_ofFn, show (List.ofFn fun i => f (regions ir i)) = (List.ofFn (regions ir)).map f by rw [List.map_ofFn]; rfl, h]
  unfold region
  rw [pad_sum hclear (best_length _ _), best_sum hf]
  · unfold candidates
    rw [List.map_append, List.sum_append, List.map_append, List.sum_append, List.map_map, List.map_map, List.map_map]
    rw [Fin.sum_univ_three]
    have e0 : secOf ip 0 = ⟨2 * ip.val, by omega⟩ := by apply Fin.ext; show (2 * ip.val + 0) % 12 = 2 * ip.val; omega
    have e1 : secOf ip 1 = ⟨2 * ip.val + 1, by omega⟩ := by apply Fin.ext; show (2 * ip.val + 1) % 12 = 2 * ip.val + 1; omega
    have e2 : secOf ip 2 = ⟨(2 * ip.val + 2) % 12, by omega⟩ := rfl
    rw [e0, e1, e2]
    exact congrArg₂ (· + ·) (congrArg₂ (· + ·) (hw _ f1 (-120)) (hw _ f2 0)) (hw _ f3 120)
  · refine le_trans (List.length_filter_le _ _) ?_
    unfold candidates
    rw [List.length_append, List.length_append, List.length_map, List.length_map, List.length_map]
    have := hl ⟨2 * ip.val, by omega⟩
    have := hl ⟨2 * ip.val + 1, by omega⟩
    have := hl ⟨(2 * ip.val + 2) % 12, by omega⟩
    omega

theorem sq_bound91 {x : Int} (h : x ^ 2 ≤ 8404) : -91 ≤ x ∧ x ≤ 91 := by
  constructor <;> nlinarith

omit [LawfulReg T] [LawfulReg U] in
/-- What is in the PUPPI cone of a direction in the centre of a region is inside the region, and not at its edge. -/
theorem cone_inside {ie : Fin 3} {ip : Fin 6} {s s' : Fin 12} {o : T} {o' : U} (hf : Central ie ip (posOf s o))
    (hp' : Proper o') (hd : detDist2 (posOf s' o') (posOf s o) ≤ 8404) :
    Inside ie ip s' o' ∧ -180 < relPhi ip s' (RegObj.phi o').toInt ∧ relPhi ip s' (RegObj.phi o').toInt < 180 := by
  obtain ⟨q1, q2, q3, q4, q5⟩ := hp'
  obtain ⟨f0, f1, f2, f3, f4⟩ := hf
  unfold detDist2 at hd
  unfold posOf at hd f0 f1 f2 f3 f4
  simp only [] at hd f0 f1 f2 f3 f4
  generalize hA : (RegObj.eta o).toInt = A at *
  generalize hA' : (RegObj.eta o').toInt = A' at *
  generalize hB : (RegObj.phi o).toInt = B at *
  generalize hB' : (RegObj.phi o').toInt = B' at *
  have n1 := sq_nonneg (A' - A)
  have n2 := sq_nonneg ((120 * (s'.val : Int) + B' - (120 * (s.val : Int) + B)).bmod 1440)
  have he1 := sq_bound91 (x := A' - A) (by omega)
  have hφ1 := sq_bound91 (x := (120 * (s'.val : Int) + B' - (120 * (s.val : Int) + B)).bmod 1440) (by omega)
  have hs := s.isLt
  have hs' := s'.isLt
  have hip := ip.isLt
  have e1 : relPhi ip s' B' = (120 * (s.val : Int) + B - 120 * (2 * ip.val + 1)).bmod 1440 +
      (120 * (s'.val : Int) + B' - (120 * (s.val : Int) + B)).bmod 1440 := by
    unfold relPhi
    have d1 := Int.bmod_def (120 * (s.val : Int) + B - 120 * (2 * (ip.val : Int) + 1)) 1440
    have d2 := Int.bmod_def (120 * (s'.val : Int) + B' - (120 * (s.val : Int) + B)) 1440
    omega
  refine ⟨⟨?_, ?_, ?_⟩, ?_, ?_⟩
  · unfold inSlice
    rw [hA']
    apply decide_eq_true
    unfold etaLo etaHi
    match ie with
    | 0 => have := f0 rfl; constructor <;> simp <;> omega
    | 1 => have := f1 rfl; constructor <;> simp <;> omega
    | 2 => have := f2 rfl; constructor <;> simp <;> omega
  all_goals (first | rw [e1] | rw [hB', e1]); omega

end

theorem secOf_inj (ip : Fin 6) : Function.Injective (secOf ip) := by
  intro a b h
  have : (2 * ip.val + a.val) % 12 = (2 * ip.val + b.val) % 12 := congrArg Fin.val h
  apply Fin.ext
  omega

/-- The term of a track in a region. -/
def regTerm (Z0 : Z0) (ne : PFNeutralObj) (t : TkObj) : Int :=
  if 0 < t.hwPt.toInt ∧ (Z0.toInt - t.hwZ0.toInt).natAbs ≤ 256 ∧ dist2 t.hwEta t.hwPhi ne.hwEta ne.hwPhi ≤ 8404 then
    min (t.hwPt.toInt ^ 2 / 32) 131071 * (32768 / max 1 (dist2 t.hwEta t.hwPhi ne.hwEta ne.hwPhi / 32)) else 0

theorem mul_div_nonneg (a d : Int) : 0 ≤ min (a ^ 2 / 32) 131071 * (32768 / max 1 d) := by
  have := sq_nonneg a
  apply mul_nonneg
  · omega
  · exact Int.ediv_nonneg (by decide) (by omega)

theorem regTerm_nonneg (Z0 : Z0) (ne : PFNeutralObj) (t : TkObj) : 0 ≤ regTerm Z0 ne t := by
  unfold regTerm
  split
  · exact mul_div_nonneg _ _
  · exact le_refl _

theorem regTerm_zero (Z0 : Z0) (ne : PFNeutralObj) (t : TkObj) (h : ¬ 0 < ptOf t) : regTerm Z0 ne t = 0 :=
  if_neg fun h' => h h'.1

section
variable {NT : Nat}

/-- The sum over charged candidates is not larger than that over the tracks, and equal to it if all are kept. -/
theorem charged_sum {tk : Fin NT → TkObj} {ch : Fin NT → PFChargedObj} (h : ChargedOf tk ch) (hp : ∀ i, 0 ≤ (tk i).hwPt.toInt)
    (Z0 : Z0) (ne : PFNeutralObj) :
    puppiSum ch Z0 ne ≤ ∑ i, regTerm Z0 ne (tk i) ∧
    ((∀ i, (ch i).hwPt = (tk i).hwPt) → puppiSum ch Z0 ne = ∑ i, regTerm Z0 ne (tk i)) := by
  have hnull : ∀ i, (ch i).hwPt = 0 → (if PuppiNear Z0 ne (ch i) then puppiTerm ne (ch i) else 0) = 0 := by
    intro i h0
    unfold puppiTerm
    rw [h0, show (0 : Pt).toInt = 0 from rfl]
    simp
  have hcopy : ∀ i, (ch i).hwPt = (tk i).hwPt → (ch i).hwEta = (tk i).hwEta → (ch i).hwPhi = (tk i).hwPhi → (ch i).hwZ0 = (tk i).hwZ0 →
      (if PuppiNear Z0 ne (ch i) then puppiTerm ne (ch i) else 0) = regTerm Z0 ne (tk i) := by
    intro i e1 e2 e3 e4
    have en : PuppiNear Z0 ne (ch i) ↔ (Z0.toInt - (tk i).hwZ0.toInt).natAbs ≤ 256 ∧
        dist2 (tk i).hwEta (tk i).hwPhi ne.hwEta ne.hwPhi ≤ 8404 := by
      unfold PuppiNear
      rw [e2, e3, e4]
    rw [if_congr en rfl rfl]
    by_cases h0 : 0 < (tk i).hwPt.toInt
    · unfold regTerm puppiTerm
      rw [e1, e2, e3]
      by_cases hn : (Z0.toInt - (tk i).hwZ0.toInt).natAbs ≤ 256 ∧ dist2 (tk i).hwEta (tk i).hwPhi ne.hwEta ne.hwPhi ≤ 8404
      · rw [if_pos hn, if_pos ⟨h0, hn⟩]
      · rw [if_neg hn, if_neg fun h => hn h.2]
    · have := hp i
      have e : (tk i).hwPt.toInt = 0 := by omega
      unfold puppiTerm
      rw [regTerm_zero Z0 ne (tk i) h0, e1, e]
      simp
  unfold puppiSum
  constructor
  · apply Finset.sum_le_sum
    intro i _
    rcases h i with e | ⟨e1, e2, e3, e4⟩
    · rw [hnull i (by rw [e])]; exact regTerm_nonneg _ _ _
    · rw [hcopy i e1 e2 e3 e4]
  · intro hk
    apply Finset.sum_congr rfl
    intro i _
    rcases h i with e | ⟨e1, e2, e3, e4⟩
    · rw [hnull i (by rw [e])]
      have : (tk i).hwPt = 0 := by rw [← hk i, e]
      rw [regTerm_zero]
      show ¬ 0 < (tk i).hwPt.toInt
      rw [this]; decide
    · exact hcopy i e1 e2 e3 e4

/-- The term of a track is the same in a region and in the detector. -/
theorem regTerm_place {T : Type} [RegObj T] [LawfulReg T] {ie : Fin 3} {ip : Fin 6} {s s' : Fin 12} {o : T} {t : TkObj} {ne : PFNeutralObj}
    (hn : AtPlace ie ip s o ne) (ho : Inside ie ip s o) (ht : Inside ie ip s' t) (Z0 : Z0) :
    regTerm Z0 ne (place ie ip s' t) = if 0 < t.hwPt.toInt ∧ DetNear Z0 (posOf s o) s' t then detTerm (posOf s o) s' t else 0 := by
  have e : dist2 (place ie ip s' t).hwEta (place ie ip s' t).hwPhi ne.hwEta ne.hwPhi = detDist2 (posOf s' t) (posOf s o) := by
    rw [← dr2_place ht ho, hn.1, hn.2]
    rfl
  have e1 : (place ie ip s' t).hwPt = t.hwPt := rfl
  have e2 : (place ie ip s' t).hwZ0 = t.hwZ0 := rfl
  have en : (0 < t.hwPt.toInt ∧ DetNear Z0 (posOf s o) s' t) ↔ 0 < t.hwPt.toInt ∧ (Z0.toInt - t.hwZ0.toInt).natAbs ≤ 256 ∧
      detDist2 (posOf s' t) (posOf s o) ≤ 8404 := Iff.rfl
  rw [if_congr en rfl rfl]
  unfold regTerm detTerm
  rw [e, e1, e2]

variable {NFPS NSEC NSE : Nat} {fib rest : Arr (NFPS * N_IN_SECTORS) (List TkObj)} {tk : Arr N_OUT_REGIONS (Arr NT TkObj)}

theorem det_sum {T : Type} [RegObj T] [LawfulReg T] (hreg : regionize_ref NSEC NSE NT fib = .ok (rest, tk))
    (hprop : ∀ s, ∀ t ∈ arrivals NSEC fib s, 0 < ptOf t → Proper t) (ir : Fin 18)
    (hfit : Fits NSE NT (regionEta ir) (regionPhi ir) (arrivals NSEC fib)) {s : Fin 12} {o : T}
    (ho : Inside (regionEta ir) (regionPhi ir) s o) {ne : PFNeutralObj} (hn : AtPlace (regionEta ir) (regionPhi ir) s o ne) (Z0 : Z0) :
    ∑ i, regTerm Z0 ne (tk ir i) ≤ detPuppiSum (arrivals NSEC fib) Z0 (posOf s o) ∧
    (Central (regionEta ir) (regionPhi ir) (posOf s o) →
      ∑ i, regTerm Z0 ne (tk ir i) = detPuppiSum (arrivals NSEC fib) Z0 (posOf s o)) := by
  rw [region_sum hreg ir hfit (f := regTerm Z0 ne) (regTerm_zero Z0 ne)]
  generalize regionPhi ir = ip at *
  generalize regionEta ir = ie at *
  let g : Fin 12 → TkObj → Int := fun s' t => if 0 < t.hwPt.toInt ∧ DetNear Z0 (posOf s o) s' t then detTerm (posOf s o) s' t else 0
  let G : Fin 12 → Int := fun s' => ((arrivals NSEC fib s').map (g s')).sum
  have hg : ∀ s' t, 0 ≤ g s' t := by
    intro s' t
    simp only [g]
    split
    · exact mul_div_nonneg _ _
    · exact le_refl _
  have hG : ∀ s', 0 ≤ G s' := fun s' => List.sum_nonneg (by
    intro x hx
    obtain ⟨t, _, rfl⟩ := List.mem_map.mp hx
    exact hg s' t)
  have hin : ∀ k : Fin 3, ∀ t ∈ arrivals NSEC fib (secOf ip k), inSlice ie t = true →
      regTerm Z0 ne (phiMove (120 * ((k.val : Int) - 1)) (etaRel ie t)) = g (secOf ip k) t := by
    intro k t ht hs
    by_cases hp : 0 < ptOf t
    · have hpr := hprop _ t ht hp
      obtain ⟨h1, h2⟩ := sector_inside (ie := ie) (ip := ip) (k := k) hs ⟨hpr.2.2.2.1, hpr.2.2.2.2⟩
      rw [h2, regTerm_place hn ho h1]
    · rw [regTerm_zero _ _ _ (by rw [ptOf_phiMove, ptOf_etaRel]; exact hp)]
      exact (if_neg fun h => hp h.1).symm
  have hdet : detPuppiSum (arrivals NSEC fib) Z0 (posOf s o) = ∑ s', G s' := rfl
  rw [hdet]
  have himg : ∑ k, G (secOf ip k) = ∑ s' ∈ Finset.univ.image (secOf ip), G s' :=
    (Finset.sum_image (fun a _ b _ h => secOf_inj ip h)).symm
  constructor
  · refine le_trans (Finset.sum_le_sum (g := fun k => G (secOf ip k)) ?_) ?_
    · intro k _
      apply List.sum_le_sum
      intro t ht
      by_cases hs : inSlice ie t = true
      · rw [if_pos hs]; exact le_of_eq (hin k t ht hs)
      · rw [if_neg hs]; exact hg _ _
    · rw [himg]
      exact Finset.sum_le_sum_of_subset_of_nonneg (Finset.subset_univ _) fun s' _ _ => hG s'
  · intro hc
    have hk : ∀ k : Fin 3, ((arrivals NSEC fib (secOf ip k)).map fun t => if inSlice ie t = true then
        regTerm Z0 ne (phiMove (120 * ((k.val : Int) - 1)) (etaRel ie t)) else 0).sum = G (secOf ip k) := by
      intro k
      apply congrArg List.sum
      apply List.map_congr_left
      intro t ht
      by_cases hs : inSlice ie t = true
      · rw [if_pos hs, hin k t ht hs]
      · rw [if_neg hs]
        symm
        apply if_neg
        rintro ⟨hp, hnear⟩
        exact hs (cone_inside hc (hprop _ t ht hp) hnear.2).1.1
    rw [Finset.sum_congr rfl fun k _ => hk k, himg]
    apply Finset.sum_subset (Finset.subset_univ _)
    intro s' _ hs'
    apply List.sum_eq_zero
    intro x hx
    obtain ⟨t, ht, rfl⟩ := List.mem_map.mp hx
    apply if_neg
    rintro ⟨hp, hnear⟩
    obtain ⟨_, h2, h3⟩ := cone_inside hc (hprop _ t ht hp) hnear.2
    obtain ⟨k, hk, _⟩ := inside_sector (ie := ie) (hprop _ t ht hp) h2 h3
    exact hs' (Finset.mem_image.mpr ⟨k, Finset.mem_univ _, hk⟩)

end
end Verif
