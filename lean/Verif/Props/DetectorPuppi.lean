import Verif.Proofs.DetectorPuppi
import Verif.Props.PFOutputs
import Verif.Props.Puppi
import Verif.Model.PuppiTest
/-! # C78 — PUPPI in regions and PUPPI in the whole detector -/
namespace Verif
open Spec

variable {NT NC NE NM NS : Nat} {NFPS NSEC NSE : Nat} {fib rest : Arr (NFPS * N_IN_SECTORS) (List TkObj)}
  {tk : Arr N_OUT_REGIONS (Arr NT TkObj)}

theorem central_inside {T : Type} [RegObj T] [LawfulReg T] {ie : Fin 3} {ip : Fin 6} {s : Fin 12} {o : T}
    (hc : Central ie ip (posOf s o)) (hp : Proper o) : Inside ie ip s o :=
  (cone_inside hc hp (by unfold detDist2; simp)).1

theorem region_pt_nonneg (hreg : regionize_ref NSEC NSE NT fib = .ok (rest, tk)) (ir : Fin 18) (i : Fin NT) :
    0 ≤ (tk ir i).hwPt.toInt := by
  rcases (C33_sorted NSEC NSE NT fib rest tk hreg ir).2 i with h | h
  · exact le_of_lt h
  · rw [h]; decide

/-- **C78.** A region never sees more than there is: for a neutral anywhere in a region that is not overfull, the PUPPI
sum over the charged candidates of the region is at most that over all tracks of the detector. -/
theorem C78_never_more {T : Type} [RegObj T] [LawfulReg T] (hreg : regionize_ref NSEC NSE NT fib = .ok (rest, tk))
    (hprop : ∀ s, ∀ t ∈ arrivals NSEC fib s, 0 < ptOf t → Proper t) (ir : Fin 18)
    (hfit : Fits NSE NT (regionEta ir) (regionPhi ir) (arrivals NSEC fib)) {ch : Fin NT → PFChargedObj} (hch : ChargedOf (tk ir) ch)
    {s : Fin 12} {o : T} (ho : Inside (regionEta ir) (regionPhi ir) s o) {ne : PFNeutralObj}
    (hn : AtPlace (regionEta ir) (regionPhi ir) s o ne) (Z0 : Z0) :
    puppiSum ch Z0 ne ≤ detPuppiSum (arrivals NSEC fib) Z0 (posOf s o) :=
  le_trans (charged_sum hch (region_pt_nonneg hreg ir) Z0 ne).1 (det_sum hreg hprop ir hfit ho hn Z0).1

/-- **C78.** In the centre of a region (farther than the PUPPI cone from the edges) nothing is missing: if the charged
candidates are all the tracks of the region, the sum is that over all tracks of the detector. -/
theorem C78_central {T : Type} [RegObj T] [LawfulReg T] (hreg : regionize_ref NSEC NSE NT fib = .ok (rest, tk))
    (hprop : ∀ s, ∀ t ∈ arrivals NSEC fib s, 0 < ptOf t → Proper t) (ir : Fin 18)
    (hfit : Fits NSE NT (regionEta ir) (regionPhi ir) (arrivals NSEC fib)) {ch : Fin NT → PFChargedObj} (hch : ChargedOf (tk ir) ch)
    (hall : ∀ i, (ch i).hwPt = (tk ir i).hwPt)
    {s : Fin 12} {o : T} (ho : Proper o) (hc : Central (regionEta ir) (regionPhi ir) (posOf s o)) {ne : PFNeutralObj}
    (hn : AtPlace (regionEta ir) (regionPhi ir) s o ne) (Z0 : Z0) :
    puppiSum ch Z0 ne = detPuppiSum (arrivals NSEC fib) Z0 (posOf s o) :=
  ((charged_sum hch (region_pt_nonneg hreg ir) Z0 ne).2 hall).trans
    ((det_sum hreg hprop ir hfit (central_inside hc ho) hn Z0).2 hc)

theorem soft_sum {ch : Fin NT → PFChargedObj} (hNT : NT ≤ 1000) (h : ∀ i, 0 ≤ (ch i).hwPt.toInt ∧ (ch i).hwPt.toInt < 40)
    (Z0 : Z0) (ne : PFNeutralObj) : puppiSum ch Z0 ne ≤ 2147483647 := by
  have : puppiSum ch Z0 ne ≤ ∑ _i : Fin NT, (1540096 : Int) := by
    unfold puppiSum
    apply Finset.sum_le_sum
    intro i _
    obtain ⟨h0, h1⟩ := h i
    split
    · unfold puppiTerm
      generalize (ch i).hwPt.toInt = p at *
      generalize dist2 _ _ _ _ / 32 = d
      have hp : p ^ 2 ≤ 1521 := by nlinarith
      have hp0 := sq_nonneg p
      have a : 0 ≤ min (p ^ 2 / 32) 131071 ∧ min (p ^ 2 / 32) 131071 ≤ 47 := by omega
      have b : 0 ≤ 32768 / max 1 d ∧ 32768 / max 1 d ≤ 32768 :=
        ⟨Int.ediv_nonneg (by decide) (by omega), Int.ediv_le_self _ (by decide)⟩
      nlinarith
    · decide
  rw [Finset.sum_const, Finset.card_univ, Fintype.card_fin, nsmul_eq_mul] at this
  have : (NT : Int) * 1540096 ≤ 1000 * 1540096 := by
    have : (NT : Int) ≤ 1000 := by exact_mod_cast hNT
    omega
  omega

/-- **C78.** End to end for photons: the tracks of the detector go through the regionizer, particle flow and PUPPI are
run on one region.  If the tracks are below 10 GeV (so that particle flow keeps them), the PUPPI pt of a photon in the
centre of the region is that computed from all tracks of the detector. -/
theorem C78_photon (hreg : regionize_ref NSEC NSE NT fib = .ok (rest, tk))
    (hprop : ∀ s, ∀ t ∈ arrivals NSEC fib s, 0 < ptOf t → Proper t) (hsoft : ∀ s, ∀ t ∈ arrivals NSEC fib s, t.hwPt.toInt < 40)
    (hNT : NT ≤ 1000) (ir : Fin 18) (hfit : Fits NSE NT (regionEta ir) (regionPhi ir) (arrivals NSEC fib))
    (inp : PFInputs NT NC NE NM) (hin : inp.track = tk ir) (hv : Valid inp fwVariant) (old : PFOutputs NT NE NS NM)
    (mem : PFScratch NC NS) (table : PuppiTable) (Z0 : Z0) (c : Fin NE) {s : Fin 12} {e : EmCaloObj} (hp : Proper e)
    (hc : Central (regionEta ir) (regionPhi ir) (posOf s e)) (he : inp.emcalo c = place (regionEta ir) (regionPhi ir) s e) :
    ∃ out hw, pfalgo3_full inp old mem = .ok out ∧
      simple_puppi_hw table out.outch (mergeNeutrals out.outpho out.outne) Z0 = .ok hw ∧
      (hw ⟨c.val, by omega⟩).hwPt = (out.outpho c).hwPt ∧
      (hw ⟨c.val, by omega⟩).hwPtPuppi =
        reg 16 (puppiPt table (detPuppiSum (arrivals NSEC fib) Z0 (posOf s e)) (out.outpho c).hwPt.toInt) := by
  obtain ⟨out, hrun, hkept⟩ := C03_charged_kept_iff inp old mem hv
  have hcopy := C03_charged_copy inp old mem out hrun
  obtain ⟨out', hrun', hpho⟩ := C07_photons inp old mem hv
  have : out' = out := by rw [hrun] at hrun'; injection hrun' with h; exact h.symm
  subst this
  have hch : ChargedOf (tk ir) out'.outch := by
    intro i
    rcases hcopy i with h | ⟨h1, h2, h3, h4, _⟩
    · exact Or.inl h
    · rw [← hin]; exact Or.inr ⟨h1, h2, h3, h4⟩
  have hlow : ∀ i, (tk ir i).hwPt.toInt < 40 := by
    intro i
    by_cases h : 0 < (tk ir i).hwPt.toInt
    · obtain ⟨s', t, ht, _, e'⟩ := region_source hreg (fun s t ht h => ⟨(hprop s t ht h).2.2.2.1, (hprop s t ht h).2.2.2.2⟩) ir i h
      rw [e']
      exact hsoft s' t ht
    · omega
  have hall : ∀ i, (out'.outch i).hwPt = (tk ir i).hwPt := by
    intro i
    by_cases h : 0 < (tk ir i).hwPt.toInt
    · rw [← hin]
      apply ((hkept i (by rw [hin]; exact h)).1).mpr
      refine Or.inr (Or.inr (Or.inl ?_))
      rw [hin]
      have := hlow i
      split <;> omega
    · have := region_pt_nonneg hreg ir i
      have h0 : (tk ir i).hwPt = 0 := BitVec.eq_of_toInt_eq (by rw [show (0 : Pt).toInt = 0 from rfl]; omega)
      rcases hch i with h | h
      · rw [h, h0]
      · exact h.1
  have hsum : ∀ n, puppiSum out'.outch Z0 (mergeNeutrals out'.outpho out'.outne n) ≤ 2147483647 := fun n =>
    soft_sum hNT (fun i => by rw [hall i]; exact ⟨region_pt_nonneg hreg ir i, hlow i⟩) Z0 _
  obtain ⟨hw, _, h1, _, h3⟩ := C22_puppi_agree table out'.outch (mergeNeutrals out'.outpho out'.outne) Z0 hsum
  refine ⟨out', hw, hrun, h1, ?_, ?_⟩
  · rw [(h3 _).1]
    show (mergeNeutrals _ _ _).hwPt = _
    unfold mergeNeutrals
    rw [dif_pos c.isLt]
  · rw [(h3 _).1]
    have hm : mergeNeutrals out'.outpho out'.outne ⟨c.val, by omega⟩ = { out'.outpho c with hwPtPuppi := 0 } := by
      unfold mergeNeutrals
      rw [dif_pos c.isLt]
    rw [hm]
    show reg 16 (puppiPt table (puppiSum out'.outch Z0 { out'.outpho c with hwPtPuppi := 0 }) (out'.outpho c).hwPt.toInt) = _
    by_cases h0 : (out'.outpho c).hwPt.toInt = 0
    · rw [h0]
      have z : ∀ x, puppiPt table x 0 = 0 := by
        intro x
        unfold puppiPt
        split
        · rfl
        · split
          · rw [Int.zero_mul]; rfl
          · rfl
      rw [z, z]
    · have hat : AtPlace (regionEta ir) (regionPhi ir) s e { out'.outpho c with hwPtPuppi := 0 } := by
        have := (hpho c).1.2.1 (by rw [← (hpho c).1.1]; exact h0)
        rw [he] at this
        exact ⟨this.1, this.2.1⟩
      rw [C78_central hreg hprop ir hfit hch hall hp hc hat Z0]

/-- **C78.** Which directions have the whole cone inside a region. -/
theorem C78_cone_iff (ie : Fin 3) (ip : Fin 6) (p : Pos) (hp : -342 ≤ p.eta ∧ p.eta ≤ 342) (hcov : Covers ie ip p) :
    (∀ q : Pos, -342 ≤ q.eta → q.eta ≤ 342 → detDist2 q p ≤ 8404 → Covers ie ip q) ↔
      (ie = 0 → p.eta ≤ -148) ∧ (ie = 1 → -80 ≤ p.eta ∧ p.eta ≤ 80) ∧ (ie = 2 → 148 ≤ p.eta) ∧
        -89 ≤ (p.phi - 120 * (2 * ip.val + 1)).bmod 1440 ∧ (p.phi - 120 * (2 * ip.val + 1)).bmod 1440 ≤ 89 := by
  obtain ⟨c1, c2, c3, c4⟩ := hcov
  constructor
  · intro h
    have hE : ∀ d : Int, -91 ≤ d → d ≤ 91 → -342 ≤ p.eta + d → p.eta + d ≤ 342 → Covers ie ip ⟨p.eta + d, p.phi⟩ := by
      intro d h1 h2 h3 h4
      apply h _ h3 h4
      unfold detDist2
      simp only [Int.sub_self, Int.zero_bmod]
      have : p.eta + d - p.eta = d := by omega
      rw [this]
      nlinarith
    have hP : ∀ d : Int, -91 ≤ d → d ≤ 91 → Covers ie ip ⟨p.eta, p.phi + d⟩ := by
      intro d h1 h2
      apply h ⟨p.eta, p.phi + d⟩ hp.1 hp.2
      unfold detDist2
      have e : (p.phi + d - p.phi).bmod 1440 = d := by
        rw [show p.phi + d - p.phi = d by omega]
        apply Int.bmod_eq_of_le_mul_two <;> omega
      simp only [e, Int.sub_self]
      nlinarith
    refine ⟨?_, ?_, ?_, ?_, ?_⟩
    · rintro rfl
      by_contra hc
      have e1 : etaHi 0 = -57 := rfl
      have := (hE 91 (by decide) (by decide) (by omega) (by omega)).2.1
      simp only [] at this
      omega
    · rintro rfl
      have e1 : etaHi 1 = 171 := rfl
      have e2 : etaLo 1 = -171 := rfl
      constructor
      · by_contra hc
        have := (hE (-91) (by decide) (by decide) (by omega) (by omega)).1
        simp only [] at this
        omega
      · by_contra hc
        have := (hE 91 (by decide) (by decide) (by omega) (by omega)).2.1
        simp only [] at this
        omega
    · rintro rfl
      by_contra hc
      have e1 : etaLo 2 = 57 := rfl
      have := (hE (-91) (by decide) (by decide) (by omega) (by omega)).1
      simp only [] at this
      omega
    · by_contra hc
      have h1 := (hP (-91) (by decide) (by decide)).2.2
      simp only [] at h1
      have d1 := Int.bmod_def (p.phi - 120 * (2 * (ip.val : Int) + 1)) 1440
      have d2 := Int.bmod_def (p.phi + -91 - 120 * (2 * (ip.val : Int) + 1)) 1440
      omega
    · by_contra hc
      have h1 := (hP 91 (by decide) (by decide)).2.2
      simp only [] at h1
      have d1 := Int.bmod_def (p.phi - 120 * (2 * (ip.val : Int) + 1)) 1440
      have d2 := Int.bmod_def (p.phi + 91 - 120 * (2 * (ip.val : Int) + 1)) 1440
      omega
  · rintro ⟨f0, f1, f2, f3, f4⟩ q q1 q2 hd
    unfold detDist2 at hd
    have n1 := sq_nonneg (q.eta - p.eta)
    have n2 := sq_nonneg ((q.phi - p.phi).bmod 1440)
    have he := sq_bound91 (x := q.eta - p.eta) (by omega)
    have hφ := sq_bound91 (x := (q.phi - p.phi).bmod 1440) (by omega)
    have d1 := Int.bmod_def (p.phi - 120 * (2 * (ip.val : Int) + 1)) 1440
    have d2 := Int.bmod_def (q.phi - p.phi) 1440
    have d3 := Int.bmod_def (q.phi - 120 * (2 * (ip.val : Int) + 1)) 1440
    refine ⟨?_, ?_, by omega, by omega⟩
    · match ie with
      | 0 => have e : etaLo 0 = -342 := rfl; omega
      | 1 => have e : etaLo 1 = -171 := rfl; have := f1 rfl; omega
      | 2 => have e : etaLo 2 = 57 := rfl; have := f2 rfl; omega
    · match ie with
      | 0 => have e : etaHi 0 = -57 := rfl; have := f0 rfl; omega
      | 1 => have e : etaHi 1 = 171 := rfl; have := f1 rfl; omega
      | 2 => have e : etaHi 2 = 342 := rfl; omega

/-- **C78.** The overlap of the regions is too narrow for PUPPI: at eta 100, whatever the phi, every region misses part of
the cone.  (So no choice of the areas for which the regions are responsible would help.) -/
theorem C78_no_region (p : Pos) (hp : p.eta = 100) (ie : Fin 3) (ip : Fin 6) (hcov : Covers ie ip p) :
    ∃ q : Pos, -342 ≤ q.eta ∧ q.eta ≤ 342 ∧ detDist2 q p ≤ 8404 ∧ ¬ Covers ie ip q := by
  by_contra hc
  push Not at hc
  have := (C78_cone_iff ie ip p (by omega) hcov).mp hc
  match ie with
  | 0 => have := this.1 rfl; omega
  | 1 => have := this.2.1 rfl; omega
  | 2 => have := this.2.2.1 rfl; omega

/-! ### A concrete event, and the hypotheses can be met -/

/-- Two hadrons, at eta 185 and 15 in the middle of sector 1: tracks … -/
def puTk : Arr (1 * N_IN_SECTORS) (List TkObj) := fun s =>
  if s.val = 1 then [⟨450, 10, 185, 0, 0, true⟩, ⟨450, 10, 15, 0, 0, true⟩] else [TkObj.clear, TkObj.clear]
/-- … and their clusters, … -/
def puHad : Arr (1 * N_IN_SECTORS) (List HadCaloObj) := fun s =>
  if s.val = 1 then [⟨450, 185, 0, 0, false⟩, ⟨450, 15, 0, 0, false⟩] else [HadCaloObj.clear, HadCaloObj.clear]
/-- … and a photon half way between them. -/
def puEm : EmCaloObj := ⟨40, 0, 100, 0⟩
@[inherit_doc puEm] def puEms : Arr (1 * N_IN_SECTORS) (List EmCaloObj) := fun s =>
  if s.val = 1 then [puEm, EmCaloObj.clear] else [EmCaloObj.clear, EmCaloObj.clear]

/-- The charged candidates and the photon of one region. -/
def puRegion (ir : Fin 18) : Run (Arr 2 PFChargedObj × PFNeutralObj) := do
  let tk ← regionize_ref 2 2 2 puTk
  let had ← regionize_ref 2 2 2 puHad
  let em ← regionize_ref 2 2 2 puEms
  let o ← pfalgo3_full (NS := 1) (⟨em.2 ir, had.2 ir, tk.2 ir, fun _ => MuObj.clear⟩ : PFInputs 2 2 2 1) (old0 2 2 1 1) (mem0 2 1)
  .ok (o.outch, o.outpho 0)

/-- **C78.** The photon is in two regions (6 and 12, slices 1 and 2).  Each has one of the hadrons in the cone, and its
PUPPI sum is half of that of the detector: with any table of weights the photon keeps its pt in PUPPI run on the whole
detector, and loses some of it in both regions. -/
theorem C78_concrete (table : PuppiTable) :
    detPuppiSum (arrivals 2 puTk) 0 (posOf 1 puEm) = 1835120 ∧
    puppiPt table (detPuppiSum (arrivals 2 puTk) 0 (posOf 1 puEm)) 40 = 40 ∧
    ∀ ir : Fin 18, ir = 6 ∨ ir = 12 → ∃ ch ne hw, puRegion ir = .ok (ch, ne) ∧ ne.hwPt = 40 ∧ puppiSum ch 0 ne = 917560 ∧
      simple_puppi_hw (NN := 1) table ch (fun _ => ne) 0 = .ok hw ∧ (hw 0).hwPtPuppi.toInt < 40 := by
  have hd : detPuppiSum (arrivals 2 puTk) 0 (posOf 1 puEm) = 1835120 := by decide +kernel
  refine ⟨hd, ?_, ?_⟩
  · rw [hd]
    unfold puppiPt
    rw [if_neg (by decide), dif_neg (by decide)]
  · have key : ∀ ir : Fin 18, ir = 6 ∨ ir = 12 →
        (puRegion ir).map (fun r => (r.2.hwPt, puppiSum r.1 0 r.2)) = .ok (40, 917560) := by
      intro ir h
      rcases h with rfl | rfl <;> decide +kernel
    intro ir h
    have k := key ir h
    cases hr : puRegion ir with
    | error f => rw [hr] at k; cases k
    | ok r =>
      rw [hr] at k
      injection k with k
      have k1 : r.2.hwPt = 40 := congrArg Prod.fst k
      have k2 : puppiSum r.1 0 r.2 = 917560 := congrArg Prod.snd k
      obtain ⟨hw, _, h1, _, h3⟩ := C22_puppi_agree (NN := 1) table r.1 (fun _ => r.2) 0 (fun _ => by rw [k2]; decide)
      refine ⟨r.1, r.2, hw, rfl, k1, k2, h1, ?_⟩
      rw [(h3 0).1]
      show (reg 16 (puppiPt table (puppiSum r.1 0 r.2) r.2.hwPt.toInt)).toInt < 40
      rw [k1, k2, show (40 : Pt).toInt = 40 from rfl]
      unfold puppiPt
      rw [if_neg (by decide), dif_pos (by decide)]
      generalize table _ = w
      have hw := w.isLt
      have h0 : (0 : Int) ≤ 40 * (w.toNat : Int) / 256 := by omega
      have h1 : 40 * (w.toNat : Int) / 256 < 40 := by omega
      rw [reg16_toInt (by omega) (by omega)]
      exact h1

/-- A photon and a soft track in the centre of region 6, 60 units apart; a track outside the cone. -/
def softTk : Arr (1 * N_IN_SECTORS) (List TkObj) := fun s =>
  if s.val = 1 then [⟨20, 0, 70, 0, 0, true⟩, ⟨30, 0, 190, 0, 0, true⟩] else [TkObj.clear, TkObj.clear]

/-- The hypotheses of `C78_photon` hold for it. -/
example : (∀ s, ∀ t ∈ arrivals 2 softTk s, 0 < ptOf t → Proper t) ∧ (∀ s, ∀ t ∈ arrivals 2 softTk s, t.hwPt.toInt < 40) ∧
    Fits 2 2 1 0 (arrivals 2 softTk) ∧ Proper (⟨40, 0, 10, 0⟩ : EmCaloObj) ∧ Central 1 0 (posOf 1 (⟨40, 0, 10, 0⟩ : EmCaloObj)) ∧
    regionEta 6 = 1 ∧ regionPhi 6 = 0 ∧ detPuppiSum (arrivals 2 softTk) 0 (posOf 1 (⟨40, 0, 10, 0⟩ : EmCaloObj)) = 3504 := by
  refine ⟨?_, ?_, ?_, ?_, ?_, by decide, by decide, by decide +kernel⟩
  · unfold Proper; decide +kernel
  · decide +kernel
  · unfold Fits; decide +kernel
  · unfold Proper; decide
  · unfold Central; decide

/-- Region 6 of it, with the photon. -/
def softInp : PFInputs 2 1 1 1 :=
  ⟨fun _ => ⟨40, 0, 10, 0⟩, fun _ => HadCaloObj.clear, fun i => if i = 0 then ⟨20, 0, 70, 0, 0, true⟩ else TkObj.clear, fun _ => MuObj.clear⟩

example : (regionize_ref 2 2 2 softTk).map (fun r => List.ofFn (r.2 6)) = .ok (List.ofFn softInp.track) ∧ Valid softInp fwVariant ∧
    softInp.emcalo 0 = place 1 0 1 (⟨40, 0, 10, 0⟩ : EmCaloObj) :=
  ⟨by decide +kernel, physical_valid _ ⟨by decide, by decide, by decide, by decide, by decide, by decide, by decide, by decide,
    by decide, by decide⟩ _, by decide⟩

end Verif
