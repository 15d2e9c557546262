import Verif.Proofs.System
import Verif.Props.PFAgree2
import Verif.Proofs.PFGhosts
import Verif.Props.PFOutputs
import Verif.Props.Encoding
import Verif.Props.PuppiTestOutput
import Verif.Props.Regionizer
import Verif.Props.BramHist
/-! # C85: from the links of the detector to the PUPPI candidates, firmware against reference -/
open scoped BigOperators
namespace Verif
open Spec

variable {NT NC NE NM NS N N' NV NTK : Nat}

/-- One region on the board: inputs packed in words, particle flow on words, outputs unpacked, neutrals merged, PUPPI.
`data`, `out0`, `pf0`, `mem`, `old` are what the memories held before. -/
def fwBoard (table : PuppiTable) (z : Z0) (inp : PFInputs NT NC NE NM) (data : Arr N Word) (out0 : Arr N' Word)
    (pf0 old : PFOutputs NT NE NS NM) (mem : PFScratch NC NS) :
    Run (PFOutputs NT NE NS NM × Arr (NE + NS) PFNeutralObj) := do
  let out : PFOutputs NT NE NS NM ← (do
    let d ← mp7wrapped_pack_in inp data
    let w ← mp7wrapped_pfalgo3_full NT NC NE NM NS d out0 pf0 mem
    mp7wrapped_unpack_out old w)
  let ne ← simple_puppi_hw table out.outch (mergeNeutrals out.outpho out.outne) z
  .ok (out, ne)

/-- The same region through the reference code. -/
def refBoard (table : PuppiTable) (z : Z0) (inp : PFInputs NT NC NE NM) (old : PFOutputs NT NE NS NM)
    (mem : Arr NC PFNeutralObj) : Run (PFOutputs NT NE NS NM × Arr (NE + NS) PFNeutralObj) := do
  let out ← pfalgo3_full_ref inp old mem
  let ne ← simple_puppi_ref table out.outch (mergeNeutrals out.outpho out.outne) z
  .ok (out, ne)

/-- What firmware and reference of a region have to agree on. -/
def SameBoard (r' r : PFOutputs NT NE NS NM × Arr (NE + NS) PFNeutralObj) : Prop :=
  (∀ t, pf_equals_ch (r'.1.outch t) (r.1.outch t) = true) ∧ (∀ m, pf_equals_ch (r'.1.outmu m) (r.1.outmu m) = true) ∧
  ∀ n, pf_equals_ne (r'.2 n) (r.2 n) = true ∧ (r'.2 n).hwPtPuppi = (r.2 n).hwPtPuppi

theorem mergeNeutrals_equals {pho pho' : Arr NE PFNeutralObj} {ne ne' : Arr NS PFNeutralObj}
    (hp : ∀ c, pf_equals_ne (pho' c) (pho c) = true) (hn : ∀ i, pf_equals_ne (ne' i) (ne i) = true) (n : Fin (NE + NS)) :
    pf_equals_ne (mergeNeutrals pho' ne' n) (mergeNeutrals pho ne n) = true := by
  unfold mergeNeutrals
  by_cases h : n.val < NE
  · rw [dif_pos h, dif_pos h]; exact hp _
  · rw [dif_neg h, dif_neg h]; exact hn _

theorem mergeNeutrals_puppi (pho : Arr NE PFNeutralObj) (ne : Arr NS PFNeutralObj) (n : Fin (NE + NS)) :
    (mergeNeutrals pho ne n).hwPtPuppi = 0 := by
  unfold mergeNeutrals
  by_cases h : n.val < NE
  · rw [dif_pos h]
  · rw [dif_neg h]

/-- A candidate of a list of merged neutrals, compared with one of another, is one photon or one neutral hadron. -/
theorem mergeNeutrals_equals_iff (pho pho' : Arr NE PFNeutralObj) (ne ne' : Arr NS PFNeutralObj) :
    (∀ n, pf_equals_ne (mergeNeutrals pho' ne' n) (mergeNeutrals pho ne n) = true) ↔
    (∀ c, pf_equals_ne (pho' c) (pho c) = true) ∧ ∀ i, pf_equals_ne (ne' i) (ne i) = true := by
  refine ⟨fun h => ⟨fun c => ?_, fun i => ?_⟩, fun h n => mergeNeutrals_equals h.1 h.2 n⟩
  · have := h ⟨c.val, by omega⟩
    unfold mergeNeutrals at this
    rw [dif_pos c.isLt, dif_pos c.isLt] at this
    exact this
  · have := h ⟨NE + i.val, by omega⟩
    unfold mergeNeutrals at this
    have hn : ¬ NE + i.val < NE := by omega
    rw [dif_neg hn, dif_neg hn] at this
    have e : (⟨NE + i.val - NE, by omega⟩ : Fin NS) = i := Fin.ext (by simp)
    simp only [e] at this
    exact this

/-- C85 (one region, exactly): inputs that are physical, with the squared track pts in range: board and reference both run,
and they agree on every candidate and every PUPPI pt if and only if the two sets of particle flow rules give the same tracks
and the same neutrals. -/
theorem C85_board_iff (table : PuppiTable) (z : Z0) (inp : PFInputs NT NC NE NM) (data : Arr N Word) (out0 : Arr N' Word)
    (pf0 old old' : PFOutputs NT NE NS NM) (mem : PFScratch NC NS) (mem' : Arr NC PFNeutralObj)
    (hi : 2 * NE + 2 * NT + 2 * NC + 2 * NM ≤ min N MP7_NCHANN) (ho : 2 * NT + 2 * NE + 2 * NS + 2 * NM ≤ min N' MP7_NCHANN)
    (hp : Physical inp) (hempty : ∀ t, (inp.track t).hwPt.toInt = 0 → (inp.track t).hwPtErr.toInt = 0)
    (hpt2 : ∑ t, (inp.track t).hwPt.toInt ^ 2 < 2 ^ 21) :
    ∃ r r', fwBoard table z inp data out0 pf0 old mem = .ok r ∧ refBoard table z inp old' mem' = .ok r' ∧
      (SameBoard r' r ↔ SameRules NS inp) := by
  obtain ⟨out, out', h1, h2, hiff⟩ := C02_agree_iff inp pf0 old' mem mem' (physical_valid inp hp _) (physical_valid inp hp _) hempty
  have hsum : ∑ t, (out.outch t).hwPt.toInt ^ 2 < 2 ^ 21 := by
    refine lt_of_le_of_lt (Finset.sum_le_sum fun t _ => ?_) hpt2
    rcases C03_charged_copy inp pf0 mem out h1 t with e | e
    · rw [e]
      show (0 : Int) ^ 2 ≤ _
      nlinarith [sq_nonneg (inp.track t).hwPt.toInt]
    · rw [e.1]
  have hsum' : ∑ t, (out'.outch t).hwPt.toInt ^ 2 < 2 ^ 21 := by
    refine lt_of_le_of_lt (Finset.sum_le_sum fun t _ => ?_) hpt2
    obtain ⟨o, -, g1, g2, g3, -⟩ := ref_meets_spec_all inp old' mem' (physical_valid inp hp _)
    obtain rfl : o = out' := Except.ok.inj (g1.symm.trans h2)
    rcases lt_or_eq_of_le (hp.trackPt t) with h | h
    · rw [g2 t h]
      unfold chargedOut
      by_cases k : Kept inp refVariant t
      · rw [if_pos k]
      · rw [if_neg k]
        show (0 : Int) ^ 2 ≤ _
        nlinarith [sq_nonneg (inp.track t).hwPt.toInt]
    · rw [g3 t h.symm]
      show (0 : Int) ^ 2 ≤ _
      nlinarith [sq_nonneg (inp.track t).hwPt.toInt]
  let pho : Arr NE PFNeutralObj := fun i => { out.outpho i with hwPtPuppi := (old.outpho i).hwPtPuppi }
  let ne : Arr NS PFNeutralObj := fun i => { out.outne i with hwPtPuppi := (old.outne i).hwPtPuppi }
  have hsafe := (C22_safe table out.outch (mergeNeutrals pho ne) z hsum).1
  have hsafe' := (C22_safe table out'.outch (mergeNeutrals out'.outpho out'.outne) z hsum').1
  obtain ⟨hw, _, e1, -, hhw⟩ := C22_puppi_agree table out.outch (mergeNeutrals pho ne) z hsafe
  obtain ⟨hw', ref', -, e2, href⟩ := C22_puppi_agree table out'.outch (mergeNeutrals out'.outpho out'.outne) z hsafe'
  have hkey : ∀ n, pf_equals_ne (ref' n) (hw n) =
      pf_equals_ne (mergeNeutrals out'.outpho out'.outne n) (mergeNeutrals pho ne n) := fun n => by
    obtain ⟨a1, a2, a3⟩ := href n
    obtain ⟨b1, -, b3⟩ := hhw n
    by_cases h0 : (mergeNeutrals out'.outpho out'.outne n).hwPt = 0
    · rw [(a3 h0).1, b1]; rfl
    · rw [a2 h0, a1, b1]; rfl
  refine ⟨({ outch := out.outch, outpho := pho, outne := ne, outmu := out.outmu }, hw), (out', ref'), ?_, ?_, ?_⟩
  · unfold fwBoard
    rw [C19_wrapped_eq_plain inp data out0 pf0 old mem hi ho, h1, Run.ok_bind, Run.ok_bind]
    show (simple_puppi_hw table out.outch (mergeNeutrals pho ne) z >>= _) = _
    rw [e1]; rfl
  · unfold refBoard
    rw [h2, Run.ok_bind, e2]; rfl
  · refine Iff.trans ?_ hiff
    have hmerge := mergeNeutrals_equals_iff pho out'.outpho ne out'.outne
    constructor
    · rintro ⟨hch, hmu, hn⟩
      have := hmerge.mp fun n => (hkey n).symm.trans (hn n).1
      exact ⟨hch, this.1, this.2, hmu⟩
    · rintro ⟨hch, hpho, hne, hmu⟩
      refine ⟨hch, hmu, fun n => ?_⟩
      have heq : pf_equals_ne (mergeNeutrals out'.outpho out'.outne n) (mergeNeutrals pho ne n) = true :=
        hmerge.mpr ⟨hpho, hne⟩ n
      refine ⟨(hkey n).trans heq, ?_⟩
      have hz := mergeNeutrals_puppi out'.outpho out'.outne n
      obtain ⟨a1, a2, a3⟩ := href n
      obtain ⟨b1, -, b3⟩ := hhw n
      generalize mergeNeutrals out'.outpho out'.outne n = x' at *
      generalize mergeNeutrals pho ne n = x at *
      show (ref' n).hwPtPuppi = (hw n).hwPtPuppi
      by_cases h0 : x'.hwPt = 0
      · have hx : x.hwPt = 0 := by
          unfold pf_equals_ne at heq
          rw [if_pos h0] at heq
          exact of_decide_eq_true heq
        rw [(a3 h0).1, (b3 hx).2, hz]
      · rw [a2 h0, a1, b1]
        unfold pf_equals_ne at heq
        rw [if_neg h0] at heq
        simp only [Bool.and_eq_true, decide_eq_true_eq] at heq
        obtain ⟨⟨⟨f1, f2⟩, f3⟩, -⟩ := heq
        show reg 16 _ = reg 16 _
        rw [puppiSum_equals hch, puppiSum_pos _ _ f2 f3, f1]

/-- The rules agree when no calorimeter cluster is flagged EM and no pt error is one unit. -/
theorem sameRules_of_quiet (inp : PFInputs NT NC NE NM) (hp : Physical inp)
    (hempty : ∀ t, (inp.track t).hwPt.toInt = 0 → (inp.track t).hwPtErr.toInt = 0)
    (herr : ∀ t, (inp.track t).hwPtErr.toInt ≠ 1) (hflag : ∀ h, (inp.hadcalo h).hwIsEM = false) : SameRules NS inp := by
  have n0 : PFNeutralObj := { hwPt := 0, hwEta := 0, hwPhi := 0, hwId := 0, hwPtPuppi := 0 }
  have c0 : PFChargedObj := { hwPt := 0, hwEta := 0, hwPhi := 0, hwId := 0, hwZ0 := 0 }
  have old : PFOutputs NT NE NS NM := { outch := fun _ => c0, outpho := fun _ => n0, outne := fun _ => n0, outmu := fun _ => c0 }
  have mem : PFScratch NC NS := { outne_all := fun _ => n0, tmp := fun _ => n0 }
  obtain ⟨out, out', h1, h2, hiff⟩ := C02_agree_iff inp old old mem (fun _ => n0) (physical_valid inp hp _)
    (physical_valid inp hp _) hempty
  obtain ⟨o, o', g1, g2, hch, hpho, hne, hmu⟩ :=
    C02_fw_ref_agree_simple_partial inp old old mem (fun _ => n0) hp hempty herr hflag
  obtain rfl : o = out := Except.ok.inj (g1.symm.trans h1)
  obtain rfl : o' = out' := Except.ok.inj (g2.symm.trans h2)
  exact hiff.mp ⟨hch, hpho, hne, hmu⟩

/-- C85 (one region): inputs that are physical, with the squared track pts in range, no EM-flagged calorimeter cluster and
no pt error of one unit: board and reference agree on every candidate and every PUPPI pt. -/
theorem C85_board (table : PuppiTable) (z : Z0) (inp : PFInputs NT NC NE NM) (data : Arr N Word) (out0 : Arr N' Word)
    (pf0 old old' : PFOutputs NT NE NS NM) (mem : PFScratch NC NS) (mem' : Arr NC PFNeutralObj)
    (hi : 2 * NE + 2 * NT + 2 * NC + 2 * NM ≤ min N MP7_NCHANN) (ho : 2 * NT + 2 * NE + 2 * NS + 2 * NM ≤ min N' MP7_NCHANN)
    (hp : Physical inp) (hempty : ∀ t, (inp.track t).hwPt.toInt = 0 → (inp.track t).hwPtErr.toInt = 0)
    (herr : ∀ t, (inp.track t).hwPtErr.toInt ≠ 1) (hflag : ∀ h, (inp.hadcalo h).hwIsEM = false)
    (hpt2 : ∑ t, (inp.track t).hwPt.toInt ^ 2 < 2 ^ 21) :
    ∃ r r', fwBoard table z inp data out0 pf0 old mem = .ok r ∧ refBoard table z inp old' mem' = .ok r' ∧
      SameBoard r' r := by
  obtain ⟨r, r', h1, h2, h⟩ := C85_board_iff table z inp data out0 pf0 old old' mem mem' hi ho hp hempty hpt2
  exact ⟨r, r', h1, h2, h.mpr (sameRules_of_quiet inp hp hempty herr hflag)⟩

/-- The compile-time sizes: objects per sector and per sector-eta slice of each kind. -/
structure SystemSizes where
  emSec : Nat
  emSlice : Nat
  hadSec : Nat
  hadSlice : Nat
  tkSec : Nat
  tkSlice : Nat

section
variable {FE FT : Nat}

/-- The inputs of one region, from the regions of the four regionizers. -/
def boardOf (re : Arr N_OUT_REGIONS (Arr NE EmCaloObj)) (rh : Arr N_OUT_REGIONS (Arr NC HadCaloObj))
    (rt : Arr N_OUT_REGIONS (Arr NT TkObj)) (rm : Arr N_OUT_REGIONS (Arr NM MuObj)) (ir : Fin N_OUT_REGIONS) :
    PFInputs NT NC NE NM := { emcalo := re ir, hadcalo := rh ir, track := rt ir, mu := rm ir }

/-- The whole chain with everything that has firmware in the repository: the calorimeter regionizer, the vertex finder,
particle flow behind its word interface, PUPPI.  EM clusters, tracks and muons are regionized by the reference. -/
def fwSystem (sz : SystemSizes) (table : PuppiTable) (em : Arr (FE * N_IN_SECTORS) (List EmCaloObj))
    (had : Arr N_IN_SECTORS (List HadCaloObj)) (tk : Arr (FT * N_IN_SECTORS) (List TkObj))
    (mu : Arr N_MUON_SECTORS (List MuObj)) (vtk : Arr NV (Arr NTK TkObj)) (memh : Arr N_OUT_REGIONS (Arr NC HadCaloObj))
    (data : Arr N_OUT_REGIONS (Arr N Word)) (out0 : Arr N_OUT_REGIONS (Arr N' Word))
    (pf0 old : Arr N_OUT_REGIONS (PFOutputs NT NE NS NM)) (mem : Arr N_OUT_REGIONS (PFScratch NC NS)) :
    Run (Arr N_OUT_REGIONS (PFOutputs NT NE NS NM × Arr (NE + NS) PFNeutralObj)) := do
  let rh ← regionize sz.hadSec sz.hadSlice memh had
  let re ← regionize_ref sz.emSec sz.emSlice NE em
  let rt ← regionize_ref sz.tkSec sz.tkSlice NT tk
  let rm ← regionize_muon_ref NM mu
  let v ← bhv_chain vtk
  buildM fun ir => fwBoard table v.2.1 (boardOf re.2 rh.2 rt.2 rm.2 ir) (data ir) (out0 ir) (pf0 ir) (old ir) (mem ir)

/-- The whole chain with the reference code. -/
def refSystem (sz : SystemSizes) (table : PuppiTable) (em : Arr (FE * N_IN_SECTORS) (List EmCaloObj))
    (had : Arr N_IN_SECTORS (List HadCaloObj)) (tk : Arr (FT * N_IN_SECTORS) (List TkObj))
    (mu : Arr N_MUON_SECTORS (List MuObj)) (vtk : Arr NV (Arr NTK TkObj))
    (old : Arr N_OUT_REGIONS (PFOutputs NT NE NS NM)) (mem : Arr N_OUT_REGIONS (Arr NC PFNeutralObj)) :
    Run (Arr N_OUT_REGIONS (PFOutputs NT NE NS NM × Arr (NE + NS) PFNeutralObj)) := do
  let rh ← regionize_ref (NFPS := 1) sz.hadSec sz.hadSlice NC had
  let re ← regionize_ref sz.emSec sz.emSlice NE em
  let rt ← regionize_ref sz.tkSec sz.tkSlice NT tk
  let rm ← regionize_muon_ref NM mu
  let v ← bhv_find_pv_ref vtk
  buildM fun ir => refBoard table v.2.1 (boardOf re.2 rh.2 rt.2 rm.2 ir) (old ir) (mem ir)

/-- A sensible event gives every region inputs that satisfy the conditions of `C85_board_iff`, a quiet one those of `C85_board`. -/
theorem C85_regions_physical (sz : SystemSizes) (em rest_e : Arr (FE * N_IN_SECTORS) (List EmCaloObj))
    (had rest_h : Arr (1 * N_IN_SECTORS) (List HadCaloObj)) (tk rest_t : Arr (FT * N_IN_SECTORS) (List TkObj))
    (re : Arr N_OUT_REGIONS (Arr NE EmCaloObj)) (rh : Arr N_OUT_REGIONS (Arr NC HadCaloObj))
    (rt : Arr N_OUT_REGIONS (Arr NT TkObj)) (rm : Arr N_OUT_REGIONS (Arr NM MuObj))
    (he : regionize_ref sz.emSec sz.emSlice NE em = .ok (rest_e, re))
    (hh : regionize_ref sz.hadSec sz.hadSlice NC had = .ok (rest_h, rh))
    (ht : regionize_ref sz.tkSec sz.tkSlice NT tk = .ok (rest_t, rt))
    (hq : Sensible (arrivals sz.emSec em) (arrivals sz.hadSec had) (arrivals sz.tkSec tk)) (ir : Fin 18) :
    Physical (boardOf re rh rt rm ir) ∧
    (∀ t, (rt ir t).hwPt.toInt = 0 → (rt ir t).hwPtErr.toInt = 0) ∧ ∑ t, (rt ir t).hwPt.toInt ^ 2 < 2 ^ 21 ∧
    (Quiet (arrivals sz.emSec em) (arrivals sz.hadSec had) (arrivals sz.tkSec tk) →
      (∀ t, (rt ir t).hwPtErr.toInt ≠ 1) ∧ ∀ h, (rh ir h).hwIsEM = false) := by
  have T : ∀ t, rt ir t = RegObj.clear ∨ (0 < (rt ir t).hwPt.toInt ∧ 0 ≤ (rt ir t).hwPtErr.toInt ∧
      (rt ir t).hwPtErr.toInt ≤ 16384) := fun t => by
    rcases region_from ht ir t with h | ⟨s, o, ho, d, hp, h⟩
    · exact Or.inl h
    · refine Or.inr ?_
      rw [h]
      exact ⟨hp, hq.tkErr s o ho hp⟩
  have E : ∀ c, re ir c = RegObj.clear ∨ (0 < (re ir c).hwPt.toInt ∧ (re ir c).hwPtErr.toInt ^ 2 ≤ 536870911) := fun c => by
    rcases region_from he ir c with h | ⟨s, o, ho, d, hp, h⟩
    · exact Or.inl h
    · refine Or.inr ?_
      rw [h]
      exact ⟨hp, hq.emErr s o ho hp⟩
  have H : ∀ c, rh ir c = RegObj.clear ∨ (0 < (rh ir c).hwPt.toInt ∧ 0 ≤ (rh ir c).hwEmPt.toInt) := fun c => by
    rcases region_from hh ir c with h | ⟨s, o, ho, d, hp, h⟩
    · exact Or.inl h
    · refine Or.inr ?_
      rw [h]
      exact ⟨hp, hq.hadEm s o ho hp⟩
  have c1 : (RegObj.clear : TkObj).hwPt.toInt = 0 := rfl
  have c2 : (RegObj.clear : TkObj).hwPtErr.toInt = 0 := rfl
  have c3 : (RegObj.clear : EmCaloObj).hwPt.toInt = 0 := rfl
  have c4 : (RegObj.clear : EmCaloObj).hwPtErr.toInt = 0 := rfl
  have c5 : (RegObj.clear : HadCaloObj).hwPt.toInt = 0 := rfl
  have c6 : (RegObj.clear : HadCaloObj).hwEmPt.toInt = 0 := rfl
  have c7 : (RegObj.clear : HadCaloObj).hwIsEM = false := rfl
  refine ⟨⟨fun t => ?_, fun t => ?_, fun t => ?_, fun c => ?_, fun c => ?_, fun c => ?_, fun c => ?_, ?_, ?_, ?_⟩,
    fun t h0 => ?_, ?_, fun hq => ⟨fun t => ?_, fun c => ?_⟩⟩
  · show 0 ≤ (rt ir t).hwPt.toInt
    rcases T t with h | h
    · rw [h, c1]
    · omega
  · show 0 ≤ (rt ir t).hwPtErr.toInt
    rcases T t with h | h
    · rw [h, c2]
    · omega
  · show (rt ir t).hwPtErr.toInt ≤ 16384
    rcases T t with h | h
    · rw [h, c2]; decide
    · omega
  · show 0 ≤ (re ir c).hwPt.toInt
    rcases E c with h | h
    · rw [h, c3]
    · omega
  · show (re ir c).hwPtErr.toInt ^ 2 ≤ 536870911
    rcases E c with h | h
    · rw [h, c4]; decide
    · exact h.2
  · show 0 ≤ (rh ir c).hwPt.toInt
    rcases H c with h | h
    · rw [h, c5]
    · omega
  · show 0 ≤ (rh ir c).hwEmPt.toInt
    rcases H c with h | h
    · rw [h, c6]
    · omega
  · exact le_trans (region_sum_le ht ir (g := fun t : TkObj => t.hwPt.toInt) (fun x hx => le_of_lt hx) (fun _ _ => rfl)
      (fun _ _ => rfl) rfl) hq.tkSum
  · exact le_trans (region_sum_le he ir (g := fun t : EmCaloObj => t.hwPt.toInt) (fun x hx => le_of_lt hx) (fun _ _ => rfl)
      (fun _ _ => rfl) rfl) hq.emSum
  · have := region_sum_le ht ir (g := fun t : TkObj => t.hwPtErr.toInt ^ 2) (fun x _ => sq_nonneg _) (fun _ _ => rfl)
      (fun _ _ => rfl) rfl
    have := hq.errSum
    show 3 * ∑ t, (rt ir t).hwPtErr.toInt ^ 2 ≤ _
    omega
  · rcases T t with h | h
    · rw [h, c2]
    · omega
  · exact lt_of_le_of_lt (region_sum_le ht ir (g := fun t : TkObj => t.hwPt.toInt ^ 2) (fun x _ => sq_nonneg _)
      (fun _ _ => rfl) (fun _ _ => rfl) rfl) hq.pt2Sum
  · rcases region_from ht ir t with h | ⟨s, o, ho, d, hp, h⟩
    · rw [h, c2]; decide
    · rw [h]; exact hq.errOne s o ho hp
  · rcases region_from hh ir c with h | ⟨s, o, ho, d, hp, h⟩
    · rw [h, c7]
    · rw [h]; exact hq.noFlag s o ho hp

/-- C85: a sensible event with complete streams: the whole firmware chain and the whole reference chain both run, and in every
region they agree on every charged candidate, muon, neutral and PUPPI pt if and only if the particle flow rules of the
two agree on what the regionizers put in that region, whatever the memories held before. -/
theorem C85_system_iff (sz : SystemSizes) (table : PuppiTable) (em : Arr (FE * N_IN_SECTORS) (List EmCaloObj))
    (had : Arr N_IN_SECTORS (List HadCaloObj)) (tk : Arr (FT * N_IN_SECTORS) (List TkObj))
    (mu : Arr N_MUON_SECTORS (List MuObj)) (vtk : Arr NV (Arr NTK TkObj)) (memh : Arr N_OUT_REGIONS (Arr NC HadCaloObj))
    (data : Arr N_OUT_REGIONS (Arr N Word)) (out0 : Arr N_OUT_REGIONS (Arr N' Word))
    (pf0 old old' : Arr N_OUT_REGIONS (PFOutputs NT NE NS NM)) (mem : Arr N_OUT_REGIONS (PFScratch NC NS))
    (mem' : Arr N_OUT_REGIONS (Arr NC PFNeutralObj))
    (hi : 2 * NE + 2 * NT + 2 * NC + 2 * NM ≤ min N MP7_NCHANN) (ho : 2 * NT + 2 * NE + 2 * NS + 2 * NM ≤ min N' MP7_NCHANN) (hN : sz.hadSlice ≤ NC)
    (le : ∀ k, sz.emSec / FE ≤ (em k).length) (lh : ∀ k, sz.hadSec ≤ (had k).length)
    (lt : ∀ k, sz.tkSec / FT ≤ (tk k).length) (lm : ∀ k, NM ≤ (mu k).length)
    (hv : ∀ s t, 0 ≤ (vtk s t).hwPt.toInt) (hcap : NV * 511 ≤ 32767)
    (hq : Sensible (arrivals sz.emSec em) (arrivals (NFPS := 1) sz.hadSec had) (arrivals sz.tkSec tk)) :
    ∃ re rh rt rm r r', regionize_ref sz.emSec sz.emSlice NE em = .ok re ∧
      regionize_ref (NFPS := 1) sz.hadSec sz.hadSlice NC had = .ok rh ∧
      regionize_ref sz.tkSec sz.tkSlice NT tk = .ok rt ∧ regionize_muon_ref NM mu = .ok rm ∧
      fwSystem sz table em had tk mu vtk memh data out0 pf0 old mem = .ok r ∧
      refSystem sz table em had tk mu vtk old' mem' = .ok r' ∧
      ∀ ir, SameBoard (r' ir) (r ir) ↔ SameRules NS (boardOf re.2 rh.2 rt.2 rm.2 ir) := by
  obtain ⟨re, e1⟩ := (C37_ref_consumes sz.emSec sz.emSlice NE em).1 le
  obtain ⟨rh, e2⟩ := (C37_fw_consumes sz.hadSec sz.hadSlice hN memh had).1 lh
  obtain ⟨rt, e3⟩ := (C37_ref_consumes sz.tkSec sz.tkSlice NT tk).1 lt
  obtain ⟨rm, e4⟩ := (C37_muon_consumes mu).1 lm
  obtain ⟨bin, z, sum, e5, e6, -⟩ := C26_firmware_eq_ref vtk hv hcap
  have e2' := e2
  rw [C32_agree sz.hadSec sz.hadSlice hN memh had] at e2'
  have hb : ∀ ir, ∃ p : (PFOutputs NT NE NS NM × Arr (NE + NS) PFNeutralObj) × (PFOutputs NT NE NS NM × Arr (NE + NS) PFNeutralObj),
      fwBoard table z (boardOf re rh rt rm ir) (data ir) (out0 ir) (pf0 ir) (old ir) (mem ir) = .ok p.1 ∧
      refBoard table z (boardOf re rh rt rm ir) (old' ir) (mem' ir) = .ok p.2 ∧ (SameBoard p.2 p.1 ↔ SameRules NS (boardOf re rh rt rm ir)) := fun ir => by
    obtain ⟨h1, h2, h3, -⟩ := C85_regions_physical sz em _ had _ tk _ re rh rt rm e1 e2' e3 hq ir
    obtain ⟨r, r', a, b, c⟩ := C85_board_iff table z (boardOf re rh rt rm ir) (data ir) (out0 ir) (pf0 ir) (old ir) (old' ir) (mem ir)
      (mem' ir) hi ho h1 h2 h3
    exact ⟨(r, r'), a, b, c⟩
  choose p h1 h2 h3 using hb
  refine ⟨_, _, _, _, fun ir => (p ir).1, fun ir => (p ir).2, e1, e2', e3, e4, ?_, ?_, h3⟩
  · unfold fwSystem
    rw [e2, Run.ok_bind, e1, Run.ok_bind, e3, Run.ok_bind, e4, Run.ok_bind, e5, Run.ok_bind]
    exact buildM_ok _ h1
  · unfold refSystem
    rw [e2', Run.ok_bind, e1, Run.ok_bind, e3, Run.ok_bind, e4, Run.ok_bind, e6, Run.ok_bind]
    exact buildM_ok _ h2

/-- C85: a quiet event with complete streams: the whole firmware chain and the whole reference chain both run, and agree
on every charged candidate, muon, neutral and PUPPI pt of all eighteen regions, whatever the memories held before. -/
theorem C85_system (sz : SystemSizes) (table : PuppiTable) (em : Arr (FE * N_IN_SECTORS) (List EmCaloObj))
    (had : Arr N_IN_SECTORS (List HadCaloObj)) (tk : Arr (FT * N_IN_SECTORS) (List TkObj))
    (mu : Arr N_MUON_SECTORS (List MuObj)) (vtk : Arr NV (Arr NTK TkObj)) (memh : Arr N_OUT_REGIONS (Arr NC HadCaloObj))
    (data : Arr N_OUT_REGIONS (Arr N Word)) (out0 : Arr N_OUT_REGIONS (Arr N' Word))
    (pf0 old old' : Arr N_OUT_REGIONS (PFOutputs NT NE NS NM)) (mem : Arr N_OUT_REGIONS (PFScratch NC NS))
    (mem' : Arr N_OUT_REGIONS (Arr NC PFNeutralObj))
    (hi : 2 * NE + 2 * NT + 2 * NC + 2 * NM ≤ min N MP7_NCHANN) (ho : 2 * NT + 2 * NE + 2 * NS + 2 * NM ≤ min N' MP7_NCHANN) (hN : sz.hadSlice ≤ NC)
    (le : ∀ k, sz.emSec / FE ≤ (em k).length) (lh : ∀ k, sz.hadSec ≤ (had k).length)
    (lt : ∀ k, sz.tkSec / FT ≤ (tk k).length) (lm : ∀ k, NM ≤ (mu k).length)
    (hv : ∀ s t, 0 ≤ (vtk s t).hwPt.toInt) (hcap : NV * 511 ≤ 32767)
    (hq : Quiet (arrivals sz.emSec em) (arrivals (NFPS := 1) sz.hadSec had) (arrivals sz.tkSec tk)) :
    ∃ r r', fwSystem sz table em had tk mu vtk memh data out0 pf0 old mem = .ok r ∧
      refSystem sz table em had tk mu vtk old' mem' = .ok r' ∧ ∀ ir, SameBoard (r' ir) (r ir) := by
  obtain ⟨re, rh, rt, rm, r, r', e1, e2, e3, -, h1, h2, h⟩ := C85_system_iff sz table em had tk mu vtk memh data out0 pf0 old old' mem
    mem' hi ho hN le lh lt lm hv hcap hq.toSensible
  refine ⟨r, r', h1, h2, fun ir => (h ir).mpr ?_⟩
  obtain ⟨g1, g2, -, g3⟩ := C85_regions_physical sz em _ had _ tk _ re.2 rh.2 rt.2 rm.2 e1 e2 e3 hq.toSensible ir
  exact sameRules_of_quiet _ g1 g2 (g3 hq).1 (g3 hq).2

end

section
/-- An event with one object of each kind per sector. -/
def exTk : TkObj := { hwPt := 40, hwPtErr := 3, hwEta := 20, hwPhi := 10, hwZ0 := 12, hwTightQuality := true }
def exEm : EmCaloObj := { hwPt := 60, hwPtErr := 8, hwEta := 24, hwPhi := -20 }
def exHad : HadCaloObj := { hwPt := 90, hwEmPt := 30, hwEta := 21, hwPhi := 11, hwIsEM := false }
def exSizes : SystemSizes := ⟨1, 1, 1, 1, 1, 1⟩

/-- Non-vacuity of C85: twelve sectors with a track, an EM cluster and a calorimeter cluster each. -/
example : Quiet (arrivals (NFPS := 1) exSizes.emSec (fun _ => [exEm])) (arrivals (NFPS := 1) exSizes.hadSec (fun _ => [exHad]))
    (arrivals (NFPS := 1) exSizes.tkSec (fun _ => [exTk])) := by
  refine ⟨?_, ?_, ?_⟩
  · constructor <;> decide +kernel
  · decide +kernel
  · decide +kernel

/-- … and the regions that come out are not empty: region 7 (central in eta) sees three tracks. -/
example : (do let r ← regionize_ref (NFPS := 1) (T := TkObj) 1 1 4 (fun _ => [exTk])
              .ok ((List.ofFn (r.2 7)).map fun t => t.hwPt.toInt) : Run (List Int)).toOption = some [40, 40, 40, 0] := by
  decide +kernel

/-- A sensible event that is not quiet: sector 1 holds the objects of `keepEvent`, the other sectors are empty. -/
def busySizes : SystemSizes := ⟨2, 2, 1, 1, 1, 1⟩
def busyEm : Arr (1 * N_IN_SECTORS) (List EmCaloObj) := fun k => if k = 1 then [⟨20, 1, 0, 0⟩, ⟨100, 5, 15, 0⟩] else [⟨0, 0, 0, 0⟩, ⟨0, 0, 0, 0⟩]
def busyHad : Arr N_IN_SECTORS (List HadCaloObj) := fun k => if k = 1 then [⟨200, 5, 0, 100, true⟩] else [⟨0, 0, 0, 0, false⟩]
def busyTk : Arr (1 * N_IN_SECTORS) (List TkObj) := fun k => if k = 1 then [⟨100, 10, 0, 0, 0, false⟩] else [⟨0, 0, 0, 0, 0, false⟩]

/-- What region 6 gets of it: the harder EM cluster first. -/
def busyRegion : PFInputs 1 1 2 0 where
  emcalo := fun i => if i = 0 then ⟨100, 5, 15, 0⟩ else ⟨20, 1, 0, 0⟩
  hadcalo := fun _ => ⟨200, 5, 0, 100, true⟩
  track := fun _ => ⟨100, 10, 0, 0, 0, false⟩
  mu := fun i => i.elim0

theorem busyRegion_rules : ¬ SameRules 1 busyRegion := by
  have hp : Physical busyRegion := ⟨by decide, by decide, by decide, by decide, by decide, by decide, by decide, by decide,
    by decide, by decide⟩
  obtain ⟨out, out', h1, h2, hiff⟩ := C02_agree_iff busyRegion (old0 1 2 1 0) (old0 1 2 1 0) (mem0 1 1) (mem0 1 1).outne_all
    (physical_valid _ hp _) (physical_valid _ hp _) (by decide)
  have e1 : (pfalgo3_full busyRegion (old0 1 2 1 0) (mem0 1 1)).map (fun o => (o.outch 0).hwPt) = .ok 0 := by decide +kernel
  have e2 : (pfalgo3_full_ref busyRegion (old0 1 2 1 0) (mem0 1 1).outne_all).map (fun o => (o.outch 0).hwPt) = .ok 100 := by
    decide +kernel
  rw [h1] at e1
  rw [h2] at e2
  have f1 : (out.outch 0).hwPt = 0 := Except.ok.inj e1
  have f2 : (out'.outch 0).hwPt = 100 := Except.ok.inj e2
  intro hs
  have := (hiff.mpr hs).1 0
  unfold pf_equals_ch at this
  rw [f1, f2] at this
  simp at this

theorem busy_sensible : Sensible (arrivals busySizes.emSec busyEm) (arrivals (NFPS := 1) busySizes.hadSec busyHad)
    (arrivals busySizes.tkSec busyTk) := by
  constructor <;> decide +kernel

theorem busy_regions :
    ((regionize_ref (NFPS := 1) 2 2 2 busyEm).map fun r => List.ofFn (r.2 6)) = .ok (List.ofFn busyRegion.emcalo) ∧
    ((regionize_ref (NFPS := 1) 1 1 1 busyHad).map fun r => List.ofFn (r.2 6)) = .ok (List.ofFn busyRegion.hadcalo) ∧
    ((regionize_ref (NFPS := 1) 1 1 1 busyTk).map fun r => List.ofFn (r.2 6)) = .ok (List.ofFn busyRegion.track) := by
  refine ⟨?_, ?_, ?_⟩ <;> decide +kernel

/-- C85 is false of all sensible events: whatever the memories, the muons and the tracks of the vertex finder, the two chains
run on `busyEm`, `busyHad`, `busyTk` and give different candidates in region 6. -/
theorem C85_differs (table : PuppiTable) (mu : Arr N_MUON_SECTORS (List MuObj)) (vtk : Arr NV (Arr NTK TkObj))
    (memh : Arr N_OUT_REGIONS (Arr 1 HadCaloObj))
    (data : Arr N_OUT_REGIONS (Arr 64 Word)) (out0 : Arr N_OUT_REGIONS (Arr 64 Word))
    (pf0 old old' : Arr N_OUT_REGIONS (PFOutputs 1 2 1 0)) (mem : Arr N_OUT_REGIONS (PFScratch 1 1))
    (mem' : Arr N_OUT_REGIONS (Arr 1 PFNeutralObj))
    (hv : ∀ s t, 0 ≤ (vtk s t).hwPt.toInt) (hcap : NV * 511 ≤ 32767) :
    ∃ r r', fwSystem busySizes table busyEm busyHad busyTk mu vtk memh data out0 pf0 old mem = .ok r ∧
      refSystem busySizes table busyEm busyHad busyTk mu vtk old' mem' = .ok r' ∧ ¬ SameBoard (r' 6) (r 6) := by
  obtain ⟨re, rh, rt, rm, r, r', e1, e2, e3, -, h1, h2, h⟩ := C85_system_iff busySizes table busyEm busyHad busyTk mu vtk memh data
    out0 pf0 old old' mem mem' (by decide) (by decide) (by decide) (by decide) (by decide) (by decide) (fun _ => Nat.zero_le _) hv hcap
    busy_sensible
  refine ⟨r, r', h1, h2, fun hs => busyRegion_rules ?_⟩
  obtain ⟨g1, g2, g3⟩ := busy_regions
  have q1 : re.2 6 = busyRegion.emcalo := List.ofFn_injective (Except.ok.inj ((congrArg _ e1).symm.trans g1))
  have q2 : rh.2 6 = busyRegion.hadcalo := List.ofFn_injective (Except.ok.inj ((congrArg _ e2).symm.trans g2))
  have q3 : rt.2 6 = busyRegion.track := List.ofFn_injective (Except.ok.inj ((congrArg _ e3).symm.trans g3))
  have : boardOf re.2 rh.2 rt.2 rm.2 6 = busyRegion := by
    unfold boardOf
    rw [q1, q2, q3]
    have : rm.2 6 = busyRegion.mu := funext fun i => i.elim0
    rw [this]
  rw [← this]
  exact (h 6).mp hs
end

end Verif
