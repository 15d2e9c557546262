import Verif.Props.Around
import Verif.Proofs.AroundDet
import Verif.Props.System
/-! # C91 through the regions -/
namespace Verif
open Spec
variable {NT NC NE NM NS NT' NC' NE' NM' NS' FE FT FE' FT' : Nat}

/-- A region that is not full has an empty slot. -/
theorem room_free {T : Type} [RegObj T] [LawfulReg T] {NFPS : Nat} {NSEC NSE NREG : Nat} {fib rest : Arr (NFPS * N_IN_SECTORS) (List T)}
    {regions : Arr N_OUT_REGIONS (Arr NREG T)} (hrun : regionize_ref NSEC NSE NREG fib = .ok (rest, regions)) (ir : Fin 18)
    (hroom : Room NREG (regionEta ir) (regionPhi ir) (arrivals NSEC fib)) : ∃ i, regions ir i = RegObj.clear := by
  have h := C33_ref_content NSEC NSE NREG fib rest regions hrun ir
  change List.ofFn (regions ir) = pad NREG (region NREG NSE (regionEta ir) (regionPhi ir) (arrivals NSEC fib)) at h
  generalize regionPhi ir = ip at *
  generalize regionEta ir = ie at *
  have hl : ∀ s, (slice NSE ie (arrivals NSEC fib s)).length ≤ (window ie (arrivals NSEC fib s)).length := by
    intro s
    unfold slice best
    rw [← filter_window, List.length_take, List.length_insertionSort]
    exact Nat.min_le_right _ _
  have hcl : (region NREG NSE ie ip (arrivals NSEC fib)).length < NREG := by
    unfold Room at hroom
    have a : (region NREG NSE ie ip (arrivals NSEC fib)).length ≤ (candidates NSE ie ip (arrivals NSEC fib)).length := by
      unfold region best
      rw [List.length_take, List.length_insertionSort]
      exact le_trans (Nat.min_le_right _ _) (List.length_filter_le _ _)
    unfold candidates at a
    rw [List.length_append, List.length_append, List.length_map, List.length_map, List.length_map] at a
    have := hl ⟨2 * ip.val, by omega⟩
    have := hl ⟨2 * ip.val + 1, by omega⟩
    have := hl ⟨(2 * ip.val + 2) % 12, by omega⟩
    omega
  rw [pad_of_le (le_of_lt hcl)] at h
  have hm : (RegObj.clear : T) ∈ List.ofFn (regions ir) := by
    rw [h]
    exact List.mem_append_right _ (List.mem_replicate.mpr ⟨by omega, rfl⟩)
  obtain ⟨i, hi⟩ := List.mem_ofFn.mp hm
  exact ⟨i, hi⟩

theorem regions_packed {sz : SystemSizes} {em rest_e : Arr (FE * N_IN_SECTORS) (List EmCaloObj)}
    {had rest_h : Arr (1 * N_IN_SECTORS) (List HadCaloObj)} {tk rest_t : Arr (FT * N_IN_SECTORS) (List TkObj)}
    {re : Arr N_OUT_REGIONS (Arr NE EmCaloObj)} {rh : Arr N_OUT_REGIONS (Arr NC HadCaloObj)}
    {rt : Arr N_OUT_REGIONS (Arr NT TkObj)} (rm : Arr N_OUT_REGIONS (Arr NM MuObj))
    (he : regionize_ref sz.emSec sz.emSlice NE em = .ok (rest_e, re)) (hh : regionize_ref sz.hadSec sz.hadSlice NC had = .ok (rest_h, rh))
    (ht : regionize_ref sz.tkSec sz.tkSlice NT tk = .ok (rest_t, rt)) (ir : Fin 18)
    (hroom : Room NE (regionEta ir) (regionPhi ir) (arrivals sz.emSec em)) : Packed (boardOf re rh rt rm ir) := by
  have se := C33_sorted _ _ _ _ _ _ he ir
  have sh := C33_sorted _ _ _ _ _ _ hh ir
  have st := C33_sorted _ _ _ _ _ _ ht ir
  have ce : ∀ e, (re ir e).hwPt = 0 → re ir e = EmCaloObj.clear := fun e h =>
    (se.2 e).resolve_left fun hp => absurd hp (by
      have : (RegObj.pt (re ir e)).toInt = 0 := pt_zero h
      omega)
  refine ⟨fun t h => ?_, fun t h => ?_, ce, fun e e' hle h => ?_, ?_⟩
  · have := (st.2 t).resolve_left fun hp => absurd hp (by
      have : (RegObj.pt (rt ir t)).toInt = 0 := pt_zero h
      omega)
    show (rt ir t).hwPtErr = 0
    rw [this]; rfl
  · have := (sh.2 t).resolve_left fun hp => absurd hp (by
      have : (RegObj.pt (rh ir t)).toInt = 0 := pt_zero h
      omega)
    show (rh ir t).hwEmPt = 0
    rw [this]; rfl
  · rcases eq_or_lt_of_le hle with rfl | hlt
    · exact h
    · have h1 := se.1 e e' hlt
      have h2 : (RegObj.pt (re ir e)).toInt = 0 := pt_zero h
      rcases se.2 e' with h3 | h3
      · omega
      · show (re ir e').hwPt = 0
        rw [h3]; rfl
  · obtain ⟨i, hi⟩ := room_free he ir hroom
    exact ⟨i, by show (re ir i).hwPt = 0; rw [hi]; rfl⟩

/-- What the detector sends in one event, with the sizes of the chain it goes through. -/
structure DetEvent (FE FT NT NC NE NM : Nat) where
  sz : SystemSizes
  em : Arr (FE * N_IN_SECTORS) (List EmCaloObj)
  had : Arr (1 * N_IN_SECTORS) (List HadCaloObj)
  tk : Arr (FT * N_IN_SECTORS) (List TkObj)
  re : Arr N_OUT_REGIONS (Arr NE EmCaloObj)
  rh : Arr N_OUT_REGIONS (Arr NC HadCaloObj)
  rt : Arr N_OUT_REGIONS (Arr NT TkObj)
  rm : Arr N_OUT_REGIONS (Arr NM MuObj)

/-- The regions are those the regionizer makes of a sensible event, and region `ir` is not full. -/
structure DetEvent.Good (d : DetEvent FE FT NT NC NE NM) (ir : Fin 18) : Prop where
  em : ∃ rest, regionize_ref d.sz.emSec d.sz.emSlice NE d.em = .ok (rest, d.re)
  had : ∃ rest, regionize_ref d.sz.hadSec d.sz.hadSlice NC d.had = .ok (rest, d.rh)
  tk : ∃ rest, regionize_ref d.sz.tkSec d.sz.tkSlice NT d.tk = .ok (rest, d.rt)
  sensible : Sensible (arrivals d.sz.emSec d.em) (arrivals d.sz.hadSec d.had) (arrivals d.sz.tkSec d.tk)
  emPhi : ∀ s, ∀ o ∈ arrivals d.sz.emSec d.em s, 0 < ptOf o → -60 ≤ o.hwPhi.toInt ∧ o.hwPhi.toInt ≤ 60
  hadPhi : ∀ s, ∀ o ∈ arrivals d.sz.hadSec d.had s, 0 < ptOf o → -60 ≤ o.hwPhi.toInt ∧ o.hwPhi.toInt ≤ 60
  tkPhi : ∀ s, ∀ o ∈ arrivals d.sz.tkSec d.tk s, 0 < ptOf o → -60 ≤ o.hwPhi.toInt ∧ o.hwPhi.toInt ≤ 60
  emFits : Fits d.sz.emSlice NE (regionEta ir) (regionPhi ir) (arrivals d.sz.emSec d.em)
  hadFits : Fits d.sz.hadSlice NC (regionEta ir) (regionPhi ir) (arrivals d.sz.hadSec d.had)
  tkFits : Fits d.sz.tkSlice NT (regionEta ir) (regionPhi ir) (arrivals d.sz.tkSec d.tk)
  emRoom : Room NE (regionEta ir) (regionPhi ir) (arrivals d.sz.emSec d.em)

/-- The detector sends the same within `R` of the direction. -/
structure SameDet (R : ℝ) (P : Pos) (d : DetEvent FE FT NT NC NE NM) (d' : DetEvent FE' FT' NT' NC' NE' NM') : Prop where
  em : ∀ s, detAround R P s (arrivals d.sz.emSec d.em s) = detAround R P s (arrivals d'.sz.emSec d'.em s)
  had : ∀ s, detAround R P s (arrivals d.sz.hadSec d.had s) = detAround R P s (arrivals d'.sz.hadSec d'.had s)
  tk : ∀ s, detAround R P s (arrivals d.sz.tkSec d.tk s) = detAround R P s (arrivals d'.sz.tkSec d'.tk s)

theorem sameAround_of_det {d : DetEvent FE FT NT NC NE NM} {d' : DetEvent FE' FT' NT' NC' NE' NM'} {ir : Fin 18} (hd : d.Good ir)
    (hd' : d'.Good ir) {R : ℝ} {P : Pos} (hc : Covers (regionEta ir) (regionPhi ir) P) (h : SameDet R P d d')
    (hm : around R (dirIn (regionEta ir) (regionPhi ir) P) (·.hwPt = 0) (fun o => (o.hwEta, o.hwPhi)) (List.ofFn (d.rm ir)) =
      around R (dirIn (regionEta ir) (regionPhi ir) P) (·.hwPt = 0) (fun o => (o.hwEta, o.hwPhi)) (List.ofFn (d'.rm ir))) :
    SameAround R (dirIn (regionEta ir) (regionPhi ir) P) (boardOf d.re d.rh d.rt d.rm ir) (boardOf d'.re d'.rh d'.rt d'.rm ir) := by
  obtain ⟨_, e1⟩ := hd.em
  obtain ⟨_, e2⟩ := hd.had
  obtain ⟨_, e3⟩ := hd.tk
  obtain ⟨_, e1'⟩ := hd'.em
  obtain ⟨_, e2'⟩ := hd'.had
  obtain ⟨_, e3'⟩ := hd'.tk
  refine ⟨?_, ?_, ?_, hm⟩
  · refine (region_around e3 ir hd.tkPhi hd.tkFits hc R).trans (Eq.trans ?_ (region_around e3' ir hd'.tkPhi hd'.tkFits hc R).symm)
    simp only [h.tk]
  · refine (region_around e2 ir hd.hadPhi hd.hadFits hc R).trans (Eq.trans ?_ (region_around e2' ir hd'.hadPhi hd'.hadFits hc R).symm)
    simp only [h.had]
  · refine (region_around e1 ir hd.emPhi hd.emFits hc R).trans (Eq.trans ?_ (region_around e1' ir hd'.emPhi hd'.emFits hc R).symm)
    simp only [h.em]

/-- **C91.** From the detector through the regions to particle flow: two events in which the detector sends the same within `R` of a
direction give the same candidates around it, in the region that contains it, whatever else the sectors send and on whatever fibres. -/
theorem C91_detector {d : DetEvent FE FT NT NC NE NM} {d' : DetEvent FE' FT' NT' NC' NE' NM'} {ir : Fin 18} (hd : d.Good ir)
    (hd' : d'.Good ir) {R : ℝ} {P : Pos} (hc : Covers (regionEta ir) (regionPhi ir) P) (h : SameDet R P d d')
    (hm : around R (dirIn (regionEta ir) (regionPhi ir) P) (·.hwPt = 0) (fun o => (o.hwEta, o.hwPhi)) (List.ofFn (d.rm ir)) =
      around R (dirIn (regionEta ir) (regionPhi ir) P) (·.hwPt = 0) (fun o => (o.hwEta, o.hwPhi)) (List.ofFn (d'.rm ir)))
    (old : PFOutputs NT NE NS NM) (mem : PFScratch NC NS) (old' : PFOutputs NT' NE' NS' NM') (mem' : PFScratch NC' NS') :
    ∃ out out', pfalgo3_full (boardOf d.re d.rh d.rt d.rm ir) old mem = .ok out ∧
      pfalgo3_full (boardOf d'.re d'.rh d'.rt d'.rm ir) old' mem' = .ok out' ∧
      AroundAgrees R (dirIn (regionEta ir) (regionPhi ir) P) out out' := by
  have key := sameAround_of_det hd hd' hc h hm
  obtain ⟨_, e1⟩ := hd.em
  obtain ⟨_, e2⟩ := hd.had
  obtain ⟨_, e3⟩ := hd.tk
  obtain ⟨_, e1'⟩ := hd'.em
  obtain ⟨_, e2'⟩ := hd'.had
  obtain ⟨_, e3'⟩ := hd'.tk
  have p := (C85_regions_physical d.sz d.em _ d.had _ d.tk _ d.re d.rh d.rt d.rm e1 e2 e3 hd.sensible ir).1
  have p' := (C85_regions_physical d'.sz d'.em _ d'.had _ d'.tk _ d'.re d'.rh d'.rt d'.rm e1' e2' e3' hd'.sensible ir).1
  exact C91_around _ _ (regions_packed d.rm e1 e2 e3 ir hd.emRoom) (regions_packed d'.rm e1' e2' e3' ir hd'.emRoom) key
    (physical_valid _ p _) (physical_valid _ p' _) old mem old' mem'

/-! ### Two events -/

theorem detAround_nat {T : Type} [RegObj T] (n : Nat) (P : Pos) (s : Fin 12) (l : List T) :
    detAround (n : ℝ) P s l = l.filter fun o => decide (0 < ptOf o) && decide (detDist2 P (posOf s o) < (n : Int) ^ 2) := by
  unfold detAround
  refine List.filter_congr fun o _ => ?_
  rw [Bool.eq_iff_iff, Bool.and_eq_true, decide_eq_true_iff, decide_eq_true_iff, decide_eq_true_iff]
  refine and_congr_right fun _ => ?_
  have h0 : (0 : ℝ) ≤ ((detDist2 P (posOf s o) : ℤ) : ℝ) := by
    have : 0 ≤ detDist2 P (posOf s o) := by unfold detDist2; positivity
    exact_mod_cast this
  rw [Real.sqrt_lt h0 (by positivity)]
  constructor
  · intro h; exact_mod_cast h
  · intro h; exact_mod_cast h

/-- A cluster of objects in sector 1, one word on each fibre. -/
def loneEm : Arr (1 * N_IN_SECTORS) (List EmCaloObj) := fun k => if k = 1 then [⟨20, 1, 3, 4⟩] else [⟨0, 0, 0, 0⟩]
@[inherit_doc loneEm] def loneHad : Arr (1 * N_IN_SECTORS) (List HadCaloObj) := fun k =>
  if k = 1 then [⟨200, 0, 2, 40, false⟩] else [⟨0, 0, 0, 0, false⟩]
@[inherit_doc loneEm] def loneTk : Arr (1 * N_IN_SECTORS) (List TkObj) := fun k =>
  if k = 1 then [⟨100, 10, 1, 0, 0, false⟩] else [⟨0, 0, 0, 0, 0, false⟩]

/-- The same objects, tracks on two fibres per sector, and more objects at eta 165 and in the next sector. -/
def moreEm : Arr (1 * N_IN_SECTORS) (List EmCaloObj) := fun k =>
  if k = 1 then [⟨70, 2, 165, 0⟩, ⟨20, 1, 3, 4⟩] else [⟨0, 0, 0, 0⟩, ⟨0, 0, 0, 0⟩]
@[inherit_doc moreEm] def moreHad : Arr (1 * N_IN_SECTORS) (List HadCaloObj) := fun k =>
  if k = 1 then [⟨200, 0, 2, 40, false⟩, ⟨90, 165, 2, 40, false⟩] else [⟨0, 0, 0, 0, false⟩, ⟨0, 0, 0, 0, false⟩]
@[inherit_doc moreEm] def moreTk : Arr (2 * N_IN_SECTORS) (List TkObj) := fun k =>
  if k = 2 then [⟨80, 4, 165, 0, 0, false⟩] else if k = 3 then [⟨100, 10, 1, 0, 0, false⟩] else if k = 4 then [⟨30, 1, -120, 55, 0, false⟩] else
    [⟨0, 0, 0, 0, 0, false⟩]

/-- **C91**, non-vacuity: two events, through chains of different sizes, that meet the hypotheses in region 6 for `R = 160`. -/
theorem C91_detector_example :
    ∃ (d : DetEvent 1 1 2 2 2 1) (d' : DetEvent 1 2 5 3 3 1), d.Good 6 ∧ d'.Good 6 ∧ Covers (regionEta 6) (regionPhi 6) ⟨0, 120⟩ ∧
      SameDet (160 : Nat) ⟨0, 120⟩ d d' ∧ d.tk = loneTk ∧ d'.tk = moreTk ∧ d.rm = (fun _ _ => ⟨0, 0, 0, 0⟩) ∧ d'.rm = (fun _ _ => ⟨0, 0, 0, 0⟩) := by
  obtain ⟨re, e1, -⟩ := regionize_ref_ok (NFPS := 1) 1 1 2 loneEm (by decide)
  obtain ⟨rh, e2, -⟩ := regionize_ref_ok (NFPS := 1) 1 1 2 loneHad (by decide)
  obtain ⟨rt, e3, -⟩ := regionize_ref_ok (NFPS := 1) 1 1 2 loneTk (by decide)
  obtain ⟨re', e1', -⟩ := regionize_ref_ok (NFPS := 1) 2 2 3 moreEm (by decide)
  obtain ⟨rh', e2', -⟩ := regionize_ref_ok (NFPS := 1) 2 2 3 moreHad (by decide)
  obtain ⟨rt', e3', -⟩ := regionize_ref_ok (NFPS := 2) 2 2 5 moreTk (by decide)
  refine ⟨⟨⟨1, 1, 1, 1, 1, 1⟩, loneEm, loneHad, loneTk, re, rh, rt, fun _ _ => ⟨0, 0, 0, 0⟩⟩,
    ⟨⟨2, 2, 2, 2, 2, 2⟩, moreEm, moreHad, moreTk, re', rh', rt', fun _ _ => ⟨0, 0, 0, 0⟩⟩, ?_, ?_, ?_, ?_, rfl, rfl, rfl, rfl⟩
  · refine ⟨⟨_, e1⟩, ⟨_, e2⟩, ⟨_, e3⟩, ?_, by dsimp only; decide +kernel, by dsimp only; decide +kernel, by dsimp only; decide +kernel, ?_, ?_, ?_, ?_⟩
    · constructor <;> dsimp only <;> decide +kernel
    · unfold Fits; dsimp only; decide +kernel
    · unfold Fits; dsimp only; decide +kernel
    · unfold Fits; dsimp only; decide +kernel
    · unfold Room; dsimp only; decide +kernel
  · refine ⟨⟨_, e1'⟩, ⟨_, e2'⟩, ⟨_, e3'⟩, ?_, by dsimp only; decide +kernel, by dsimp only; decide +kernel, by dsimp only; decide +kernel, ?_, ?_, ?_, ?_⟩
    · constructor <;> dsimp only <;> decide +kernel
    · unfold Fits; dsimp only; decide +kernel
    · unfold Fits; dsimp only; decide +kernel
    · unfold Fits; dsimp only; decide +kernel
    · unfold Room; dsimp only; decide +kernel
  · unfold Covers; decide +kernel
  · refine ⟨fun s => ?_, fun s => ?_, fun s => ?_⟩
    · rw [detAround_nat, detAround_nat]; dsimp only; revert s; decide +kernel
    · rw [detAround_nat, detAround_nat]; dsimp only; revert s; decide +kernel
    · rw [detAround_nat, detAround_nat]; dsimp only; revert s; decide +kernel

end Verif
