import Verif.Spec.LinkIdeal
import Verif.Props.PFLinks
import Verif.Proofs.PFReference
import Mathlib.Tactic.FieldSimp
import Mathlib.Tactic.NormNum
import Mathlib.Tactic.Linarith
import Mathlib.Tactic.Positivity
/-! # How far integer track-calorimeter linking is from linking with exact numbers: property C102 -/
namespace Verif
open Spec
variable {NT NC : Nat}

/-- The metric of the code with scale `s`. -/
def roundedMetric (s : Int) (t : TkObj) (c : HadCaloObj) : Int :=
  dist2 t.hwEta t.hwPhi c.hwEta c.hwPhi + deficit t c ^ 2 * s / 256

theorem deficit_nonneg (t : TkObj) (c : HadCaloObj) : 0 ≤ deficit t c := le_max_left _ _

theorem deficit_lt {t : TkObj} {c : HadCaloObj} (h : InWindow t c) (he : 0 < t.hwPtErr.toInt) : deficit t c < 2 * t.hwPtErr.toInt := by
  have := h.1
  unfold deficit
  omega

theorem deficit_zero {t : TkObj} {c : HadCaloObj} (h : InWindow t c) (he : t.hwPtErr.toInt = 0) : deficit t c = 0 := by
  have := h.1
  unfold deficit
  omega

theorem fwScale_eq {e : Int} (he : 0 ≤ e) (h1 : e ≠ 1) : (e = 0 ∧ fwScale e = 131071) ∨ fwScale e = refScale e := by
  unfold fwScale refScale
  rcases Int.lt_or_le e 2 with h | h
  · left
    have : e = 0 := by omega
    subst this
    exact ⟨rfl, by decide⟩
  · right
    have h4 : (4 : Int) ≤ e ^ 2 := by nlinarith
    rw [max_eq_right (by omega)]
    have hle : 193536 / e ^ 2 ≤ 131071 := by
      rw [← Int.lt_add_one_iff]
      apply Int.ediv_lt_of_lt_mul (by omega)
      nlinarith
    by_cases hb : e < 512
    · rw [if_pos hb, min_eq_right hle]
    · rw [if_neg hb]
      have : (262144 : Int) ≤ e ^ 2 := by nlinarith
      exact (Int.ediv_eq_zero_of_lt (by decide) (by omega)).symm

/-- The scale is the exact one rounded down. -/
theorem refScale_between {e : Int} (he : 0 < e) : refScale e * e ^ 2 ≤ 193536 ∧ 193536 < (refScale e + 1) * e ^ 2 := by
  have h1 : (1 : Int) ≤ e ^ 2 := by nlinarith
  unfold refScale
  rw [max_eq_right h1]
  have hp : (0 : Int) < e ^ 2 := by omega
  refine ⟨Int.ediv_mul_le _ (by omega), ?_⟩
  have := Int.lt_ediv_add_one_mul_self 193536 hp
  exact this

theorem rounded_between {t : TkObj} {c : HadCaloObj} (he : 0 < t.hwPtErr.toInt) :
    idealMetric t c - ((deficit t c : ℚ) ^ 2 / 256 + 1) < roundedMetric (refScale t.hwPtErr.toInt) t c ∧
      (roundedMetric (refScale t.hwPtErr.toInt) t c : ℚ) ≤ idealMetric t c := by
  obtain ⟨h1, h2⟩ := refScale_between he
  have hE : (0 : ℚ) < (t.hwPtErr.toInt : ℚ) ^ 2 := by positivity
  have hX : 756 * ((deficit t c : ℚ) / t.hwPtErr.toInt) ^ 2 * (t.hwPtErr.toInt : ℚ) ^ 2 = 756 * (deficit t c : ℚ) ^ 2 := by
    have : (t.hwPtErr.toInt : ℚ) ≠ 0 := by exact_mod_cast ne_of_gt he
    field_simp
  have hD : (0 : ℚ) ≤ (deficit t c : ℚ) ^ 2 := by positivity
  have h1 : (refScale t.hwPtErr.toInt : ℚ) * (t.hwPtErr.toInt : ℚ) ^ 2 ≤ 193536 := by exact_mod_cast h1
  have h2 : (193536 : ℚ) < ((refScale t.hwPtErr.toInt : ℚ) + 1) * (t.hwPtErr.toInt : ℚ) ^ 2 := by exact_mod_cast h2
  have q1 : deficit t c ^ 2 * refScale t.hwPtErr.toInt / 256 * 256 ≤ deficit t c ^ 2 * refScale t.hwPtErr.toInt := Int.ediv_mul_le _ (by decide)
  have q2 : deficit t c ^ 2 * refScale t.hwPtErr.toInt < (deficit t c ^ 2 * refScale t.hwPtErr.toInt / 256 + 1) * 256 :=
    Int.lt_ediv_add_one_mul_self _ (by decide)
  have q1 : ((deficit t c ^ 2 * refScale t.hwPtErr.toInt / 256 : Int) : ℚ) * 256 ≤ (deficit t c : ℚ) ^ 2 * refScale t.hwPtErr.toInt := by exact_mod_cast q1
  have q2 : (deficit t c : ℚ) ^ 2 * refScale t.hwPtErr.toInt < (((deficit t c ^ 2 * refScale t.hwPtErr.toInt / 256 : Int) : ℚ) + 1) * 256 := by exact_mod_cast q2
  unfold idealMetric roundedMetric
  rw [Int.cast_add]
  generalize ((deficit t c ^ 2 * refScale t.hwPtErr.toInt / 256 : Int) : ℚ) = q at q1 q2 ⊢
  generalize (756 : ℚ) * ((deficit t c : ℚ) / t.hwPtErr.toInt) ^ 2 = X at hX ⊢
  generalize (deficit t c : ℚ) ^ 2 = D at *
  generalize (t.hwPtErr.toInt : ℚ) ^ 2 = E at *
  generalize (refScale t.hwPtErr.toInt : ℚ) = s at *
  have a1 : D * s ≤ 256 * X := by
    refine le_of_mul_le_mul_right ?_ hE
    have := mul_le_mul_of_nonneg_left h1 hD
    linarith
  have a2 : 256 * X ≤ D * (s + 1) := by
    refine le_of_mul_le_mul_right ?_ hE
    have := mul_le_mul_of_nonneg_left (le_of_lt h2) hD
    linarith
  constructor <;> linarith

theorem ideal_zero {t : TkObj} {c : HadCaloObj} (h : deficit t c = 0) (s : Int) : (roundedMetric s t c : ℚ) = idealMetric t c := by
  unfold roundedMetric idealMetric
  rw [h]
  simp

/-- With the scale of the reference: for the track's window, the code's metric is the exact one rounded down, by less than `deficit²/256 + 1`. -/
theorem C102_metric {t : TkObj} {c : HadCaloObj} (h : InWindow t c) (he : 0 ≤ t.hwPtErr.toInt) :
    idealMetric t c - ((deficit t c : ℚ) ^ 2 / 256 + 1) < roundedMetric (refScale t.hwPtErr.toInt) t c ∧
      (roundedMetric (refScale t.hwPtErr.toInt) t c : ℚ) ≤ idealMetric t c := by
  rcases Int.lt_or_eq_of_le he with he | he
  · exact rounded_between he
  · have h0 := deficit_zero h he.symm
    rw [ideal_zero h0, h0]
    constructor <;> norm_num

/-- The scale of the firmware differs only at a pt error of 1, where the deficit is at most 1. -/
theorem fw_rounded {t : TkObj} {c : HadCaloObj} (h : InWindow t c) (he : 0 ≤ t.hwPtErr.toInt) (h1 : t.hwPtErr.toInt ≠ 1) :
    roundedMetric (fwScale t.hwPtErr.toInt) t c = roundedMetric (refScale t.hwPtErr.toInt) t c := by
  rcases fwScale_eq he h1 with ⟨h0, _⟩ | h2
  · unfold roundedMetric
    rw [deficit_zero h h0]
    simp
  · rw [h2]

theorem fw_rounded_one {t : TkObj} {c : HadCaloObj} (h : InWindow t c) (h1 : t.hwPtErr.toInt = 1) :
    idealMetric t c - 245 ≤ roundedMetric (fwScale t.hwPtErr.toInt) t c ∧ (roundedMetric (fwScale t.hwPtErr.toInt) t c : ℚ) ≤ idealMetric t c := by
  have hd : deficit t c = 0 ∨ deficit t c = 1 := by
    have := deficit_lt h (by omega)
    have := deficit_nonneg t c
    omega
  rcases hd with hd | hd
  · rw [ideal_zero hd]
    constructor <;> linarith
  · unfold roundedMetric idealMetric
    rw [hd, h1, show fwScale 1 = 131071 by decide]
    have : ((1 : Int) ^ 2 * 131071 / 256) = 511 := by decide
    rw [this]
    push_cast
    constructor <;> linarith

theorem best_of {t : TkObj} {calo : Fin NC → HadCaloObj} {h : Fin NC} {m : HadCaloObj → Int} {slack : ℚ} (hw : InWindow t (calo h))
    (hmin : ∀ h', InWindow t (calo h') → m (calo h) ≤ m (calo h')) (hlow : idealMetric t (calo h) - slack < m (calo h))
    (hup : ∀ h', InWindow t (calo h') → (m (calo h') : ℚ) ≤ idealMetric t (calo h')) : BestUpTo slack t calo h := by
  refine ⟨hw, fun h' hh => ?_⟩
  have a : (m (calo h) : ℚ) ≤ m (calo h') := by exact_mod_cast hmin h' hh
  have b := hup h' hh
  linarith

theorem cuts_window {t : TkObj} {c : HadCaloObj} : LinkCuts t c ↔ InWindow t c := by
  unfold LinkCuts InWindow
  omega

/-- **C102.** Firmware: the linked cluster is the best one in exact numbers up to `deficit²/256 + 1`, and up to 246 for a pt error of 1;
and a track is linked whenever a cluster is in its window. -/
theorem C102_linked (calo : Arr NC HadCaloObj) (track : Arr NT TkObj) (herr : ∀ t, 0 ≤ (track t).hwPtErr.toInt) :
    ∃ link, tk2calo_link_drdpt calo track = .ok link ∧
      ∀ t, 0 ≤ (track t).hwPt.toInt → -32768 ≤ (track t).hwPt.toInt - 2 * (track t).hwPtErr.toInt →
        ((∃ h, InWindow (track t) (calo h)) → ∃ h, link t h = true) ∧
        ∀ h, link t h = true → BestUpTo (if (track t).hwPtErr.toInt = 1 then 246 else (deficit (track t) (calo h) : ℚ) ^ 2 / 256 + 1) (track t) calo h := by
  obtain ⟨link, h1, h2⟩ := C06_calo_link calo track herr
  obtain ⟨link', h1', h3⟩ := C06_calo_link_unique calo track herr
  rw [h1] at h1'
  cases h1'
  refine ⟨link, h1, fun t hp hw => ⟨fun ⟨h, hh⟩ => ((h3 t hp hw).2).mpr ⟨h, cuts_window.mpr hh⟩, fun h hl => ?_⟩⟩
  obtain ⟨hc, hm⟩ := (h2 t hp hw h).mp hl
  have hmin : ∀ h', InWindow (track t) (calo h') →
      roundedMetric (fwScale (track t).hwPtErr.toInt) (track t) (calo h) ≤ roundedMetric (fwScale (track t).hwPtErr.toInt) (track t) (calo h') :=
    fun h' hh => (hm h' (cuts_window.mpr hh)).1
  have hc := cuts_window.mp hc
  split
  · next e1 =>
    refine best_of hc hmin ?_ fun h' hh => (fw_rounded_one hh e1).2
    have := (fw_rounded_one hc e1).1
    linarith
  · next e1 =>
    refine best_of hc hmin ?_ fun h' hh => ?_
    · rw [fw_rounded hc (herr t) e1]
      exact (C102_metric hc (herr t)).1
    · rw [fw_rounded hh (herr t) e1]
      exact (C102_metric hh (herr t)).2

/-- **C102.** Reference: the same, and the first bound for every pt error. -/
theorem C102_linked_ref (calo : Arr NC HadCaloObj) (t : TkObj) (hpt : 0 ≤ t.hwPt.toInt) (herr : 0 ≤ t.hwPtErr.toInt)
    (hw : -32768 ≤ t.hwPt.toInt - 2 * t.hwPtErr.toInt) :
    ∃ r, best_match_with_pt_ref PFALGO3_DR2MAX_TK_CALO calo t = .ok r ∧
      ((∃ h, InWindow t (calo h)) → ∃ h, r = some h) ∧
      ∀ h, r = some h → BestUpTo ((deficit t (calo h) : ℚ) ^ 2 / 256 + 1) t calo h := by
  obtain ⟨r, h1, h2⟩ := best_match_with_pt_ref_iff calo t hpt herr hw
  refine ⟨r, h1, fun hex => ?_, fun h hh => ?_⟩
  · obtain ⟨h, hh⟩ := firstMin_exists (f := fun h => dist2 t.hwEta t.hwPhi (calo h).hwEta (calo h).hwPhi +
      (max 0 (t.hwPt.toInt - (calo h).hwPt.toInt)) ^ 2 * refScale t.hwPtErr.toInt / 256) hex
    exact ⟨h, (h2 h).mpr hh⟩
  obtain ⟨hc, hm⟩ := (h2 h).mp hh
  have hc : InWindow t (calo h) := hc
  refine best_of hc (m := roundedMetric (refScale t.hwPtErr.toInt) t) (fun h' hh => ?_) (C102_metric hc herr).1 fun h' hh => (C102_metric hh herr).2
  exact (hm h' hh).1

/-- **C102.** The slack for the usual errors: at most 2 for errors up to 2 GeV (8 units), of 756 for a whole cone. -/
theorem C102_slack {t : TkObj} {c : HadCaloObj} (h : InWindow t c) (he : 0 ≤ t.hwPtErr.toInt) :
    (deficit t c : ℚ) ^ 2 / 256 + 1 ≤ (t.hwPtErr.toInt : ℚ) ^ 2 / 64 + 1 := by
  have h0 : (0 : ℚ) ≤ deficit t c := by exact_mod_cast deficit_nonneg t c
  have h2 : (deficit t c : ℚ) ≤ 2 * t.hwPtErr.toInt := by
    rcases Int.lt_or_eq_of_le he with he | he
    · exact_mod_cast le_of_lt (deficit_lt h he)
    · rw [deficit_zero h he.symm, ← he]; norm_num
  nlinarith

/-- **C102.** From an error of 440 units (110 GeV) on the pts play no role within the window: the metric of firmware and reference is the distance. -/
theorem C102_by_distance (t : TkObj) (c : HadCaloObj) :
    (440 ≤ t.hwPtErr.toInt → roundedMetric (fwScale t.hwPtErr.toInt) t c = dist2 t.hwEta t.hwPhi c.hwEta c.hwPhi ∧
      roundedMetric (refScale t.hwPtErr.toInt) t c = dist2 t.hwEta t.hwPhi c.hwEta c.hwPhi) ∧
    (0 ≤ t.hwPtErr.toInt → t.hwPtErr.toInt < 440 → 0 < fwScale t.hwPtErr.toInt ∧ 0 < refScale t.hwPtErr.toInt) := by
  constructor
  · intro h
    have hr : refScale t.hwPtErr.toInt = 0 := by
      have : (193600 : Int) ≤ t.hwPtErr.toInt ^ 2 := by nlinarith
      unfold refScale
      exact Int.ediv_eq_zero_of_lt (by decide) (by omega)
    have hf : fwScale t.hwPtErr.toInt = 0 := by
      unfold fwScale
      rw [hr]
      split <;> rfl
    unfold roundedMetric
    rw [hr, hf]
    simp
  · intro h0 h
    have hr : 0 < refScale t.hwPtErr.toInt := by
      have : t.hwPtErr.toInt ^ 2 ≤ 192721 := by nlinarith
      unfold refScale
      have hm : max 1 (t.hwPtErr.toInt ^ 2) ≤ 193536 := by omega
      exact Int.lt_of_lt_of_le Int.zero_lt_one ((Int.le_ediv_iff_mul_le (by omega)).mpr (by omega))
    refine ⟨?_, hr⟩
    unfold fwScale
    rw [if_pos (by omega)]
    omega

/-- A track of 250 GeV with an error of 110 GeV; a cluster of 30 GeV on it, and one of 250 GeV 26 units away. -/
def bluntTk : TkObj := ⟨1000, 440, 0, 0, 0, false⟩
def bluntCalo : Arr 2 HadCaloObj := fun i => if i = 0 then ⟨121, 0, 0, 0, false⟩ else ⟨1000, 26, 0, 0, false⟩

/-- **C102.** The slack is needed: firmware and reference link the cluster that is two errors away in pt, with a metric more than four times that of the other. -/
theorem C102_blunt :
    (tk2calo_link_drdpt bluntCalo (fun _ : Fin 1 => bluntTk)).map (fun l => (l 0 0, l 0 1)) = .ok (true, false) ∧
    best_match_with_pt_ref PFALGO3_DR2MAX_TK_CALO bluntCalo bluntTk = .ok (some 0) ∧
    InWindow bluntTk (bluntCalo 0) ∧ InWindow bluntTk (bluntCalo 1) ∧
    4 * idealMetric bluntTk (bluntCalo 1) < idealMetric bluntTk (bluntCalo 0) := by
  refine ⟨by decide +kernel, by decide +kernel, by unfold InWindow; decide +kernel, by unfold InWindow; decide +kernel, by unfold idealMetric; decide +kernel⟩

end Verif
