import Verif.Spec.OneMoreCaloChain
import Verif.Props.OneMoreChain
import Verif.Props.OneMoreCalo
/-! # One more calorimeter cluster, from the links to the candidates: property C100 -/
namespace Verif
open Spec
variable {NT NC NE NM NS : Nat}

/-- The inverse move keeps the order of all slots but `i`. -/
theorem slotBack_mono {i j : Fin NC} (hij : i ≤ j) {a b : Fin NC} (ha : a ≠ i) (hb : b ≠ i) (h : a < b) :
    (slotPerm i j hij).symm a < (slotPerm i j hij).symm b := by
  have key : ∀ x, x ≠ i → (slotPerm i j hij).symm x ≠ j ∧ slotMove i j ((slotPerm i j hij).symm x) = x := fun x hx => by
    have e : slotMove i j ((slotPerm i j hij).symm x) = x := (slotPerm i j hij).apply_symm_apply x
    exact ⟨fun h => hx (by rw [← e, h, slotMove_at]), e⟩
  obtain ⟨a1, a2⟩ := key a ha
  obtain ⟨b1, b2⟩ := key b hb
  rcases lt_trichotomy ((slotPerm i j hij).symm a) ((slotPerm i j hij).symm b) with hl | he | hl
  · exact hl
  · rw [(slotPerm i j hij).symm.injective he] at h
    exact absurd h (lt_irrefl _)
  · have := slotMove_mono hij b1 a1 hl
    rw [a2, b2] at this
    exact absurd (lt_trans h this) (lt_irrefl _)

theorem slotBack_at {i j : Fin NC} (hij : i ≤ j) : (slotPerm i j hij).symm i = j := by
  rw [Equiv.symm_apply_eq]
  exact (slotMove_at i j).symm

variable {inp inp' : PFInputs NT NC NE NM} {i j : Fin NC}

/-- The smaller event with the empty slot where the new cluster comes. -/
noncomputable def gapEvent (H : CaloJoins inp inp' i j) : PFInputs NT NC NE NM :=
  reorder inp (Equiv.refl _) (slotPerm i j H.le).symm (Equiv.refl _) (Equiv.refl _)

theorem gap_move (H : CaloJoins inp inp' i j) (k : Fin NC) : (gapEvent H).hadcalo (slotMove i j k) = inp.hadcalo k := by
  show inp.hadcalo ((slotPerm i j H.le).symm (slotPerm i j H.le k)) = _
  rw [Equiv.symm_apply_apply]

theorem gap_at (H : CaloJoins inp inp' i j) : (gapEvent H).hadcalo i = inp.hadcalo j := by
  show inp.hadcalo ((slotPerm i j H.le).symm i) = _
  rw [slotBack_at]

theorem gap_others (H : CaloJoins inp inp' i j) {k : Fin NC} (hk : k ≠ j) : inp'.hadcalo (slotMove i j k) = inp.hadcalo k := by
  have hk' : k.val ≠ j.val := fun e => hk (Fin.ext e)
  unfold slotMove
  rw [if_neg hk]
  by_cases h1 : i ≤ k ∧ k < j
  · rw [dif_pos h1]
    exact H.moved k _ h1.1 h1.2 rfl
  · rw [dif_neg h1]
    have h1' : ¬ (i.val ≤ k.val ∧ k.val < j.val) := h1
    rcases Nat.lt_or_ge k.val i.val with h | h
    · exact H.before k h
    · exact H.after k (show j.val < k.val by omega)

theorem gap_oneMore (H : CaloJoins inp inp' i j) : OneMoreCalo (gapEvent H) inp' i where
  track := H.track
  em := H.em
  mu := H.mu
  others h hh := by
    obtain ⟨k, rfl⟩ := (slotPerm i j H.le).surjective h
    have hk : k ≠ j := fun e => hh (by rw [e]; exact slotMove_at i j)
    exact (gap_others H hk).trans (gap_move H k).symm
  freePt := by rw [gap_at]; exact H.freePt
  freeEmPt := by rw [gap_at]; exact H.freeEmPt

theorem gap_part (v : Variant) (H : CaloJoins inp inp' i j) : Part v inp (gapEvent H) id (slotPerm i j H.le).symm id id :=
  reorder_part v inp (Equiv.refl _) (slotPerm i j H.le).symm (Equiv.refl _) (Equiv.refl _)

theorem hadPt_free {v : Variant} {p : PFInputs NT NC NE NM} {h : Fin NC} (hem : ∀ c, 0 ≤ (p.emcalo c).hwPt.toInt) (h0 : (p.hadcalo h).hwPt.toInt = 0) :
    hadPt p v h ≤ 0 := by
  have := emSub_nonneg hem h
  unfold hadPt
  split <;> omega

theorem gap_ordered {v : Variant} (H : CaloJoins inp inp' i j) (hem : ∀ c, 0 ≤ (inp.emcalo c).hwPt.toInt) :
    Ordered v (gapEvent H) id (slotPerm i j H.le).symm id where
  mu _ _ _ hab _ _ _ := le_of_lt hab
  em _ _ _ hab _ _ _ := le_of_lt hab
  had e a b hab ha hb _ := by
    have hn : ¬ ((gapEvent H).emcalo e).hwPt.toInt / 2 < ((gapEvent H).hadcalo i).hwEmPt.toInt := by
      rw [gap_at, H.freeEmPt]
      have : 0 ≤ ((gapEvent H).emcalo e).hwPt.toInt := hem e
      omega
    exact le_of_lt (slotBack_mono H.le (fun e => hn (e ▸ ha.1)) (fun e => hn (e ▸ hb.1)) hab)
  calo t a b hab ha hb _ := by
    have hn : ¬ Compatible (gapEvent H) v t i := fun h => by
      have := hadPt_free (v := v) (p := gapEvent H) (h := i) hem (by rw [gap_at]; exact H.freePt)
      have := h.1
      have := le_max_left 0 (((gapEvent H).track t).hwPt.toInt - 2 * ((gapEvent H).track t).hwPtErr.toInt)
      omega
    exact le_of_lt (slotBack_mono H.le (fun e => hn (e ▸ ha)) (fun e => hn (e ▸ hb)) hab)

/-- Candidates with pt, of a slot. -/
def shownSeen (x : Seen) : List Seen := if x.1 ≠ 0 then [x] else []

theorem filter_shown {n : Nat} (s : Fin n → Seen) : (List.ofFn s).filter (fun x => decide (x.1 ≠ 0)) = (List.ofFn fun k => shownSeen (s k)).flatten := by
  rw [← flatMap_finRange, List.ofFn_eq_map]
  induction List.finRange n with
  | nil => rfl
  | cons a l ih =>
    rw [List.map_cons, List.flatMap_cons, ← ih]
    unfold shownSeen
    by_cases h : (s a).1 ≠ 0
    · rw [List.filter_cons_of_pos (by simpa using h), if_pos h]; rfl
    · rw [List.filter_cons_of_neg (by simpa using h), if_neg h]; rfl

/-- An empty slot may be anywhere. -/
theorem neutralsByPt_gap {s s' : Fin NC → Seen} (hij : i ≤ j) (h : ∀ k, s ((slotPerm i j hij).symm k) = s' k) (hj : (s j).1 = 0) : neutralsByPt s = neutralsByPt s' := by
  have hm : ∀ k, s' (slotMove i j k) = s k := fun k => by
    rw [← h]
    exact congrArg s ((slotPerm i j hij).symm_apply_apply k)
  obtain ⟨a, b, e1, e2⟩ := flatten_moved i j hij (fun k => shownSeen (s k)) (fun k => shownSeen (s' k)) (fun k _ => congrArg shownSeen (hm k))
    (if_neg (fun h => h hj))
  have hi : shownSeen (s' i) = [] := by
    have : s' i = s j := by rw [← hm j, slotMove_at]
    rw [this]
    exact if_neg (fun h => h hj)
  unfold neutralsByPt
  rw [List.filter_reverse, List.filter_reverse, filter_shown, filter_shown, e1, e2, hi, List.nil_append]

theorem neutral_free {v : Variant} {p : PFInputs NT NC NE NM} (hv : Valid p v) {h : Fin NC} (h0 : (p.hadcalo h).hwPt.toInt = 0) : (neutralSeen p v h).1 = 0 := by
  rw [neutralSeen_fst]
  have a := (hadPt_bounds hv h).1
  have b := hadPt_free (v := v) hv.emPt h0
  have c : 0 ≤ caloTrackPt p v h := Finset.sum_nonneg fun t _ => by
    split
    · exact hv.trackPt t
    · exact le_refl _
  have d : caloDiff p v h = hadPt p v h - caloTrackPt p v h := rfl
  unfold neutralPt
  split
  · omega
  · rw [if_neg (fun e => by have := e.1; omega)]

theorem gap_neutral {s s' : Fin NC → Seen} (hij : i ≤ j) {out om : PFOutputs NT NE NS NM} (A : PartAgrees id (slotPerm i j hij).symm id id out om s s')
    (hj : (s j).1 = 0) (k : Fin NS) : (out.outne k).hwPt = (om.outne k).hwPt := by
  have h1 := A.neutral
  rw [neutralsByPt_gap hij A.cand hj, ← A.neutral'] at h1
  have := congrArg Prod.fst (congrFun (List.ofFn_injective h1) k)
  rw [seen_fst, seen_fst] at this
  exact BitVec.toInt_inj.mp this

/-- **C100.** Firmware: a new calorimeter cluster anywhere among those of a region. -/
theorem C100_calo_anywhere (H : CaloJoins inp inp' i j) (hv : Valid inp fwVariant) (hv' : Valid inp' fwVariant)
    (old old' : PFOutputs NT NE NS NM) (mem mem' : PFScratch NC NS) :
    ∃ out out', pfalgo3_full inp old mem = .ok out ∧ pfalgo3_full inp' old' mem' = .ok out' ∧ CaloAdded out out' ∧
      ((∀ e, ¬ HadMatch inp' e i) → ∀ k, (out.outne k).hwPt.toInt ≤ (out'.outne k).hwPt.toInt) := by
  have P := gap_part fwVariant H
  have O := gap_ordered (v := fwVariant) H hv.emPt
  obtain ⟨out, om, h1, h2, h3, h4⟩ := C68_part_alone inp (gapEvent H) _ _ _ _ P O hv old mem old mem
  obtain ⟨om', out', g1, g2, g3, g4⟩ := C94_one_more_calo (gap_oneMore H) (valid_part P O hv) hv' old old' mem mem'
  rw [h2] at g1
  cases g1
  have hne : ∀ k, (out.outne k).hwPt = (om.outne k).hwPt := gap_neutral H.le h4 (neutral_free hv H.freePt)
  refine ⟨out, out', h1, g2, ⟨?_, fun c => ?_, fun t ht => ?_⟩, fun hno k => ?_⟩
  · rw [g3.muon]; exact (funext h4.muon).symm
  · rw [g3.photon]; exact (h4.photon c).symm
  · have e : out.outch t = om.outch t := h3 t
    rw [e] at ht ⊢
    exact g3.charged t ht
  · rw [hne]; exact g4 hno k

/-- **C100** for the reference, when the new cluster takes over no EM cluster. -/
theorem C100_calo_anywhere_ref (H : CaloJoins inp inp' i j) (hv : Valid inp refVariant) (hv' : Valid inp' refVariant)
    (hempty : ∀ t, (inp.track t).hwPt.toInt = 0 → (inp.track t).hwPtErr.toInt = 0) (hno : ∀ e, ¬ HadMatch inp' e i)
    (old old' : PFOutputs NT NE NS NM) (mem mem' : Arr NC PFNeutralObj) :
    ∃ out out', pfalgo3_full_ref inp old mem = .ok out ∧ pfalgo3_full_ref inp' old' mem' = .ok out' ∧ CaloAdded out out' ∧
      ∀ k, (out.outne k).hwPt.toInt ≤ (out'.outne k).hwPt.toInt := by
  have P := gap_part refVariant H
  have O := gap_ordered (v := refVariant) H hv.emPt
  obtain ⟨out, om, h1, h2, h3, h4⟩ := C68_part_alone_ref inp (gapEvent H) _ _ _ _ P O hv hempty old mem old mem
  obtain ⟨om', out', g1, g2, g3, g4⟩ := C94_one_more_calo_ref (gap_oneMore H) (valid_part P O hv) hv' hno old old' mem mem'
  rw [h2] at g1
  cases g1
  have hne : ∀ k, (out.outne k).hwPt = (om.outne k).hwPt := gap_neutral H.le h4 (neutral_free hv H.freePt)
  refine ⟨out, out', h1, g2, ⟨?_, fun c => ?_, fun t ht => ?_⟩, fun k => ?_⟩
  · rw [g3.muon]; exact (funext h4.muon).symm
  · rw [g3.photon]; exact (h4.photon c).symm
  · obtain ⟨a, b⟩ := h3 t
    have a : (out.outch t).hwPt = (om.outch t).hwPt := a
    rw [a] at ht
    exact (g3.charged t ht).trans (b ht).symm
  · rw [hne]; exact g4 k

section
variable {FE FT : Nat}

/-- Without the new word the clusters are sensible too. -/
theorem sensible_less {em : Fin 12 → List EmCaloObj} {had had' : Fin 12 → List HadCaloObj} {tk : Fin 12 → List TkObj} {s : Fin 12} {o : HadCaloObj}
    (H : OneMoreWord had had' s o) (h : Sensible em had' tk) : Sensible em had tk :=
  { h with
    hadEm := fun k x hx hp => by
      by_cases hk : k = s
      · subst hk
        obtain ⟨l1, z, l2, e1, e2, hz⟩ := H.word
        rw [e1, List.mem_append, List.mem_cons] at hx
        rcases hx with hx | rfl | hx
        · exact h.hadEm k x (by rw [e2]; exact List.mem_append_left _ hx) hp
        · have hz : x.hwPt.toInt ≤ 0 := hz
          omega
        · exact h.hadEm k x (by rw [e2]; exact List.mem_append_right _ (List.mem_cons_of_mem _ hx)) hp
      · rw [← H.others k hk] at hx
        exact h.hadEm k x hx hp }

/-- **C100.** From the links to the candidates: a word of a calorimeter fibre that was null carries a cluster.  Regions the cluster does not belong to
get the same inputs.  In a region that can hold everything sent to it, firmware muons and photons stay as they are and no charged candidate is lost
or changed; if the cluster takes over no EM cluster, no place of the neutral list loses pt, and all this holds of the reference too. -/
theorem C100_from_the_links (sz : SystemSizes) {m : Nat} {em rest_e : Arr (FE * N_IN_SECTORS) (List EmCaloObj)}
    {had had' rest_h : Arr (1 * N_IN_SECTORS) (List HadCaloObj)} {tk rest_t : Arr (FT * N_IN_SECTORS) (List TkObj)} {s : Fin 12} {f : Fin 1} {o : HadCaloObj}
    {re : Arr N_OUT_REGIONS (Arr NE EmCaloObj)} {rh : Arr N_OUT_REGIONS (Arr NC HadCaloObj)} {rt : Arr N_OUT_REGIONS (Arr NT TkObj)}
    (rm : Arr N_OUT_REGIONS (Arr NM MuObj)) (he : regionize_ref sz.emSec sz.emSlice NE em = .ok (rest_e, re))
    (hh : regionize_ref sz.hadSec sz.hadSlice NC had = .ok (rest_h, rh)) (ht : regionize_ref sz.tkSec sz.tkSlice NT tk = .ok (rest_t, rt))
    (H : OneMoreOnFibre had had' (fiberIdx s f) m o) (hm : m < sz.hadSec / 1)
    (hq : Sensible (arrivals sz.emSec em) (arrivals sz.hadSec had') (arrivals sz.tkSec tk)) :
    ∃ rh', regionize_ref sz.hadSec sz.hadSlice NC had' = .ok (rest_h, rh') ∧ ∀ ir : Fin 18,
      (¬ (inSlice (regionEta ir) o = true ∧ SectorOf (regionPhi ir) s) → boardOf re rh' rt rm ir = boardOf re rh rt rm ir) ∧
      (inSlice (regionEta ir) o = true → SectorOf (regionPhi ir) s → Fits sz.hadSlice NC (regionEta ir) (regionPhi ir) (arrivals sz.hadSec had') →
        ∃ i, rh' ir i = place (regionEta ir) (regionPhi ir) s o ∧
          (∀ (old old' : PFOutputs NT NE NS NM) (mem mem' : PFScratch NC NS), ∃ out out',
            pfalgo3_full (boardOf re rh rt rm ir) old mem = .ok out ∧ pfalgo3_full (boardOf re rh' rt rm ir) old' mem' = .ok out' ∧ CaloAdded out out' ∧
              ((∀ e, ¬ HadMatch (boardOf re rh' rt rm ir) e i) → ∀ k, (out.outne k).hwPt.toInt ≤ (out'.outne k).hwPt.toInt)) ∧
          ((∀ e, ¬ HadMatch (boardOf re rh' rt rm ir) e i) → ∀ (old old' : PFOutputs NT NE NS NM) (mem mem' : Arr NC PFNeutralObj), ∃ out out',
            pfalgo3_full_ref (boardOf re rh rt rm ir) old mem = .ok out ∧ pfalgo3_full_ref (boardOf re rh' rt rm ir) old' mem' = .ok out' ∧
              CaloAdded out out' ∧ ∀ k, (out.outne k).hwPt.toInt ≤ (out'.outne k).hwPt.toInt)) := by
  obtain ⟨rh', hr, J, _⟩ := C95_one_more_word sz.hadSec sz.hadSlice H hm rh hh
  refine ⟨rh', hr, fun ir => ⟨fun h => ?_, fun ho hs hfit => ?_⟩⟩
  · unfold boardOf
    rw [(J ir).1 h]
  · obtain ⟨i, j, P, hj⟩ := joins_free (arrivals_one H hm) ho hs hfit (C33_ref_content _ _ _ had rest_h rh hh ir)
      (C33_ref_content _ _ _ had' rest_h rh' hr ir)
    obtain ⟨hp', hz, _⟩ := C85_regions_physical sz em rest_e had' rest_h tk rest_t re rh' rt rm he hr ht hq ir
    obtain ⟨hp, _, _⟩ := C85_regions_physical sz em rest_e had rest_h tk rest_t re rh rt rm he hh ht (sensible_less (arrivals_one H hm) hq) ir
    have hw := physical_valid (boardOf re rh rt rm ir) hp
    have hw' := physical_valid (boardOf re rh' rt rm ir) hp'
    have K : CaloJoins (boardOf re rh rt rm ir) (boardOf re rh' rt rm ir) i j :=
      { track := rfl
        em := rfl
        mu := rfl
        le := P.le
        before := P.before
        moved := P.moved
        after := P.after
        freePt := by show (rh ir j).hwPt.toInt = 0; rw [hj]; rfl
        freeEmPt := by show (rh ir j).hwEmPt.toInt = 0; rw [hj]; rfl }
    exact ⟨i, P.at_, C100_calo_anywhere K (hw _) (hw' _), fun hno => C100_calo_anywhere_ref K (hw _) (hw' _) hz hno⟩

/-- **C100**, non-vacuity: sector 1 sends a track, an EM cluster, and calorimeter clusters of 15 and 90; a cluster of 40 instead of a null,
nearer to the track, takes the track over: the charged candidate stays, and the neutral list gains. -/
def meetHad (x : HadCaloObj) : Arr (1 * N_IN_SECTORS) (List HadCaloObj) := fun k =>
  if k = 1 then [⟨15, 30, -20, 0, false⟩, ⟨90, 5, 7, 0, false⟩, x] else List.replicate 3 ⟨0, 0, 0, 0, false⟩
def meetTk : Arr (1 * N_IN_SECTORS) (List TkObj) := fun k => if k = 1 then [⟨30, 2, 10, 0, 0, false⟩] else [⟨0, 0, 0, 0, 0, false⟩]

/-- pts of the charged and of the neutral candidates of region 6. -/
def meetSeen (x : HadCaloObj) : Run (List Int × List Int) := do
  let re ← regionize_ref 1 1 1 joinEm
  let rh ← regionize_ref 3 3 4 (meetHad x)
  let rt ← regionize_ref 1 1 1 meetTk
  let out ← pfalgo3_full (boardOf re.2 rh.2 rt.2 (fun _ i => (i : Fin 0).elim0) 6) (old0 1 1 4 0) (mem0 4 4)
  .ok ((chargedList out).map fun c => c.hwPt.toInt, List.ofFn fun k => (out.outne k).hwPt.toInt)

example : OneMoreOnFibre (meetHad ⟨0, 0, 0, 0, false⟩) (meetHad ⟨40, 11, 0, 0, false⟩) (fiberIdx 1 0) 2 ⟨40, 11, 0, 0, false⟩ ∧
    Sensible (arrivals 1 joinEm) (arrivals 3 (meetHad ⟨40, 11, 0, 0, false⟩)) (arrivals 1 meetTk) ∧
    inSlice (regionEta 6) (⟨40, 11, 0, 0, false⟩ : HadCaloObj) = true ∧ SectorOf (regionPhi 6) 1 ∧
    Fits 3 4 (regionEta 6) (regionPhi 6) (arrivals 3 (meetHad ⟨40, 11, 0, 0, false⟩)) ∧
    meetSeen ⟨0, 0, 0, 0, false⟩ = .ok ([30], [60, 15, 0, 0]) ∧ meetSeen ⟨40, 11, 0, 0, false⟩ = .ok ([30], [90, 15, 10, 0]) := by
  refine ⟨⟨fun k hk => ?_, ⟨⟨0, 0, 0, 0, false⟩, rfl, by decide⟩, rfl, by decide⟩, ?_, by decide, by decide, ?_, by decide +kernel, by decide +kernel⟩
  · have hk : ¬ k = 1 := hk
    unfold meetHad
    rw [if_neg hk, if_neg hk]
  · constructor <;> decide +kernel
  · unfold Fits
    decide +kernel

end

end Verif
