import Verif.Proofs.PFAgree
import Verif.Proofs.PFPerm
import Verif.Props.PFAgree
/-! # What the output lists contain: properties C03, C04, C07, C08, C09, C10, C13 -/
open scoped BigOperators
namespace Verif
open Spec
variable {NT NC NE NM NS : Nat}

/-! ### C03, C04: charged candidates -/

/-- **C03.** In every defined run, without any hypothesis on the inputs, charged slot `t` is entirely
null or an exact copy of track `t` with id 0, 3 or 4. -/
theorem C03_charged_copy (inp : PFInputs NT NC NE NM) (old : PFOutputs NT NE NS NM)
    (mem : PFScratch NC NS) (out : PFOutputs NT NE NS NM) (hrun : pfalgo3_full inp old mem = .ok out)
    (t : Fin NT) :
    out.outch t = { hwPt := 0, hwEta := 0, hwPhi := 0, hwId := 0, hwZ0 := 0 } ∨
    ((out.outch t).hwPt = (inp.track t).hwPt ∧ (out.outch t).hwEta = (inp.track t).hwEta ∧
     (out.outch t).hwPhi = (inp.track t).hwPhi ∧ (out.outch t).hwZ0 = (inp.track t).hwZ0 ∧
     ((out.outch t).hwId = 0 ∨ (out.outch t).hwId = 3 ∨ (out.outch t).hwId = 4)) := by
  obtain ⟨em, link, sums, ne, h1, h2, h3, h4, rfl⟩ := (pfalgo3_full_ok_iff inp old mem out).mp hrun
  rcases tkalgo_cases inp.track (fwEle inp old em) (fwMu inp old).2 link t with e | ⟨id, hid, e⟩
  · exact Or.inl e
  · refine Or.inr ?_
    show (tk2calo_tkalgo _ _ _ _ t).hwPt = _ ∧ (tk2calo_tkalgo _ _ _ _ t).hwEta = _ ∧
      (tk2calo_tkalgo _ _ _ _ t).hwPhi = _ ∧ (tk2calo_tkalgo _ _ _ _ t).hwZ0 = _ ∧
      ((tk2calo_tkalgo _ _ _ _ t).hwId = 0 ∨ (tk2calo_tkalgo _ _ _ _ t).hwId = 3 ∨
        (tk2calo_tkalgo _ _ _ _ t).hwId = 4)
    rw [e]
    exact ⟨rfl, rfl, rfl, rfl, hid⟩

/-- **C03.** On valid inputs a track of positive pt is kept exactly when it is a muon track, an
electron track, below the pt threshold of its quality (80 tight, 40 loose), or linked to a
calorimeter cluster. -/
theorem C03_charged_kept_iff (inp : PFInputs NT NC NE NM) (old : PFOutputs NT NE NS NM)
    (mem : PFScratch NC NS) (hv : Valid inp fwVariant) :
    ∃ out, pfalgo3_full inp old mem = .ok out ∧
      ∀ t, 0 < (inp.track t).hwPt.toInt →
        ((out.outch t).hwPt = (inp.track t).hwPt ↔
          IsMu inp t ∨ IsEle inp t ∨
          (inp.track t).hwPt.toInt < (if (inp.track t).hwTightQuality then 80 else 40) ∨
          ∃ h, CaloMatch inp fwVariant t h) ∧
        ((out.outch t).hwPt ≠ (inp.track t).hwPt →
          out.outch t = { hwPt := 0, hwEta := 0, hwPhi := 0, hwId := 0, hwZ0 := 0 }) := by
  obtain ⟨out, ne, h1, h2, _⟩ := fw_meets_spec inp old mem hv
  refine ⟨out, h1, fun t hp => ?_⟩
  have hnz : (0 : Pt) ≠ (inp.track t).hwPt := by
    intro h; rw [← h] at hp; exact absurd hp (by decide)
  rw [h2 t]
  have hk : (chargedOut inp fwVariant t).hwPt = (inp.track t).hwPt ↔ Kept inp fwVariant t := by
    unfold chargedOut
    split
    · simp [*]
    · rename_i hn
      exact ⟨fun h => absurd h hnz, fun h => absurd h hn⟩
  refine ⟨hk, fun hne => ?_⟩
  have : ¬ Kept inp fwVariant t := fun h => hne (hk.mpr h)
  unfold chargedOut
  rw [if_neg this]

/-- **C04.** Identification of the kept tracks on valid inputs: muon exactly for tracks claimed by a
muon, electron exactly for tracks whose EM cluster looks electromagnetic (never both), otherwise
charged hadron. -/
theorem C04_charged_id (inp : PFInputs NT NC NE NM) (old : PFOutputs NT NE NS NM)
    (mem : PFScratch NC NS) (hv : Valid inp fwVariant) :
    ∃ out, pfalgo3_full inp old mem = .ok out ∧
      ∀ t, ((out.outch t).hwId = 4 ↔ IsMu inp t) ∧ ((out.outch t).hwId = 3 ↔ IsEle inp t) ∧
        ¬ (IsMu inp t ∧ IsEle inp t) ∧
        ((out.outch t).hwId = 0 ∨ (out.outch t).hwId = 3 ∨ (out.outch t).hwId = 4) := by
  obtain ⟨out, ne, h1, h2, _⟩ := fw_meets_spec inp old mem hv
  refine ⟨out, h1, fun t => ?_⟩
  have hex : ¬ (IsMu inp t ∧ IsEle inp t) := by
    rintro ⟨hm, c, hc, _⟩
    exact hc.1 hm
  rw [h2 t]
  classical
  have hid : (chargedOut inp fwVariant t).hwId =
      if IsMu inp t then 4 else if IsEle inp t then 3 else 0 := by
    unfold chargedOut
    by_cases hm : IsMu inp t
    · have hk : Kept inp fwVariant t := Or.inl hm
      have he : ¬ IsEle inp t := fun h => hex ⟨hm, h⟩
      rw [if_pos hk]; simp [hm, he]
    · by_cases he : IsEle inp t
      · have hk : Kept inp fwVariant t := Or.inr (Or.inl he)
        rw [if_pos hk]; simp [hm, he]
      · simp only [hm, he, if_false]
        split <;> rfl
  rw [hid]
  by_cases hm : IsMu inp t
  · have he : ¬ IsEle inp t := fun h => hex ⟨hm, h⟩
    simp [hm, he]
  · by_cases he : IsEle inp t <;> simp [hm, he]

/-- **C04.** A muon track is linked to no EM cluster, for any arrays. -/
theorem C04_muon_no_em_link (calo : Arr NE EmCaloObj) (track : Arr NT TkObj) (isMu : Arr NT Bool)
    (t : Fin NT) (h : isMu t = true) (c : Fin NE) : tk2em_link calo track isMu t c = false := by
  rw [← Bool.not_eq_true]
  intro hl
  have := ((tk2em_link_iff calo track isMu t c).mp hl).1
  rw [h] at this; cases this

/-- **C04.** Muon and electron tracks pull no energy out of a calorimeter cluster: the track sums do
not change if those tracks (their pt, their error, their links) are replaced by anything else. -/
theorem C04_muon_no_calo_energy (track track' : Arr NT TkObj) (isEle isMu : Arr NT Bool)
    (err err' : Arr NT Int) (link link' : Arr NT (Arr NC Bool))
    (h : ∀ t, isMu t = false → isEle t = false →
      track t = track' t ∧ err t = err' t ∧ link t = link' t) :
    tk2calo_sumtk track isEle isMu err link = tk2calo_sumtk track' isEle isMu err' link' := by
  unfold tk2calo_sumtk
  congr 1
  funext icalo
  congr 1
  funext it s
  cases hm : isMu it with
  | true => simp
  | false =>
    cases he : isEle it with
    | true => simp
    | false =>
      obtain ⟨e1, e2, e3⟩ := h it hm he
      rw [e1, e2, e3]

/-- **C04.** Nor do muon tracks pull energy out of an EM cluster. -/
theorem C04_muon_no_em_energy (calo : Arr NE EmCaloObj) (track track' : Arr NT TkObj)
    (isMu : Arr NT Bool) (h : ∀ t, isMu t = false → track t = track' t) :
    tk2em_sumtk track (tk2em_link calo track isMu) =
      tk2em_sumtk track' (tk2em_link calo track' isMu) := by
  funext c
  unfold tk2em_sumtk
  apply loop_congr
  intro t s
  cases hm : isMu t with
  | true =>
    have e1 := C04_muon_no_em_link calo track isMu t hm c
    have e2 := C04_muon_no_em_link calo track' isMu t hm c
    simp only [e1, e2, Bool.false_eq_true, if_false]
  | false =>
    have : tk2em_link calo track isMu t c = tk2em_link calo track' isMu t c := by
      rw [Bool.eq_iff_iff, tk2em_link_iff, tk2em_link_iff, h t hm]
    rw [this, h t hm]

/-- Non-vacuity of C03 and C04: in the ordinary event the three tracks are an electron, a hadron and
a muon. -/
example : Valid ordinary fwVariant ∧
    (pfalgo3_full ordinary (old0 3 2 2 1) (mem0 2 2)).map 
      (fun o => ((o.outch 0).hwId, (o.outch 1).hwId, (o.outch 2).hwId)) = .ok (3, 0, 4) := by
  refine ⟨physical_valid _ ordinary_physical _, ?_⟩
  decide +kernel

/-! ### C07: photons -/

/-- **C07.** On valid inputs photon slot `c` has the pt of the EM cluster balance and, if not null,
the position of EM cluster `c` and id photon; its pt lies between 0 and the cluster pt. -/
theorem C07_photons (inp : PFInputs NT NC NE NM) (old : PFOutputs NT NE NS NM)
    (mem : PFScratch NC NS) (hv : Valid inp fwVariant) :
    ∃ out, pfalgo3_full inp old mem = .ok out ∧ ∀ c,
      NeutralOut (photonPt inp c) (inp.emcalo c).hwEta (inp.emcalo c).hwPhi 2 (out.outpho c) ∧
      (emTrackPt inp c = 0 → (out.outpho c).hwPt = (inp.emcalo c).hwPt) ∧
      (emTrackPt inp c ≠ 0 → (out.outpho c).hwPt ≠ 0 →
        (out.outpho c).hwPt.toInt = (inp.emcalo c).hwPt.toInt - emTrackPt inp c ∧
        3 * (inp.emcalo c).hwPtErr.toInt ^ 2 < 2 * (out.outpho c).hwPt.toInt ^ 2) ∧
      0 ≤ (out.outpho c).hwPt.toInt ∧ (out.outpho c).hwPt.toInt ≤ (inp.emcalo c).hwPt.toInt ∧
      (out.outpho c).hwPtPuppi = (old.outpho c).hwPtPuppi := by
  obtain ⟨out, ne, h1, _, h3, _⟩ := fw_meets_spec inp old mem hv
  refine ⟨out, h1, fun c => ?_⟩
  obtain ⟨hn, hpup⟩ := h3 c
  have hpt := hn.1
  have h0 := hv.emPt c
  have hs := emTrackPt_nonneg inp hv.trackPt c
  refine ⟨hn, fun hz => ?_, fun hnz hp => ?_, ?_, ?_, hpup⟩
  · apply BitVec.eq_of_toInt_eq
    rw [hpt]; unfold photonPt; rw [if_pos hz]
  · have hp' : (out.outpho c).hwPt.toInt ≠ 0 := by
      intro h; apply hp; apply BitVec.eq_of_toInt_eq; rw [h]; rfl
    rw [hpt] at hp' ⊢
    unfold photonPt at hp' ⊢
    rw [if_neg hnz] at hp' ⊢
    split at hp'
    · rename_i hc
      rw [if_pos hc]
      exact ⟨rfl, hc.2⟩
    · exact absurd rfl hp'
  · rw [hpt]; unfold photonPt
    split
    · exact h0
    · split
      · rename_i hc; omega
      · exact le_refl _
  · rw [hpt]; unfold photonPt
    split
    · exact le_refl _
    · split
      · unfold emDiff; omega
      · exact h0

/-- Non-vacuity of C07: in the ordinary event EM cluster 1 has no track and gives an 80 photon, EM
cluster 0 is fully used by the electron; with a smaller track the excess becomes a photon. -/
example : (pfalgo3_full ordinary (old0 3 2 2 1) (mem0 2 2)).map 
    (fun o => ((o.outpho 0).hwPt, (o.outpho 1).hwPt)) = .ok (0, 80) := by decide +kernel

/-! ### C08, C09: neutral hadrons -/

/-- **C08.** For non-negative calorimeter pts (nothing else assumed) and `NCALO ≥ NSELCALO`, the
neutral list of every defined run is a sorted top-N selection of one candidate per calorimeter
cluster, each candidate being null or at its cluster's position with id neutral. -/
theorem C08_neutrals_top (inp : PFInputs NT NC NE NM) (old : PFOutputs NT NE NS NM)
    (mem : PFScratch NC NS) (hN : NS ≤ NC) (hhad : ∀ h, 0 ≤ (inp.hadcalo h).hwPt.toInt)
    (out : PFOutputs NT NE NS NM) (hrun : pfalgo3_full inp old mem = .ok out) :
    ∃ ne : Arr NC PFNeutralObj,
      (∀ h, ((ne h).hwPt = 0 ∧ (ne h).hwEta = 0 ∧ (ne h).hwPhi = 0 ∧ (ne h).hwId = 0) ∨
        (0 < (ne h).hwPt.toInt ∧ (ne h).hwEta = (inp.hadcalo h).hwEta ∧
          (ne h).hwPhi = (inp.hadcalo h).hwPhi ∧ (ne h).hwId = 1)) ∧
      TopN (fun o => o.hwPt.toInt) (List.ofFn ne) (List.ofFn out.outne) := by
  obtain ⟨em, link, sums, ne, h1, h2, h3, h4, rfl⟩ := (pfalgo3_full_ok_iff inp old mem out).mp hrun
  have hsub : ∀ h, 0 ≤ (fwSub inp em h).hwPt.toInt := fun h => by
    unfold fwSub; exact sub_nonneg' _ _ _ h (hhad h)
  have hnn := caloalgo_nonneg h4 hsub
  refine ⟨ne, fun h => ?_, hwopt_topN mem.tmp ne hnn hN⟩
  rcases neutral_cases inp old h2 h3 h4 h with hc | ⟨hc, hc'⟩
  · exact Or.inl hc
  · right
    refine ⟨?_, hc'⟩
    rcases eq_or_lt_of_le (hnn h) with h0 | h0
    · exact absurd (BitVec.eq_of_toInt_eq h0.symm) hc
    · exact h0

/-- **C08.** The neutral list does not depend on what the output arrays and the local arrays
contained before, apart from the never-written `hwPtPuppi`. -/
theorem C08_neutrals_memory_independent (inp : PFInputs NT NC NE NM) (old old' : PFOutputs NT NE NS NM)
    (mem mem' : PFScratch NC NS) (hN : NS ≤ NC) (hhad : ∀ h, 0 ≤ (inp.hadcalo h).hwPt.toInt)
    (out out' : PFOutputs NT NE NS NM) (hrun : pfalgo3_full inp old mem = .ok out)
    (hrun' : pfalgo3_full inp old' mem' = .ok out') (i : Fin NS) :
    (out.outne i).hwPt = (out'.outne i).hwPt ∧ (out.outne i).hwEta = (out'.outne i).hwEta ∧
    (out.outne i).hwPhi = (out'.outne i).hwPhi ∧ (out.outne i).hwId = (out'.outne i).hwId := by
  obtain ⟨em, link, sums, ne, h1, h2, h3, h4, rfl⟩ := (pfalgo3_full_ok_iff inp old mem out).mp hrun
  obtain ⟨em', link', sums', ne', h1', h2', h3', h4', rfl⟩ :=
    (pfalgo3_full_ok_iff inp old' mem' out').mp hrun'
  have emu : (fwMu inp old).2 = (fwMu inp old').2 := by
    funext t
    have a := (mualgo_spec inp.mu inp.track (spfph_mutrk_link inp.mu inp.track) old.outmu
      (fun _ => false) (fun m i j => mutrk_link_unique inp.mu inp.track m i j)).2.2 t
    have b := (mualgo_spec inp.mu inp.track (spfph_mutrk_link inp.mu inp.track) old'.outmu
      (fun _ => false) (fun m i j => mutrk_link_unique inp.mu inp.track m i j)).2.2 t
    rw [Bool.eq_iff_iff]
    exact a.trans b.symm
  have elink : fwEmLink inp old = fwEmLink inp old' := by unfold fwEmLink; rw [emu]
  have esum : fwSumEm inp old = fwSumEm inp old' := by unfold fwSumEm; rw [elink]
  have eem : em = em' := by rw [esum, h1'] at h1; injection h1 with h1; exact h1.symm
  subst eem
  have el : link = link' := by rw [h2'] at h2; injection h2 with h2; exact h2.symm
  subst el
  have ele : fwEle inp old em = fwEle inp old' em := by unfold fwEle; rw [elink]
  have es : sums = sums' := by rw [ele, emu, h3'] at h3; injection h3 with h3; exact h3.symm
  subst es
  have hsub : ∀ h, 0 ≤ (fwSub inp em h).hwPt.toInt := fun h => by
    unfold fwSub; exact sub_nonneg' _ _ _ h (hhad h)
  refine hwopt_rel_nonneg (R := fun a b : PFNeutralObj => a.hwPt = b.hwPt ∧ a.hwEta = b.hwEta ∧
      a.hwPhi = b.hwPhi ∧ a.hwId = b.hwId) (fun a b h => congrArg BitVec.toInt h.1)
    (caloalgo_nonneg h4 hsub) hN (fun h => ?_) i
  obtain ⟨p, hp, e⟩ := caloalgo_get h4 h
  obtain ⟨p', hp', e'⟩ := caloalgo_get h4' h
  rw [hp'] at hp
  injection hp with hp
  subst hp
  rw [e, e']
  exact ⟨rfl, rfl, rfl, rfl⟩

/-- `NCALO ≥ NSELCALO` is needed for that: with more output slots than clusters, the unfilled slots
keep the positions of the uninitialised scratch array (only `hwPt` is cleared). -/
theorem C08_padding_leaks_memory :
    (pfalgo3_full (NS := 2)
      { emcalo := (fun i => i.elim0 : Arr 0 EmCaloObj),
        hadcalo := (fun _ => ⟨50, 1, 2, 0, false⟩ : Arr 1 HadCaloObj),
        track := (fun i => i.elim0 : Arr 0 TkObj), mu := (fun i => i.elim0 : Arr 0 MuObj) }
      (old0 0 0 2 0) ⟨fun _ => ⟨0, 0, 0, 0, 0⟩, fun _ => ⟨7, 11, 22, 3, 9⟩⟩).map
      (fun o => (o.outne 0, o.outne 1)) = .ok (⟨50, 1, 2, 1, 0⟩, ⟨0, 11, 22, 3, 9⟩) := by
  decide +kernel

/-- **C09.** On valid inputs every neutral in the list is null or belongs to a calorimeter cluster:
same position, id neutral, `0 < pt ≤` the cluster's pt. -/
theorem C09_neutral_bounded (inp : PFInputs NT NC NE NM) (old : PFOutputs NT NE NS NM)
    (mem : PFScratch NC NS) (hv : Valid inp fwVariant) :
    ∃ out, pfalgo3_full inp old mem = .ok out ∧ ∀ i,
      (out.outne i).hwPt = 0 ∨
      ∃ h, 0 < (out.outne i).hwPt.toInt ∧ (out.outne i).hwPt.toInt ≤ (inp.hadcalo h).hwPt.toInt ∧
        (out.outne i).hwEta = (inp.hadcalo h).hwEta ∧ (out.outne i).hwPhi = (inp.hadcalo h).hwPhi ∧
        (out.outne i).hwId = 1 := by
  obtain ⟨out, ne, h1, _, _, _, h5, h6⟩ := fw_meets_spec inp old mem hv
  refine ⟨out, h1, fun i => ?_⟩
  obtain ⟨_, rest, hperm, _⟩ := hwopt_topN_zeros mem.tmp ne
  have hmem : (ptsort_hwopt mem.tmp ne i) ∈ List.ofFn ne ++ List.ofFn (zeros mem.tmp) :=
    hperm.mem_iff.mp (List.mem_append_left _ (by rw [List.mem_ofFn]; exact ⟨i, rfl⟩))
  rw [h6]
  rcases List.mem_append.mp hmem with hm | hm
  · rw [List.mem_ofFn] at hm
    obtain ⟨h, e⟩ := hm
    rw [← e]
    obtain ⟨hn, _⟩ := h5 h
    have h0 := neutralPt_nonneg hv.toSane h
    have hr := hadPt_range hv.toSane h
    have hs := caloTrackPt_nonneg hv.toSane h
    rcases eq_or_lt_of_le h0 with hz | hp
    · left
      apply BitVec.eq_of_toInt_eq
      rw [hn.1, ← hz]; rfl
    · right
      obtain ⟨a, b, c⟩ := hn.2.1 (by omega)
      refine ⟨h, by rw [hn.1]; exact hp, ?_, a, b, c⟩
      rw [hn.1]
      unfold neutralPt
      split
      · exact hr.2
      · split
        · unfold caloDiff; omega
        · exact hv.hadPt h
  · left
    rw [List.mem_ofFn] at hm
    obtain ⟨h, e⟩ := hm
    rw [← e]; rfl

/-- Non-vacuity of C08 and C09: the neutral list of the ordinary event is not empty. -/
example : (pfalgo3_full ordinary (old0 3 2 2 1) (mem0 2 2)).map
    (fun o => ((o.outne 0).hwPt, (o.outne 0).hwEta, (o.outne 1).hwPt)) = .ok (180, 200, 10) := by
  decide +kernel

/-! ### C10: muons -/

/-- **C10.** In every defined run on non-negative track pts: muon slot `m` copies track `t` (with id
muon) exactly when `t` is the first track minimising `|pt difference|` among those within
`dR² < 2101` and half the muon pt; it is null if there is none. -/
theorem C10_muons (inp : PFInputs NT NC NE NM) (old : PFOutputs NT NE NS NM)
    (mem : PFScratch NC NS) (htk : ∀ t, 0 ≤ (inp.track t).hwPt.toInt)
    (out : PFOutputs NT NE NS NM) (hrun : pfalgo3_full inp old mem = .ok out) (m : Fin NM) :
    (∀ t, (0 < (inp.mu m).hwPt.toInt ∧
        FirstMin (fun t => muDist2 inp m t < 2101 ∧ muDpt inp m t < (inp.mu m).hwPt.toInt / 2)
          (muDpt inp m) t) →
      out.outmu m = { hwPt := (inp.track t).hwPt, hwEta := (inp.track t).hwEta,
                      hwPhi := (inp.track t).hwPhi, hwId := 4, hwZ0 := (inp.track t).hwZ0 }) ∧
    ((¬ ∃ t, 0 < (inp.mu m).hwPt.toInt ∧
        muDist2 inp m t < 2101 ∧ muDpt inp m t < (inp.mu m).hwPt.toInt / 2) →
      out.outmu m = { hwPt := 0, hwEta := 0, hwPhi := 0, hwId := 0, hwZ0 := 0 }) := by
  obtain ⟨em, link, sums, ne, h1, h2, h3, h4, rfl⟩ := (pfalgo3_full_ok_iff inp old mem out).mp hrun
  have h := fwMu_out inp old htk m
  refine ⟨fun t ht => h.1 t ht, fun hn => h.2 (fun ⟨t, ht⟩ => hn ⟨t, ht.1, ht.2.1⟩)⟩

/-- **C10.** There always is such a track if some track is close enough in position and pt, so the
two cases of `C10_muons` are exhaustive. -/
theorem C10_muons_exhaustive (inp : PFInputs NT NC NE NM) (m : Fin NM) (hp : 0 < (inp.mu m).hwPt.toInt)
    (t : Fin NT) (h1 : muDist2 inp m t < 2101) (h2 : muDpt inp m t < (inp.mu m).hwPt.toInt / 2) :
    ∃ t, 0 < (inp.mu m).hwPt.toInt ∧
      FirstMin (fun t => muDist2 inp m t < 2101 ∧ muDpt inp m t < (inp.mu m).hwPt.toInt / 2)
        (muDpt inp m) t := by
  obtain ⟨i, hi⟩ := firstMin_exists (P := fun t => muDist2 inp m t < 2101 ∧
    muDpt inp m t < (inp.mu m).hwPt.toInt / 2) (f := muDpt inp m) ⟨t, h1, h2⟩
  exact ⟨i, hp, hi⟩

/-- Non-vacuity of C10: the muon of the ordinary event takes track 2. -/
example : (pfalgo3_full ordinary (old0 3 2 2 1) (mem0 2 2)).map (fun o => o.outmu 0) =
    .ok ⟨60, -200, 300, 4, 2⟩ := by decide +kernel

/-! ### C13: order of the tracks -/

/-- **C13.** Without muons, listing the tracks in another order permutes the charged list in the same
way and changes nothing else — in every defined run, with no range hypothesis. -/
theorem C13_track_order (inp : PFInputs NT NC NE NM) (old : PFOutputs NT NE NS NM)
    (mem : PFScratch NC NS) (σ : Equiv.Perm (Fin NT)) (hmu : ∀ m, (inp.mu m).hwPt.toInt ≤ 0)
    (out : PFOutputs NT NE NS NM) (h : pfalgo3_full inp old mem = .ok out) :
    pfalgo3_full { inp with track := fun t => inp.track (σ t) } old mem =
      .ok { out with outch := fun t => out.outch (σ t) } :=
  pfalgo3_full_perm inp old mem σ hmu h

/-- Two tracks of equal pt on either side of a muon. -/
def twoTracks (swap : Bool) : PFInputs 2 0 0 1 where
  emcalo := fun i => i.elim0
  hadcalo := fun i => i.elim0
  track := fun i => if (i = 0) = (swap = false) then ⟨60, 3, 5, 0, 1, false⟩ else ⟨60, 3, -5, 0, 2, false⟩
  mu := fun _ => ⟨60, 0, 0, 0⟩

/-- The muon hypothesis is needed: with a muon, two tracks of equal pt difference are told apart by
their order only. -/
theorem C13_order_matters_with_muons :
    (pfalgo3_full (twoTracks false) (old0 2 0 0 1) (mem0 0 0)).map (fun o => (o.outmu 0).hwEta) = .ok 5 ∧
    (pfalgo3_full (twoTracks true) (old0 2 0 0 1) (mem0 0 0)).map (fun o => (o.outmu 0).hwEta) = .ok (-5) := by
  decide +kernel

end Verif
