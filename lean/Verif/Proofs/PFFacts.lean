import Verif.Proofs.PFSafe
import Verif.Proofs.PFReference
import Verif.Proofs.Sort
import Verif.Model.Compare
/-! # Facts about every run of `pfalgo3_full`, without range hypotheses -/
open scoped BigOperators
namespace Verif
open Spec
variable {NT NC NE NM NS : Nat}

instance : LawfulPt PFNeutralObj := ⟨fun _ _ => rfl⟩

/-! ### Physical inputs -/

open Classical in
theorem physical_valid (inp : PFInputs NT NC NE NM) (h : Physical inp) (v : Variant) :
    Valid inp v := by
  have hpt := pt_range
  refine ⟨⟨h.trackPt, h.trackErr, ?_, h.emPt, h.hadPt, h.hadEmPt, ?_, ?_, ?_⟩, ?_, ?_⟩
  · intro t
    have h1 := h.trackPt t
    have h2 := h.trackErr t
    have h3 := h.trackErrMax t
    omega
  · intro c
    exact le_trans (sum_ite_le _ _ h.trackPt) h.trackSum
  · intro c
    exact le_trans (sum_ite_le _ _ h.emPt) h.emSum
  · intro c
    exact le_trans (sum_ite_le _ _ h.trackPt) h.trackSum
  · intro c _
    have h1 := h.emErrMax c
    unfold emErr2
    nlinarith
  · intro c
    have h1 : caloTrackErr2 inp v c ≤ ∑ t, (inp.track t).hwPtErr.toInt ^ 2 :=
      sum_ite_le _ _ (fun t => sq_nonneg _)
    have h2 := h.trackErrSum
    omega

/-! ### Charged candidates -/

theorem tkalgo_cases (track : Arr NT TkObj) (isEle isMu : Arr NT Bool) (link : Arr NT (Arr NC Bool))
    (t : Fin NT) :
    tk2calo_tkalgo track isEle isMu link t = { hwPt := 0, hwEta := 0, hwPhi := 0, hwId := 0, hwZ0 := 0 } ∨
    ∃ id : ParticleId, (id = 0 ∨ id = 3 ∨ id = 4) ∧
      tk2calo_tkalgo track isEle isMu link t =
        { hwPt := (track t).hwPt, hwEta := (track t).hwEta, hwPhi := (track t).hwPhi, hwId := id,
          hwZ0 := (track t).hwZ0 } := by
  let good : Bool := isMu t || isEle t || decide ((track t).hwPt.toInt <
      (if (track t).hwTightQuality then (reg 16 PFALGO3_TK_MAXINVPT_TIGHT : Pt)
        else reg 16 PFALGO3_TK_MAXINVPT_LOOSE).toInt) || (List.finRange NC).any (fun i => link t i)
  by_cases hg : good = true
  · right
    refine ⟨if isEle t then PID_Electron else if isMu t then PID_Muon else PID_Charged, ?_, if_pos hg⟩
    cases isEle t <;> cases isMu t <;> decide
  · exact Or.inl (if_neg hg)

/-! ### Photons -/

theorem emalgo_cases {calo : Arr NE EmCaloObj} {sumtk : Arr NE Pt} {em : Arr NE (Bool × Pt)}
    (h : tk2em_emalgo calo sumtk = .ok em) (c : Fin NE) :
    (em c).2 = 0 ∨ (sumtk c = 0 ∧ (em c).2 = (calo c).hwPt) ∨
      (sumtk c ≠ 0 ∧ (em c).2 = reg 16 ((calo c).hwPt.toInt - (sumtk c).toInt) ∧ 0 < (em c).2.toInt) := by
  have h := buildM_eq_ok.mp h c
  by_cases hz : sumtk c = 0
  · rw [if_pos hz] at h
    injection h with h
    exact Or.inr (Or.inl ⟨hz, by rw [← h]⟩)
  · rw [if_neg hz] at h
    obtain ⟨lo, _, h⟩ := Run.bind_eq_ok.mp h
    obtain ⟨hi, _, h⟩ := Run.bind_eq_ok.mp h
    injection h with h
    rw [← h]
    split
    · exact Or.inl rfl
    · split
      · rename_i hp
        exact Or.inr (Or.inr ⟨hz, rfl, hp⟩)
      · exact Or.inl rfl

/-! ### Calorimeter clusters after EM subtraction -/

theorem sub_cases (calo : Arr NC HadCaloObj) (sumem : Arr NC Pt) (keep : Arr NC Bool) (h : Fin NC) :
    (em2calo_sub calo sumem keep h = { hwPt := 0, hwEmPt := 0, hwEta := 0, hwPhi := 0, hwIsEM := false }) ∨
    ((em2calo_sub calo sumem keep h).hwPt = reg 16 ((calo h).hwPt.toInt - (sumem h).toInt) ∧
     (em2calo_sub calo sumem keep h).hwEta = (calo h).hwEta ∧
     (em2calo_sub calo sumem keep h).hwPhi = (calo h).hwPhi ∧
     (em2calo_sub calo sumem keep h).hwIsEM = (calo h).hwIsEM ∧
     (calo h).hwPt.toInt / 16 < (em2calo_sub calo sumem keep h).hwPt.toInt) := by
  unfold em2calo_sub
  simp only []
  split
  · exact Or.inl rfl
  · rename_i hc
    have hs : shr (calo h).hwPt.toInt 4 = (calo h).hwPt.toInt / 16 := rfl
    refine Or.inr ⟨rfl, rfl, rfl, rfl, ?_⟩
    rw [← hs]
    exact lt_of_not_ge (fun hh => hc (Or.inl hh))

theorem sub_nonneg' (calo : Arr NC HadCaloObj) (sumem : Arr NC Pt) (keep : Arr NC Bool) (h : Fin NC)
    (h0 : 0 ≤ (calo h).hwPt.toInt) : 0 ≤ (em2calo_sub calo sumem keep h).hwPt.toInt := by
  rcases sub_cases calo sumem keep h with e | e
  · rw [e]; decide
  · have := e.2.2.2.2; omega

theorem calopt_cases {calo : HadCaloObj} {sumtk : Pt} {err : Int} {p : Pt}
    (h : tk2calo_calopt calo sumtk err = .ok p) :
    p = 0 ∨ (sumtk = 0 ∧ p = calo.hwPt) ∨
      (sumtk ≠ 0 ∧ p = reg 16 (calo.hwPt.toInt - sumtk.toInt) ∧ 0 < p.toInt) := by
  unfold tk2calo_calopt at h
  by_cases hz : sumtk = 0
  · rw [if_pos hz] at h
    injection h with h
    exact Or.inr (Or.inl ⟨hz, h.symm⟩)
  · rw [if_neg hz] at h
    simp only [] at h
    split at h
    · rename_i hp
      obtain ⟨lim, _, h⟩ := Run.bind_eq_ok.mp h
      injection h with h
      split at h
      · subst h; exact Or.inr (Or.inr ⟨hz, rfl, hp⟩)
      · exact Or.inl h.symm
    · injection h with h
      exact Or.inl h.symm

theorem caloalgo_get {calo : Arr NC HadCaloObj} {sumtk : Arr NC Pt} {err : Arr NC Int}
    {mem ne : Arr NC PFNeutralObj} (h : tk2calo_caloalgo calo sumtk err mem = .ok ne) (i : Fin NC) :
    ∃ p, tk2calo_calopt (calo i) (sumtk i) (err i) = .ok p ∧
      ne i = { mem i with hwPt := p, hwEta := if p ≠ 0 then (calo i).hwEta else 0,
                          hwPhi := if p ≠ 0 then (calo i).hwPhi else 0,
                          hwId := if p ≠ 0 then PID_Neutral else 0 } := by
  have h := buildM_eq_ok.mp h i
  obtain ⟨p, hp, h⟩ := Run.bind_eq_ok.mp h
  injection h with h
  exact ⟨p, hp, h.symm⟩

theorem caloalgo_nonneg {calo : Arr NC HadCaloObj} {sumtk : Arr NC Pt} {err : Arr NC Int}
    {mem ne : Arr NC PFNeutralObj} (h : tk2calo_caloalgo calo sumtk err mem = .ok ne)
    (h0 : ∀ i, 0 ≤ (calo i).hwPt.toInt) (i : Fin NC) : 0 ≤ (ne i).hwPt.toInt := by
  obtain ⟨p, hp, e⟩ := caloalgo_get h i
  rw [e]
  show 0 ≤ p.toInt
  rcases calopt_cases hp with rfl | ⟨_, rfl⟩ | ⟨_, _, hh⟩
  · decide
  · exact h0 i
  · omega

/-- Only clusters of positive pt are linked to tracks. -/
theorem calolink_pos {calo : Arr NC HadCaloObj} {track : Arr NT TkObj} {link : Arr NT (Arr NC Bool)}
    (h : tk2calo_link_drdpt calo track = .ok link) {t : Fin NT} {i : Fin NC} (hl : link t i = true) :
    0 < (calo i).hwPt.toInt := by
  unfold tk2calo_link_drdpt at h
  obtain ⟨dr, hd, h⟩ := Run.bind_eq_ok.mp h
  injection h with h
  subst h
  unfold pick_closest at hl
  have hne : dr t i ≠ reg 12 ((5 * PFALGO3_DR2MAX_TK_CALO : Nat) : Int) := by
    have := ((loop_and i _ _ _).mp hl).1
    simpa using this
  have hb := buildM_eq_ok.mp hd t
  obtain ⟨s, _, hb⟩ := Run.bind_eq_ok.mp hb
  injection hb with hb
  have hmin : 0 ≤ (caloPtMin (track t)).toInt := by
    unfold caloPtMin
    simp only []
    split
    · decide
    · omega
  by_contra hc
  apply hne
  rw [← hb]
  exact if_neg (by omega)

/-- A cluster without links has no track energy. -/
theorem calosum_no_link {track : Arr NT TkObj} {isEle isMu : Arr NT Bool} {err : Arr NT Int}
    {link : Arr NT (Arr NC Bool)} {sums : Arr NC (Pt × Int)}
    (h : tk2calo_sumtk track isEle isMu err link = .ok sums) (i : Fin NC)
    (hl : ∀ t, link t i = false) : sums i = (0, 0) := by
  have hs := buildM_eq_ok.mp h i
  exact loopM_induct_ok (fun _ (s : Pt × Int) => s = (0, 0)) _ _ _ rfl (by
    intro t s s1 hs0 hb
    rw [hl t] at hb
    simp only [Bool.and_false, Bool.false_and, Bool.false_eq_true, if_false] at hb
    injection hb with hb
    rw [← hb]; exact hs0) hs

/-- A neutral candidate is null or sits at the position of its (surviving) cluster. -/
theorem neutral_cases (inp : PFInputs NT NC NE NM) (old : PFOutputs NT NE NS NM)
    {em : Arr NE (Bool × Pt)} {link : Arr NT (Arr NC Bool)} {sums : Arr NC (Pt × Int)}
    {mem ne : Arr NC PFNeutralObj}
    (h2 : tk2calo_link_drdpt (fwSub inp em) inp.track = .ok link)
    (h3 : tk2calo_sumtk inp.track (fwEle inp old em) (fwMu inp old).2 (tk2calo_tkerr2 inp.track) link
          = .ok sums)
    (h4 : tk2calo_caloalgo (fwSub inp em) (fun i => (sums i).1) (fun i => (sums i).2) mem = .ok ne)
    (h : Fin NC) :
    ((ne h).hwPt = 0 ∧ (ne h).hwEta = 0 ∧ (ne h).hwPhi = 0 ∧ (ne h).hwId = 0) ∨
    ((ne h).hwPt ≠ 0 ∧ (ne h).hwEta = (inp.hadcalo h).hwEta ∧
      (ne h).hwPhi = (inp.hadcalo h).hwPhi ∧ (ne h).hwId = 1) := by
  obtain ⟨p, hp, e⟩ := caloalgo_get h4 h
  rw [e]
  by_cases hz : p = 0
  · subst hz; left; simp
  · right
    simp only [if_pos hz]
    refine ⟨hz, ?_, ?_, rfl⟩ <;>
    · have hcase := sub_cases inp.hadcalo (fun i => (em2calo_sumem inp.emcalo (fun i => (em i).1)
        (em2calo_link inp.emcalo inp.hadcalo) i).1) (fun i => (em2calo_sumem inp.emcalo
        (fun i => (em i).1) (em2calo_link inp.emcalo inp.hadcalo) i).2) h
      rcases hcase with hr | hr
      · exfalso
        have hr' : fwSub inp em h =
            { hwPt := 0, hwEmPt := 0, hwEta := 0, hwPhi := 0, hwIsEM := false } := hr
        have hnl : ∀ t, link t h = false := by
          intro t
          rw [← Bool.not_eq_true]
          intro hl
          have := calolink_pos h2 hl
          rw [hr'] at this
          exact absurd this (by decide)
        have hs := calosum_no_link h3 h hnl
        rw [hs, hr'] at hp
        apply hz
        have : tk2calo_calopt { hwPt := 0, hwEmPt := 0, hwEta := 0, hwPhi := 0, hwIsEM := false } 0 0 =
          .ok 0 := rfl
        rw [this] at hp
        injection hp with hp
        exact hp.symm
      · first
        | exact hr.2.1
        | exact hr.2.2.1

/-! ### Muons -/

theorem fwMu_cases (inp : PFInputs NT NC NE NM) (old : PFOutputs NT NE NS NM) (m : Fin NM) :
    (fwMu inp old).1 m = nullCharged ∨ ∃ t, (fwMu inp old).1 m = muCopy (inp.track t) := by
  obtain ⟨h1, h2, _⟩ := mualgo_spec inp.mu inp.track (spfph_mutrk_link inp.mu inp.track) old.outmu
    (fun _ => false) (fun m i j => mutrk_link_unique inp.mu inp.track m i j)
  by_cases hp : 0 < (inp.mu m).hwPt.toInt
  · by_cases hl : ∃ t, spfph_mutrk_link inp.mu inp.track t m = true
    · obtain ⟨t, ht⟩ := hl
      exact Or.inr ⟨t, h1 m t hp ht⟩
    · exact Or.inl (h2 m (Or.inr (fun t => by
        cases hb : spfph_mutrk_link inp.mu inp.track t m with
        | false => rfl
        | true => exact absurd ⟨t, hb⟩ hl)))
  · exact Or.inl (h2 m (Or.inl hp))

/-! ### Sorting and relations -/

theorem insAt_forall₂ {T : Type} [HasPt T] {R : T → T → Prop} (hR : ∀ a b, R a b → key a = key b)
    {x y : T} (hxy : R x y) {l l' : List T} (h : List.Forall₂ R l l') :
    List.Forall₂ R (insAt (yields x) x l) (insAt (yields y) y l') := by
  induction h with
  | nil => exact List.Forall₂.cons hxy List.Forall₂.nil
  | @cons a b l l' hab hl ih =>
    have e : yields x a = yields y b := by
      unfold yields
      rw [hR x y hxy, hR a b hab]
    simp only [insAt, e]
    split
    · exact List.Forall₂.cons hxy (List.Forall₂.cons hab hl)
    · exact List.Forall₂.cons hab ih

theorem foldl_insAt_forall₂ {T : Type} [HasPt T] {R : T → T → Prop} (hR : ∀ a b, R a b → key a = key b)
    {xs ys : List T} (hxy : List.Forall₂ R xs ys) {l l' : List T} (h : List.Forall₂ R l l') :
    List.Forall₂ R (xs.foldl (fun l x => insAt (yields x) x l) l)
      (ys.foldl (fun l x => insAt (yields x) x l) l') := by
  induction hxy generalizing l l' with
  | nil => exact h
  | cons hab _ ih => exact ih (insAt_forall₂ hR hab h)

theorem forall₂_ofFn {T U : Type} {R : T → U → Prop} {n : Nat} {a : Arr n T} {b : Arr n U} :
    List.Forall₂ R (List.ofFn a) (List.ofFn b) ↔ ∀ i, R (a i) (b i) := by
  rw [List.forall₂_iff_get]
  constructor
  · rintro ⟨_, h⟩ i
    have := h i.val (by simp) (by simp)
    simpa using this
  · intro h
    refine ⟨by simp, fun i h1 h2 => ?_⟩
    simpa using h ⟨i, by simpa using h1⟩

/-- The sorters respect any relation that preserves pt, whatever the scratch memory, provided the
padding is related (or is not reached). -/
theorem hwopt_rel {T : Type} [HasPt T] [LawfulPt T] {NIn NOut : Nat} {R : T → T → Prop}
    (hR : ∀ a b, R a b → key a = key b) {mem mem' : Arr NOut T} {a b : Arr NIn T}
    (hpad : ∀ i, R (zeros mem i) (zeros mem' i)) (h : ∀ i, R (a i) (b i)) (i : Fin NOut) :
    R (ptsort_hwopt mem a i) (ptsort_hwopt mem' b i) := by
  have : List.Forall₂ R (List.ofFn (ptsort_hwopt mem a)) (List.ofFn (ptsort_hwopt mem' b)) := by
    rw [hwopt_ofFn, hwopt_ofFn]
    exact List.forall₂_take _ (foldl_insAt_forall₂ hR (forall₂_ofFn.mpr h) (forall₂_ofFn.mpr hpad))
  exact forall₂_ofFn.mp this i

/-- With non-negative pts and enough inputs the padding is never reached. -/
theorem hwopt_rel_nonneg {T : Type} [HasPt T] [LawfulPt T] {NIn NOut : Nat} {R : T → T → Prop}
    (hR : ∀ a b, R a b → key a = key b) {mem mem' : Arr NOut T} {a b : Arr NIn T}
    (h0 : ∀ i, 0 ≤ key (a i)) (hN : NOut ≤ NIn) (h : ∀ i, R (a i) (b i)) (i : Fin NOut) :
    R (ptsort_hwopt mem a i) (ptsort_hwopt mem' b i) := by
  have h0' : ∀ i, 0 ≤ key (b i) := fun i => by rw [← hR _ _ (h i)]; exact h0 i
  have : List.Forall₂ R (List.ofFn (ptsort_hwopt mem a)) (List.ofFn (ptsort_hwopt mem' b)) := by
    rw [hwopt_nonneg_full mem a h0 hN, hwopt_nonneg_full mem' b h0' hN]
    unfold sortL
    exact List.forall₂_take _ (foldl_insAt_forall₂ hR (forall₂_ofFn.mpr h) List.Forall₂.nil)
  exact forall₂_ofFn.mp this i

end Verif
