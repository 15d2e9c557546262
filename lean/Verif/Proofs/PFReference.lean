import Verif.Proofs.PFFirmware
import Verif.Model.PFRef
/-! # The reference PF meets the declarative specification -/
open Classical
open scoped BigOperators
namespace Verif
open Spec

variable {NT NC NE NM NS : Nat}

/-! ### Selection loops -/

theorem best_match_loop_iff {n : Nat} (D : Int) (skip : Fin n → Bool) (dr : Fin n → Int) (i : Fin n) :
    (best_match_loop D skip dr).2 = some i ↔
      FirstMin (fun j => skip j = false ∧ dr j < D) dr i := by
  have h := loop_induct (n := n) (fun k (s : Int × Option (Fin n)) =>
      (s = (D, none) ∧ ∀ j : Fin n, j.val < k → ¬ (skip j = false ∧ dr j < D)) ∨
      (∃ i : Fin n, s = (dr i, some i) ∧ (skip i = false ∧ dr i < D) ∧ i.val < k ∧
        ∀ j : Fin n, j.val < k → (skip j = false ∧ dr j < D) → dr i ≤ dr j ∧ (j < i → dr i < dr j)))
    (fun ic (s : Int × Option (Fin n)) =>
      if skip ic then s
      else if dr ic < s.1 then (dr ic, some ic) else s)
    (D, none) (Or.inl ⟨rfl, fun j hj => absurd hj (Nat.not_lt_zero _)⟩)
    (by
      intro k s ih
      have split_lt : ∀ j : Fin n, j.val < k.val + 1 → j = k ∨ j.val < k.val := by
        intro j hj
        rcases Nat.lt_or_ge j.val k.val with h | h
        · exact Or.inr h
        · exact Or.inl (Fin.ext (by omega))
      cases hsk : skip k with
      | true =>
        simp only [if_true]
        rcases ih with ⟨e, h⟩ | ⟨i, e, hi, hik, h⟩
        · refine Or.inl ⟨e, fun j hj => ?_⟩
          rcases split_lt j hj with rfl | hj
          · rw [hsk]; simp
          · exact h j hj
        · refine Or.inr ⟨i, e, hi, by omega, fun j hj hP => ?_⟩
          rcases split_lt j hj with rfl | hj
          · rw [hsk] at hP; simp at hP
          · exact h j hj hP
      | false =>
        simp only [Bool.false_eq_true, if_false]
        rcases ih with ⟨e, h⟩ | ⟨i, e, hi, hik, h⟩
        · subst e
          by_cases hlt : dr k < D
          · simp only [hlt, if_true]
            refine Or.inr ⟨k, rfl, ⟨hsk, hlt⟩, by omega, fun j hj hP => ?_⟩
            rcases split_lt j hj with rfl | hj
            · exact ⟨le_refl _, fun h => absurd h (lt_irrefl _)⟩
            · exact absurd hP (h j hj)
          · simp only [hlt, if_false]
            refine Or.inl ⟨trivial, fun j hj => ?_⟩
            rcases split_lt j hj with rfl | hj
            · exact fun h => hlt h.2
            · exact h j hj
        · subst e
          by_cases hlt : dr k < dr i
          · simp only [hlt, if_true]
            refine Or.inr ⟨k, rfl, ⟨hsk, by omega⟩, by omega, fun j hj hP => ?_⟩
            rcases split_lt j hj with rfl | hj
            · exact ⟨le_refl _, fun h => absurd h (lt_irrefl _)⟩
            · have := (h j hj hP).1
              exact ⟨by omega, fun _ => by omega⟩
          · simp only [hlt, if_false]
            refine Or.inr ⟨i, rfl, hi, by omega, fun j hj hP => ?_⟩
            rcases split_lt j hj with rfl | hj
            · refine ⟨by omega, fun h => ?_⟩
              have : j.val < i.val := h
              omega
            · exact h j hj hP)
  have h' : loop (fun ic (s : Int × Option (Fin n)) =>
      if skip ic then s
      else if dr ic < s.1 then (dr ic, some ic) else s) (D, none) = best_match_loop D skip dr := rfl
  rw [h'] at h
  rcases h with ⟨e, h⟩ | ⟨i', e, hi, _, h⟩
  · rw [e]
    constructor
    · intro h; simp at h
    · intro hf; exact absurd hf.1 (h i i.isLt)
  · rw [e]
    have hf : FirstMin (fun j => skip j = false ∧ dr j < D) dr i' := ⟨hi, fun j hP => h j j.isLt hP⟩
    constructor
    · intro h; simp only [Option.some.injEq] at h; subst h; exact hf
    · intro h; rw [firstMin_unique h hf]

/-- The pt-aware selection of the reference. -/
theorem best_match_with_pt_ref_iff (calo : Arr NC HadCaloObj) (t : TkObj)
    (hpt : 0 ≤ t.hwPt.toInt) (herr : 0 ≤ t.hwPtErr.toInt)
    (hw : -32768 ≤ t.hwPt.toInt - 2 * t.hwPtErr.toInt) :
    ∃ r, best_match_with_pt_ref PFALGO3_DR2MAX_TK_CALO calo t = .ok r ∧
      ∀ i, r = some i ↔
        FirstMin (fun h => max 0 (t.hwPt.toInt - 2 * t.hwPtErr.toInt) < (calo h).hwPt.toInt ∧
            dist2 t.hwEta t.hwPhi (calo h).hwEta (calo h).hwPhi < 756)
          (fun h => dist2 t.hwEta t.hwPhi (calo h).hwEta (calo h).hwPhi +
            (max 0 (t.hwPt.toInt - (calo h).hwPt.toInt)) ^ 2 * refScale t.hwPtErr.toInt / 256) i := by
  have hscale : Int.tdiv ((PFALGO3_DR2MAX_TK_CALO * 256 : Nat) : Int)
      (max 1 (t.hwPtErr.toInt * t.hwPtErr.toInt)) = refScale t.hwPtErr.toInt := by
    unfold refScale
    have : t.hwPtErr.toInt ^ 2 = t.hwPtErr.toInt * t.hwPtErr.toInt := by ring
    rw [this]
    exact Int.tdiv_eq_ediv_of_nonneg (by decide)
  have hs0 : 0 ≤ refScale t.hwPtErr.toInt :=
    Int.ediv_nonneg (by decide) (le_trans (by decide) (le_max_left _ _))
  let P : Fin NC → Prop := fun h =>
    max 0 (t.hwPt.toInt - 2 * t.hwPtErr.toInt) < (calo h).hwPt.toInt ∧
      dist2 t.hwEta t.hwPhi (calo h).hwEta (calo h).hwPhi < 756
  let f : Fin NC → Int := fun h => dist2 t.hwEta t.hwPhi (calo h).hwEta (calo h).hwPhi +
            (max 0 (t.hwPt.toInt - (calo h).hwPt.toInt)) ^ 2 * refScale t.hwPtErr.toInt / 256
  obtain ⟨s, hs, hinv⟩ := loopM_induct (n := NC) (fun k (s : Int × Option (Fin NC)) =>
      (s.2 = none ∧ ∀ j : Fin NC, j.val < k → ¬ P j) ∨
      (∃ i : Fin NC, s = (f i, some i) ∧ P i ∧ i.val < k ∧
        ∀ j : Fin NC, j.val < k → P j → f i ≤ f j ∧ (j < i → f i < f j)))
    (fun ic (s : Int × Option (Fin NC)) =>
      if (calo ic).hwPt.toInt ≤ (caloPtMin t).toInt then .ok s
      else
        let dr := dr2_int t.hwEta t.hwPhi (calo ic).hwEta (calo ic).hwPhi
        if dr ≥ (PFALGO3_DR2MAX_TK_CALO : Int) then .ok s
        else do
          let d : Int := max (t.hwPt.toInt - (calo ic).hwPt.toInt) 0
          let d2 ← cint (d * d)
          let d2s ← cint (d2 * refScale t.hwPtErr.toInt)
          let dr ← cint (dr + shr d2s 8)
          .ok (if s.2 = none ∨ dr < s.1 then (dr, some ic) else s))
    ((0 : Int), (none : Option (Fin NC)))
    (Or.inl ⟨rfl, fun j hj => absurd hj (Nat.not_lt_zero _)⟩)
    (by
      intro k s ih
      have split_lt : ∀ j : Fin NC, j.val < k.val + 1 → j = k ∨ j.val < k.val := by
        intro j hj
        rcases Nat.lt_or_ge j.val k.val with h | h
        · exact Or.inr h
        · exact Or.inl (Fin.ext (by omega))
      have keep : ¬ P k → ((s.2 = none ∧ ∀ j : Fin NC, j.val < k.val + 1 → ¬ P j) ∨
          (∃ i : Fin NC, s = (f i, some i) ∧ P i ∧ i.val < k.val + 1 ∧
            ∀ j : Fin NC, j.val < k.val + 1 → P j → f i ≤ f j ∧ (j < i → f i < f j))) := by
        intro hk
        rcases ih with ⟨e, h⟩ | ⟨i, e, hi, hik, h⟩
        · refine Or.inl ⟨e, fun j hj => ?_⟩
          rcases split_lt j hj with rfl | hj
          · exact hk
          · exact h j hj
        · refine Or.inr ⟨i, e, hi, by omega, fun j hj hP => ?_⟩
          rcases split_lt j hj with rfl | hj
          · exact absurd hP hk
          · exact h j hj hP
      have hmin := caloPtMin_eq t hpt herr hw
      have hdr := dr2_int_eq_dist2 t.hwEta t.hwPhi (calo k).hwEta (calo k).hwPhi
      have hD : ((PFALGO3_DR2MAX_TK_CALO : Nat) : Int) = 756 := rfl
      by_cases h1 : (calo k).hwPt.toInt ≤ (caloPtMin t).toInt
      · refine ⟨s, if_pos h1, keep ?_⟩
        rw [hmin] at h1
        exact fun h => absurd h.1 (not_lt_of_ge h1)
      · rw [if_neg h1]
        simp only [hdr, hD]
        by_cases h2 : dist2 t.hwEta t.hwPhi (calo k).hwEta (calo k).hwPhi ≥ 756
        · refine ⟨s, if_pos h2, keep ?_⟩
          exact fun h => absurd h.2 (not_lt_of_ge h2)
        · rw [if_neg h2]
          have hP : P k := by
            refine ⟨?_, by omega⟩
            rw [hmin] at h1
            exact lt_of_not_ge h1
          have hc := pt_range (calo k).hwPt
          have ht := pt_range t.hwPt
          have hmx : max (t.hwPt.toInt - (calo k).hwPt.toInt) 0 =
              max 0 (t.hwPt.toInt - (calo k).hwPt.toInt) := max_comm _ _
          rw [hmx]
          have hP1 : max 0 (t.hwPt.toInt - 2 * t.hwPtErr.toInt) < (calo k).hwPt.toInt := hP.1
          have hpos : 0 < (calo k).hwPt.toInt := lt_of_le_of_lt (le_max_left _ _) hP1
          have hd0 : 0 ≤ max 0 (t.hwPt.toInt - (calo k).hwPt.toInt) := le_max_left _ _
          have hd1 : max 0 (t.hwPt.toInt - (calo k).hwPt.toInt) ≤ 32767 := by
            apply max_le <;> omega
          generalize hd : max 0 (t.hwPt.toInt - (calo k).hwPt.toInt) = d at hd0 hd1 ⊢
          have hsq : d * d ≤ 32767 * 32767 := by nlinarith
          have hsq0 : 0 ≤ d * d := mul_self_nonneg d
          have hprod0 : 0 ≤ d * d * refScale t.hwPtErr.toInt := mul_nonneg hsq0 hs0
          have hterm : d * d * refScale t.hwPtErr.toInt / 256 < 3024 := by
            rcases eq_or_lt_of_le hd0 with h0 | h0
            · rw [← h0]; simp
            · have hdlt : d < 2 * t.hwPtErr.toInt := by
                have h5 : t.hwPt.toInt - 2 * t.hwPtErr.toInt < (calo k).hwPt.toInt :=
                  lt_of_le_of_lt (le_max_right _ _) hP1
                have h6 : d = t.hwPt.toInt - (calo k).hwPt.toInt := by
                  rw [← hd]; apply max_eq_right
                  by_contra hneg
                  rw [max_eq_left (by omega)] at hd
                  omega
                omega
              have := scaled_lt (d := d) (e := t.hwPtErr.toInt) (s := refScale t.hwPtErr.toInt)
                hd0 hdlt hs0 (le_refl _)
              have e2 : d ^ 2 = d * d := by ring
              rw [e2] at this
              exact this
          rw [cint_ok (by omega) (by omega)]
          simp only [Run.ok_bind]
          rw [cint_ok (by omega) (by omega)]
          simp only [Run.ok_bind]
          have hshr : shr (d * d * refScale t.hwPtErr.toInt) 8 =
            d * d * refScale t.hwPtErr.toInt / 256 := rfl
          rw [hshr]
          have hdn := dist2_nonneg t.hwEta t.hwPhi (calo k).hwEta (calo k).hwPhi
          have hge : 0 ≤ d * d * refScale t.hwPtErr.toInt / 256 := by omega
          rw [cint_ok (by omega) (by omega)]
          simp only [Run.ok_bind]
          have hfk : dist2 t.hwEta t.hwPhi (calo k).hwEta (calo k).hwPhi +
              d * d * refScale t.hwPtErr.toInt / 256 = f k := by
            show _ = dist2 t.hwEta t.hwPhi (calo k).hwEta (calo k).hwPhi +
              (max 0 (t.hwPt.toInt - (calo k).hwPt.toInt)) ^ 2 * refScale t.hwPtErr.toInt / 256
            rw [hd]
            have e2 : d ^ 2 = d * d := by ring
            rw [e2]
          rw [hfk]
          refine ⟨_, rfl, ?_⟩
          rcases ih with ⟨e, h⟩ | ⟨i, e, hi, hik, h⟩
          · rw [if_pos (Or.inl e)]
            refine Or.inr ⟨k, rfl, hP, by omega, fun j hj hPj => ?_⟩
            rcases split_lt j hj with rfl | hj
            · exact ⟨le_refl _, fun h => absurd h (lt_irrefl _)⟩
            · exact absurd hPj (h j hj)
          · subst e
            simp only [reduceCtorEq, false_or]
            by_cases hlt : f k < f i
            · rw [if_pos hlt]
              refine Or.inr ⟨k, rfl, hP, by omega, fun j hj hPj => ?_⟩
              rcases split_lt j hj with rfl | hj
              · exact ⟨le_refl _, fun h => absurd h (lt_irrefl _)⟩
              · have := (h j hj hPj).1
                exact ⟨by omega, fun _ => by omega⟩
            · rw [if_neg hlt]
              refine Or.inr ⟨i, rfl, hi, by omega, fun j hj hPj => ?_⟩
              rcases split_lt j hj with rfl | hj
              · refine ⟨by omega, fun h => ?_⟩
                have : j.val < i.val := h
                omega
              · exact h j hj hPj)
  refine ⟨s.2, ?_, fun i => ?_⟩
  · unfold best_match_with_pt_ref
    simp only [hscale]
    rw [hs]
    rfl
  · rcases hinv with ⟨e, h⟩ | ⟨i', e, hi, _, h⟩
    · rw [e]
      constructor
      · intro h; simp at h
      · intro hf; exact absurd hf.1 (h i i.isLt)
    · rw [e]
      have hf : FirstMin P f i' := ⟨hi, fun j hP => h j j.isLt hP⟩
      constructor
      · intro h; simp only [Option.some.injEq] at h; subst h; exact hf
      · intro h; rw [firstMin_unique h hf]

/-! ### Muons -/

theorem mu_ref_best_iff (mu : MuObj) (track : Arr NT TkObj) (t : Fin NT) :
    mu_ref_best mu track = some t ↔
      FirstMin (fun t => dist2 mu.hwEta mu.hwPhi (track t).hwEta (track t).hwPhi < 2101 ∧
          ((mu.hwPt.toInt - (track t).hwPt.toInt).natAbs : Int) < mu.hwPt.toInt / 2)
        (fun t => ((mu.hwPt.toInt - (track t).hwPt.toInt).natAbs : Int)) t := by
  have e : mu_ref_best mu track = (best_match_loop (mu.hwPt.toInt / 2)
      (fun t => decide (¬ dist2 mu.hwEta mu.hwPhi (track t).hwEta (track t).hwPhi < 2101))
      (fun t => ((mu.hwPt.toInt - (track t).hwPt.toInt).natAbs : Int))).2 := by
    unfold mu_ref_best best_match_loop
    congr 1
    have hshr : shr mu.hwPt.toInt 1 = mu.hwPt.toInt / 2 := rfl
    rw [hshr]
    apply loop_congr
    intro i s
    have hD : ((PFALGO3_DR2MAX_TK_MU : Nat) : Int) = 2101 := rfl
    rw [dr2_int_eq_dist2, hD]
    have habs : (((track i).hwPt.toInt - mu.hwPt.toInt).natAbs : Int) =
      ((mu.hwPt.toInt - (track i).hwPt.toInt).natAbs : Int) := by omega
    rw [habs]
    by_cases h : dist2 mu.hwEta mu.hwPhi (track i).hwEta (track i).hwPhi < 2101
    · simp [h]
    · simp [h]
  rw [e, best_match_loop_iff]
  apply firstMin_congr
  · intro j; simp
  · intro j _; rfl

theorem mu_ref_spec (inp : PFInputs NT NC NE NM) :
    (∀ m, MuOut inp m ((mu_ref inp.mu inp.track).1 m)) ∧
    (∀ t, (mu_ref inp.mu inp.track).2 t = true ↔ IsMu inp t) := by
  have hm : ∀ m t, 0 < (inp.mu m).hwPt.toInt →
      (mu_ref_best (inp.mu m) inp.track = some t ↔ MuMatch inp m t) := by
    intro m t hp
    rw [mu_ref_best_iff]
    unfold MuMatch
    exact ⟨fun h => ⟨hp, h⟩, fun h => h.2⟩
  have huniq : ∀ m t t', MuMatch inp m t → MuMatch inp m t' → t = t' :=
    fun m t t' h h' => firstMin_unique h.2 h'.2
  have h := loop_induct (n := NM) (fun k (s : Arr NM PFChargedObj × Arr NT Bool) =>
      (∀ (m : Fin NM), (m.val < k → MuOut inp m (s.1 m)) ∧
        (¬ m.val < k → s.1 m = { hwPt := 0, hwEta := 0, hwPhi := 0, hwId := 0, hwZ0 := 0 })) ∧
      (∀ t, s.2 t = true ↔ ∃ m : Fin NM, m.val < k ∧ MuMatch inp m t))
    (fun im (st : Arr NM PFChargedObj × Arr NT Bool) =>
      if (inp.mu im).hwPt.toInt > 0 then
        match mu_ref_best (inp.mu im) inp.track with
        | some ibest =>
          (st.1.set im
            { hwPt := (inp.track ibest).hwPt, hwEta := (inp.track ibest).hwEta,
              hwPhi := (inp.track ibest).hwPhi, hwId := PID_Muon, hwZ0 := (inp.track ibest).hwZ0 },
           st.2.set ibest true)
        | none => st
      else st)
    ((fun _ => { hwPt := 0, hwEta := 0, hwPhi := 0, hwId := 0, hwZ0 := 0 }), fun _ => false)
    (by
      refine ⟨fun m => ⟨fun h => absurd h (Nat.not_lt_zero _), fun _ => rfl⟩, fun t => ?_⟩
      simp)
    (by
      intro k s ih
      obtain ⟨ih1, ih2⟩ := ih
      have split_lt : ∀ j : Fin NM, j.val < k.val + 1 → j = k ∨ j.val < k.val := by
        intro j hj
        rcases Nat.lt_or_ge j.val k.val with h | h
        · exact Or.inr h
        · exact Or.inl (Fin.ext (by omega))
      have skip : (∀ t, ¬ MuMatch inp k t) →
          (∀ (m : Fin NM), (m.val < k.val + 1 → MuOut inp m (s.1 m)) ∧
            (¬ m.val < k.val + 1 → s.1 m = { hwPt := 0, hwEta := 0, hwPhi := 0, hwId := 0, hwZ0 := 0 })) ∧
          (∀ t, s.2 t = true ↔ ∃ m : Fin NM, m.val < k.val + 1 ∧ MuMatch inp m t) := by
        intro hn
        refine ⟨fun m => ⟨fun hm => ?_, fun hm => (ih1 m).2 (by omega)⟩, fun t => ?_⟩
        · rcases split_lt m hm with rfl | hlt
          · have := (ih1 m).2 (lt_irrefl _)
            rw [this]
            exact ⟨fun t ht => absurd ht (hn t), fun _ => rfl⟩
          · exact (ih1 m).1 hlt
        · rw [ih2 t]
          constructor
          · rintro ⟨m, hm, h⟩; exact ⟨m, by omega, h⟩
          · rintro ⟨m, hm, h⟩
            rcases split_lt m hm with rfl | hlt
            · exact absurd h (hn t)
            · exact ⟨m, hlt, h⟩
      by_cases hp : (inp.mu k).hwPt.toInt > 0
      · rw [if_pos hp]
        cases hb : mu_ref_best (inp.mu k) inp.track with
        | none =>
          exact skip (fun t ht => by rw [← hm k t hp, hb] at ht; cases ht)
        | some ib =>
          have hmm := (hm k ib hp).mp hb
          simp only []
          refine ⟨fun m => ⟨fun hlt => ?_, fun hlt => ?_⟩, fun t => ?_⟩
          · by_cases hmk : m = k
            · subst hmk
              rw [Arr.set_same]
              exact ⟨fun t ht => by rw [huniq m t ib ht hmm]; rfl, fun hn => absurd ⟨ib, hmm⟩ hn⟩
            · rw [Arr.set_ne _ _ hmk]
              rcases split_lt m hlt with h | h
              · exact absurd h hmk
              · exact (ih1 m).1 h
          · have hmk : m ≠ k := by rintro rfl; omega
            rw [Arr.set_ne _ _ hmk]
            exact (ih1 m).2 (by omega)
          · by_cases hti : t = ib
            · subst hti
              rw [Arr.set_same]
              simp only [true_iff]
              exact ⟨k, by omega, hmm⟩
            · rw [Arr.set_ne _ _ hti, ih2 t]
              constructor
              · rintro ⟨m, hm, h⟩; exact ⟨m, by omega, h⟩
              · rintro ⟨m, hm, h⟩
                rcases split_lt m hm with rfl | hlt
                · exact absurd (huniq m t ib h hmm) hti
                · exact ⟨m, hlt, h⟩
      · rw [if_neg hp]
        exact skip (fun t ht => hp ht.1))
  obtain ⟨h1, h2⟩ := h
  refine ⟨fun m => (h1 m).1 m.isLt, fun t => ?_⟩
  refine (h2 t).trans ?_
  exact ⟨fun ⟨m, _, h⟩ => ⟨m, h⟩, fun ⟨m, h⟩ => ⟨m, m.isLt, h⟩⟩

/-! ### EM stage -/

/-- Array accumulation: each cell ends up with the register of its own sum. -/
theorem em_ref_sumtk_eq (track : Arr NT TkObj) (tk2em : Arr NT (Option (Fin NE))) (c : Fin NE) :
    em_ref_sumtk track tk2em c =
      reg 16 (∑ t, if tk2em t = some c then (track t).hwPt.toInt else 0) := by
  have h1 := loop_regsum (w := 16) (fun t => decide (tk2em t = some c)) (fun t => (track t).hwPt.toInt)
  simp only [decide_eq_true_eq] at h1
  rw [← h1]
  unfold em_ref_sumtk
  have gen : ∀ (l : List (Fin NT)) (s : Arr NE Pt),
      (l.foldl (fun s it => match tk2em it with
        | some ic => s.set ic (reg 16 ((s ic).toInt + (track it).hwPt.toInt))
        | none => s) s) c =
      l.foldl (fun (s : Pt) it => if tk2em it = some c then reg 16 (s.toInt + (track it).hwPt.toInt) else s)
        (s c) := by
    intro l
    induction l with
    | nil => intro s; rfl
    | cons t l ih =>
      intro s
      simp only [List.foldl_cons]
      rw [ih]
      congr 1
      cases ht : tk2em t with
      | none => simp
      | some ic =>
        simp only [Option.some.injEq]
        by_cases hc : ic = c
        · subst hc; simp
        · rw [Arr.set_ne _ _ (Ne.symm hc), if_neg hc]
  exact gen (List.finRange NT) (fun _ => 0)

section
variable {inp : PFInputs NT NC NE NM}

/-- Reference track-to-EM choice. -/
def refTk2em (inp : PFInputs NT NC NE NM) (isMu : Arr NT Bool) : Arr NT (Option (Fin NE)) := fun it =>
  if (inp.track it).hwPt.toInt > 0 ∧ isMu it = false then
    best_match_ref_em PFALGO3_DR2MAX_TK_EM inp.emcalo (inp.track it)
  else none

theorem refTk2em_iff {isMu : Arr NT Bool} (hmu : ∀ t, isMu t = true ↔ IsMu inp t) (t : Fin NT)
    (c : Fin NE) :
    refTk2em inp isMu t = some c ↔ 0 < (inp.track t).hwPt.toInt ∧ EmMatch inp t c := by
  unfold refTk2em EmMatch
  have hm : isMu t = false ↔ ¬ IsMu inp t := by rw [← hmu t]; simp
  have hb : best_match_ref_em PFALGO3_DR2MAX_TK_EM inp.emcalo (inp.track t) = some c ↔
      FirstMin (fun c => tkEmDist2 inp t c < 84) (tkEmDist2 inp t) c := by
    unfold best_match_ref_em
    rw [best_match_loop_iff]
    apply firstMin_congr
    · intro j
      rw [dr2_int_eq_dist2]
      simp [PFALGO3_DR2MAX_TK_EM, tkEmDist2]
    · intro j _; rw [dr2_int_eq_dist2]; rfl
  rw [← hb, ← hm]
  by_cases h : (inp.track t).hwPt.toInt > 0 ∧ isMu t = false
  · rw [if_pos h]
    exact ⟨fun hh => ⟨h.1, h.2, hh⟩, fun hh => hh.2.2⟩
  · rw [if_neg h]
    constructor
    · intro h; cases h
    · rintro ⟨h1, h2, _⟩; exact absurd ⟨h1, h2⟩ h

theorem refSum_eq {isMu : Arr NT Bool} (hmu : ∀ t, isMu t = true ↔ IsMu inp t)
    (hpt : ∀ t, 0 ≤ (inp.track t).hwPt.toInt) (c : Fin NE) :
    em_ref_sumtk inp.track (refTk2em inp isMu) c = reg 16 (emTrackPt inp c) := by
  rw [em_ref_sumtk_eq]
  congr 1
  unfold emTrackPt
  refine Finset.sum_congr rfl (fun t _ => ?_)
  have h := refTk2em_iff hmu t c
  by_cases he : EmMatch inp t c
  · rw [if_pos he]
    by_cases hp : 0 < (inp.track t).hwPt.toInt
    · rw [if_pos (h.mpr ⟨hp, he⟩)]
    · rw [if_neg (fun hh => hp (h.mp hh).1)]
      have := hpt t; omega
  · rw [if_neg he, if_neg (fun hh => he (h.mp hh).2)]

theorem ref_emalgo {v : Variant} (hv : Sane inp v) (c : Fin NE) (hE : emTrackPt inp c ≠ 0 → 4 * emErr2 inp c ≤ 2147483647) :
    ∃ r, em_ref_algo (inp.emcalo c) (reg 16 (emTrackPt inp c)) = .ok r ∧
      (r.1 = true ↔ IsEM inp c) ∧ r.2.toInt = photonPt inp c := by
  have h0 := emTrackPt_nonneg inp hv.trackPt c
  have h1 := hv.emSum c
  have hs : (reg 16 (emTrackPt inp c)).toInt = emTrackPt inp c := reg16_toInt (by omega) (by omega)
  unfold em_ref_algo
  rw [hs]
  by_cases hzero : emTrackPt inp c = 0
  · refine ⟨_, if_neg (by omega), ?_, ?_⟩
    · simp [IsEM, hzero]
    · simp [photonPt, hzero]
  · rw [if_pos (by omega)]
    have hpt := pt_range (inp.emcalo c).hwPt
    have hpt0 := hv.emPt c
    have hd : (reg 16 ((inp.emcalo c).hwPt.toInt - emTrackPt inp c)).toInt = emDiff inp c := by
      rw [reg16_toInt (by omega) (by omega)]; rfl
    have herr := hE hzero
    have he : (inp.emcalo c).hwPtErr.toInt * (inp.emcalo c).hwPtErr.toInt = emErr2 inp c := by
      unfold emErr2; ring
    have he0 : 0 ≤ emErr2 inp c := by rw [← he]; exact mul_self_nonneg _
    simp only [he, hd]
    rw [cint_ok (by omega) (by omega)]
    have hshr : shr (emErr2 inp c) 1 = emErr2 inp c / 2 := rfl
    rw [hshr]
    simp only [Run.ok_bind]
    rw [cint_ok (by omega) (by omega)]
    simp only [Run.ok_bind]
    refine ⟨_, rfl, ?_⟩
    have hsq : emDiff inp c ^ 2 = emDiff inp c * emDiff inp c := by ring
    unfold IsEM photonPt
    simp only [hzero, if_false, false_or, hsq]
    by_cases hc : (emDiff inp c > 0 ∧ emDiff inp c * emDiff inp c ≤ emErr2 inp c + emErr2 inp c / 2) ∨
        (emDiff inp c < 0 ∧ emDiff inp c * emDiff inp c < 4 * emErr2 inp c)
    · rw [if_pos hc]
      refine ⟨?_, ?_⟩
      · simp only [true_iff]
        rcases hc with hc | hc
        · exact Or.inl hc.1
        · exact Or.inr ⟨hc.1, by omega⟩
      · rw [if_neg]
        · rfl
        · omega
    · rw [if_neg hc]
      by_cases hp : emDiff inp c > 0
      · rw [if_pos hp]
        refine ⟨by simp only [true_iff]; exact Or.inl hp, ?_⟩
        rw [if_pos (by omega)]
        exact hd
      · rw [if_neg hp]
        refine ⟨?_, ?_⟩
        · simp only [Bool.false_eq_true, false_iff]
          omega
        · rw [if_neg (by omega)]; rfl

theorem ref_em2calo_iff (e : Fin NE) (h : Fin NC) :
    best_match_ref_had PFALGO3_DR2MAX_EM_CALO inp.hadcalo (inp.emcalo e) = some h ↔
      HadMatch inp e h := by
  unfold best_match_ref_had HadMatch
  simp only []
  rw [best_match_loop_iff]
  have hhalf : (reg 16 (shr (inp.emcalo e).hwPt.toInt 1)).toInt = (inp.emcalo e).hwPt.toInt / 2 := by
    have := pt_range (inp.emcalo e).hwPt
    have : shr (inp.emcalo e).hwPt.toInt 1 = (inp.emcalo e).hwPt.toInt / 2 := rfl
    rw [this, reg16_toInt (by omega) (by omega)]
  apply firstMin_congr
  · intro j
    rw [dr2_int_eq_dist2, hhalf]
    simp [PFALGO3_DR2MAX_EM_CALO, emHadDist2]
  · intro j _; rw [dr2_int_eq_dist2]; rfl

theorem ref_subkeep {isEM : Arr NE Bool} (hem : ∀ c, isEM c = true ↔ IsEM inp c)
    {em2calo : Arr NE (Option (Fin NC))} (hl : ∀ e h, em2calo e = some h ↔ HadMatch inp e h)
    (h : Fin NC) :
    (em_ref_subkeep inp.emcalo isEM em2calo h).1 = reg 16 (emSub inp h) ∧
    ((em_ref_subkeep inp.emcalo isEM em2calo h).2 = true ↔ HasHadronicEM inp h) := by
  unfold em_ref_subkeep
  have h1 := loop_regsum (w := 16) (fun e => decide (em2calo e = some h) && isEM e)
    (fun e => (inp.emcalo e).hwPt.toInt)
  have h2 : (∑ i, if (decide (em2calo i = some h) && isEM i) = true
      then (inp.emcalo i).hwPt.toInt else 0) = emSub inp h := by
    unfold emSub
    refine Finset.sum_congr rfl (fun e _ => ?_)
    have : (decide (em2calo e = some h) && isEM e) = true ↔ HadMatch inp e h ∧ IsEM inp e := by
      rw [Bool.and_eq_true, hem e, decide_eq_true_eq, hl]
    by_cases hc : HadMatch inp e h ∧ IsEM inp e
    · rw [if_pos hc, if_pos (this.mpr hc)]
    · rw [if_neg hc, if_neg (fun h => hc (this.mp h))]
  rw [h2] at h1
  rw [← h1]
  have pair : ∀ {α β : Type} (n : Nat) (f : Fin n → α → α) (g : Fin n → β → β) (a : α) (b : β),
      loop (fun i (s : α × β) => (f i s.1, g i s.2)) (a, b) = (loop f a, loop g b) := by
    intro α β n f g a b
    induction n with
    | zero => simp [loop_zero]
    | succ n ih => rw [loop_succ, loop_succ, loop_succ, ih]
  have h3 : (fun ic (s : Pt × Bool) =>
      if em2calo ic = some h then
        if isEM ic then (reg 16 (s.1.toInt + (inp.emcalo ic).hwPt.toInt), s.2)
        else (s.1, true)
      else s) = (fun ic (s : Pt × Bool) =>
        ((if decide (em2calo ic = some h) && isEM ic then
            reg 16 (s.1.toInt + (inp.emcalo ic).hwPt.toInt) else s.1),
         (s.2 || (decide (em2calo ic = some h) && !isEM ic)))) := by
    funext ic s
    by_cases ha : em2calo ic = some h
    · cases hb : isEM ic <;> simp [ha]
    · simp [ha]
  rw [h3]
  rw [pair NE (fun ic (s : Pt) => if decide (em2calo ic = some h) && isEM ic then
            reg 16 (s.toInt + (inp.emcalo ic).hwPt.toInt) else s)
      (fun ic (s : Bool) => s || (decide (em2calo ic = some h) && !isEM ic))]
  refine ⟨rfl, ?_⟩
  have h4 := loop_induct (n := NE) (fun k (s : Bool) => s = true ↔
      ∃ e : Fin NE, e.val < k ∧ HadMatch inp e h ∧ ¬ IsEM inp e)
    (fun ic (s : Bool) => s || (decide (em2calo ic = some h) && !isEM ic)) false
    (by simp)
    (by
      intro k s ih
      rw [Bool.or_eq_true, ih, Bool.and_eq_true, decide_eq_true_eq, hl, Bool.not_eq_true',
        ← Bool.not_eq_true, hem]
      constructor
      · rintro (⟨e, he, h⟩ | h)
        · exact ⟨e, by omega, h⟩
        · exact ⟨k, by omega, h⟩
      · rintro ⟨e, he, h⟩
        rcases Nat.lt_or_ge e.val k.val with hh | hh
        · exact Or.inl ⟨e, hh, h⟩
        · have : e = k := Fin.ext (by omega)
          subst this
          exact Or.inr h)
  show (loop (fun ic (s : Bool) => s || (decide (em2calo ic = some h) && !isEM ic)) false) = true ↔ _
  rw [h4]
  exact ⟨fun ⟨e, _, h⟩ => ⟨e, h⟩, fun ⟨e, h⟩ => ⟨e, e.isLt, h⟩⟩

theorem ref_hadsub {v : Variant} (hv : Sane inp v) (hprot : v.protect = true) {keep : Bool} (h : Fin NC)
    (hk : keep = true ↔ HasHadronicEM inp h) :
    (em_ref_hadsub (inp.hadcalo h) (reg 16 (emSub inp h)) keep).hwPt.toInt = hadPt inp v h ∧
    (em_ref_hadsub (inp.hadcalo h) (reg 16 (emSub inp h)) keep).hwEta = (inp.hadcalo h).hwEta ∧
    (em_ref_hadsub (inp.hadcalo h) (reg 16 (emSub inp h)) keep).hwPhi = (inp.hadcalo h).hwPhi := by
  have h0 := emSub_nonneg hv.emPt h
  have h1 := hv.subSum h
  have hp0 := hv.hadPt h
  have he0 := hv.hadEmPt h
  have hp := pt_range (inp.hadcalo h).hwPt
  have he := pt_range (inp.hadcalo h).hwEmPt
  have hs : (reg 16 (emSub inp h)).toInt = emSub inp h := reg16_toInt (by omega) (by omega)
  have hd : (reg 16 ((inp.hadcalo h).hwPt.toInt - emSub inp h)).toInt =
      (inp.hadcalo h).hwPt.toInt - emSub inp h := reg16_toInt (by omega) (by omega)
  have hde : (reg 16 ((inp.hadcalo h).hwEmPt.toInt - emSub inp h)).toInt =
      (inp.hadcalo h).hwEmPt.toInt - emSub inp h := reg16_toInt (by omega) (by omega)
  have s4 : shr (inp.hadcalo h).hwPt.toInt 4 = (inp.hadcalo h).hwPt.toInt / 16 := rfl
  have s3 : shr (inp.hadcalo h).hwEmPt.toInt 3 = (inp.hadcalo h).hwEmPt.toInt / 8 := rfl
  have hkf : keep = false ↔ ¬ HasHadronicEM inp h := by rw [← hk]; simp
  unfold em_ref_hadsub
  simp only [hs, hd, hde, s4, s3]
  by_cases c1 : (inp.hadcalo h).hwPt.toInt - emSub inp h ≤ (inp.hadcalo h).hwPt.toInt / 16
  · simp only [if_pos c1]
    have hr : Removed inp v h := Or.inl (by omega)
    unfold hadPt
    rw [if_pos hr]
    exact ⟨rfl, trivial, trivial⟩
  · simp only [if_neg c1]
    by_cases c2 : ((inp.hadcalo h).hwIsEM = true ∧
        (inp.hadcalo h).hwEmPt.toInt - emSub inp h ≤ (inp.hadcalo h).hwEmPt.toInt / 8) ∧ keep = false
    · simp only [if_pos c2]
      have hr : Removed inp v h := Or.inr ⟨c2.1.1, by omega, fun hh => hkf.mp c2.2 hh.2⟩
      unfold hadPt
      rw [if_pos hr]
      exact ⟨rfl, trivial, trivial⟩
    · simp only [if_neg c2]
      have hr : ¬ Removed inp v h := by
        rintro (hr | ⟨r1, r2, r3⟩)
        · omega
        · refine c2 ⟨⟨r1, by omega⟩, hkf.mpr (fun hh => r3 ⟨hprot, hh⟩)⟩
      unfold hadPt
      rw [if_neg hr]
      exact ⟨hd, trivial, trivial⟩

/-- The EM stage of the reference. -/
theorem ref_em_stage {v : Variant} (hv : Sane inp v) (hE : ∀ c, emTrackPt inp c ≠ 0 → 4 * emErr2 inp c ≤ 2147483647) (hprot : v.protect = true) {isMu : Arr NT Bool}
    (hmu : ∀ t, isMu t = true ↔ IsMu inp t) (oldpho : Arr NE PFNeutralObj) :
    ∃ em, pfalgo3_em_ref inp.emcalo inp.hadcalo inp.track isMu oldpho = .ok em ∧
      (∀ t, em.isEle t = true ↔ 0 < (inp.track t).hwPt.toInt ∧ IsEle inp t) ∧
      (∀ c, NeutralOut (photonPt inp c) (inp.emcalo c).hwEta (inp.emcalo c).hwPhi 2 (em.outpho c)) ∧
      (∀ h, (em.hadcalo_out h).hwPt.toInt = hadPt inp v h ∧
        (em.hadcalo_out h).hwEta = (inp.hadcalo h).hwEta ∧
        (em.hadcalo_out h).hwPhi = (inp.hadcalo h).hwPhi) := by
  let g : Fin NE → Bool × Pt := fun c => Classical.choose (ref_emalgo hv c (hE c))
  have hg := fun c => Classical.choose_spec (ref_emalgo hv c (hE c))
  have hem : buildM (fun ic => em_ref_algo (inp.emcalo ic)
      (em_ref_sumtk inp.track (refTk2em inp isMu) ic)) = .ok g := by
    refine buildM_ok _ (fun c => ?_)
    rw [refSum_eq hmu hv.trackPt c]
    exact (hg c).1
  have hIsEM : ∀ c, (g c).1 = true ↔ IsEM inp c := fun c => (hg c).2.1
  have hpho : ∀ c, (g c).2.toInt = photonPt inp c := fun c => (hg c).2.2
  unfold pfalgo3_em_ref
  simp only []
  have hrefl : (fun it => if (inp.track it).hwPt.toInt > 0 ∧ isMu it = false then
      best_match_ref_em PFALGO3_DR2MAX_TK_EM inp.emcalo (inp.track it) else none) =
      refTk2em inp isMu := rfl
  rw [hrefl, hem]
  simp only [Run.ok_bind]
  refine ⟨_, rfl, ?_, ?_, ?_⟩
  · intro t
    have h := refTk2em_iff hmu t
    show (match refTk2em inp isMu t with
      | some ic => (g ic).1
      | none => false) = true ↔ _
    constructor
    · intro he
      cases hc : refTk2em inp isMu t with
      | none => rw [hc] at he; cases he
      | some c =>
        rw [hc] at he
        have := (h c).mp hc
        exact ⟨this.1, c, this.2, (hIsEM c).mp he⟩
    · rintro ⟨hp, c, hm, hI⟩
      rw [(h c).mpr ⟨hp, hm⟩]
      exact (hIsEM c).mpr hI
  · intro c
    refine ⟨hpho c, ?_, ?_⟩
    · intro hne
      have hz : (g c).2 ≠ 0 := by intro hc; apply hne; rw [← hpho c, hc]; rfl
      simp only [if_pos hz]
      exact ⟨trivial, trivial, rfl⟩
    · intro hz
      have hz : (g c).2 = 0 := by apply BitVec.eq_of_toInt_eq; rw [hpho c, hz]; rfl
      simp [hz]
  · intro h
    simp only []
    have hsk := ref_subkeep hIsEM (em2calo := fun ic =>
      best_match_ref_had PFALGO3_DR2MAX_EM_CALO inp.hadcalo (inp.emcalo ic))
      (fun e h => ref_em2calo_iff e h) h
    rw [hsk.1]
    exact ref_hadsub hv hprot h hsk.2

/-! ### Calorimeter stage -/

theorem ref_calo_link {v : Variant} (hv : Sane inp v) (hscale : v.scale = refScale)
    {calo : Arr NC HadCaloObj}
    (hc : ∀ h, (calo h).hwPt.toInt = hadPt inp v h ∧
        (calo h).hwEta = (inp.hadcalo h).hwEta ∧ (calo h).hwPhi = (inp.hadcalo h).hwPhi)
    (t : Fin NT) :
    ∃ r, best_match_with_pt_ref PFALGO3_DR2MAX_TK_CALO calo (inp.track t) = .ok r ∧
      ∀ h, r = some h ↔ CaloMatch inp v t h := by
  obtain ⟨r, hr, hspec⟩ := best_match_with_pt_ref_iff calo (inp.track t) (hv.trackPt t)
    (hv.trackErr t) (hv.window t)
  refine ⟨r, hr, fun h => ?_⟩
  rw [hspec h]
  unfold CaloMatch
  apply firstMin_congr
  · intro j
    rw [(hc j).1, (hc j).2.1, (hc j).2.2]
    exact Iff.rfl
  · intro j _
    rw [(hc j).1, (hc j).2.1, (hc j).2.2]
    unfold metric
    rw [hscale]
    rfl

/-- Sum over the tracks before position `k`. -/
noncomputable def prefixSum (k : Nat) (f : Fin NT → Int) : Int := ∑ t : Fin NT, if t.val < k then f t else 0

theorem prefixSum_succ (k : Fin NT) (f : Fin NT → Int) :
    prefixSum (k.val + 1) f = prefixSum k.val f + f k := by
  unfold prefixSum
  have h : ∀ t : Fin NT, (if t.val < k.val + 1 then f t else 0) =
      (if t.val < k.val then f t else 0) + (if t = k then f t else 0) := by
    intro t
    by_cases h1 : t.val < k.val
    · rw [if_pos (by omega), if_pos h1, if_neg (by intro e; rw [e] at h1; omega)]; omega
    · by_cases h2 : t = k
      · rw [if_pos (by rw [h2]; omega), if_neg h1, if_pos h2]; omega
      · rw [if_neg (by have : t.val ≠ k.val := fun e => h2 (Fin.ext e); omega), if_neg h1, if_neg h2]
        omega
  rw [Finset.sum_congr rfl (fun t _ => h t), Finset.sum_add_distrib]
  congr 1
  simp

theorem prefixSum_full (f : Fin NT → Int) : prefixSum NT f = ∑ t, f t := by
  unfold prefixSum
  exact Finset.sum_congr rfl (fun t _ => if_pos t.isLt)

theorem prefixSum_le (k : Nat) (f : Fin NT → Int) (hf : ∀ t, 0 ≤ f t) :
    0 ≤ prefixSum k f ∧ prefixSum k f ≤ ∑ t, f t :=
  ⟨sum_ite_nonneg _ _ hf, sum_ite_le _ _ hf⟩

theorem ref_tkhad {v : Variant} (hv : Sane inp v) (hE : ∀ h, caloTrackErr2 inp v h ≤ 2147483647) (hscale : v.scale = refScale)
    (hempty : ∀ t, (inp.track t).hwPt.toInt = 0 → (inp.track t).hwPtErr.toInt = 0)
    {calo : Arr NC HadCaloObj}
    (hc : ∀ h, (calo h).hwPt.toInt = hadPt inp v h ∧
        (calo h).hwEta = (inp.hadcalo h).hwEta ∧ (calo h).hwPhi = (inp.hadcalo h).hwPhi)
    {isEle isMu : Arr NT Bool}
    (hele : ∀ t, isEle t = true ↔ 0 < (inp.track t).hwPt.toInt ∧ IsEle inp t)
    (hmu : ∀ t, isMu t = true ↔ IsMu inp t) (good0 : Arr NT Bool) :
    ∃ s, tkhad_ref calo inp.track isEle isMu good0 = .ok s ∧
      (∀ t, s.track_good t = true ↔ good0 t = true ∨
        (0 < (inp.track t).hwPt.toInt ∧ ∃ h, HadronLink inp v t h)) ∧
      (∀ h, (s.calo_sumtk h).toInt = caloTrackPt inp v h ∧
        s.calo_sumtkErr2 h = caloTrackErr2 inp v h) := by
  let fp : Fin NC → Fin NT → Int := fun h t => if HadronLink inp v t h then (inp.track t).hwPt.toInt else 0
  let fe : Fin NC → Fin NT → Int := fun h t => if HadronLink inp v t h then (inp.track t).hwPtErr.toInt ^ 2 else 0
  have fe0 : ∀ h t, 0 ≤ fe h t := by
    intro h t; simp only [fe]; split
    · exact sq_nonneg _
    · exact le_refl _
  have huniq : ∀ t h h', HadronLink inp v t h → HadronLink inp v t h' → h = h' :=
    fun t h h' a b => firstMin_unique a.1 b.1
  obtain ⟨s, hs, hinv⟩ := loopM_induct (n := NT) (fun k (s : TkHadState NT NC) =>
      (∀ t, s.track_good t = true ↔ good0 t = true ∨
        (t.val < k ∧ 0 < (inp.track t).hwPt.toInt ∧ ∃ h, HadronLink inp v t h)) ∧
      (∀ h, s.calo_sumtk h = reg 16 (prefixSum k (fp h)) ∧ s.calo_sumtkErr2 h = prefixSum k (fe h)))
    (fun it (s : TkHadState NT NC) =>
      if (inp.track it).hwPt.toInt > 0 ∧ isEle it = false ∧ isMu it = false then do
        let ibest ← best_match_with_pt_ref PFALGO3_DR2MAX_TK_CALO calo (inp.track it)
        match ibest with
        | some ic => do
          let err2 ← cint (s.calo_sumtkErr2 ic +
            (inp.track it).hwPtErr.toInt * (inp.track it).hwPtErr.toInt)
          .ok { track_good := s.track_good.set it true,
                calo_sumtk := s.calo_sumtk.set ic
                  (reg 16 ((s.calo_sumtk ic).toInt + (inp.track it).hwPt.toInt)),
                calo_sumtkErr2 := s.calo_sumtkErr2.set ic err2 }
        | none => .ok s
      else .ok s)
    { track_good := good0, calo_sumtk := fun _ => 0, calo_sumtkErr2 := fun _ => 0 }
    (by
      refine ⟨fun t => by simp, fun h => ⟨?_, ?_⟩⟩
      · simp only [prefixSum, Nat.not_lt_zero, if_false, Finset.sum_const_zero]; rfl
      · simp only [prefixSum, Nat.not_lt_zero, if_false, Finset.sum_const_zero])
    (by
      intro k s ih
      obtain ⟨ih1, ih2⟩ := ih
      -- nothing changes when the track contributes nothing
      have keep : (∀ h, fp h k = 0 ∧ fe h k = 0) →
          ¬ (0 < (inp.track k).hwPt.toInt ∧ ∃ h, HadronLink inp v k h) →
          (∀ t, s.track_good t = true ↔ good0 t = true ∨
            (t.val < k.val + 1 ∧ 0 < (inp.track t).hwPt.toInt ∧ ∃ h, HadronLink inp v t h)) ∧
          (∀ h, s.calo_sumtk h = reg 16 (prefixSum (k.val + 1) (fp h)) ∧
            s.calo_sumtkErr2 h = prefixSum (k.val + 1) (fe h)) := by
        intro hz hn
        refine ⟨fun t => ?_, fun h => ?_⟩
        · rw [ih1 t]
          refine or_congr Iff.rfl ⟨fun hh => ⟨by omega, hh.2⟩, fun hh => ⟨?_, hh.2⟩⟩
          have : t.val ≠ k.val := by
            intro e
            have e' : t = k := Fin.ext e
            subst e'
            exact hn hh.2
          omega
        · rw [prefixSum_succ, prefixSum_succ, (hz h).1, (hz h).2, Int.add_zero, Int.add_zero]
          exact ih2 h
      by_cases hcond : (inp.track k).hwPt.toInt > 0 ∧ isEle k = false ∧ isMu k = false
      · rw [if_pos hcond]
        have hnotEle : ¬ IsEle inp k := by
          intro h
          have := (hele k).mpr ⟨hcond.1, h⟩
          rw [hcond.2.1] at this; cases this
        have hnotMu : ¬ IsMu inp k := by
          intro h
          have := (hmu k).mpr h
          rw [hcond.2.2] at this; cases this
        obtain ⟨r, hr, hspec⟩ := ref_calo_link hv hscale hc k
        rw [hr]
        simp only [Run.ok_bind]
        have hHL : ∀ h, HadronLink inp v k h ↔ r = some h := by
          intro h
          rw [hspec h]
          unfold HadronLink
          exact ⟨fun hh => hh.1, fun hh => ⟨hh, hnotEle, hnotMu⟩⟩
        cases r with
        | none =>
          refine ⟨s, rfl, keep (fun h => ?_) ?_⟩
          · have : ¬ HadronLink inp v k h := by rw [hHL h]; simp
            simp only [fp, fe, if_neg this, and_self]
          · rintro ⟨_, h, hh⟩
            rw [hHL h] at hh; cases hh
        | some ic =>
          have hlk : HadronLink inp v k ic := (hHL ic).mpr rfl
          have hfe : fe ic k = (inp.track k).hwPtErr.toInt * (inp.track k).hwPtErr.toInt := by
            simp only [fe, if_pos hlk]; ring
          have hfp : fp ic k = (inp.track k).hwPt.toInt := by simp only [fp, if_pos hlk]
          have hp1 := prefixSum_le (NT := NT) (k.val + 1) (fe ic) (fe0 ic)
          have hb : (∑ t, fe ic t) ≤ 2147483647 := hE ic
          simp only []
          rw [(ih2 ic).2, ← hfe, ← prefixSum_succ, cint_ok (by omega) (by omega)]
          simp only [Run.ok_bind]
          refine ⟨_, rfl, fun t => ?_, fun h => ?_⟩
          · by_cases htk : t = k
            · subst htk
              simp only [Arr.set_same, true_iff]
              exact Or.inr ⟨by omega, hcond.1, ic, hlk⟩
            · simp only [Arr.set_ne _ _ htk]
              rw [ih1 t]
              have : t.val ≠ k.val := fun e => htk (Fin.ext e)
              exact or_congr Iff.rfl ⟨fun hh => ⟨by omega, hh.2⟩, fun hh => ⟨by omega, hh.2⟩⟩
          · by_cases hh : h = ic
            · subst hh
              simp only [Arr.set_same]
              refine ⟨?_, trivial⟩
              rw [(ih2 h).1, reg_add_reg, prefixSum_succ, hfp]
            · simp only [Arr.set_ne _ _ hh]
              have hn : ¬ HadronLink inp v k h := fun hl => hh (huniq k h ic hl hlk)
              have e1 : fp h k = 0 := by simp only [fp, if_neg hn]
              have e2 : fe h k = 0 := by simp only [fe, if_neg hn]
              rw [prefixSum_succ, prefixSum_succ, e1, e2, Int.add_zero, Int.add_zero]
              exact ih2 h
      · rw [if_neg hcond]
        refine ⟨s, rfl, ?_⟩
        have h0 := hv.trackPt k
        by_cases hp : (inp.track k).hwPt.toInt > 0
        · have hno : ∀ h, ¬ HadronLink inp v k h := by
            intro h hl
            apply hcond
            refine ⟨hp, ?_, ?_⟩
            · by_contra hh
              exact hl.2.1 ((hele k).mp (by simpa using hh)).2
            · by_contra hh
              exact hl.2.2 ((hmu k).mp (by simpa using hh))
          refine keep (fun h => ?_) (fun hh => ?_)
          · simp only [fp, fe, if_neg (hno h), and_self]
          · obtain ⟨_, h, hl⟩ := hh; exact hno h hl
        · have hz : (inp.track k).hwPt.toInt = 0 := by omega
          have hz2 := hempty k hz
          refine keep (fun h => ?_) (fun hh => by omega)
          simp only [fp, fe, hz, hz2]
          simp)
  obtain ⟨h1, h2⟩ := hinv
  refine ⟨s, hs, fun t => ?_, fun h => ⟨?_, ?_⟩⟩
  · rw [h1 t]
    exact or_congr Iff.rfl ⟨fun hh => hh.2, fun hh => ⟨t.isLt, hh⟩⟩
  · rw [(h2 h).1, prefixSum_full]
    have a0 := caloTrackPt_nonneg hv h
    have a1 := hv.hadSum h
    exact reg16_toInt (by show -32768 ≤ caloTrackPt inp v h; omega)
      (by show caloTrackPt inp v h < 32768; omega)
  · rw [(h2 h).2, prefixSum_full]; rfl

theorem ref_subpt {v : Variant} (hv : Sane inp v) {calo : HadCaloObj} {sum : Pt} {err : Int} (h : Fin NC)
    (hpt : calo.hwPt.toInt = hadPt inp v h) (s1 : sum.toInt = caloTrackPt inp v h)
    (s2 : err = caloTrackErr2 inp v h) (hE : caloTrackPt inp v h ≠ 0 → 3 * caloTrackErr2 inp v h ≤ 4294967295) :
    ∃ p, calo_subpt_ref calo sum err = .ok p ∧ p.toInt = neutralPt inp v h := by
  have h0 := caloTrackPt_nonneg hv h
  have h1 := hv.hadSum h
  have e0 := caloTrackErr2_nonneg (inp := inp) (v := v) h
  have hr := hadPt_range hv h
  have hpr := pt_range (inp.hadcalo h).hwPt
  unfold calo_subpt_ref
  rw [s1, s2]
  by_cases hz : caloTrackPt inp v h = 0
  · refine ⟨_, if_neg (by omega), ?_⟩
    rw [hpt]; unfold neutralPt; rw [if_pos hz]
  · have e1 := hE hz
    rw [if_pos (by omega)]
    have hd : (reg 16 (calo.hwPt.toInt - caloTrackPt inp v h)).toInt = caloDiff inp v h := by
      rw [hpt, reg16_toInt (by omega) (by omega)]; rfl
    simp only [hd]
    have hshr : shr (caloTrackErr2 inp v h) 1 = caloTrackErr2 inp v h / 2 := rfl
    rw [hshr, cint_ok (by omega) (by omega)]
    simp only [Run.ok_bind]
    refine ⟨_, rfl, ?_⟩
    unfold neutralPt
    rw [if_neg hz]
    by_cases hq : 0 < caloDiff inp v h ∧ 3 * caloTrackErr2 inp v h < 2 * caloDiff inp v h ^ 2
    · rw [if_pos hq, if_pos ⟨hq.1, (sq_gt_iff _ _).mpr hq.2⟩, hd]
    · rw [if_neg hq, if_neg (fun hh => hq ⟨hh.1, (sq_gt_iff _ _).mp hh.2⟩)]; rfl

end

theorem neutralPt_nonneg {inp : PFInputs NT NC NE NM} {v : Variant} (hv : Sane inp v) (h : Fin NC) :
    0 ≤ neutralPt inp v h := by
  have hr := hadPt_range hv h
  unfold neutralPt
  split
  · exact hr.1
  · split
    · rename_i hh; omega
    · exact le_refl _

/-- The reference on sane inputs whose squared errors fit: no fault, and every output is what the specification says. -/
theorem ref_meets_spec_of (inp : PFInputs NT NC NE NM) (old : PFOutputs NT NE NS NM)
    (mem : Arr NC PFNeutralObj) (hv : Sane inp refVariant) (hE1 : ∀ c, emTrackPt inp c ≠ 0 → 4 * emErr2 inp c ≤ 2147483647)
    (hE2 : ∀ h, caloTrackErr2 inp refVariant h ≤ 2147483647)
    (hE3 : ∀ h, caloTrackPt inp refVariant h ≠ 0 → 3 * caloTrackErr2 inp refVariant h ≤ 4294967295)
    (hempty : ∀ t, (inp.track t).hwPt.toInt = 0 → (inp.track t).hwPtErr.toInt = 0) :
    ∃ out ne, pfalgo3_full_ref inp old mem = .ok out ∧
      (∀ t, 0 < (inp.track t).hwPt.toInt → out.outch t = chargedOut inp refVariant t) ∧
      (∀ t, (inp.track t).hwPt.toInt = 0 → (out.outch t).hwPt = 0) ∧
      (∀ c, NeutralOut (photonPt inp c) (inp.emcalo c).hwEta (inp.emcalo c).hwPhi 2 (out.outpho c)) ∧
      (∀ m, MuOut inp m (out.outmu m)) ∧
      (∀ h, NeutralOut (neutralPt inp refVariant h) (inp.hadcalo h).hwEta (inp.hadcalo h).hwPhi 1 (ne h)) ∧
      out.outne = ptsort_ref (fun i => { old.outne i with hwPt := 0, hwEta := 0, hwPhi := 0, hwId := 0 }) ne := by
  obtain ⟨hmuout, hmu⟩ := mu_ref_spec inp
  obtain ⟨em, hem, hele, hpho, hcalo⟩ := ref_em_stage hv hE1 rfl hmu old.outpho
  have c40 : (reg 16 PFALGO3_TK_MAXINVPT_LOOSE : Pt).toInt = 40 := by decide
  have c80 : (reg 16 PFALGO3_TK_MAXINVPT_TIGHT : Pt).toInt = 80 := by decide
  have elim : ∀ t, ((if (inp.track t).hwTightQuality then (reg 16 PFALGO3_TK_MAXINVPT_TIGHT : Pt)
        else reg 16 PFALGO3_TK_MAXINVPT_LOOSE).toInt) =
        if (inp.track t).hwTightQuality then 80 else 40 := by
    intro t
    split
    · exact c80
    · exact c40
  let good0 : Arr NT Bool := fun it =>
    decide ((inp.track it).hwPt.toInt <
      (if (inp.track it).hwTightQuality then (reg 16 PFALGO3_TK_MAXINVPT_TIGHT : Pt)
        else reg 16 PFALGO3_TK_MAXINVPT_LOOSE).toInt) || em.isEle it || (mu_ref inp.mu inp.track).2 it
  obtain ⟨s, hs, hgood, hsum⟩ := ref_tkhad hv hE2 rfl hempty hcalo hele hmu good0
  let sp : Fin NC → Pt := fun h =>
    Classical.choose (ref_subpt hv h (hcalo h).1 (hsum h).1 (hsum h).2 (hE3 h))
  have hsp : ∀ h, calo_subpt_ref (em.hadcalo_out h) (s.calo_sumtk h) (s.calo_sumtkErr2 h) = .ok (sp h) ∧
      (sp h).toInt = neutralPt inp refVariant h := fun h =>
    Classical.choose_spec (ref_subpt hv h (hcalo h).1 (hsum h).1 (hsum h).2 (hE3 h))
  have hb : buildM (fun ic => calo_subpt_ref (em.hadcalo_out ic) (s.calo_sumtk ic) (s.calo_sumtkErr2 ic))
      = .ok sp := buildM_ok _ (fun h => (hsp h).1)
  unfold pfalgo3_full_ref
  simp only []
  rw [hem]
  simp only [Run.ok_bind]
  have hs' : tkhad_ref em.hadcalo_out inp.track em.isEle (mu_ref inp.mu inp.track).2 (fun it =>
    decide ((inp.track it).hwPt.toInt <
      (if (inp.track it).hwTightQuality then (reg 16 PFALGO3_TK_MAXINVPT_TIGHT : Pt)
        else reg 16 PFALGO3_TK_MAXINVPT_LOOSE).toInt) || em.isEle it || (mu_ref inp.mu inp.track).2 it)
      = .ok s := hs
  rw [hs']
  simp only [Run.ok_bind]
  rw [hb]
  simp only [Run.ok_bind]
  refine ⟨_, _, rfl, ?_, ?_, hpho, hmuout, ?_, rfl⟩
  · intro t hp
    simp only []
    have hk : s.track_good t = true ↔ Kept inp refVariant t := by
      rw [hgood t]
      have hg0 : good0 t = true ↔ lowPt inp t ∨ IsEle inp t ∨ IsMu inp t := by
        show (decide _ || em.isEle t || (mu_ref inp.mu inp.track).2 t) = true ↔ _
        rw [Bool.or_eq_true, Bool.or_eq_true, decide_eq_true_eq, hele t, hmu t, elim t, or_assoc]
        unfold lowPt
        simp only [hp, true_and]
      rw [hg0]
      unfold Kept HadronLink
      constructor
      · rintro ((h | h | h) | ⟨_, h, hh⟩)
        · exact Or.inr (Or.inr (Or.inl h))
        · exact Or.inr (Or.inl h)
        · exact Or.inl h
        · exact Or.inr (Or.inr (Or.inr ⟨h, hh.1⟩))
      · rintro (h | h | h | ⟨h, hh⟩)
        · exact Or.inl (Or.inr (Or.inr h))
        · exact Or.inl (Or.inr (Or.inl h))
        · exact Or.inl (Or.inl h)
        · by_cases h1 : IsEle inp t
          · exact Or.inl (Or.inr (Or.inl h1))
          · by_cases h2 : IsMu inp t
            · exact Or.inl (Or.inr (Or.inr h2))
            · exact Or.inr ⟨hp, h, hh, h1, h2⟩
    unfold chargedOut
    by_cases hkk : Kept inp refVariant t
    · rw [if_pos hkk, if_pos (hk.mpr hkk)]
      have e : (if em.isEle t then PID_Electron else if (mu_ref inp.mu inp.track).2 t then PID_Muon
          else PID_Charged) =
          (if IsEle inp t then (3 : ParticleId) else if IsMu inp t then 4 else 0) := by
        by_cases h1 : IsEle inp t
        · rw [if_pos h1, if_pos ((hele t).mpr ⟨hp, h1⟩)]; rfl
        · rw [if_neg h1, if_neg (fun h => h1 ((hele t).mp h).2)]
          by_cases h2 : IsMu inp t
          · rw [if_pos h2, if_pos ((hmu t).mpr h2)]; rfl
          · rw [if_neg h2, if_neg (fun h => h2 ((hmu t).mp h))]; rfl
      rw [e]
    · rw [if_neg hkk, if_neg (fun h => hkk (hk.mp h))]
  · intro t hz
    simp only []
    split
    · apply BitVec.eq_of_toInt_eq; rw [hz]; rfl
    · rfl
  · intro h
    have h1 := (hsp h).2
    have h2 := neutralPt_nonneg hv h
    by_cases hp : (sp h).toInt > 0
    · rw [if_pos hp]
      refine ⟨h1, fun _ => ⟨(hcalo h).2.1, (hcalo h).2.2, rfl⟩, fun hz => by omega⟩
    · rw [if_neg hp]
      have hz : neutralPt inp refVariant h = 0 := by omega
      refine ⟨by rw [hz]; rfl, fun hn => absurd hz hn, fun _ => ⟨rfl, rfl, rfl⟩⟩

/-- The reference on valid inputs. -/
theorem ref_meets_spec (inp : PFInputs NT NC NE NM) (old : PFOutputs NT NE NS NM)
    (mem : Arr NC PFNeutralObj) (hv : Valid inp refVariant)
    (hempty : ∀ t, (inp.track t).hwPt.toInt = 0 → (inp.track t).hwPtErr.toInt = 0) :
    ∃ out ne, pfalgo3_full_ref inp old mem = .ok out ∧
      (∀ t, 0 < (inp.track t).hwPt.toInt → out.outch t = chargedOut inp refVariant t) ∧
      (∀ t, (inp.track t).hwPt.toInt = 0 → (out.outch t).hwPt = 0) ∧
      (∀ c, NeutralOut (photonPt inp c) (inp.emcalo c).hwEta (inp.emcalo c).hwPhi 2 (out.outpho c)) ∧
      (∀ m, MuOut inp m (out.outmu m)) ∧
      (∀ h, NeutralOut (neutralPt inp refVariant h) (inp.hadcalo h).hwEta (inp.hadcalo h).hwPhi 1 (ne h)) ∧
      out.outne = ptsort_ref (fun i => { old.outne i with hwPt := 0, hwEta := 0, hwPhi := 0, hwId := 0 }) ne :=
  ref_meets_spec_of inp old mem hv.toSane hv.emErr
    (fun h => by have := hv.hadErr h; have := caloTrackErr2_nonneg (inp := inp) (v := refVariant) h; omega)
    (fun h _ => by have := hv.hadErr h; omega) hempty

end Verif
