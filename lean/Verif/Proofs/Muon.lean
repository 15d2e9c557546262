import Verif.Proofs.Links
namespace Verif
open Spec

variable {NT NM : Nat}

theorem firstMin_iff_loop {n : Nat} (i : Fin n) (v : Fin n → Int) (thr : Int) :
    FirstMin (fun t => v t < thr) v i ↔
      v i < thr ∧ ∀ j : Fin n, (i ≤ j → v j ≥ v i) ∧ (j < i → v j > v i) := by
  constructor
  · rintro ⟨h1, h2⟩
    refine ⟨h1, fun j => ⟨fun _ => ?_, fun hj => ?_⟩⟩
    · by_cases h : v j < thr
      · exact (h2 j h).1
      · omega
    · by_cases h : v j < thr
      · exact (h2 j h).2 hj
      · omega
  · rintro ⟨h1, h2⟩
    refine ⟨h1, fun j _ => ⟨?_, fun hj => (h2 j).2 hj⟩⟩
    rcases le_or_gt i j with h | h
    · exact (h2 j).1 h
    · exact le_of_lt ((h2 j).2 h)

/-- The muon link bit is the first arg-min of the pt difference, for any values. -/
theorem linkstep_iff (mu : Arr NM MuObj) (dptval : Arr NM (Arr NT Pt)) (t : Fin NT) (m : Fin NM) :
    spfph_mu2trk_linkstep mu dptval t m = true ↔
      FirstMin (fun t => (dptval m t).toInt < (mu m).hwPt.toInt / 2)
        (fun t => (dptval m t).toInt) t := by
  unfold spfph_mu2trk_linkstep
  simp only []
  rw [loop_and t (fun j => decide ((dptval m j).toInt ≥ (dptval m t).toInt))
    (fun j => decide ((dptval m j).toInt > (dptval m t).toInt)), firstMin_iff_loop]
  simp only [decide_eq_true_eq]
  exact Iff.rfl

/-- For a positive-pt muon and non-negative track pts, the link bit is the declarative match. -/
theorem mutrk_link_iff (mu : Arr NM MuObj) (track : Arr NT TkObj) (m : Fin NM)
    (hmu : 0 < (mu m).hwPt.toInt) (htk : ∀ t, 0 ≤ (track t).hwPt.toInt) (t : Fin NT) :
    spfph_mutrk_link mu track t m = true ↔
      FirstMin (fun t => dist2 (mu m).hwEta (mu m).hwPhi (track t).hwEta (track t).hwPhi < 2101 ∧
          (((mu m).hwPt.toInt - (track t).hwPt.toInt).natAbs : Int) < (mu m).hwPt.toInt / 2)
        (fun t => (((mu m).hwPt.toInt - (track t).hwPt.toInt).natAbs : Int)) t := by
  unfold spfph_mutrk_link
  rw [linkstep_iff]
  have hmax : ((reg 12 (PFALGO3_DR2MAX_TK_MU : Int) : BitVec 12).toNat : Int) = 2101 := by decide
  have hr := pt_range (mu m).hwPt
  have hcap : ∀ j, ((dr2_int_cap (mu m).hwEta (mu m).hwPhi (track j).hwEta (track j).hwPhi
      (reg 12 (PFALGO3_DR2MAX_TK_MU : Int) : BitVec 12)).toNat <
      (reg 12 (PFALGO3_DR2MAX_TK_MU : Int) : BitVec 12).toNat) ↔
      dist2 (mu m).hwEta (mu m).hwPhi (track j).hwEta (track j).hwPhi < 2101 := by
    intro j
    have h := dr2_int_cap_toNat (mu m).hwEta (mu m).hwPhi (track j).hwEta (track j).hwPhi
      (reg 12 (PFALGO3_DR2MAX_TK_MU : Int) : BitVec 12)
    rw [dr2_int_eq_dist2] at h
    omega
  have hval : ∀ j, dist2 (mu m).hwEta (mu m).hwPhi (track j).hwEta (track j).hwPhi < 2101 →
      (spfph_mu2trk_dptvals mu track m j).toInt =
        (((mu m).hwPt.toInt - (track j).hwPt.toInt).natAbs : Int) := by
    intro j hj
    have ht := pt_range (track j).hwPt
    have ht0 := htk j
    unfold spfph_mu2trk_dptvals
    simp only []
    rw [if_pos ((hcap j).mpr hj)]
    have hd : (reg 16 ((mu m).hwPt.toInt - (track j).hwPt.toInt)).toInt =
      (mu m).hwPt.toInt - (track j).hwPt.toInt := reg16_toInt (by omega) (by omega)
    rw [hd]
    split
    · rw [hd]; omega
    · rw [reg16_toInt (by omega) (by omega)]; omega
  have hval' : ∀ j, ¬ dist2 (mu m).hwEta (mu m).hwPhi (track j).hwEta (track j).hwPhi < 2101 →
      (spfph_mu2trk_dptvals mu track m j).toInt = (mu m).hwPt.toInt / 2 := by
    intro j hj
    unfold spfph_mu2trk_dptvals
    simp only []
    rw [if_neg (fun h => hj ((hcap j).mp h))]
    have : shr (mu m).hwPt.toInt 1 = (mu m).hwPt.toInt / 2 := rfl
    rw [this, reg16_toInt (by omega) (by omega)]
  apply firstMin_congr
  · intro j
    by_cases hj : dist2 (mu m).hwEta (mu m).hwPhi (track j).hwEta (track j).hwPhi < 2101
    · rw [hval j hj]; exact ⟨fun h => ⟨hj, h⟩, fun h => h.2⟩
    · rw [hval' j hj]
      exact ⟨fun h => absurd h (lt_irrefl _), fun h => absurd h.1 hj⟩
  · intro j hP
    by_cases hj : dist2 (mu m).hwEta (mu m).hwPhi (track j).hwEta (track j).hwPhi < 2101
    · exact hval j hj
    · simp only [hval' j hj] at hP
      exact absurd hP (lt_irrefl _)

/-- The scan for the last set bit: it finds a set bit if there is one. -/
theorem scan_unique {n : Nat} (b : Fin n → Bool) :
    (∃ i, b i = true ∧
      loop (fun it gb => if b it then (true, some it) else gb) (false, (none : Option (Fin n))) =
        (true, some i)) ∨
    ((∀ i, b i = false) ∧
      loop (fun it gb => if b it then (true, some it) else gb) (false, (none : Option (Fin n))) =
        (false, none)) := by
  have h := loop_induct (n := n) (fun m (s : Bool × Option (Fin n)) =>
      (∃ i, b i = true ∧ s = (true, some i)) ∨ ((∀ i : Fin n, i.val < m → b i = false) ∧ s = (false, none)))
    (fun it gb => if b it then (true, some it) else gb) (false, none)
    (Or.inr ⟨fun i hi => absurd hi (Nat.not_lt_zero _), rfl⟩)
    (by
      intro k s ih
      by_cases hk : b k = true
      · exact Or.inl ⟨k, hk, by simp [hk]⟩
      · rcases ih with ⟨i, hi, rfl⟩ | ⟨hall, rfl⟩
        · exact Or.inl ⟨i, hi, by simp [hk]⟩
        · refine Or.inr ⟨fun i hi => ?_, by simp [hk]⟩
          by_cases e : i = k
          · subst e; simpa using hk
          · exact hall i (by have : i.val ≠ k.val := fun h => e (Fin.ext h); omega))
  rcases h with h | ⟨h, e⟩
  · exact Or.inl h
  · exact Or.inr ⟨fun i => h i i.isLt, e⟩

/-- A muon candidate made of a track. -/
def muCopy (t : TkObj) : PFChargedObj :=
  { hwPt := t.hwPt, hwEta := t.hwEta, hwPhi := t.hwPhi, hwId := PID_Muon, hwZ0 := t.hwZ0 }

/-- The null charged candidate. -/
def nullCharged : PFChargedObj := { hwPt := 0, hwEta := 0, hwPhi := 0, hwId := 0, hwZ0 := 0 }

theorem mualgo_spec (mu : Arr NM MuObj) (track : Arr NT TkObj) (link : Arr NT (Arr NM Bool))
    (old : Arr NM PFChargedObj) (isMu0 : Arr NT Bool)
    (hu : ∀ m i j, link i m = true → link j m = true → i = j) :
    (∀ m t, 0 < (mu m).hwPt.toInt → link t m = true →
      (spfph_mualgo mu track link old isMu0).1 m = muCopy (track t)) ∧
    (∀ m, (¬ 0 < (mu m).hwPt.toInt ∨ ∀ t, link t m = false) →
      (spfph_mualgo mu track link old isMu0).1 m = nullCharged) ∧
    (∀ t, (spfph_mualgo mu track link old isMu0).2 t = true ↔
      isMu0 t = true ∨ ∃ m, 0 < (mu m).hwPt.toInt ∧ link t m = true) := by
  have h := loop_induct (n := NM) (fun k (s : Arr NM PFChargedObj × Arr NT Bool) =>
      (∀ (m : Fin NM) t, m.val < k → 0 < (mu m).hwPt.toInt → link t m = true →
        s.1 m = muCopy (track t)) ∧
      (∀ m : Fin NM, m.val < k → (¬ 0 < (mu m).hwPt.toInt ∨ ∀ t, link t m = false) →
        s.1 m = nullCharged) ∧
      (∀ t, s.2 t = true ↔
        isMu0 t = true ∨ ∃ m : Fin NM, m.val < k ∧ 0 < (mu m).hwPt.toInt ∧ link t m = true))
    (fun im (st : Arr NM PFChargedObj × Arr NT Bool) =>
      let gb : Bool × Option (Fin NT) :=
        loop (fun it gb => if link it im then (true, some it) else gb) (false, none)
      match gb.2 with
      | some ibest =>
        if (mu im).hwPt.toInt > 0 ∧ gb.1 = true then
          (st.1.set im
            { hwPt := (track ibest).hwPt, hwEta := (track ibest).hwEta,
              hwPhi := (track ibest).hwPhi, hwId := PID_Muon, hwZ0 := (track ibest).hwZ0 },
           st.2.set ibest true)
        else (st.1.set im { hwPt := 0, hwEta := 0, hwPhi := 0, hwId := 0, hwZ0 := 0 }, st.2)
      | none => (st.1.set im { hwPt := 0, hwEta := 0, hwPhi := 0, hwId := 0, hwZ0 := 0 }, st.2))
    (old, isMu0)
    (by
      refine ⟨fun m t hm => absurd hm (Nat.not_lt_zero _), fun m hm => absurd hm (Nat.not_lt_zero _),
        fun t => ⟨fun h => Or.inl h, ?_⟩⟩
      rintro (h | ⟨m, hm, _⟩)
      · exact h
      · exact absurd hm (Nat.not_lt_zero _))
    (by
      intro k s ih
      obtain ⟨ih1, ih2, ih3⟩ := ih
      simp only []
      have lt_or : ∀ m : Fin NM, m.val < k.val + 1 → m ≠ k → m.val < k.val := by
        intro m hm hne
        have : m.val ≠ k.val := fun e => hne (Fin.ext e)
        omega
      rcases scan_unique (fun t => link t k) with ⟨i, hi, e⟩ | ⟨hnone, e⟩
      · rw [e]
        simp only [and_true]
        by_cases hpos : 0 < (mu k).hwPt.toInt
        · rw [if_pos hpos]
          refine ⟨fun m t hm hp hl => ?_, fun m hm hn => ?_, fun t => ?_⟩
          · by_cases hmk : m = k
            · subst hmk
              have := hu m t i hl hi
              subst this
              simp [muCopy]
            · simp only [Arr.set_ne _ _ hmk]
              exact ih1 m t (lt_or m hm hmk) hp hl
          · by_cases hmk : m = k
            · subst hmk
              rcases hn with hn | hn
              · exact absurd hpos hn
              · rw [hn i] at hi; exact absurd hi (by decide)
            · simp only [Arr.set_ne _ _ hmk]
              exact ih2 m (lt_or m hm hmk) hn
          · by_cases hti : t = i
            · subst hti
              simp only [Arr.set_same, true_iff]
              exact Or.inr ⟨k, by omega, hpos, hi⟩
            · simp only [Arr.set_ne _ _ hti]
              rw [ih3 t]
              constructor
              · rintro (h | ⟨m, hm, hp, hl⟩)
                · exact Or.inl h
                · exact Or.inr ⟨m, by omega, hp, hl⟩
              · rintro (h | ⟨m, hm, hp, hl⟩)
                · exact Or.inl h
                · by_cases hmk : m = k
                  · subst hmk; exact absurd (hu m t i hl hi) hti
                  · exact Or.inr ⟨m, lt_or m hm hmk, hp, hl⟩
        · rw [if_neg hpos]
          refine ⟨fun m t hm hp hl => ?_, fun m hm hn => ?_, fun t => ?_⟩
          · by_cases hmk : m = k
            · subst hmk; exact absurd hp hpos
            · simp only [Arr.set_ne _ _ hmk]
              exact ih1 m t (lt_or m hm hmk) hp hl
          · by_cases hmk : m = k
            · subst hmk; simp [nullCharged]
            · simp only [Arr.set_ne _ _ hmk]
              exact ih2 m (lt_or m hm hmk) hn
          · rw [ih3 t]
            constructor
            · rintro (h | ⟨m, hm, hp, hl⟩)
              · exact Or.inl h
              · exact Or.inr ⟨m, by omega, hp, hl⟩
            · rintro (h | ⟨m, hm, hp, hl⟩)
              · exact Or.inl h
              · by_cases hmk : m = k
                · subst hmk; exact absurd hp hpos
                · exact Or.inr ⟨m, lt_or m hm hmk, hp, hl⟩
      · rw [e]
        simp only []
        have hnone' : ∀ t, link t k = false := hnone
        refine ⟨fun m t hm hp hl => ?_, fun m hm hn => ?_, fun t => ?_⟩
        · by_cases hmk : m = k
          · subst hmk; rw [hnone' t] at hl; exact absurd hl (by decide)
          · simp only [Arr.set_ne _ _ hmk]
            exact ih1 m t (lt_or m hm hmk) hp hl
        · by_cases hmk : m = k
          · subst hmk; simp [nullCharged]
          · simp only [Arr.set_ne _ _ hmk]
            exact ih2 m (lt_or m hm hmk) hn
        · rw [ih3 t]
          constructor
          · rintro (h | ⟨m, hm, hp, hl⟩)
            · exact Or.inl h
            · exact Or.inr ⟨m, by omega, hp, hl⟩
          · rintro (h | ⟨m, hm, hp, hl⟩)
            · exact Or.inl h
            · by_cases hmk : m = k
              · subst hmk; rw [hnone' t] at hl; exact absurd hl (by decide)
              · exact Or.inr ⟨m, lt_or m hm hmk, hp, hl⟩)
  obtain ⟨h1, h2, h3⟩ := h
  refine ⟨fun m t => h1 m t m.isLt, fun m => h2 m m.isLt, fun t => ?_⟩
  have := h3 t
  constructor
  · intro h
    rcases this.mp h with h | ⟨m, _, hp, hl⟩
    · exact Or.inl h
    · exact Or.inr ⟨m, hp, hl⟩
  · rintro (h | ⟨m, hp, hl⟩)
    · exact this.mpr (Or.inl h)
    · exact this.mpr (Or.inr ⟨m, m.isLt, hp, hl⟩)

theorem mutrk_link_unique (mu : Arr NM MuObj) (track : Arr NT TkObj) (m : Fin NM) (i j : Fin NT)
    (hi : spfph_mutrk_link mu track i m = true) (hj : spfph_mutrk_link mu track j m = true) :
    i = j := by
  unfold spfph_mutrk_link at hi hj
  rw [linkstep_iff] at hi hj
  exact firstMin_unique hi hj

end Verif
