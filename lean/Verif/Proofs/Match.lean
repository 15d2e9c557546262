import Verif.Proofs.Influence
import Mathlib.Algebra.BigOperators.Group.Finset.Basic
/-!
# Particle flow on events whose objects can be matched around a point

The two events may have different sizes and list the objects in different slots; the slots that matter are matched to each
other, in order.
-/
open Classical
open scoped BigOperators
namespace Verif.Spec
variable {NT NC NE NM NT' NC' NE' NM' : Nat}

/-- A matching of slots that keeps the order. -/
def InOrder {n n' : Nat} (T : Fin n → Fin n' → Prop) : Prop := ∀ a b a' b', T a b → T a' b' → (a < a' ↔ b < b')

theorem InOrder.flip {n n' : Nat} {T : Fin n → Fin n' → Prop} (h : InOrder T) : InOrder (fun b a => T a b) :=
  fun a b a' b' h1 h2 => (h b a b' a' h1 h2).symm
theorem InOrder.right {n n' : Nat} {T : Fin n → Fin n' → Prop} (h : InOrder T) {a : Fin n} {b b' : Fin n'} (h1 : T a b) (h2 : T a b') :
    b = b' := by
  rcases lt_trichotomy b b' with h3 | h3 | h3
  · exact absurd ((h _ _ _ _ h1 h2).mpr h3) (lt_irrefl _)
  · exact h3
  · exact absurd ((h _ _ _ _ h2 h1).mpr h3) (lt_irrefl _)
theorem InOrder.left {n n' : Nat} {T : Fin n → Fin n' → Prop} (h : InOrder T) {a a' : Fin n} {b : Fin n'} (h1 : T a b) (h2 : T a' b) :
    a = a' := h.flip.right h1 h2

/-- An empty EM slot at the place of an earlier one: nothing ever links to it. -/
def Shadow (inp : PFInputs NT NC NE NM) (e : Fin NE) : Prop :=
  (inp.emcalo e).hwPt.toInt = 0 ∧ ∃ e' < e, atEm inp e' = atEm inp e

/-- The objects within `R` of `p` are matched. -/
structure Match (R : ℝ) (p : Dir) (inp : PFInputs NT NC NE NM) (inp' : PFInputs NT' NC' NE' NM') (T : Fin NT → Fin NT' → Prop)
    (H : Fin NC → Fin NC' → Prop) (E : Fin NE → Fin NE' → Prop) (M : Fin NM → Fin NM' → Prop) : Prop where
  ordT : InOrder T
  ordH : InOrder H
  ordE : InOrder E
  ordM : InOrder M
  eqT : ∀ a b, T a b → inp.track a = inp'.track b
  eqH : ∀ a b, H a b → inp.hadcalo a = inp'.hadcalo b
  eqE : ∀ a b, E a b → inp.emcalo a = inp'.emcalo b
  eqM : ∀ a b, M a b → inp.mu a = inp'.mu b
  track : ∀ a, (∃ b, T a b) ∨ TrackOut R p (inp.track a)
  track' : ∀ b, (∃ a, T a b) ∨ TrackOut R p (inp'.track b)
  had : ∀ a, (∃ b, H a b) ∨ HadOut R p (inp.hadcalo a)
  had' : ∀ b, (∃ a, H a b) ∨ HadOut R p (inp'.hadcalo b)
  em : ∀ a, (∃ b, E a b) ∨ Shadow inp a ∨ EmOut R p (inp.emcalo a)
  em' : ∀ b, (∃ a, E a b) ∨ Shadow inp' b ∨ EmOut R p (inp'.emcalo b)
  mu : ∀ a, (∃ b, M a b) ∨ MuonOut R p (inp.mu a)
  mu' : ∀ b, (∃ a, M a b) ∨ MuonOut R p (inp'.mu b)

section
variable {R r : ℝ} {p q : Dir} {inp : PFInputs NT NC NE NM} {inp' : PFInputs NT' NC' NE' NM'} {T : Fin NT → Fin NT' → Prop}
  {H : Fin NC → Fin NC' → Prop} {E : Fin NE → Fin NE' → Prop} {M : Fin NM → Fin NM' → Prop}

theorem Match.symm (h : Match R p inp inp' T H E M) :
    Match R p inp' inp (fun b a => T a b) (fun b a => H a b) (fun b a => E a b) (fun b a => M a b) where
  ordT := h.ordT.flip
  ordH := h.ordH.flip
  ordE := h.ordE.flip
  ordM := h.ordM.flip
  eqT b a hh := (h.eqT a b hh).symm
  eqH b a hh := (h.eqH a b hh).symm
  eqE b a hh := (h.eqE a b hh).symm
  eqM b a hh := (h.eqM a b hh).symm
  track := h.track'
  track' := h.track
  had := h.had'
  had' := h.had
  em := h.em'
  em' := h.em
  mu := h.mu'
  mu' := h.mu

theorem Match.move (h : Match R p inp inp' T H E M) (hR : gap p q + r ≤ R) : Match r q inp inp' T H E M where
  ordT := h.ordT
  ordH := h.ordH
  ordE := h.ordE
  ordM := h.ordM
  eqT := h.eqT
  eqH := h.eqH
  eqE := h.eqE
  eqM := h.eqM
  track a := (h.track a).imp_right (Or.imp_right (out_move hR))
  track' a := (h.track' a).imp_right (Or.imp_right (out_move hR))
  had a := (h.had a).imp_right (Or.imp_right (out_move hR))
  had' a := (h.had' a).imp_right (Or.imp_right (out_move hR))
  em a := (h.em a).imp_right (Or.imp_right (out_move hR))
  em' a := (h.em' a).imp_right (Or.imp_right (out_move hR))
  mu a := (h.mu a).imp_right (Or.imp_right (out_move hR))
  mu' a := (h.mu' a).imp_right (Or.imp_right (out_move hR))

theorem Match.mono (h : Match R p inp inp' T H E M) (hR : r ≤ R) : Match r p inp inp' T H E M := by
  refine h.move ?_
  have : gap p p = 0 := by unfold gap dist2 circ; simp
  linarith

theorem Match.near_track (h : Match R p inp inp' T H E M) {t : Fin NT} (ht : gap p (atTk inp t) < R) :
    (∃ b, T t b) ∨ ((inp.track t).hwPt.toInt = 0 ∧ (inp.track t).hwPtErr.toInt = 0) :=
  (h.track t).imp_right fun h => h.resolve_right (not_le.mpr ht)
theorem Match.near_had (h : Match R p inp inp' T H E M) {t : Fin NC} (ht : gap p (atHad inp t) < R) :
    (∃ b, H t b) ∨ ((inp.hadcalo t).hwPt.toInt = 0 ∧ (inp.hadcalo t).hwEmPt.toInt = 0) :=
  (h.had t).imp_right fun h => h.resolve_right (not_le.mpr ht)
theorem Match.near_em (h : Match R p inp inp' T H E M) {t : Fin NE} (ht : gap p (atEm inp t) < R) :
    (∃ b, E t b) ∨ Shadow inp t :=
  (h.em t).imp_right fun h => h.resolve_right (not_le.mpr ht)
theorem Match.near_mu (h : Match R p inp inp' T H E M) {t : Fin NM} (ht : gap p (atMu inp t) < R) :
    (∃ b, M t b) ∨ (inp.mu t).hwPt.toInt = 0 :=
  (h.mu t).imp_right fun h => h.resolve_right (not_le.mpr ht)
end

/-! ### Links and sums under a matching -/

theorem firstMin_match_imp {n n' : Nat} {T : Fin n → Fin n' → Prop} (hT : InOrder T) {P : Fin n → Prop} {P' : Fin n' → Prop}
    {f : Fin n → Int} {f' : Fin n' → Int}
    (h : ∀ j, P j → ∃ k ≤ j, f k = f j ∧ P k ∧ ∃ k', T k k' ∧ P' k' ∧ f' k' = f k)
    (h' : ∀ j', P' j' → ∃ k' ≤ j', f' k' = f' j' ∧ ∃ k, T k k' ∧ P k ∧ f k = f' k') {i : Fin n} {i' : Fin n'} (hi : T i i')
    (hm : FirstMin P f i) : FirstMin P' f' i' := by
  obtain ⟨hp, hm⟩ := hm
  obtain ⟨k, hk, e, pk, k', tk, pk', e'⟩ := h i hp
  have : k = i := by
    rcases lt_or_eq_of_le hk with h1 | h1
    · have := (hm k pk).2 h1
      omega
    · exact h1
  subst this
  have := hT.right tk hi
  subst this
  refine ⟨pk', fun j' hj' => ?_⟩
  obtain ⟨m', hm', e1, m, tm, pm, e2⟩ := h' j' hj'
  have := hm m pm
  refine ⟨by omega, fun hlt => ?_⟩
  have h3 : m < k := (hT _ _ _ _ tm tk).mpr (lt_of_le_of_lt hm' hlt)
  have := this.2 h3
  omega

theorem firstMin_match {n n' : Nat} {T : Fin n → Fin n' → Prop} (hT : InOrder T) {P : Fin n → Prop} {P' : Fin n' → Prop}
    {f : Fin n → Int} {f' : Fin n' → Int} (h : ∀ j, P j → ∃ j', T j j' ∧ P' j' ∧ f' j' = f j)
    (h' : ∀ j', P' j' → ∃ j, T j j' ∧ P j ∧ f j = f' j') {i : Fin n} {i' : Fin n'} (hi : T i i') :
    FirstMin P f i ↔ FirstMin P' f' i' := by
  constructor
  · exact firstMin_match_imp hT (fun j hj => ⟨j, le_refl _, rfl, hj, h j hj⟩) (fun j hj => ⟨j, le_refl _, rfl, h' j hj⟩) hi
  · exact firstMin_match_imp hT.flip (fun j hj => ⟨j, le_refl _, rfl, hj, h' j hj⟩) (fun j hj => ⟨j, le_refl _, rfl, h j hj⟩) hi

theorem sum_match {n n' : Nat} {T : Fin n → Fin n' → Prop} (hT : InOrder T) {F : Fin n → Int} {F' : Fin n' → Int}
    (h : ∀ a, F a ≠ 0 → ∃ b, T a b ∧ F' b = F a) (h' : ∀ b, F' b ≠ 0 → ∃ a, T a b ∧ F a = F' b) : ∑ a, F a = ∑ b, F' b := by
  choose g hg using h
  refine Finset.sum_bij_ne_zero (fun a _ ha => g a ha) (fun _ _ _ => Finset.mem_univ _) ?_ ?_ ?_
  · intro a _ ha b _ hb e
    have h1 := (hg a ha).1
    rw [e] at h1
    exact hT.left h1 (hg b hb).1
  · intro b _ hb
    obtain ⟨a, h1, h2⟩ := h' b hb
    have ha : F a ≠ 0 := by rw [h2]; exact hb
    exact ⟨a, Finset.mem_univ _, ha, hT.right (hg a ha).1 h1⟩
  · intro a _ ha
    exact (hg a ha).2.symm

/-! ### Link by link -/

section
variable {R : ℝ} {inp : PFInputs NT NC NE NM} {inp' : PFInputs NT' NC' NE' NM'} {v : Variant} {T : Fin NT → Fin NT' → Prop}
  {H : Fin NC → Fin NC' → Prop} {E : Fin NE → Fin NE' → Prop} {M : Fin NM → Fin NM' → Prop}

theorem muCand_match {m : Fin NM} {m' : Fin NM'} (hm : M m m') (hs : Match muonReach (atMu inp m) inp inp' T H E M)
    (hpos : 0 < (inp.mu m).hwPt.toInt) {t : Fin NT} (h : muDist2 inp m t < 2101 ∧ muDpt inp m t < (inp.mu m).hwPt.toInt / 2) :
    ∃ t', T t t' ∧ (muDist2 inp' m' t' < 2101 ∧ muDpt inp' m' t' < (inp'.mu m').hwPt.toInt / 2) ∧ muDpt inp' m' t' = muDpt inp m t := by
  have h1 := gap_lt h.1
  push_cast at h1
  rcases hs.near_track h1 with ⟨t', h2⟩ | h2
  · have e1 := hs.eqM _ _ hm
    have e2 := hs.eqT _ _ h2
    unfold muDist2 muDpt at *
    rw [← e1]
    exact ⟨t', h2, by rw [← e2]; exact h, by rw [← e2]⟩
  · have h3 := h.2
    unfold muDpt at h3
    rw [h2.1] at h3
    omega

theorem atMu_flip {m : Fin NM} {m' : Fin NM'} (hm : M m m') (hs : Match R (atMu inp m) inp inp' T H E M) :
    Match R (atMu inp' m') inp' inp (fun b a => T a b) (fun b a => H a b) (fun b a => E a b) (fun b a => M a b) := by
  rw [show atMu inp' m' = atMu inp m by simp [atMu, hs.eqM _ _ hm]]; exact hs.symm
theorem atTk_flip {m : Fin NT} {m' : Fin NT'} (hm : T m m') (hs : Match R (atTk inp m) inp inp' T H E M) :
    Match R (atTk inp' m') inp' inp (fun b a => T a b) (fun b a => H a b) (fun b a => E a b) (fun b a => M a b) := by
  rw [show atTk inp' m' = atTk inp m by simp [atTk, hs.eqT _ _ hm]]; exact hs.symm
theorem atEm_flip {m : Fin NE} {m' : Fin NE'} (hm : E m m') (hs : Match R (atEm inp m) inp inp' T H E M) :
    Match R (atEm inp' m') inp' inp (fun b a => T a b) (fun b a => H a b) (fun b a => E a b) (fun b a => M a b) := by
  rw [show atEm inp' m' = atEm inp m by simp [atEm, hs.eqE _ _ hm]]; exact hs.symm
theorem atHad_flip {m : Fin NC} {m' : Fin NC'} (hm : H m m') (hs : Match R (atHad inp m) inp inp' T H E M) :
    Match R (atHad inp' m') inp' inp (fun b a => T a b) (fun b a => H a b) (fun b a => E a b) (fun b a => M a b) := by
  rw [show atHad inp' m' = atHad inp m by simp [atHad, hs.eqH _ _ hm]]; exact hs.symm

theorem muMatch_match {m : Fin NM} {m' : Fin NM'} (hm : M m m') (hs : Match muonReach (atMu inp m) inp inp' T H E M)
    {t : Fin NT} {t' : Fin NT'} (ht : T t t') : MuMatch inp m t ↔ MuMatch inp' m' t' := by
  have hs' := atMu_flip hm hs
  have e : (inp'.mu m').hwPt.toInt = (inp.mu m).hwPt.toInt := by rw [hs.eqM _ _ hm]
  unfold MuMatch
  rw [show (0 < (inp'.mu m').hwPt.toInt) = (0 < (inp.mu m).hwPt.toInt) by rw [e]]
  refine and_congr_right fun hpos => firstMin_match hs.ordT (fun j hj => muCand_match hm hs hpos hj)
    (fun j hj => muCand_match (M := fun b a => M a b) hm hs' (by rw [e]; exact hpos) hj) ht

theorem muMatch_matched {m : Fin NM} {m' : Fin NM'} (hm : M m m') (hs : Match muonReach (atMu inp m) inp inp' T H E M)
    {t : Fin NT} (h : MuMatch inp m t) : ∃ t', T t t' := by
  obtain ⟨t', h, -⟩ := muCand_match hm hs h.1 h.2.1
  exact ⟨t', h⟩

theorem isMu_match_imp {t : Fin NT} {t' : Fin NT'} (ht : T t t') (hs : Match (2 * muonReach) (atTk inp t) inp inp' T H E M)
    (h : IsMu inp t) : IsMu inp' t' := by
  obtain ⟨m, hm⟩ := h
  have h1 := gap_lt hm.2.1.1
  push_cast at h1
  have h1' : gap (atTk inp t) (atMu inp m) < muonReach := by rw [gap_symm]; exact h1
  have h0 : 0 ≤ muonReach := Real.sqrt_nonneg _
  rcases hs.near_mu (t := m) (by linarith) with ⟨m', h⟩ | h
  · exact ⟨m', (muMatch_match h (hs.move (by linarith)) ht).mp hm⟩
  · have := hm.1; omega

theorem isMu_match {t : Fin NT} {t' : Fin NT'} (ht : T t t') (hs : Match (2 * muonReach) (atTk inp t) inp inp' T H E M) :
    IsMu inp t ↔ IsMu inp' t' :=
  ⟨isMu_match_imp ht hs, isMu_match_imp (T := fun b a => T a b) ht (atTk_flip ht hs)⟩

/-- The first EM slot at the place of a slot. -/
theorem em_first (inp : PFInputs NT NC NE NM) (c : Fin NE) : ∃ k ≤ c, atEm inp k = atEm inp c ∧ ¬ Shadow inp k := by
  induction c using WellFoundedLT.induction with
  | ind c ih =>
    by_cases h : Shadow inp c
    · obtain ⟨-, e, h1, h2⟩ := h
      obtain ⟨k, h3, h4, h5⟩ := ih e h1
      exact ⟨k, le_trans h3 (le_of_lt h1), h4.trans h2, h5⟩
    · exact ⟨c, le_refl _, rfl, h⟩

theorem tkEmDist2_at {t : Fin NT} {c k : Fin NE} (h : atEm inp k = atEm inp c) : tkEmDist2 inp t k = tkEmDist2 inp t c := by
  have h1 : (inp.emcalo k).hwEta = (inp.emcalo c).hwEta := congrArg Prod.fst h
  have h2 : (inp.emcalo k).hwPhi = (inp.emcalo c).hwPhi := congrArg Prod.snd h
  unfold tkEmDist2
  rw [h1, h2]

theorem emCand_match {t : Fin NT} {t' : Fin NT'} (ht : T t t') (hs : Match (2 * muonReach) (atTk inp t) inp inp' T H E M)
    {c : Fin NE} (h : tkEmDist2 inp t c < 84) :
    ∃ k ≤ c, tkEmDist2 inp t k = tkEmDist2 inp t c ∧ tkEmDist2 inp t k < 84 ∧
      ∃ k', E k k' ∧ tkEmDist2 inp' t' k' < 84 ∧ tkEmDist2 inp' t' k' = tkEmDist2 inp t k := by
  obtain ⟨k, h1, h2, h3⟩ := em_first inp c
  have e := tkEmDist2_at (t := t) h2
  have h4 : tkEmDist2 inp t k < 84 := by rw [e]; exact h
  have h5 := gap_lt h4
  push_cast at h5
  obtain ⟨k', hk⟩ := (hs.near_em (lt_of_lt_of_le h5 cut84_le)).resolve_right h3
  have e' : tkEmDist2 inp' t' k' = tkEmDist2 inp t k := by unfold tkEmDist2; rw [← hs.eqT _ _ ht, ← hs.eqE _ _ hk]
  exact ⟨k, h1, e, h4, k', hk, by rw [e']; exact h4, e'⟩

theorem emMatch_match {t : Fin NT} {t' : Fin NT'} (ht : T t t') (hs : Match (2 * muonReach) (atTk inp t) inp inp' T H E M)
    {c : Fin NE} {c' : Fin NE'} (hc : E c c') : EmMatch inp t c ↔ EmMatch inp' t' c' := by
  have hs' := atTk_flip ht hs
  have a : ∀ j, tkEmDist2 inp t j < 84 → _ := fun j hj => emCand_match ht hs hj
  have b : ∀ j, tkEmDist2 inp' t' j < 84 → _ := fun j hj => emCand_match (T := fun b a => T a b) ht hs' hj
  unfold EmMatch
  rw [isMu_match ht hs]
  refine and_congr_right fun _ => ⟨firstMin_match_imp hs.ordE a (fun j hj => ?_) hc, firstMin_match_imp hs.ordE.flip b (fun j hj => ?_) hc⟩
  · obtain ⟨k, h1, h2, -, h4⟩ := b j hj
    exact ⟨k, h1, h2, h4⟩
  · obtain ⟨k, h1, h2, -, h4⟩ := a j hj
    exact ⟨k, h1, h2, h4⟩

/-- A track never links to a shadow. -/
theorem shadow_unlinked {t : Fin NT} {c : Fin NE} (hc : Shadow inp c) : ¬ EmMatch inp t c := by
  rintro ⟨-, h1, h2⟩
  obtain ⟨-, k, h3, h4⟩ := hc
  have e := tkEmDist2_at (t := t) h4
  have := (h2 k (by show tkEmDist2 inp t k < 84; rw [e]; exact h1)).2 h3
  omega

theorem shadow_isEM {c : Fin NE} (hc : Shadow inp c) : IsEM inp c := by
  refine .inl ?_
  unfold emTrackPt
  exact Finset.sum_eq_zero fun t _ => if_neg (shadow_unlinked hc)

theorem emMatch_matched {t : Fin NT} (hs : Match (2 * muonReach) (atTk inp t) inp inp' T H E M)
    {c : Fin NE} (h : EmMatch inp t c) : ∃ c', E c c' := by
  have h5 := gap_lt h.2.1
  push_cast at h5
  exact (hs.near_em (lt_of_lt_of_le h5 cut84_le)).resolve_right fun hc => shadow_unlinked hc h

theorem emTerm_match {c : Fin NE} {c' : Fin NE'} (hc : E c c') (hs : Match photonReach (atEm inp c) inp inp' T H E M) {t : Fin NT}
    (h : (if EmMatch inp t c then (inp.track t).hwPt.toInt else 0) ≠ 0) :
    ∃ t', T t t' ∧ (if EmMatch inp' t' c' then (inp'.track t').hwPt.toInt else 0) = if EmMatch inp t c then (inp.track t).hwPt.toInt else 0 := by
  by_cases h0 : EmMatch inp t c
  · rw [if_pos h0] at h ⊢
    have h1 := gap_lt h0.2.1
    push_cast at h1
    have h1' : gap (atEm inp c) (atTk inp t) < Real.sqrt 84 := by rw [gap_symm]; exact h1
    have h2 : 0 ≤ muonReach := Real.sqrt_nonneg _
    have h3 : photonReach = Real.sqrt 84 + 2 * muonReach := rfl
    obtain ⟨t', ht⟩ := (hs.near_track (t := t) (by linarith)).resolve_right fun h' => h h'.1
    refine ⟨t', ht, ?_⟩
    rw [if_pos ((emMatch_match ht (hs.move (by linarith)) hc).mp h0), hs.eqT _ _ ht]
  · rw [if_neg h0] at h
    exact absurd rfl h

theorem emTrackPt_match {c : Fin NE} {c' : Fin NE'} (hc : E c c') (hs : Match photonReach (atEm inp c) inp inp' T H E M) :
    emTrackPt inp c = emTrackPt inp' c' :=
  sum_match hs.ordT (fun _ h => emTerm_match hc hs h) (fun _ h => emTerm_match (E := fun b a => E a b) hc (atEm_flip hc hs) h)

theorem isEM_match {c : Fin NE} {c' : Fin NE'} (hc : E c c') (hs : Match photonReach (atEm inp c) inp inp' T H E M) :
    IsEM inp c ↔ IsEM inp' c' := by
  unfold IsEM emDiff emErr2; rw [emTrackPt_match hc hs, hs.eqE _ _ hc]

theorem photonPt_match {c : Fin NE} {c' : Fin NE'} (hc : E c c') (hs : Match photonReach (atEm inp c) inp inp' T H E M) :
    photonPt inp c = photonPt inp' c' := by
  unfold photonPt emDiff emErr2; rw [emTrackPt_match hc hs, hs.eqE _ _ hc]

theorem isEle_match_imp {t : Fin NT} {t' : Fin NT'} (ht : T t t')
    (hs : Match (Real.sqrt 84 + photonReach) (atTk inp t) inp inp' T H E M) (h : IsEle inp t) : IsEle inp' t' := by
  obtain ⟨c, hc, he⟩ := h
  have h1 := gap_lt hc.2.1
  push_cast at h1
  have h3 : photonReach = Real.sqrt 84 + 2 * muonReach := rfl
  have h4 := Real.sqrt_nonneg 84
  have hs2 : Match (2 * muonReach) (atTk inp t) inp inp' T H E M := hs.mono (by linarith)
  obtain ⟨c', hec⟩ := emMatch_matched hs2 hc
  exact ⟨c', (emMatch_match ht hs2 hec).mp hc, (isEM_match hec (hs.move (by show gap (atTk inp t) (atEm inp c) + _ ≤ _; linarith))).mp he⟩

theorem isEle_match {t : Fin NT} {t' : Fin NT'} (ht : T t t') (hs : Match (Real.sqrt 84 + photonReach) (atTk inp t) inp inp' T H E M) :
    IsEle inp t ↔ IsEle inp' t' :=
  ⟨isEle_match_imp ht hs, isEle_match_imp (T := fun b a => T a b) ht (atTk_flip ht hs)⟩

theorem hadCand_match {e : Fin NE} {e' : Fin NE'} (he : E e e') (hs : Match (Real.sqrt 525) (atEm inp e) inp inp' T H E M)
    (hem : ∀ c, 0 ≤ (inp.emcalo c).hwPt.toInt) {h : Fin NC}
    (hh : (inp.emcalo e).hwPt.toInt / 2 < (inp.hadcalo h).hwEmPt.toInt ∧ emHadDist2 inp e h < 525) :
    ∃ h', H h h' ∧ ((inp'.emcalo e').hwPt.toInt / 2 < (inp'.hadcalo h').hwEmPt.toInt ∧ emHadDist2 inp' e' h' < 525) ∧
      emHadDist2 inp' e' h' = emHadDist2 inp e h := by
  have h1 := gap_lt hh.2
  push_cast at h1
  rcases hs.near_had h1 with ⟨h', hh'⟩ | h0
  · refine ⟨h', hh', ?_⟩
    unfold emHadDist2 at *
    rw [← hs.eqE _ _ he, ← hs.eqH _ _ hh']
    exact ⟨hh, rfl⟩
  · have := hem e
    have := hh.1
    omega

variable (hem : ∀ c, 0 ≤ (inp.emcalo c).hwPt.toInt) (hem' : ∀ c, 0 ≤ (inp'.emcalo c).hwPt.toInt)
include hem hem'

theorem hadMatch_match {e : Fin NE} {e' : Fin NE'} (he : E e e') (hs : Match (Real.sqrt 525) (atEm inp e) inp inp' T H E M)
    {h : Fin NC} {h' : Fin NC'} (hh : H h h') : HadMatch inp e h ↔ HadMatch inp' e' h' :=
  firstMin_match hs.ordH (fun _ hj => hadCand_match he hs hem hj)
    (fun _ hj => hadCand_match (E := fun b a => E a b) he (atEm_flip he hs) hem' hj) hh

theorem hadLink_match {h : Fin NC} {h' : Fin NC'} (hh : H h h') (hs : Match (Real.sqrt 525 + photonReach) (atHad inp h) inp inp' T H E M)
    {e : Fin NE} (hm : HadMatch inp e h) (hsh : ¬ Shadow inp e) : ∃ e', E e e' ∧ HadMatch inp' e' h' ∧ (IsEM inp e ↔ IsEM inp' e') := by
  have h1 := gap_lt hm.1.2
  push_cast at h1
  have h1' : gap (atHad inp h) (atEm inp e) < Real.sqrt 525 := by rw [gap_symm]; exact h1
  have h2 := cut525_le
  have h3 := Real.sqrt_nonneg 525
  obtain ⟨e', he⟩ := (hs.near_em (t := e) (by linarith)).resolve_right hsh
  exact ⟨e', he, (hadMatch_match hem hem' he (hs.move (by linarith)) hh).mp hm, isEM_match he (hs.move (by linarith))⟩

theorem subTerm_match {h : Fin NC} {h' : Fin NC'} (hh : H h h') (hs : Match (Real.sqrt 525 + photonReach) (atHad inp h) inp inp' T H E M)
    {e : Fin NE} (h0 : (if HadMatch inp e h ∧ IsEM inp e then (inp.emcalo e).hwPt.toInt else 0) ≠ 0) :
    ∃ e', E e e' ∧ (if HadMatch inp' e' h' ∧ IsEM inp' e' then (inp'.emcalo e').hwPt.toInt else 0) =
      if HadMatch inp e h ∧ IsEM inp e then (inp.emcalo e).hwPt.toInt else 0 := by
  by_cases h1 : HadMatch inp e h ∧ IsEM inp e
  · rw [if_pos h1] at h0 ⊢
    obtain ⟨e', h2, h3, h4⟩ := hadLink_match hem hem' hh hs h1.1 fun h => h0 h.1
    exact ⟨e', h2, by rw [if_pos ⟨h3, h4.mp h1.2⟩, hs.eqE _ _ h2]⟩
  · rw [if_neg h1] at h0
    exact absurd rfl h0

theorem emSub_match {h : Fin NC} {h' : Fin NC'} (hh : H h h') (hs : Match (Real.sqrt 525 + photonReach) (atHad inp h) inp inp' T H E M) :
    emSub inp h = emSub inp' h' :=
  sum_match hs.ordE (fun _ h0 => subTerm_match hem hem' hh hs h0)
    (fun _ h0 => subTerm_match (H := fun b a => H a b) hem' hem hh (atHad_flip hh hs) h0)

theorem hasHadronicEM_match_imp {h : Fin NC} {h' : Fin NC'} (hh : H h h')
    (hs : Match (Real.sqrt 525 + photonReach) (atHad inp h) inp inp' T H E M) : HasHadronicEM inp h → HasHadronicEM inp' h' := by
  rintro ⟨e, h1, h2⟩
  obtain ⟨e', -, h4, h5⟩ := hadLink_match hem hem' hh hs h1 fun h => h2 (shadow_isEM h)
  exact ⟨e', h4, fun h => h2 (h5.mpr h)⟩

theorem hadPt_match {h : Fin NC} {h' : Fin NC'} (hh : H h h') (hs : Match (Real.sqrt 525 + photonReach) (atHad inp h) inp inp' T H E M) :
    hadPt inp v h = hadPt inp' v h' := by
  have e : HasHadronicEM inp h ↔ HasHadronicEM inp' h' :=
    ⟨hasHadronicEM_match_imp hem hem' hh hs, hasHadronicEM_match_imp (H := fun b a => H a b) hem' hem hh (atHad_flip hh hs)⟩
  unfold hadPt Removed
  rw [e, emSub_match hem hem' hh hs, hs.eqH _ _ hh]

theorem calo_matched {t : Fin NT} (hs : Match chargedReach (atTk inp t) inp inp' T H E M) {h : Fin NC}
    (hc : Compatible inp v t h) : ∃ h', H h h' ∧ hadPt inp v h = hadPt inp' v h' := by
  have h1 := gap_lt hc.2
  push_cast at h1
  have h1' : gap (atTk inp t) (atHad inp h) < Real.sqrt 756 := h1
  have h2 := cut525_le
  have h3 := Real.sqrt_nonneg 525
  have h4 : chargedReach = Real.sqrt 756 + Real.sqrt 525 + photonReach := rfl
  rcases hs.near_had (t := h) (by linarith) with ⟨h', heq⟩ | h'
  · exact ⟨h', heq, hadPt_match hem hem' heq (hs.move (by linarith))⟩
  · have h5 := hc.1
    have h6 := hadPt_le (v := v) hem h
    rw [h'.1] at h6
    omega

theorem compatible_match {t : Fin NT} {t' : Fin NT'} (ht : T t t') (hs : Match chargedReach (atTk inp t) inp inp' T H E M) {h : Fin NC}
    (hc : Compatible inp v t h) : ∃ h', H h h' ∧ Compatible inp' v t' h' ∧ metric inp' v t' h' = metric inp v t h := by
  obtain ⟨h', h1, h2⟩ := calo_matched hem hem' hs hc
  refine ⟨h', h1, ?_⟩
  unfold Compatible metric tkHadDist2 at *
  rw [← hs.eqT _ _ ht, ← hs.eqH _ _ h1, ← h2]
  exact ⟨hc, rfl⟩

theorem caloMatch_match {t : Fin NT} {t' : Fin NT'} (ht : T t t') (hs : Match chargedReach (atTk inp t) inp inp' T H E M)
    {h : Fin NC} {h' : Fin NC'} (hh : H h h') : CaloMatch inp v t h ↔ CaloMatch inp' v t' h' :=
  firstMin_match hs.ordH (fun _ hj => compatible_match hem hem' ht hs hj)
    (fun _ hj => compatible_match (T := fun b a => T a b) hem' hem ht (atTk_flip ht hs) hj) hh

theorem caloMatch_exists {t : Fin NT} {t' : Fin NT'} (ht : T t t') (hs : Match chargedReach (atTk inp t) inp inp' T H E M) :
    (∃ h, CaloMatch inp v t h) → ∃ h', CaloMatch inp' v t' h' := by
  rintro ⟨h, hc⟩
  obtain ⟨h', h1, -⟩ := calo_matched hem hem' hs hc.1
  exact ⟨h', (caloMatch_match hem hem' ht hs h1).mp hc⟩

omit hem hem' in
theorem charged_ids_match {t : Fin NT} {t' : Fin NT'} (ht : T t t') (hs : Match chargedReach (atTk inp t) inp inp' T H E M) :
    (IsMu inp t ↔ IsMu inp' t') ∧ (IsEle inp t ↔ IsEle inp' t') := by
  have h1 := cut84_le_756
  have h2 := Real.sqrt_nonneg 525
  have h3 := Real.sqrt_nonneg 756
  have h4 := Real.sqrt_nonneg 84
  have h5 : chargedReach = Real.sqrt 756 + Real.sqrt 525 + photonReach := rfl
  have h6 : photonReach = Real.sqrt 84 + 2 * muonReach := rfl
  exact ⟨isMu_match ht (hs.mono (by linarith)), isEle_match ht (hs.mono (by linarith))⟩

theorem kept_match {t : Fin NT} {t' : Fin NT'} (ht : T t t') (hs : Match chargedReach (atTk inp t) inp inp' T H E M) :
    Kept inp v t ↔ Kept inp' v t' := by
  obtain ⟨h1, h2⟩ := charged_ids_match ht hs
  have h3 : (∃ h, CaloMatch inp v t h) ↔ ∃ h', CaloMatch inp' v t' h' :=
    ⟨caloMatch_exists hem hem' ht hs, caloMatch_exists (T := fun b a => T a b) hem' hem ht (atTk_flip ht hs)⟩
  unfold Kept lowPt
  rw [h1, h2, h3, hs.eqT _ _ ht]

theorem chargedOut_match {t : Fin NT} {t' : Fin NT'} (ht : T t t') (hs : Match chargedReach (atTk inp t) inp inp' T H E M) :
    chargedOut inp v t = chargedOut inp' v t' := by
  obtain ⟨h1, h2⟩ := charged_ids_match ht hs
  unfold chargedOut
  simp only [kept_match hem hem' ht hs, h1, h2, hs.eqT _ _ ht]

theorem hadronTerm_match {h : Fin NC} {h' : Fin NC'} (hh : H h h') (hs : Match neutralReach (atHad inp h) inp inp' T H E M)
    (g : TkObj → Int) (hg : ∀ t : TkObj, t.hwPt.toInt = 0 → t.hwPtErr.toInt = 0 → g t = 0) {t : Fin NT}
    (h0 : (if HadronLink inp v t h then g (inp.track t) else 0) ≠ 0) :
    ∃ t', T t t' ∧ (if HadronLink inp' v t' h' then g (inp'.track t') else 0) = if HadronLink inp v t h then g (inp.track t) else 0 := by
  by_cases hl : HadronLink inp v t h
  · rw [if_pos hl] at h0 ⊢
    have h1 := gap_lt hl.1.1.2
    push_cast at h1
    have h1' : gap (atHad inp h) (atTk inp t) < Real.sqrt 756 := by rw [gap_symm]; exact h1
    have h4 : neutralReach = Real.sqrt 756 + chargedReach := rfl
    have h5 : chargedReach = Real.sqrt 756 + Real.sqrt 525 + photonReach := rfl
    have h6 := cut525_le
    have h7 := Real.sqrt_nonneg 525
    have h8 := Real.sqrt_nonneg 756
    obtain ⟨t', ht⟩ := (hs.near_track (t := t) (by linarith)).resolve_right fun h => h0 (hg _ h.1 h.2)
    have hs' := hs.move (q := atTk inp t) (r := chargedReach) (by linarith)
    obtain ⟨a, b⟩ := charged_ids_match ht hs'
    refine ⟨t', ht, ?_⟩
    rw [if_pos, hs.eqT _ _ ht]
    unfold HadronLink at hl ⊢
    rwa [← a, ← b, ← caloMatch_match hem hem' ht hs' hh]
  · rw [if_neg hl] at h0
    exact absurd rfl h0

theorem linkSum_match {h : Fin NC} {h' : Fin NC'} (hh : H h h') (hs : Match neutralReach (atHad inp h) inp inp' T H E M)
    (g : TkObj → Int) (hg : ∀ t : TkObj, t.hwPt.toInt = 0 → t.hwPtErr.toInt = 0 → g t = 0) :
    (∑ t, if HadronLink inp v t h then g (inp.track t) else 0) = ∑ t, if HadronLink inp' v t h' then g (inp'.track t) else 0 :=
  sum_match hs.ordT (fun _ h0 => hadronTerm_match hem hem' hh hs g hg h0)
    (fun _ h0 => hadronTerm_match (H := fun b a => H a b) hem' hem hh (atHad_flip hh hs) g hg h0)

theorem neutralPt_match {h : Fin NC} {h' : Fin NC'} (hh : H h h') (hs : Match neutralReach (atHad inp h) inp inp' T H E M) :
    neutralPt inp v h = neutralPt inp' v h' := by
  have e1 : caloTrackPt inp v h = caloTrackPt inp' v h' := linkSum_match hem hem' hh hs (fun t => t.hwPt.toInt) fun _ h _ => h
  have e2 : caloTrackErr2 inp v h = caloTrackErr2 inp' v h' :=
    linkSum_match hem hem' hh hs (fun t => t.hwPtErr.toInt ^ 2) fun _ _ h => by rw [h]; rfl
  have h8 := Real.sqrt_nonneg 756
  have h4 : neutralReach = Real.sqrt 756 + (Real.sqrt 756 + Real.sqrt 525 + photonReach) := rfl
  have e3 : hadPt inp v h = hadPt inp' v h' := hadPt_match hem hem' hh (hs.mono (by linarith))
  unfold neutralPt caloDiff
  rw [e1, e2, e3]

theorem neutralSeen_match {h : Fin NC} {h' : Fin NC'} (hh : H h h') (hs : Match neutralReach (atHad inp h) inp inp' T H E M) :
    neutralSeen inp v h = neutralSeen inp' v h' := by
  unfold neutralSeen
  rw [neutralPt_match hem hem' hh hs, hs.eqH _ _ hh]

omit hem hem' in
theorem muOut_match {m : Fin NM} {m' : Fin NM'} (hm : M m m') (hs : Match muonReach (atMu inp m) inp inp' T H E M)
    {o o' : PFChargedObj} (h : MuOut inp m o) (h' : MuOut inp' m' o') : o = o' := by
  by_cases he : ∃ t, MuMatch inp m t
  · obtain ⟨t, ht⟩ := he
    obtain ⟨t', htt⟩ := muMatch_matched hm hs ht
    rw [h.1 t ht, h'.1 t' ((muMatch_match hm hs htt).mp ht), hs.eqT _ _ htt]
  · rw [h.2 he, h'.2 fun ⟨t', ht⟩ => ?_]
    obtain ⟨t, htt⟩ := muMatch_matched (M := fun b a => M a b) hm (atMu_flip hm hs) ht
    exact he ⟨t, (muMatch_match hm hs htt).mpr ht⟩

end
end Verif.Spec
