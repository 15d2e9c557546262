import Verif.Spec.Influence
import Verif.Proofs.PFPart
import Mathlib.Tactic.Linarith
import Mathlib.Tactic.NormNum
import Mathlib.Tactic.Ring
/-! # Particle flow on events that agree around a point -/
open Classical
open scoped BigOperators
namespace Verif.Spec
variable {NT NC NE NM : Nat}

/-! ### The distance -/

theorem circ_abs_symm (x y : EtaPhi) : |circ x y| = |circ y x| := by
  unfold circ
  rw [Int.bmod_def, Int.bmod_def]
  split <;> split <;> (rw [abs_eq_abs]; omega)

theorem circ_triangle (x y z : EtaPhi) : |circ x z| ≤ |circ x y| + |circ y z| := by
  unfold circ
  rw [Int.bmod_def, Int.bmod_def, Int.bmod_def]
  rcases abs_cases (if (x.toInt - y.toInt) % (1024 : ℕ) < ((1024 : ℕ) + 1) / 2 then (x.toInt - y.toInt) % (1024 : ℕ) else (x.toInt - y.toInt) % (1024 : ℕ) - (1024 : ℕ)) with h1 | h1 <;>
  rcases abs_cases (if (y.toInt - z.toInt) % (1024 : ℕ) < ((1024 : ℕ) + 1) / 2 then (y.toInt - z.toInt) % (1024 : ℕ) else (y.toInt - z.toInt) % (1024 : ℕ) - (1024 : ℕ)) with h2 | h2 <;>
  rw [h1.1, h2.1, abs_le] <;> split <;> split at h1 <;> split at h2 <;> omega

theorem sqrt_triangle {a b c d e f : ℝ} (h1 : |a| ≤ |b| + |c|) (h2 : |d| ≤ |e| + |f|) :
    Real.sqrt (a ^ 2 + d ^ 2) ≤ Real.sqrt (b ^ 2 + e ^ 2) + Real.sqrt (c ^ 2 + f ^ 2) := by
  have hs := Real.sqrt_nonneg (b ^ 2 + e ^ 2)
  have ht := Real.sqrt_nonneg (c ^ 2 + f ^ 2)
  have hs2 := Real.sq_sqrt (show 0 ≤ b ^ 2 + e ^ 2 by positivity)
  have ht2 := Real.sq_sqrt (show 0 ≤ c ^ 2 + f ^ 2 by positivity)
  set s := Real.sqrt (b ^ 2 + e ^ 2)
  set t := Real.sqrt (c ^ 2 + f ^ 2)
  have hst : |b| * |c| + |e| * |f| ≤ s * t := by
    apply le_of_sq_le_sq _ (mul_nonneg hs ht)
    rw [mul_pow, hs2, ht2, ← sq_abs b, ← sq_abs c, ← sq_abs e, ← sq_abs f]
    nlinarith [sq_nonneg (|b| * |f| - |c| * |e|)]
  apply Real.sqrt_le_iff.mpr
  refine ⟨by linarith, ?_⟩
  have ha : a ^ 2 ≤ (|b| + |c|) ^ 2 := by rw [← sq_abs a]; exact pow_le_pow_left₀ (abs_nonneg a) h1 2
  have hd : d ^ 2 ≤ (|e| + |f|) ^ 2 := by rw [← sq_abs d]; exact pow_le_pow_left₀ (abs_nonneg d) h2 2
  have : (s + t) ^ 2 = (|b| ^ 2 + |e| ^ 2) + (|c| ^ 2 + |f| ^ 2) + 2 * (s * t) := by
    rw [sq_abs, sq_abs, sq_abs, sq_abs, ← hs2, ← ht2]; ring
  nlinarith

theorem gap_symm (p q : Dir) : gap p q = gap q p := by
  unfold gap dist2
  rw [← sq_abs (circ p.1 q.1), ← sq_abs (circ p.2 q.2), circ_abs_symm p.1, circ_abs_symm p.2, sq_abs, sq_abs]

theorem gap_triangle (p q r : Dir) : gap p r ≤ gap p q + gap q r := by
  unfold gap dist2
  push_cast
  apply sqrt_triangle <;> exact_mod_cast circ_triangle _ _ _

theorem gap_lt {a b c d : EtaPhi} {D : Int} (h : dist2 a b c d < D) : gap (a, b) (c, d) < Real.sqrt D := by
  unfold gap
  apply Real.sqrt_lt_sqrt
  · have : 0 ≤ dist2 a b c d := by unfold dist2; positivity
    exact_mod_cast this
  · exact_mod_cast h

theorem gap_le {a b c d : EtaPhi} {D : Int} (h : dist2 a b c d ≤ D) : gap (a, b) (c, d) ≤ Real.sqrt D := by
  unfold gap
  exact Real.sqrt_le_sqrt (by exact_mod_cast h)

/-! ### Moving the point -/

section
variable {R r : ℝ} {p q : Dir} {inp inp' : PFInputs NT NC NE NM}

theorem SameWithin.symm (h : SameWithin R p inp inp') : SameWithin R p inp' inp where
  track t := (h.track t).imp Eq.symm And.symm
  had t := (h.had t).imp Eq.symm And.symm
  em t := (h.em t).imp Eq.symm And.symm
  mu t := (h.mu t).imp Eq.symm And.symm

theorem out_move (hR : gap p q + r ≤ R) {x : Dir} (h : R ≤ gap p x) : r ≤ gap q x := by
  have := gap_triangle p q x
  linarith

theorem SameWithin.move (h : SameWithin R p inp inp') (hR : gap p q + r ≤ R) : SameWithin r q inp inp' where
  track t := (h.track t).imp_right (And.imp (Or.imp_right (out_move hR)) (Or.imp_right (out_move hR)))
  had t := (h.had t).imp_right (And.imp (Or.imp_right (out_move hR)) (Or.imp_right (out_move hR)))
  em t := (h.em t).imp_right (And.imp (out_move hR) (out_move hR))
  mu t := (h.mu t).imp_right (And.imp (Or.imp_right (out_move hR)) (Or.imp_right (out_move hR)))

theorem SameWithin.mono (h : SameWithin R p inp inp') (hR : r ≤ R) : SameWithin r p inp inp' := by
  refine h.move ?_
  have : gap p p = 0 := by unfold gap dist2 circ; simp
  linarith

theorem SameWithin.near_track (h : SameWithin R p inp inp') {t : Fin NT} (ht : gap p ((inp.track t).hwEta, (inp.track t).hwPhi) < R) :
    inp.track t = inp'.track t ∨ ((inp.track t).hwPt.toInt = 0 ∧ (inp.track t).hwPtErr.toInt = 0) := by
  rcases h.track t with h | h
  · exact .inl h
  · exact .inr (h.1.resolve_right (not_le.mpr ht))
theorem SameWithin.near_had (h : SameWithin R p inp inp') {t : Fin NC} (ht : gap p ((inp.hadcalo t).hwEta, (inp.hadcalo t).hwPhi) < R) :
    inp.hadcalo t = inp'.hadcalo t ∨ ((inp.hadcalo t).hwPt.toInt = 0 ∧ (inp.hadcalo t).hwEmPt.toInt = 0) := by
  rcases h.had t with h | h
  · exact .inl h
  · exact .inr (h.1.resolve_right (not_le.mpr ht))
theorem SameWithin.near_mu (h : SameWithin R p inp inp') {t : Fin NM} (ht : gap p ((inp.mu t).hwEta, (inp.mu t).hwPhi) < R) :
    inp.mu t = inp'.mu t ∨ (inp.mu t).hwPt.toInt = 0 := by
  rcases h.mu t with h | h
  · exact .inl h
  · exact .inr (h.1.resolve_right (not_le.mpr ht))
theorem SameWithin.near_em (h : SameWithin R p inp inp') {t : Fin NE} (ht : gap p ((inp.emcalo t).hwEta, (inp.emcalo t).hwPhi) < R) :
    inp.emcalo t = inp'.emcalo t := by
  rcases h.em t with h | h
  · exact h
  · exact absurd h.1 (not_le.mpr ht)
end

/-! ### Link by link -/

theorem firstMin_congr {n : Nat} {P P' : Fin n → Prop} {f f' : Fin n → Int} (h : ∀ j, P j → P' j ∧ f' j = f j)
    (h' : ∀ j, P' j → P j ∧ f j = f' j) (i : Fin n) : FirstMin P f i ↔ FirstMin P' f' i := by
  constructor
  · rintro ⟨hi, hm⟩
    refine ⟨(h i hi).1, fun j hj => ?_⟩
    obtain ⟨a, b⟩ := h' j hj
    rw [(h i hi).2, ← b]
    exact hm j a
  · rintro ⟨hi, hm⟩
    refine ⟨(h' i hi).1, fun j hj => ?_⟩
    obtain ⟨a, b⟩ := h j hj
    rw [(h' i hi).2, ← b]
    exact hm j a

noncomputable section
/-- Position of a track, of a cluster, of a muon. -/
abbrev atTk (inp : PFInputs NT NC NE NM) (t : Fin NT) : Dir := ((inp.track t).hwEta, (inp.track t).hwPhi)
abbrev atHad (inp : PFInputs NT NC NE NM) (t : Fin NC) : Dir := ((inp.hadcalo t).hwEta, (inp.hadcalo t).hwPhi)
abbrev atEm (inp : PFInputs NT NC NE NM) (t : Fin NE) : Dir := ((inp.emcalo t).hwEta, (inp.emcalo t).hwPhi)
abbrev atMu (inp : PFInputs NT NC NE NM) (t : Fin NM) : Dir := ((inp.mu t).hwEta, (inp.mu t).hwPhi)
end

section
variable {R : ℝ} {inp inp' : PFInputs NT NC NE NM} {v : Variant}

theorem muCand_near {m : Fin NM} (hm : inp.mu m = inp'.mu m) (hs : SameWithin muonReach (atMu inp m) inp inp')
    (hpos : 0 < (inp.mu m).hwPt.toInt) {t : Fin NT} (h : muDist2 inp m t < 2101 ∧ muDpt inp m t < (inp.mu m).hwPt.toInt / 2) :
    inp.track t = inp'.track t := by
  have h1 := gap_lt h.1
  push_cast at h1
  rcases hs.near_track h1 with h2 | h2
  · exact h2
  · have h3 := h.2
    unfold muDpt at h3
    rw [h2.1] at h3
    omega

theorem muCand_imp {m : Fin NM} (hm : inp.mu m = inp'.mu m) (hs : SameWithin muonReach (atMu inp m) inp inp')
    (hpos : 0 < (inp.mu m).hwPt.toInt) {t : Fin NT} (h : muDist2 inp m t < 2101 ∧ muDpt inp m t < (inp.mu m).hwPt.toInt / 2) :
    (muDist2 inp' m t < 2101 ∧ muDpt inp' m t < (inp'.mu m).hwPt.toInt / 2) ∧ muDpt inp' m t = muDpt inp m t := by
  have := muCand_near hm hs hpos h
  unfold muDist2 muDpt at *
  rw [← hm, ← this]
  exact ⟨h, rfl⟩

theorem muMatch_within {m : Fin NM} (hm : inp.mu m = inp'.mu m) (hs : SameWithin muonReach (atMu inp m) inp inp') (t : Fin NT) :
    MuMatch inp m t ↔ MuMatch inp' m t := by
  have hs' : SameWithin muonReach (atMu inp' m) inp' inp := by rw [show atMu inp' m = atMu inp m by simp [atMu, hm]]; exact hs.symm
  unfold MuMatch
  have e : (inp'.mu m).hwPt.toInt = (inp.mu m).hwPt.toInt := by rw [hm]
  rw [show (0 < (inp'.mu m).hwPt.toInt) = (0 < (inp.mu m).hwPt.toInt) by rw [e]]
  refine and_congr_right fun hpos => firstMin_congr (fun j hj => muCand_imp hm hs hpos hj)
    (fun j hj => muCand_imp hm.symm hs' (by rw [e]; exact hpos) hj) t

theorem muMatch_near {m : Fin NM} (hm : inp.mu m = inp'.mu m) (hs : SameWithin muonReach (atMu inp m) inp inp') {t : Fin NT}
    (h : MuMatch inp m t) : inp.track t = inp'.track t := muCand_near hm hs h.1 h.2.1

theorem isMu_imp {t : Fin NT} (ht : inp.track t = inp'.track t) (hs : SameWithin (2 * muonReach) (atTk inp t) inp inp')
    (h : IsMu inp t) : IsMu inp' t := by
  obtain ⟨m, hm⟩ := h
  have h1 := gap_lt hm.2.1.1
  push_cast at h1
  have h1' : gap (atTk inp t) (atMu inp m) < muonReach := by rw [gap_symm]; exact h1
  have h0 : 0 ≤ muonReach := Real.sqrt_nonneg _
  have hmu : inp.mu m = inp'.mu m := by
    rcases hs.near_mu (t := m) (by show gap (atTk inp t) (atMu inp m) < _; linarith) with h | h
    · exact h
    · have := hm.1; omega
  exact ⟨m, (muMatch_within hmu (hs.move (by linarith)) t).mp hm⟩

theorem atTk_symm {t : Fin NT} (ht : inp.track t = inp'.track t) (hs : SameWithin R (atTk inp t) inp inp') :
    SameWithin R (atTk inp' t) inp' inp := by
  rw [show atTk inp' t = atTk inp t by simp [atTk, ht]]; exact hs.symm
theorem atEm_symm {t : Fin NE} (ht : inp.emcalo t = inp'.emcalo t) (hs : SameWithin R (atEm inp t) inp inp') :
    SameWithin R (atEm inp' t) inp' inp := by
  rw [show atEm inp' t = atEm inp t by simp [atEm, ht]]; exact hs.symm
theorem atHad_symm {t : Fin NC} (ht : inp.hadcalo t = inp'.hadcalo t) (hs : SameWithin R (atHad inp t) inp inp') :
    SameWithin R (atHad inp' t) inp' inp := by
  rw [show atHad inp' t = atHad inp t by simp [atHad, ht]]; exact hs.symm

theorem isMu_within {t : Fin NT} (ht : inp.track t = inp'.track t) (hs : SameWithin (2 * muonReach) (atTk inp t) inp inp') :
    IsMu inp t ↔ IsMu inp' t := ⟨isMu_imp ht hs, isMu_imp ht.symm (atTk_symm ht hs)⟩

/-! Numerical comparisons of the cuts. -/
theorem cut84_le : Real.sqrt 84 ≤ 2 * muonReach := by
  have : Real.sqrt 84 ≤ muonReach := Real.sqrt_le_sqrt (by norm_num)
  have : 0 ≤ muonReach := Real.sqrt_nonneg _
  linarith
theorem cut525_le : Real.sqrt 525 ≤ photonReach := by
  have : Real.sqrt 525 ≤ Real.sqrt 2101 := Real.sqrt_le_sqrt (by norm_num)
  have := Real.sqrt_nonneg 84
  have := Real.sqrt_nonneg 2101
  unfold photonReach; linarith
theorem cut84_le_756 : Real.sqrt 84 ≤ Real.sqrt 756 := Real.sqrt_le_sqrt (by norm_num)

theorem emCand_near {t : Fin NT} (hs : SameWithin (2 * muonReach) (atTk inp t) inp inp')
    {c : Fin NE} (h : tkEmDist2 inp t c < 84) : inp.emcalo c = inp'.emcalo c := by
  have h1 := gap_lt h
  push_cast at h1
  exact hs.near_em (lt_of_lt_of_le h1 cut84_le)

theorem emCand_imp {t : Fin NT} (ht : inp.track t = inp'.track t) (hs : SameWithin (2 * muonReach) (atTk inp t) inp inp')
    {c : Fin NE} (h : tkEmDist2 inp t c < 84) : tkEmDist2 inp' t c < 84 ∧ tkEmDist2 inp' t c = tkEmDist2 inp t c := by
  have := emCand_near hs h
  unfold tkEmDist2 at *
  rw [← ht, ← this]
  exact ⟨h, rfl⟩

theorem emMatch_within {t : Fin NT} (ht : inp.track t = inp'.track t) (hs : SameWithin (2 * muonReach) (atTk inp t) inp inp')
    (c : Fin NE) : EmMatch inp t c ↔ EmMatch inp' t c := by
  unfold EmMatch
  rw [isMu_within ht hs]
  exact and_congr_right fun _ => firstMin_congr (fun j hj => emCand_imp ht hs hj)
    (fun j hj => emCand_imp ht.symm (atTk_symm ht hs) hj) c

theorem emTerm_imp {c : Fin NE} (hs : SameWithin photonReach (atEm inp c) inp inp') {t : Fin NT}
    (h : EmMatch inp t c) : (inp.track t).hwPt.toInt = 0 ∨ (EmMatch inp' t c ∧ inp.track t = inp'.track t) := by
  have h1 := gap_lt h.2.1
  push_cast at h1
  have h1' : gap (atEm inp c) (atTk inp t) < Real.sqrt 84 := by rw [gap_symm]; exact h1
  have h2 : 0 ≤ muonReach := Real.sqrt_nonneg _
  have h3 : photonReach = Real.sqrt 84 + 2 * muonReach := rfl
  rcases hs.near_track (t := t) (by show gap (atEm inp c) (atTk inp t) < _; linarith) with h | h'
  · exact .inr ⟨(emMatch_within h (hs.move (by linarith)) c).mp ‹_›, h⟩
  · exact .inl h'.1

theorem emTrackPt_within {c : Fin NE} (hc : inp.emcalo c = inp'.emcalo c) (hs : SameWithin photonReach (atEm inp c) inp inp') :
    emTrackPt inp c = emTrackPt inp' c := by
  refine Finset.sum_congr rfl fun t _ => ?_
  by_cases h : EmMatch inp t c
  · rw [if_pos h]
    rcases emTerm_imp hs h with h0 | ⟨h1, h2⟩
    · rw [h0]
      by_cases h' : EmMatch inp' t c
      · rw [if_pos h']
        rcases emTerm_imp (atEm_symm hc hs) h' with h0' | ⟨-, h2⟩
        · exact h0'.symm
        · rw [h2, h0]
      · rw [if_neg h']
    · rw [if_pos h1, h2]
  · rw [if_neg h]
    by_cases h' : EmMatch inp' t c
    · rw [if_pos h']
      rcases emTerm_imp (atEm_symm hc hs) h' with h0' | ⟨h1, -⟩
      · exact h0'.symm
      · exact absurd h1 h
    · rw [if_neg h']

theorem isEM_within {c : Fin NE} (hc : inp.emcalo c = inp'.emcalo c) (hs : SameWithin photonReach (atEm inp c) inp inp') :
    IsEM inp c ↔ IsEM inp' c := by
  unfold IsEM emDiff emErr2; rw [emTrackPt_within hc hs, hc]

theorem photonPt_within {c : Fin NE} (hc : inp.emcalo c = inp'.emcalo c) (hs : SameWithin photonReach (atEm inp c) inp inp') :
    photonPt inp c = photonPt inp' c := by
  unfold photonPt emDiff emErr2; rw [emTrackPt_within hc hs, hc]

theorem isEle_imp {t : Fin NT} (ht : inp.track t = inp'.track t) (hs : SameWithin (Real.sqrt 84 + photonReach) (atTk inp t) inp inp')
    (h : IsEle inp t) : IsEle inp' t := by
  obtain ⟨c, hc, he⟩ := h
  have h1 := gap_lt hc.2.1
  push_cast at h1
  have h3 : photonReach = Real.sqrt 84 + 2 * muonReach := rfl
  have h4 := Real.sqrt_nonneg 84
  have hs2 : SameWithin (2 * muonReach) (atTk inp t) inp inp' := hs.mono (by linarith)
  have hec := emCand_near hs2 hc.2.1
  exact ⟨c, (emMatch_within ht hs2 c).mp hc, (isEM_within hec (hs.move (by show gap (atTk inp t) (atEm inp c) + _ ≤ _; linarith))).mp he⟩

theorem isEle_within {t : Fin NT} (ht : inp.track t = inp'.track t) (hs : SameWithin (Real.sqrt 84 + photonReach) (atTk inp t) inp inp') :
    IsEle inp t ↔ IsEle inp' t := ⟨isEle_imp ht hs, isEle_imp ht.symm (atTk_symm ht hs)⟩

theorem hadCand_imp {e : Fin NE} (he : inp.emcalo e = inp'.emcalo e) (hs : SameWithin (Real.sqrt 525) (atEm inp e) inp inp')
    (hem : ∀ c, 0 ≤ (inp.emcalo c).hwPt.toInt) {h : Fin NC}
    (hh : (inp.emcalo e).hwPt.toInt / 2 < (inp.hadcalo h).hwEmPt.toInt ∧ emHadDist2 inp e h < 525) :
    ((inp'.emcalo e).hwPt.toInt / 2 < (inp'.hadcalo h).hwEmPt.toInt ∧ emHadDist2 inp' e h < 525) ∧
      emHadDist2 inp' e h = emHadDist2 inp e h := by
  have h1 := gap_lt hh.2
  push_cast at h1
  have heq : inp.hadcalo h = inp'.hadcalo h := by
    rcases hs.near_had h1 with h | h
    · exact h
    · have := hem e
      have := hh.1
      omega
  unfold emHadDist2 at *
  rw [← he, ← heq]
  exact ⟨hh, rfl⟩

variable (hem : ∀ c, 0 ≤ (inp.emcalo c).hwPt.toInt) (hem' : ∀ c, 0 ≤ (inp'.emcalo c).hwPt.toInt)
include hem hem'

theorem hadMatch_within {e : Fin NE} (he : inp.emcalo e = inp'.emcalo e) (hs : SameWithin (Real.sqrt 525) (atEm inp e) inp inp')
    (h : Fin NC) : HadMatch inp e h ↔ HadMatch inp' e h :=
  firstMin_congr (fun _ hj => hadCand_imp he hs hem hj) (fun _ hj => hadCand_imp he.symm (atEm_symm he hs) hem' hj) h

theorem hadLink_imp {h : Fin NC} (hs : SameWithin (Real.sqrt 525 + photonReach) (atHad inp h) inp inp') {e : Fin NE}
    (hm : HadMatch inp e h) : inp.emcalo e = inp'.emcalo e ∧ HadMatch inp' e h ∧ (IsEM inp e ↔ IsEM inp' e) := by
  have h1 := gap_lt hm.1.2
  push_cast at h1
  have h1' : gap (atHad inp h) (atEm inp e) < Real.sqrt 525 := by rw [gap_symm]; exact h1
  have h2 := cut525_le
  have h3 := Real.sqrt_nonneg 525
  have hee : inp.emcalo e = inp'.emcalo e := hs.near_em (by show gap (atHad inp h) (atEm inp e) < _; linarith)
  exact ⟨hee, (hadMatch_within hem hem' hee (hs.move (by linarith)) h).mp hm, isEM_within hee (hs.move (by linarith))⟩

theorem hadLink_within {h : Fin NC} (hh : inp.hadcalo h = inp'.hadcalo h)
    (hs : SameWithin (Real.sqrt 525 + photonReach) (atHad inp h) inp inp') (e : Fin NE) :
    (HadMatch inp e h ∧ inp.emcalo e = inp'.emcalo e ∧ HadMatch inp' e h ∧ (IsEM inp e ↔ IsEM inp' e)) ∨
      (¬ HadMatch inp e h ∧ ¬ HadMatch inp' e h) := by
  by_cases h1 : HadMatch inp e h
  · exact .inl ⟨h1, hadLink_imp hem hem' hs h1⟩
  · refine .inr ⟨h1, fun h2 => h1 ?_⟩
    exact (hadLink_imp hem' hem (atHad_symm hh hs) h2).2.1

theorem emSub_within {h : Fin NC} (hh : inp.hadcalo h = inp'.hadcalo h)
    (hs : SameWithin (Real.sqrt 525 + photonReach) (atHad inp h) inp inp') : emSub inp h = emSub inp' h := by
  refine Finset.sum_congr rfl fun e _ => ?_
  rcases hadLink_within hem hem' hh hs e with ⟨h1, h2, h3, h4⟩ | ⟨h1, h2⟩
  · simp only [h1, h3, true_and, h4, h2]
  · rw [if_neg fun h => h1 h.1, if_neg fun h => h2 h.1]

theorem hasHadronicEM_within {h : Fin NC} (hh : inp.hadcalo h = inp'.hadcalo h)
    (hs : SameWithin (Real.sqrt 525 + photonReach) (atHad inp h) inp inp') : HasHadronicEM inp h ↔ HasHadronicEM inp' h := by
  refine exists_congr fun e => ?_
  rcases hadLink_within hem hem' hh hs e with ⟨h1, h2, h3, h4⟩ | ⟨h1, h2⟩
  · simp only [h1, h3, true_and, h4]
  · simp only [h1, h2, false_and]

theorem hadPt_within {h : Fin NC} (hh : inp.hadcalo h = inp'.hadcalo h)
    (hs : SameWithin (Real.sqrt 525 + photonReach) (atHad inp h) inp inp') : hadPt inp v h = hadPt inp' v h := by
  unfold hadPt Removed
  rw [hasHadronicEM_within hem hem' hh hs, emSub_within hem hem' hh hs, hh]

theorem calo_near {t : Fin NT} (hs : SameWithin chargedReach (atTk inp t) inp inp') {h : Fin NC}
    (hc : Compatible inp v t h) : inp.hadcalo h = inp'.hadcalo h ∧ hadPt inp v h = hadPt inp' v h := by
  have h1 := gap_lt hc.2
  push_cast at h1
  have h1' : gap (atTk inp t) (atHad inp h) < Real.sqrt 756 := h1
  have h2 := cut525_le
  have h3 := Real.sqrt_nonneg 525
  have h4 : chargedReach = Real.sqrt 756 + Real.sqrt 525 + photonReach := rfl
  have heq : inp.hadcalo h = inp'.hadcalo h := by
    rcases hs.near_had (t := h) (by show gap (atTk inp t) (atHad inp h) < _; linarith) with h' | h'
    · exact h'
    · have h5 := hc.1
      have h6 := hadPt_le (v := v) hem h
      rw [h'.1] at h6
      omega
  exact ⟨heq, hadPt_within hem hem' heq (hs.move (by linarith))⟩

theorem compatible_imp {t : Fin NT} (ht : inp.track t = inp'.track t) (hs : SameWithin chargedReach (atTk inp t) inp inp') {h : Fin NC}
    (hc : Compatible inp v t h) : Compatible inp' v t h ∧ metric inp' v t h = metric inp v t h := by
  obtain ⟨h1, h2⟩ := calo_near hem hem' hs hc
  unfold Compatible metric tkHadDist2 at *
  rw [← ht, ← h1, ← h2]
  exact ⟨hc, rfl⟩

theorem caloMatch_within {t : Fin NT} (ht : inp.track t = inp'.track t) (hs : SameWithin chargedReach (atTk inp t) inp inp') (h : Fin NC) :
    CaloMatch inp v t h ↔ CaloMatch inp' v t h :=
  firstMin_congr (fun _ hj => compatible_imp hem hem' ht hs hj) (fun _ hj => compatible_imp hem' hem ht.symm (atTk_symm ht hs) hj) h

omit hem hem' in
theorem charged_ids {t : Fin NT} (ht : inp.track t = inp'.track t) (hs : SameWithin chargedReach (atTk inp t) inp inp') :
    (IsMu inp t ↔ IsMu inp' t) ∧ (IsEle inp t ↔ IsEle inp' t) := by
  have h1 := cut84_le_756
  have h2 := Real.sqrt_nonneg 525
  have h3 := Real.sqrt_nonneg 756
  have h4 := Real.sqrt_nonneg 84
  have h5 : chargedReach = Real.sqrt 756 + Real.sqrt 525 + photonReach := rfl
  have h6 : photonReach = Real.sqrt 84 + 2 * muonReach := rfl
  exact ⟨isMu_within ht (hs.mono (by linarith)), isEle_within ht (hs.mono (by linarith))⟩

theorem kept_within {t : Fin NT} (ht : inp.track t = inp'.track t) (hs : SameWithin chargedReach (atTk inp t) inp inp') :
    Kept inp v t ↔ Kept inp' v t := by
  obtain ⟨h1, h2⟩ := charged_ids ht hs
  unfold Kept lowPt
  simp only [h1, h2, ht, caloMatch_within hem hem' ht hs]

theorem chargedOut_within {t : Fin NT} (ht : inp.track t = inp'.track t) (hs : SameWithin chargedReach (atTk inp t) inp inp') :
    chargedOut inp v t = chargedOut inp' v t := by
  obtain ⟨h1, h2⟩ := charged_ids ht hs
  unfold chargedOut
  simp only [kept_within hem hem' ht hs, h1, h2, ht]

theorem hadronLink_imp {h : Fin NC} (hs : SameWithin neutralReach (atHad inp h) inp inp') {t : Fin NT}
    (hl : HadronLink inp v t h) :
    ((inp.track t).hwPt.toInt = 0 ∧ (inp.track t).hwPtErr.toInt = 0) ∨ (HadronLink inp' v t h ∧ inp.track t = inp'.track t) := by
  have h1 := gap_lt hl.1.1.2
  push_cast at h1
  have h1' : gap (atHad inp h) (atTk inp t) < Real.sqrt 756 := by rw [gap_symm]; exact h1
  have h4 : neutralReach = Real.sqrt 756 + chargedReach := rfl
  have h5 : chargedReach = Real.sqrt 756 + Real.sqrt 525 + photonReach := rfl
  have h6 := cut525_le
  have h7 := Real.sqrt_nonneg 525
  have h8 := Real.sqrt_nonneg 756
  rcases hs.near_track (t := t) (by show gap (atHad inp h) (atTk inp t) < _; linarith) with h' | h'
  · have hs' := hs.move (q := atTk inp t) (r := chargedReach) (by linarith)
    obtain ⟨a, b⟩ := charged_ids h' hs'
    refine .inr ⟨?_, h'⟩
    unfold HadronLink at hl ⊢
    rwa [← a, ← b, ← caloMatch_within hem hem' h' hs']
  · exact .inl h'

theorem linkSum_within {h : Fin NC} (hh : inp.hadcalo h = inp'.hadcalo h) (hs : SameWithin neutralReach (atHad inp h) inp inp')
    (g : TkObj → Int) (hg : ∀ t : TkObj, t.hwPt.toInt = 0 → t.hwPtErr.toInt = 0 → g t = 0) :
    (∑ t, if HadronLink inp v t h then g (inp.track t) else 0) = ∑ t, if HadronLink inp' v t h then g (inp'.track t) else 0 := by
  refine Finset.sum_congr rfl fun t _ => ?_
  by_cases h1 : HadronLink inp v t h
  · rw [if_pos h1]
    rcases hadronLink_imp hem hem' hs h1 with h0 | ⟨h1, h2⟩
    · rw [hg _ h0.1 h0.2]
      by_cases h' : HadronLink inp' v t h
      · rw [if_pos h']
        rcases hadronLink_imp hem' hem (atHad_symm hh hs) h' with h0' | ⟨-, h2⟩
        · rw [hg _ h0'.1 h0'.2]
        · rw [h2, hg _ h0.1 h0.2]
      · rw [if_neg h']
    · rw [if_pos h1, h2]
  · rw [if_neg h1]
    by_cases h' : HadronLink inp' v t h
    · rw [if_pos h']
      rcases hadronLink_imp hem' hem (atHad_symm hh hs) h' with h0' | ⟨h2, -⟩
      · rw [hg _ h0'.1 h0'.2]
      · exact absurd h2 h1
    · rw [if_neg h']

theorem neutralPt_within {h : Fin NC} (hh : inp.hadcalo h = inp'.hadcalo h) (hs : SameWithin neutralReach (atHad inp h) inp inp') :
    neutralPt inp v h = neutralPt inp' v h := by
  have e1 : caloTrackPt inp v h = caloTrackPt inp' v h := linkSum_within hem hem' hh hs (fun t => t.hwPt.toInt) fun _ h _ => h
  have e2 : caloTrackErr2 inp v h = caloTrackErr2 inp' v h :=
    linkSum_within hem hem' hh hs (fun t => t.hwPtErr.toInt ^ 2) fun _ _ h => by rw [h]; rfl
  have h8 := Real.sqrt_nonneg 756
  have h4 : neutralReach = Real.sqrt 756 + (Real.sqrt 756 + Real.sqrt 525 + photonReach) := rfl
  have e3 : hadPt inp v h = hadPt inp' v h := hadPt_within hem hem' hh (hs.mono (by linarith))
  unfold neutralPt caloDiff
  rw [e1, e2, e3]

theorem neutralSeen_within {h : Fin NC} (hh : inp.hadcalo h = inp'.hadcalo h) (hs : SameWithin neutralReach (atHad inp h) inp inp') :
    neutralSeen inp v h = neutralSeen inp' v h := by
  unfold neutralSeen
  rw [neutralPt_within hem hem' hh hs, hh]

omit hem hem' in
theorem muOut_within {m : Fin NM} (hm : inp.mu m = inp'.mu m) (hs : SameWithin muonReach (atMu inp m) inp inp')
    {o o' : PFChargedObj} (h : MuOut inp m o) (h' : MuOut inp' m o') : o = o' := by
  by_cases he : ∃ t, MuMatch inp m t
  · obtain ⟨t, ht⟩ := he
    rw [h.1 t ht, h'.1 t ((muMatch_within hm hs t).mp ht), muMatch_near hm hs ht]
  · rw [h.2 he, h'.2 fun ⟨t, ht⟩ => he ⟨t, (muMatch_within hm hs t).mpr ht⟩]

end
end Verif.Spec
