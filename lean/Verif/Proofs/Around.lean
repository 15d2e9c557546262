import Verif.Spec.Around
import Verif.Proofs.Match
/-! # From lists to matchings and back -/
open Classical
namespace Verif.Spec

section
variable {n n' : Nat} {A B : Type}

/-- The slots whose objects satisfy `P`. -/
def slots (P : A → Bool) (a : Fin n → A) : List (Fin n) := (List.finRange n).filter fun i => P (a i)

theorem slots_sorted (P : A → Bool) (a : Fin n → A) : (slots P a).Pairwise (· < ·) :=
  (List.pairwise_lt_finRange n).filter _

theorem mem_slots {P : A → Bool} {a : Fin n → A} {i : Fin n} : i ∈ slots P a ↔ P (a i) = true := by
  unfold slots; simp

theorem filter_ofFn (P : A → Bool) (a : Fin n → A) : (List.ofFn a).filter P = (slots P a).map a := by
  rw [List.ofFn_eq_map, List.filter_map]; rfl

theorem sorted_getElem_lt {l : List (Fin n)} (h : l.Pairwise (· < ·)) {k m : Nat} (hk : k < l.length) (hm : m < l.length) :
    l[k] < l[m] ↔ k < m := by
  rw [List.pairwise_iff_getElem] at h
  constructor
  · intro hlt
    by_contra hc
    rcases Nat.lt_or_eq_of_le (Nat.le_of_not_lt hc) with h1 | h1
    · exact absurd (h m k hm hk h1) (lt_asymm hlt)
    · subst h1; exact absurd hlt (lt_irrefl _)
  · exact h k m hk hm

/-- Slots of the same rank among those that satisfy `P`. -/
def SameRank (P : A → Bool) (a : Fin n → A) (a' : Fin n' → A) (i : Fin n) (i' : Fin n') : Prop :=
  ∃ k : Nat, (slots P a)[k]? = some i ∧ (slots P a')[k]? = some i'

theorem sameRank_inOrder (P : A → Bool) (a : Fin n → A) (a' : Fin n' → A) : InOrder (SameRank P a a') := by
  rintro i i' j j' ⟨k, h1, h2⟩ ⟨m, h3, h4⟩
  obtain ⟨hk, rfl⟩ := List.getElem?_eq_some_iff.mp h1
  obtain ⟨hk', rfl⟩ := List.getElem?_eq_some_iff.mp h2
  obtain ⟨hm, rfl⟩ := List.getElem?_eq_some_iff.mp h3
  obtain ⟨hm', rfl⟩ := List.getElem?_eq_some_iff.mp h4
  rw [sorted_getElem_lt (slots_sorted P a) hk hm, sorted_getElem_lt (slots_sorted P a') hk' hm']

variable {P : A → Bool} {a : Fin n → A} {a' : Fin n' → A} (h : (List.ofFn a).filter P = (List.ofFn a').filter P)
include h

theorem sameRank_eq {i : Fin n} {i' : Fin n'} (hi : SameRank P a a' i i') : a i = a' i' := by
  obtain ⟨k, h1, h2⟩ := hi
  rw [filter_ofFn, filter_ofFn] at h
  have e := congrArg (fun l => l[k]?) h
  simp only [List.getElem?_map, h1, h2] at e
  exact Option.some.inj e

theorem sameRank_exists {i : Fin n} (hi : P (a i) = true) : ∃ i', SameRank P a a' i i' := by
  obtain ⟨k, hk, e⟩ := List.mem_iff_getElem.mp (mem_slots.mpr hi)
  rw [filter_ofFn, filter_ofFn] at h
  have hl := congrArg List.length h
  rw [List.length_map, List.length_map] at hl
  exact ⟨(slots P a')[k]'(by omega), k, List.getElem?_eq_some_iff.mpr ⟨hk, e⟩, List.getElem?_eq_getElem _⟩

theorem sameRank_exists' {i : Fin n'} (hi : P (a' i) = true) : ∃ i', SameRank P a a' i' i := by
  obtain ⟨k, j, h1, h2⟩ := sameRank_exists h.symm hi
  exact ⟨k, j, h2, h1⟩
end

theorem sorted_ext {n : Nat} {l l' : List (Fin n)} (h : l.Pairwise (· < ·)) (h' : l'.Pairwise (· < ·)) (he : ∀ i, i ∈ l ↔ i ∈ l') : l = l' := by
  have p : l.Perm l' := (List.perm_ext_iff_of_nodup (h.imp fun h => ne_of_lt h) (h'.imp fun h => ne_of_lt h)).mpr he
  exact p.eq_of_pairwise (fun a b _ _ h1 h2 => absurd h1 (lt_asymm h2)) h h'

/-- Matched slots with the same objects give the same list. -/
theorem filter_of_match {n n' : Nat} {B : Type} {T : Fin n → Fin n' → Prop} (hT : InOrder T) {Q : B → Bool} {b : Fin n → B} {b' : Fin n' → B}
    (h : ∀ i, Q (b i) = true → ∃ i', T i i' ∧ b' i' = b i) (h' : ∀ i', Q (b' i') = true → ∃ i, T i i' ∧ b i = b' i') :
    (List.ofFn b).filter Q = (List.ofFn b').filter Q := by
  rw [filter_ofFn, filter_ofFn]
  by_cases hn : n' = 0
  · subst hn
    have e1 : slots Q b' = [] := List.eq_nil_iff_forall_not_mem.mpr fun i => i.elim0
    have e2 : slots Q b = [] := List.eq_nil_iff_forall_not_mem.mpr fun i hi => by
      obtain ⟨i', -⟩ := h i (mem_slots.mp hi)
      exact i'.elim0
    rw [e1, e2]; rfl
  let g : Fin n → Fin n' := fun i => if hi : Q (b i) = true then (h i hi).choose else ⟨0, by omega⟩
  have hg : ∀ i, Q (b i) = true → T i (g i) ∧ b' (g i) = b i := fun i hi => by
    have e : g i = (h i hi).choose := dif_pos hi
    rw [e]
    exact (h i hi).choose_spec
  have e : slots Q b' = (slots Q b).map g := by
    apply sorted_ext (slots_sorted Q b')
    · rw [List.pairwise_map]
      refine (slots_sorted Q b).imp_of_mem fun {i j} hi hj hlt => ?_
      exact (hT _ _ _ _ (hg i (mem_slots.mp hi)).1 (hg j (mem_slots.mp hj)).1).mp hlt
    · intro i'
      rw [mem_slots, List.mem_map]
      constructor
      · intro hi'
        obtain ⟨i, h1, h2⟩ := h' i' hi'
        have hq : Q (b i) = true := by rw [h2]; exact hi'
        exact ⟨i, mem_slots.mpr hq, hT.right (hg i hq).1 h1⟩
      · rintro ⟨i, hi, rfl⟩
        rw [(hg i (mem_slots.mp hi)).2]
        exact mem_slots.mp hi
  rw [e, List.map_map]
  exact List.map_congr_left fun i hi => ((hg i (mem_slots.mp hi)).2).symm

/-! ### Events -/

section
variable {NT NC NE NM NT' NC' NE' NM' : Nat} {inp : PFInputs NT NC NE NM} {inp' : PFInputs NT' NC' NE' NM'}

theorem pt_zero {x : Pt} (h : x = 0) : x.toInt = 0 := by rw [h]; rfl
theorem pt_zero' {x : Pt} (h : x.toInt = 0) : x = 0 := BitVec.eq_of_toInt_eq (by rw [h]; rfl)

/-- The objects within `R` of `p` of one kind. -/
noncomputable def isAround {A : Type} (R : ℝ) (p : Dir) (null : A → Prop) (pos : A → Dir) (o : A) : Bool :=
  decide (¬ null o ∧ gap p (pos o) < R)

theorem isAround_iff {A : Type} {R : ℝ} {p : Dir} {null : A → Prop} {pos : A → Dir} {o : A} :
    isAround R p null pos o = true ↔ ¬ null o ∧ gap p (pos o) < R := by
  unfold isAround
  exact decide_eq_true_iff

noncomputable def tkAround (R : ℝ) (p : Dir) : TkObj → Bool := isAround R p (·.hwPt = 0) fun o => (o.hwEta, o.hwPhi)
noncomputable def hadAround (R : ℝ) (p : Dir) : HadCaloObj → Bool := isAround R p (·.hwPt = 0) fun o => (o.hwEta, o.hwPhi)
noncomputable def emAround (R : ℝ) (p : Dir) : EmCaloObj → Bool := isAround R p (·.hwPt = 0) fun o => (o.hwEta, o.hwPhi)
noncomputable def muAround (R : ℝ) (p : Dir) : MuObj → Bool := isAround R p (·.hwPt = 0) fun o => (o.hwEta, o.hwPhi)

theorem tkAround_iff {R : ℝ} {p : Dir} {o : TkObj} : tkAround R p o = true ↔ o.hwPt ≠ 0 ∧ gap p (o.hwEta, o.hwPhi) < R := by
  unfold tkAround
  exact isAround_iff
theorem hadAround_iff {R : ℝ} {p : Dir} {o : HadCaloObj} : hadAround R p o = true ↔ o.hwPt ≠ 0 ∧ gap p (o.hwEta, o.hwPhi) < R := by
  unfold hadAround
  exact isAround_iff
theorem emAround_iff {R : ℝ} {p : Dir} {o : EmCaloObj} : emAround R p o = true ↔ o.hwPt ≠ 0 ∧ gap p (o.hwEta, o.hwPhi) < R := by
  unfold emAround
  exact isAround_iff
theorem muAround_iff {R : ℝ} {p : Dir} {o : MuObj} : muAround R p o = true ↔ o.hwPt ≠ 0 ∧ gap p (o.hwEta, o.hwPhi) < R := by
  unfold muAround
  exact isAround_iff

/-- The first empty EM slot. -/
def FirstEmpty (inp : PFInputs NT NC NE NM) (e : Fin NE) : Prop := (inp.emcalo e).hwPt = 0 ∧ ∀ e' < e, (inp.emcalo e').hwPt ≠ 0

/-- EM slots of the same rank, and the first empty ones. -/
def EmPair (R : ℝ) (p : Dir) (inp : PFInputs NT NC NE NM) (inp' : PFInputs NT' NC' NE' NM') (e : Fin NE) (e' : Fin NE') : Prop :=
  SameRank (emAround R p) inp.emcalo inp'.emcalo e e' ∨ (FirstEmpty inp e ∧ FirstEmpty inp' e')

theorem sameRank_left {n n' : Nat} {A : Type} {P : A → Bool} {a : Fin n → A} {a' : Fin n' → A} {i : Fin n} {i' : Fin n'}
    (h : SameRank P a a' i i') : P (a i) = true := by
  obtain ⟨k, h, -⟩ := h
  exact mem_slots.mp (List.mem_of_getElem? h)
theorem sameRank_right {n n' : Nat} {A : Type} {P : A → Bool} {a : Fin n → A} {a' : Fin n' → A} {i : Fin n} {i' : Fin n'}
    (h : SameRank P a a' i i') : P (a' i') = true := by
  obtain ⟨k, -, h⟩ := h
  exact mem_slots.mp (List.mem_of_getElem? h)

theorem firstEmpty_exists (h : Packed inp) : ∃ e, FirstEmpty inp e := by
  obtain ⟨e, he⟩ := h.emFree
  induction e using WellFoundedLT.induction with
  | ind c ih =>
    by_cases hc : ∃ k < c, (inp.emcalo k).hwPt = 0
    · obtain ⟨k, h1, h2⟩ := hc
      exact ih k h1 h2
    · push Not at hc
      exact ⟨c, he, hc⟩

theorem before_empty (h : Packed inp) {R : ℝ} {p : Dir} {e e0 : Fin NE} (he : emAround R p (inp.emcalo e) = true) (h0 : FirstEmpty inp e0) :
    e < e0 := by
  by_contra hc
  exact (emAround_iff.mp he).1 (h.emLast e0 e (not_lt.mp hc) h0.1)

theorem firstEmpty_unique {e e' : Fin NE} (h : FirstEmpty inp e) (h' : FirstEmpty inp e') : e = e' := by
  rcases lt_trichotomy e e' with h1 | h1 | h1
  · exact absurd h.1 (h'.2 e h1)
  · exact h1
  · exact absurd h'.1 (h.2 e' h1)

theorem emPair_inOrder (hp : Packed inp) (hp' : Packed inp') (R : ℝ) (p : Dir) : InOrder (EmPair R p inp inp') := by
  rintro a b a' b' (h1 | h1) (h2 | h2)
  · exact sameRank_inOrder _ _ _ _ _ _ _ h1 h2
  · exact ⟨fun _ => before_empty hp' (sameRank_right h1) h2.2, fun _ => before_empty hp (sameRank_left h1) h2.1⟩
  · have k1 := before_empty hp' (sameRank_right h2) h1.2
    have k2 := before_empty hp (sameRank_left h2) h1.1
    exact ⟨fun h => absurd h (lt_asymm k2), fun h => absurd h (lt_asymm k1)⟩
  · rw [firstEmpty_unique h1.1 h2.1, firstEmpty_unique h1.2 h2.2]
    exact ⟨fun h => absurd h (lt_irrefl _), fun h => absurd h (lt_irrefl _)⟩

theorem em_cases (h : Packed inp) (hex : ∃ e, FirstEmpty inp' e) {R : ℝ} {p : Dir}
    (hs : (List.ofFn inp.emcalo).filter (emAround R p) = (List.ofFn inp'.emcalo).filter (emAround R p)) (e : Fin NE) :
    (∃ e', EmPair R p inp inp' e e') ∨ Shadow inp e ∨ EmOut R p (inp.emcalo e) := by
  by_cases h0 : (inp.emcalo e).hwPt = 0
  · by_cases h1 : ∃ k < e, (inp.emcalo k).hwPt = 0
    · obtain ⟨k, h2, h3⟩ := h1
      refine .inr (.inl ⟨pt_zero h0, k, h2, ?_⟩)
      rw [atEm, atEm, h.em e h0, h.em k h3]
    · push Not at h1
      obtain ⟨e', he'⟩ := hex
      exact .inl ⟨e', .inr ⟨⟨h0, h1⟩, he'⟩⟩
  · by_cases h1 : gap p ((inp.emcalo e).hwEta, (inp.emcalo e).hwPhi) < R
    · obtain ⟨e', h2⟩ := sameRank_exists hs (i := e) (emAround_iff.mpr ⟨h0, h1⟩)
      exact .inl ⟨e', .inl h2⟩
    · exact .inr (.inr (not_lt.mp h1))

/-- Events with the same objects around a point can be matched. -/
theorem match_of_around {R : ℝ} {p : Dir} (hp : Packed inp) (hp' : Packed inp') (h : SameAround R p inp inp') :
    Match R p inp inp' (SameRank (tkAround R p) inp.track inp'.track) (SameRank (hadAround R p) inp.hadcalo inp'.hadcalo)
      (EmPair R p inp inp') (SameRank (muAround R p) inp.mu inp'.mu) where
  ordT := sameRank_inOrder _ _ _
  ordH := sameRank_inOrder _ _ _
  ordE := emPair_inOrder hp hp' R p
  ordM := sameRank_inOrder _ _ _
  eqT _ _ hh := sameRank_eq (P := tkAround R p) h.track hh
  eqH _ _ hh := sameRank_eq (P := hadAround R p) h.had hh
  eqE a b hh := by
    rcases hh with hh | hh
    · exact sameRank_eq (P := emAround R p) h.em hh
    · rw [hp.em _ hh.1.1, hp'.em _ hh.2.1]
  eqM _ _ hh := sameRank_eq (P := muAround R p) h.mu hh
  track a := by
    by_cases h0 : (inp.track a).hwPt = 0
    · exact .inr (.inl ⟨pt_zero h0, pt_zero (hp.track a h0)⟩)
    · by_cases h1 : gap p ((inp.track a).hwEta, (inp.track a).hwPhi) < R
      · exact .inl (sameRank_exists (P := tkAround R p) h.track (tkAround_iff.mpr ⟨h0, h1⟩))
      · exact .inr (.inr (not_lt.mp h1))
  track' a := by
    by_cases h0 : (inp'.track a).hwPt = 0
    · exact .inr (.inl ⟨pt_zero h0, pt_zero (hp'.track a h0)⟩)
    · by_cases h1 : gap p ((inp'.track a).hwEta, (inp'.track a).hwPhi) < R
      · exact .inl (sameRank_exists' (P := tkAround R p) h.track (tkAround_iff.mpr ⟨h0, h1⟩))
      · exact .inr (.inr (not_lt.mp h1))
  had a := by
    by_cases h0 : (inp.hadcalo a).hwPt = 0
    · exact .inr (.inl ⟨pt_zero h0, pt_zero (hp.had a h0)⟩)
    · by_cases h1 : gap p ((inp.hadcalo a).hwEta, (inp.hadcalo a).hwPhi) < R
      · exact .inl (sameRank_exists (P := hadAround R p) h.had (hadAround_iff.mpr ⟨h0, h1⟩))
      · exact .inr (.inr (not_lt.mp h1))
  had' a := by
    by_cases h0 : (inp'.hadcalo a).hwPt = 0
    · exact .inr (.inl ⟨pt_zero h0, pt_zero (hp'.had a h0)⟩)
    · by_cases h1 : gap p ((inp'.hadcalo a).hwEta, (inp'.hadcalo a).hwPhi) < R
      · exact .inl (sameRank_exists' (P := hadAround R p) h.had (hadAround_iff.mpr ⟨h0, h1⟩))
      · exact .inr (.inr (not_lt.mp h1))
  em := em_cases (R := R) (p := p) hp (firstEmpty_exists hp') h.em
  em' e := by
    rcases em_cases (R := R) (p := p) hp' (firstEmpty_exists hp) h.em.symm e with ⟨k, (⟨m, h1, h2⟩ | h1)⟩ | h1
    · exact .inl ⟨k, .inl ⟨m, h2, h1⟩⟩
    · exact .inl ⟨k, .inr h1.symm⟩
    · exact .inr h1
  mu a := by
    by_cases h0 : (inp.mu a).hwPt = 0
    · exact .inr (.inl (pt_zero h0))
    · by_cases h1 : gap p ((inp.mu a).hwEta, (inp.mu a).hwPhi) < R
      · exact .inl (sameRank_exists (P := muAround R p) h.mu (muAround_iff.mpr ⟨h0, h1⟩))
      · exact .inr (.inr (not_lt.mp h1))
  mu' a := by
    by_cases h0 : (inp'.mu a).hwPt = 0
    · exact .inr (.inl (pt_zero h0))
    · by_cases h1 : gap p ((inp'.mu a).hwEta, (inp'.mu a).hwPhi) < R
      · exact .inl (sameRank_exists' (P := muAround R p) h.mu (muAround_iff.mpr ⟨h0, h1⟩))
      · exact .inr (.inr (not_lt.mp h1))

theorem SameAround.symm {R : ℝ} {p : Dir} (h : SameAround R p inp inp') : SameAround R p inp' inp :=
  ⟨h.track.symm, h.had.symm, h.em.symm, h.mu.symm⟩
end

end Verif.Spec
