import Verif.Props.GroupsList
/-! # Any number of isolated charged hadrons, from GeV and radians to GeV and radians: C114, continued -/
namespace Verif
open Spec Rounding
variable {NT NC NE NM NS : Nat} {R : Rounding}

theorem view_about {x y : PFParticle} (h : particleView x = particleView y) {id : Nat} {pt eta phi d : ℝ} (a : AboutParticle R x id pt eta phi d) :
    AboutParticle R y id pt eta phi d := by
  unfold particleView at h
  simp only [Prod.mk.injEq] at h
  obtain ⟨h1, h2, h3, h4, -⟩ := h
  refine ⟨h1 ▸ a.id, ?_, ?_, ?_⟩
  · rw [← BitVec.eq_of_toInt_eq h2]; exact a.pt
  · rw [← BitVec.eq_of_toInt_eq h3]; exact a.eta
  · rw [← BitVec.eq_of_toInt_eq h4]; exact a.phi

theorem view_track {x y : PFParticle} (h : particleView x = particleView y) {t : PropagatedTrack} (ht : 0 < t.hwPt.toInt) (e : x.track = t) : y.track = t := by
  unfold particleView at h
  simp only [Prod.mk.injEq] at h
  obtain ⟨-, -, -, -, h⟩ := h
  rw [e, if_pos ht] at h
  split at h
  · exact (Option.some.inj h).symm
  · exact absurd h (by simp)

theorem view_charge {x y : PFParticle} (h : particleView x = particleView y) : pfCharge x = pfCharge y := by
  unfold particleView at h
  simp only [Prod.mk.injEq] at h
  obtain ⟨-, -, -, -, h⟩ := h
  unfold pfCharge
  by_cases h1 : 0 < x.track.hwPt.toInt <;> by_cases h2 : 0 < y.track.hwPt.toInt
  · rw [if_pos h1, if_pos h2] at h
    rw [Option.some.inj h]
  · rw [if_pos h1, if_neg h2] at h
    exact absurd h (by simp)
  · rw [if_neg h1, if_pos h2] at h
    exact absurd h (by simp)
  · rw [if_neg h1, if_neg h2]

theorem views_gives (A : IEEE R) (a : Hadron R) {l l' : List PFParticle} (h : l.map particleView = l'.map particleView) (g : GivesHadron a l) : GivesHadron a l' := by
  have hp := (a.T.facts A).2.1 a.hpt
  constructor
  · intro hx
    obtain ⟨x, rfl, b, c⟩ := g.none hx
    obtain ⟨y, rfl, e⟩ := views_one h.symm
    exact ⟨y, rfl, view_about e.symm b, view_track e.symm hp c⟩
  · intro hx
    obtain ⟨x, z, rfl, b, c, b', c'⟩ := g.excess hx
    obtain ⟨y, w, rfl, e, e'⟩ := views_two h.symm
    exact ⟨y, w, rfl, view_about e.symm b, view_track e.symm hp c, view_about e'.symm b', (view_charge e').trans c'⟩

/-- The group of a hadron. -/
def hadronGroup {n : Nat} (hT : n ≤ NT) (hC : n ≤ NC) (i : Fin n) : Group NT NC NE NM := ⟨some (i.castLE hT), some (i.castLE hC), none, none⟩

theorem padded_slot {A B C : Type} {N : Nat} (conv : A → B) (z : B) (l : List C) (f : C → A) (i : Fin N) :
    padded N conv z (l.map f) i = if h : i.val < l.length then conv (f l[i.val]) else z := by
  unfold padded
  by_cases h : i.val < l.length
  · rw [dif_pos h, List.getElem?_eq_getElem (by simpa using h)]
    simp
  · rw [dif_neg h, List.getElem?_eq_none (by simpa using h)]

section
variable {r : InputRegion} {hs : List (Hadron R)} (H : HadronRegion r hs)
include H

theorem hadron_track (k : Fin NT) : (regionInputs NT NC NE NM r).track k = if h : k.val < hs.length then fw_track hs[k.val].t else TkObj.clear := by
  show padded _ _ _ _ _ = _
  rw [H.track, padded_slot]

theorem hadron_calo (k : Fin NC) : (regionInputs NT NC NE NM r).hadcalo k = if h : k.val < hs.length then fw_had hs[k.val].h else HadCaloObj.clear := by
  show padded _ _ _ _ _ = _
  rw [H.calo, padded_slot]

theorem hadron_em (k : Fin NE) : (regionInputs NT NC NE NM r).emcalo k = EmCaloObj.clear := by
  show padded _ _ _ _ _ = _
  rw [H.em]; rfl

theorem hadron_mu (k : Fin NM) : (regionInputs NT NC NE NM r).mu k = MuObj.clear := by
  show padded _ _ _ _ _ = _
  rw [H.mu]; rfl

theorem hadron_trackPt (A : IEEE R) (k : Fin NT) : ((regionInputs NT NC NE NM r).track k).hwPt.toInt ≠ 0 ↔ k.val < hs.length := by
  rw [hadron_track H]
  by_cases h : k.val < hs.length
  · rw [dif_pos h]
    refine ⟨fun _ => h, fun _ => ?_⟩
    have := ((hs[k.val].T).facts A).2.1 hs[k.val].hpt
    unfold fw_track
    simp only [fw_pt]
    omega
  · rw [dif_neg h]
    exact ⟨fun x => absurd rfl x, fun x => absurd x h⟩

theorem hadron_caloPt (A : IEEE R) (k : Fin NC) : ((regionInputs NT NC NE NM r).hadcalo k).hwPt.toInt ≠ 0 ↔ k.val < hs.length := by
  rw [hadron_calo H]
  by_cases h : k.val < hs.length
  · rw [dif_pos h]
    refine ⟨fun _ => h, fun _ => ?_⟩
    have := ((hs[k.val].H).facts A).2.1 hs[k.val].hQ
    unfold fw_had
    simp only [fw_pt]
    omega
  · rw [dif_neg h]
    exact ⟨fun x => absurd rfl x, fun x => absurd x h⟩

end

/-- The directions of a region of hadrons; empty slots stand at the centre. -/
noncomputable def hadronDirections (NT NC NE NM : Nat) (hs : List (Hadron R)) : Directions NT NC NE NM where
  track := fun k => if h : k.val < hs.length then hs[k.val].dir else (0, 0)
  had := fun k => if h : k.val < hs.length then hs[k.val].dirQ else (0, 0)
  em := fun _ => (0, 0)
  mu := fun _ => (0, 0)

theorem hadron_directions (A : IEEE R) {r : InputRegion} {hs : List (Hadron R)} (H : HadronRegion r hs) :
    HasDirections (regionInputs NT NC NE NM r) (hadronDirections NT NC NE NM hs) := by
  refine ⟨fun k => ?_, fun k => ?_, fun k => ?_, fun k => ?_⟩
  · rw [hadron_track H]
    unfold hadronDirections
    by_cases h : k.val < hs.length
    · simp only [dif_pos h]; exact (hs[k.val].T.facts A).2.2.2
    · simp only [dif_neg h]; exact stands_centre
  · rw [hadron_calo H]
    unfold hadronDirections
    by_cases h : k.val < hs.length
    · simp only [dif_pos h]; exact (hs[k.val].H.facts A).2.2.2.2.2.2.1
    · simp only [dif_neg h]; exact stands_centre
  · rw [hadron_em H]; exact stands_centre
  · rw [hadron_mu H]; exact stands_centre

theorem hadron_slots (A : IEEE R) {r : InputRegion} {hs : List (Hadron R)} (H : HadronRegion r hs) : EmptySlots (regionInputs NT NC NE NM r) := by
  constructor
  · intro k h0
    have : ¬ k.val < hs.length := fun h => (hadron_trackPt H A k).mpr h h0
    rw [hadron_track H, dif_neg this]
    decide
  · intro k h0
    have : ¬ k.val < hs.length := fun h => (hadron_caloPt H A k).mpr h h0
    rw [hadron_calo H, dif_neg this]
    decide

theorem hadron_apart (A : IEEE R) {r : InputRegion} {hs : List (Hadron R)} (H : HadronRegion r hs) (hT : hs.length ≤ NT) (hC : hs.length ≤ NC) (i : Fin hs.length) :
    Filled (regionInputs NT NC NE NM r) (hadronGroup hT hC i) ∧
    ApartR (regionInputs NT NC NE NM r) (hadronDirections NT NC NE NM hs) (hadronGroup hT hC i) := by
  have it : ∀ k, (hadronGroup (NE := NE) (NM := NM) hT hC i).track = some k → k.val = i.val := fun k h => by
    rw [← Option.some.inj h]; rfl
  have ih : ∀ k, (hadronGroup (NE := NE) (NM := NM) hT hC i).had = some k → k.val = i.val := fun k h => by
    rw [← Option.some.inj h]; rfl
  have it' : ∀ k : Fin NT, k.val = i.val → (hadronGroup (NE := NE) (NM := NM) hT hC i).track = some k := fun k h => congrArg some (Fin.ext h.symm)
  have ih' : ∀ k : Fin NC, k.val = i.val → (hadronGroup (NE := NE) (NM := NM) hT hC i).had = some k := fun k h => congrArg some (Fin.ext h.symm)
  refine ⟨⟨fun k h => (hadron_trackPt H A k).mpr (by rw [it k h]; exact i.2), fun k h => (hadron_caloPt H A k).mpr (by rw [ih k h]; exact i.2), fun m h => absurd h (by simp [hadronGroup])⟩,
    ⟨fun m t _ h _ => absurd (by rw [hadron_mu H]; decide) h, fun t e x _ => ?_, fun e h x _ => ?_, fun t h x a b => ?_⟩⟩
  · rcases x with x | x
    · have := it t x.1
      have hl : t.val < hs.length := by rw [this]; exact i.2
      show _ ≤ deltaR (dite _ _ _) (0, 0)
      rw [dif_pos hl]
      exact (H.centre _ (List.getElem_mem hl)).1
    · exact absurd x.1 (by simp [hadronGroup])
  · rcases x with x | x
    · exact absurd x.1 (by simp [hadronGroup])
    · have := ih h x.1
      have hl : h.val < hs.length := by rw [this]; exact i.2
      show _ ≤ deltaR (0, 0) (dite _ _ _)
      rw [dif_pos hl]
      exact (H.centre _ (List.getElem_mem hl)).2
  · have a' := (hadron_trackPt H A t).mp a
    have b' := (hadron_caloPt H A h).mp b
    show _ ≤ deltaR (dite _ _ _) (dite _ _ _)
    rw [dif_pos a', dif_pos b']
    refine H.apart _ _ a' b' fun e => ?_
    rcases x with x | x
    · exact x.2 (ih' h (e ▸ it t x.1))
    · exact x.2 (it' t (e.trans (ih h x.1)))

theorem hadron_groups (A : IEEE R) {r : InputRegion} {hs : List (Hadron R)} (H : HadronRegion r hs) (hT : hs.length ≤ NT) (hC : hs.length ≤ NC)
    (hp : Physical (regionInputs NT NC NE NM r)) : RegionGroups NT NC NE NM r (List.ofFn (hadronGroup hT hC)) := by
  refine ⟨hp, (hadron_slots A H).track, ?_, fun g hg => ?_⟩
  · constructor
    · exact fun t h => ⟨_, List.mem_ofFn.mpr ⟨⟨t.val, (hadron_trackPt H A t).mp h⟩, rfl⟩, rfl⟩
    · exact fun t h => ⟨_, List.mem_ofFn.mpr ⟨⟨t.val, (hadron_caloPt H A t).mp h⟩, rfl⟩, rfl⟩
    · exact fun e h => absurd (by rw [hadron_em H]; decide) h
    · exact fun m h => absurd h (by rw [hadron_mu H]; decide)
    · rw [List.ofFn_eq_map, List.filterMap_map, show (Group.track ∘ hadronGroup (NE := NE) (NM := NM) hT hC) = some ∘ Fin.castLE hT from rfl, List.filterMap_eq_map]
      exact (List.nodup_finRange _).map (Fin.castLE_injective hT)
    · rw [List.ofFn_eq_map, List.filterMap_map, show (Group.had ∘ hadronGroup (NE := NE) (NM := NM) hT hC) = some ∘ Fin.castLE hC from rfl, List.filterMap_eq_map]
      exact (List.nodup_finRange _).map (Fin.castLE_injective hC)
    · rw [List.ofFn_eq_map, List.filterMap_map, show (Group.em ∘ hadronGroup (NE := NE) (NM := NM) hT hC) = fun _ => none from rfl]
      simp
    · rw [List.ofFn_eq_map, List.filterMap_map, show (Group.mu ∘ hadronGroup (NE := NE) (NM := NM) hT hC) = fun _ => none from rfl]
      simp
  · obtain ⟨i, rfl⟩ := List.mem_ofFn.mp hg
    obtain ⟨f, a⟩ := hadron_apart (NE := NE) (NM := NM) A H hT hC i
    exact apart_alone (hadron_directions A H) (hadron_slots A H) f a

theorem sum_slots {A : Type} (f : A → ℝ) : ∀ {N : Nat} {l : List A}, l.length ≤ N → ∑ k : Fin N, (l[k.val]?.elim 0 f) = (l.map f).sum
  | N, [], _ => by simp
  | 0, a :: l, h => absurd h (by simp)
  | N + 1, a :: l, h => by
    rw [Fin.sum_univ_succ, List.map_cons, List.sum_cons, ← sum_slots f (N := N) (by simpa using h)]
    simp

/-- The sums of pts and of squared errors of the tracks fit their registers. -/
theorem hadron_physical (A : IEEE R) {r : InputRegion} {hs : List (Hadron R)} (H : HadronRegion r hs) (hT : hs.length ≤ NT)
    (hpt : (hs.map fun a => a.pt + 1 / 8).sum ≤ 8191) (herr : (hs.map fun a => (a.err + 1 / 8) ^ 2).sum ≤ 89478485) : Physical (regionInputs NT NC NE NM r) := by
  have tk : ∀ k : Fin NT, 0 ≤ ((regionInputs NT NC NE NM r).track k).hwPt.toInt ∧ 0 ≤ ((regionInputs NT NC NE NM r).track k).hwPtErr.toInt ∧
      ((regionInputs NT NC NE NM r).track k).hwPtErr.toInt ≤ 16384 ∧
      (((regionInputs NT NC NE NM r).track k).hwPt.toInt : ℝ) ≤ hs[k.val]?.elim 0 (fun a => 4 * (a.pt + 1 / 8)) ∧
      (((regionInputs NT NC NE NM r).track k).hwPtErr.toInt : ℝ) ^ 2 ≤ hs[k.val]?.elim 0 (fun a => 16 * (a.err + 1 / 8) ^ 2) := fun k => by
    rw [hadron_track H]
    by_cases h : k.val < hs.length
    · rw [dif_pos h, List.getElem?_eq_getElem h]
      generalize hs[k.val] = a
      obtain ⟨t1, t2, t3, -⟩ := a.T.facts A
      have e1 : (fw_track a.t).hwPt.toInt = a.t.hwPt.toInt := fw_pt _
      have e2 : (fw_track a.t).hwPtErr.toInt = a.t.hwCaloPtErr.toInt := fw_pt _
      have n0 := round_nonneg t3 a.herr.1
      have n0' : (0 : ℝ) ≤ a.t.hwCaloPtErr.toInt := by exact_mod_cast n0
      obtain ⟨a1, a2⟩ := abs_le.mp t1
      obtain ⟨b1, b2⟩ := abs_le.mp t3
      rw [e1, e2]
      refine ⟨(t2 a.hpt).le, n0, ?_, ?_, ?_⟩
      · have : (a.t.hwCaloPtErr.toInt : ℝ) ≤ 16384 := by linarith [a.herr.2]
        exact_mod_cast this
      · show _ ≤ 4 * (a.pt + 1 / 8)
        linarith
      · show _ ≤ 16 * (a.err + 1 / 8) ^ 2
        nlinarith
    · rw [dif_neg h, List.getElem?_eq_none (by omega)]
      exact ⟨by decide, by decide, by decide, by simp [TkObj.clear], by simp [TkObj.clear]⟩
  have hd : ∀ k : Fin NC, 0 ≤ ((regionInputs NT NC NE NM r).hadcalo k).hwPt.toInt ∧ 0 ≤ ((regionInputs NT NC NE NM r).hadcalo k).hwEmPt.toInt := fun k => by
    rw [hadron_calo H]
    by_cases h : k.val < hs.length
    · rw [dif_pos h]
      generalize hs[k.val] = a
      obtain ⟨h1, h2, h3, -⟩ := a.H.facts A
      have e1 : (fw_had a.h).hwPt.toInt = a.h.hwPt.toInt := fw_pt _
      have e2 : (fw_had a.h).hwEmPt.toInt = a.h.hwEmPt.toInt := fw_pt _
      rw [e1, e2]
      exact ⟨(h2 a.hQ).le, round_nonneg h3 a.hemQ⟩
    · rw [dif_neg h]; decide
  refine ⟨fun k => (tk k).1, fun k => (tk k).2.1, fun k => (tk k).2.2.1, fun k => by rw [hadron_em H]; decide, fun k => by rw [hadron_em H]; decide, fun k => (hd k).1, fun k => (hd k).2, ?_, ?_, ?_⟩
  · have s := Finset.sum_le_sum fun k (_ : k ∈ Finset.univ) => (tk k).2.2.2.1
    rw [sum_slots _ hT] at s
    have e : (hs.map fun a => 4 * (a.pt + 1 / 8)).sum = 4 * (hs.map fun a => a.pt + 1 / 8).sum := List.sum_map_mul_left ..
    rw [e] at s
    have : ((∑ k : Fin NT, ((regionInputs NT NC NE NM r).track k).hwPt.toInt : ℤ) : ℝ) ≤ 32767 := by
      push_cast
      linarith
    exact_mod_cast this
  · rw [Finset.sum_eq_zero fun k _ => by rw [hadron_em H]; decide]
    decide
  · have s := Finset.sum_le_sum fun k (_ : k ∈ Finset.univ) => (tk k).2.2.2.2
    rw [sum_slots _ hT] at s
    have e : (hs.map fun a => 16 * (a.err + 1 / 8) ^ 2).sum = 16 * (hs.map fun a => (a.err + 1 / 8) ^ 2).sum := List.sum_map_mul_left ..
    rw [e] at s
    have : ((3 * ∑ k : Fin NT, ((regionInputs NT NC NE NM r).track k).hwPtErr.toInt ^ 2 : ℤ) : ℝ) ≤ 2 * 2147483647 := by
      push_cast
      linarith
    exact_mod_cast this

/-- **C114.** Any number of isolated charged hadrons, from GeV and radians to GeV and radians: firmware and reference give each of them with its pt, direction and
track, a neutral hadron for each with a clear excess in its cluster, and nothing else. -/
theorem C114_hadrons (A : IEEE R) {r : InputRegion} {hs : List (Hadron R)} (H : HadronRegion r hs) (hT : hs.length ≤ NT) (hC : hs.length ≤ NC) (hN : NC ≤ NS)
    (hpt : (hs.map fun a => a.pt + 1 / 8).sum ≤ 8191) (herr : (hs.map fun a => (a.err + 1 / 8) ^ 2).sum ≤ 89478485) :
    RegionGives NT NC NE NM NS r fun l => ∃ ls, l.Perm ls.flatten ∧ List.Forall₂ GivesHadron hs ls := by
  have hp := hadron_physical (NC := NC) (NE := NE) (NM := NM) A H hT hpt herr
  have G := hadron_groups (NE := NE) (NM := NM) A H hT hC hp
  have inj : ∀ i j, hadronGroup (NE := NE) (NM := NM) hT hC i = hadronGroup hT hC j → i = j := fun i j h =>
    Fin.castLE_injective hT (Option.some.inj (congrArg Group.track h))
  have region : ∀ i : Fin hs.length, (groupRegion r (hadronGroup (NE := NE) (NM := NM) hT hC i)).track = [hs[i.val].t] ∧
      (groupRegion r (hadronGroup (NE := NE) (NM := NM) hT hC i)).calo = [hs[i.val].h] := fun i => by
    unfold groupRegion groupTrack hadronGroup
    simp [H.track, H.calo]
  have R1 := C114_regions (NS := NS) G hN (P := fun g l => ∀ i, g = hadronGroup hT hC i → GivesHadron hs[i.val] l) (fun g hg => by
      obtain ⟨i, rfl⟩ := List.mem_ofFn.mp hg
      refine ⟨by rw [(region i).1]; simp, Nat.zero_le _, by rw [(region i).2]; simp, Nat.zero_le _, fun t ht => ?_, fun _ h => absurd rfl h⟩
      rw [(region i).1] at ht
      rw [List.mem_singleton.mp ht]
      exact (hs[i.val].T.facts A).2.1 hs[i.val].hpt)
    (fun g l l' h k i e => views_gives A _ h (k i e)) (fun g hg => by
      obtain ⟨i, rfl⟩ := List.mem_ofFn.mp hg
      generalize ha : hs[i.val] = a
      have hcl := H.clear a (ha ▸ List.getElem_mem i.2)
      obtain ⟨c1, c2⟩ := C108_hadron (NT := 1) (NC := 1) (NE := 1) (NM := 1) (NS := 1) A (region i).1 rfl rfl (region i).2 hs[i.val].T hs[i.val].H
        Nat.one_pos Nat.one_pos Nat.one_pos Nat.one_pos Nat.one_pos
        hs[i.val].hpt hs[i.val].herr hs[i.val].hQ hs[i.val].hemQ hs[i.val].hem hs[i.val].low hs[i.val].near
      rw [ha] at c1 c2
      have herr := a.herr.1
      rcases hcl with hx | hx
      · refine regionGives_mono (c1 hx) fun l hl j e => ?_
        obtain rfl := inj _ _ e
        rw [ha]
        exact ⟨fun _ => hl, fun hy => absurd hx (by norm_num at hy ⊢; linarith)⟩
      · refine regionGives_mono (c2 hx) fun l hl j e => ?_
        obtain rfl := inj _ _ e
        rw [ha]
        exact ⟨fun hy => absurd hx (by norm_num at hy ⊢; linarith), fun _ => hl⟩)
  refine regionGives_mono R1 fun l ⟨ls, p, f⟩ => ⟨ls, p, ?_⟩
  rw [List.forall₂_iff_get] at f ⊢
  obtain ⟨f1, f2⟩ := f
  rw [List.length_ofFn] at f1
  refine ⟨f1, fun k a b => ?_⟩
  exact f2 k (by rwa [List.length_ofFn]) b ⟨k, a⟩ (by simp)

/-! ### A case -/

/-- A hadron of 30 GeV with this direction and a cluster of `Q` GeV. -/
theorem hadron_case (A : IEEE R) {Q eta : ℝ} (hQ : IsFloat Q ∧ |Q| ≤ 8191) (hQ' : 30 ≤ Q) (he : |eta| ≤ 1.1) :
    ∃ a : Hadron R, a.pt = 30 ∧ a.err = 4 ∧ a.Q = Q ∧ a.dir = (eta, 0.25) ∧ a.dirQ = (eta, 0.25) := by
  have f30 : IsFloat (30 : ℝ) ∧ |(30 : ℝ)| ≤ 8191 := ⟨⟨30, 0, by norm_num, by norm_num, by norm_num, by norm_num⟩, by norm_num [abs_of_pos]⟩
  have f4 : IsFloat (4 : ℝ) ∧ |(4 : ℝ)| ≤ 8191 := ⟨⟨4, 0, by norm_num, by norm_num, by norm_num, by norm_num⟩, by norm_num [abs_of_pos]⟩
  have e2 : |(0.25 : ℝ)| ≤ 1.1 := by norm_num [abs_of_pos]
  have F : ∀ x ∈ [Q, 4, 4], IsFloat x ∧ |x| ≤ 8191 := by
    intro x hx
    simp only [List.mem_cons, List.not_mem_nil, or_false] at hx
    rcases hx with rfl | rfl | rfl <;> assumption
  have G : ∀ x ∈ [(30 : ℝ), 4], IsFloat x ∧ |x| ≤ 8191 := by
    intro x hx
    simp only [List.mem_cons, List.not_mem_nil, or_false] at hx
    rcases hx with rfl | rfl <;> assumption
  have G3 : ∀ x ∈ [(30 : ℝ), 4, 4], IsFloat x ∧ |x| ≤ 8191 := by
    intro x hx
    simp only [List.mem_cons, List.not_mem_nil, or_false] at hx
    rcases hx with rfl | rfl | rfl <;> assumption
  obtain ⟨h, hh, -⟩ := C61_cluster A (eta := eta) (phi := 0.25) false 0 F (he.trans (by norm_num)) (e2.trans (by norm_num))
  obtain ⟨t, ht, -⟩ := C61_propagated A Dump.zero (eta := eta) (phi := 0.25) 0 G3 (he.trans (by norm_num)) (e2.trans (by norm_num))
  exact ⟨⟨t, h, 30, 4, (eta, 0.25), Q, 4, 4, (eta, 0.25), false, ⟨⟨_, 4, 0, f4.1, f4.2, ht⟩, G, he, e2⟩, ⟨⟨0, hh⟩, F, he, e2⟩, by norm_num, by norm_num,
    by linarith, by norm_num, by simp, by norm_num; linarith, by simp [deltaR]; norm_num⟩, rfl, rfl, rfl, rfl, rfl⟩

/-- Two hadrons of 30 GeV, one with a cluster of 40 GeV and one with a cluster of 30 GeV: two charged hadrons and a neutral one. -/
example (A : IEEE R) : ∃ r : InputRegion, RegionGives 22 15 13 2 20 r fun l => ∃ x y z, l.Perm [x, y, z] ∧ AboutParticle R x 0 30 0.5 0.25 (1 / 8) ∧
    AboutParticle R y 2 10 0.5 0.25 (1 / 4) ∧ AboutParticle R z 0 30 (-0.5) 0.25 (1 / 8) := by
  have f40 : IsFloat (40 : ℝ) ∧ |(40 : ℝ)| ≤ 8191 := ⟨⟨40, 0, by norm_num, by norm_num, by norm_num, by norm_num⟩, by norm_num [abs_of_pos]⟩
  have f30 : IsFloat (30 : ℝ) ∧ |(30 : ℝ)| ≤ 8191 := ⟨⟨30, 0, by norm_num, by norm_num, by norm_num, by norm_num⟩, by norm_num [abs_of_pos]⟩
  obtain ⟨a, a1, a2, a3, a4, a5⟩ := hadron_case A f40 (by norm_num) (eta := 0.5) (by norm_num [abs_of_pos])
  obtain ⟨b, b1, b2, b3, b4, b5⟩ := hadron_case A f30 (by norm_num) (eta := -0.5) (by norm_num [abs_of_pos])
  have ca : 1.23 * a.err + 0.41 ≤ a.Q - a.pt := by rw [a1, a2, a3]; norm_num
  have cb : b.Q - b.pt ≤ 1.22 * b.err - 0.41 := by rw [b1, b2, b3]; norm_num
  have H : HadronRegion ⟨0, 0, 0, 0, 0, 0, 0, [a.h, b.h], [], [a.t, b.t], []⟩ [a, b] := by
    refine ⟨rfl, rfl, rfl, rfl, ?_, ?_, ?_⟩
    · intro c hc
      simp only [List.mem_cons, List.not_mem_nil, or_false] at hc
      rcases hc with rfl | rfl
      · exact .inr ca
      · exact .inl cb
    · intro i j hi hj hij
      simp only [List.length_cons, List.length_nil] at hi hj
      obtain ⟨rfl, rfl⟩ | ⟨rfl, rfl⟩ : (i = 0 ∧ j = 1) ∨ (i = 1 ∧ j = 0) := by omega
      · show _ ≤ deltaR a.dir b.dirQ
        rw [a4, b5]
        exact Real.le_sqrt_of_sq_le (by norm_num)
      · show _ ≤ deltaR b.dir a.dirQ
        rw [b4, a5]
        exact Real.le_sqrt_of_sq_le (by norm_num)
    · intro c hc
      simp only [List.mem_cons, List.not_mem_nil, or_false] at hc
      rcases hc with rfl | rfl
      · rw [a4, a5]
        exact ⟨Real.le_sqrt_of_sq_le (by norm_num), Real.le_sqrt_of_sq_le (by norm_num)⟩
      · rw [b4, b5]
        exact ⟨Real.le_sqrt_of_sq_le (by norm_num), Real.le_sqrt_of_sq_le (by norm_num)⟩
  refine ⟨_, regionGives_mono (C114_hadrons A H (by simp) (by simp) (by norm_num) (by simp [a1, b1]; norm_num) (by simp [a2, b2]; norm_num)) ?_⟩
  rintro l ⟨ls, p, f⟩
  obtain ⟨la, ls', ga, f', rfl⟩ := List.forall₂_cons_left_iff.mp f
  obtain ⟨lb, ls'', gb, f'', rfl⟩ := List.forall₂_cons_left_iff.mp f'
  obtain rfl := List.forall₂_nil_left_iff.mp f''
  obtain ⟨x, y, rfl, hx, -, hy, -⟩ := ga.excess ca
  obtain ⟨z, rfl, hz, -⟩ := gb.none cb
  rw [a1, a4] at hx
  rw [a1, a3, a5] at hy
  rw [b1, b4] at hz
  have e : (40 - 30 : ℝ) = 10 := by norm_num
  rw [e] at hy
  exact ⟨x, y, z, by simpa using p, hx, hy, hz⟩

end Verif
