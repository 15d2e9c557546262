import Verif.Spec.GroupsCones
import Verif.Props.GroupsPuppi
import Verif.Props.Cones
/-! # Well separated particles in radians: C113 -/
namespace Verif
open Spec
variable {NT NC NE NM NS : Nat} {inp : PFInputs NT NC NE NM} {d : Directions NT NC NE NM} {g : Group NT NC NE NM}

theorem xor_or {a b : Prop} (ha : a) : b ∨ Xor' a b := by
  by_cases h : b
  · exact .inl h
  · exact .inr (.inl ⟨ha, h⟩)

theorem xor_or' {a b : Prop} (hb : b) : a ∨ Xor' a b := by
  by_cases h : a
  · exact .inl h
  · exact .inr (.inr ⟨hb, h⟩)

theorem apart_alone (H : HasDirections inp d) (he : EmptySlots inp) (hf : Filled inp g) (ha : ApartR inp d g) : Alone refVariant inp g := by
  obtain ⟨l1, l2, l3, l4⟩ := C93_links H
  constructor
  · intro m t hm hd
    rcases xor_or (b := g.track = some t) hm with h | h
    · exact .inl h
    · refine .inr (by_contra fun z => ?_)
      exact absurd ((l1 m t).1 hd) (not_lt.mpr (ha.muTk m t h (hf.mu m hm) z))
  · intro m t ht hd
    rcases xor_or' (a := g.mu = some m) ht with h | h
    · exact .inl h
    · refine .inr (by_contra fun z => ?_)
      exact absurd ((l1 m t).1 hd) (not_lt.mpr (ha.muTk m t h z (hf.track t ht)))
  · intro t e ht hd
    rcases xor_or (b := g.em = some e) ht with h | h
    · exact h
    · exact absurd ((l2 t e).1 hd) (not_lt.mpr (ha.tkEm t e h (hf.track t ht)))
  · intro t e hm hd
    rcases xor_or' (a := g.track = some t) hm with h | h
    · exact .inl h
    · refine .inr (by_contra fun z => ?_)
      exact absurd ((l2 t e).1 hd) (not_lt.mpr (ha.tkEm t e h z))
  · intro e k hm hd
    rcases xor_or (b := g.had = some k) hm with h | h
    · exact .inl h
    · refine .inr (by_contra fun z => ?_)
      exact absurd ((l3 e k).1 hd) (not_lt.mpr (ha.emHad e k h fun y => z (he.had k y)))
  · intro e k hm hd
    rcases xor_or' (a := g.em = some e) hm with h | h
    · exact .inl h
    · exact absurd ((l3 e k).1 hd) (not_lt.mpr (ha.emHad e k h (hf.had k hm)))
  · intro t k hm hd
    rcases xor_or (b := g.had = some k) hm with h | h
    · exact .inl h
    · refine .inr (by_contra fun z => ?_)
      exact absurd ((l4 t k).1 hd) (not_lt.mpr (ha.tkHad t k h (hf.track t hm) z))
  · intro t k hm hd
    rcases xor_or' (a := g.track = some t) hm with h | h
    · exact .inl h
    · refine .inr (by_contra fun z => ?_)
      have z' : (inp.track t).hwPt.toInt ≠ 0 := fun y => z ⟨y, he.track t y⟩
      exact absurd ((l4 t k).1 hd) (not_lt.mpr (ha.tkHad t k h z' (hf.had k hm)))

/-- **C113.** C110 with the separation of the groups in radians, for objects whose words are rounded directions: firmware and reference. -/
theorem C113_radians {gs : List (Group NT NC NE NM)} (H : HasDirections inp d) (hp : Physical inp) (he : EmptySlots inp) (hg : Grouped inp gs)
    (hf : ∀ g ∈ gs, Filled inp g) (ha : ∀ g ∈ gs, ApartR inp d g) :
    (∀ (old : PFOutputs NT NE NS NM) (mem : PFScratch NC NS), ∃ out, pfalgo3_full inp old mem = .ok out ∧ SumOfGroups inp gs out) ∧
    ∀ (old : PFOutputs NT NE NS NM) (mem : Arr NC PFNeutralObj), ∃ out, pfalgo3_full_ref inp old mem = .ok out ∧ SumOfGroups inp gs out := by
  have h : ∀ g ∈ gs, Alone refVariant inp g := fun g k => apart_alone H he (hf g k) (ha g k)
  have h' : ∀ g ∈ gs, Alone fwVariant inp g := fun g k => { h g k with hadEm := fun e l a b => ((h g k).hadEm e l a b).imp_right fun x => ⟨rfl, x.2⟩ }
  exact ⟨fun old mem => C110_groups hp hg h' he.track old mem, fun old mem => C110_groups_ref hp hg h he.track old mem⟩

/-- **C113.** The same for particle flow and PUPPI (C112). -/
theorem C113_puppi {N N' : Nat} {gs : List (Group NT NC NE NM)} (H : HasDirections inp d) (hp : Physical inp) (he : EmptySlots inp) (hg : Grouped inp gs)
    (hf : ∀ g ∈ gs, Filled inp g) (ha : ∀ g ∈ gs, ApartR inp d g) (hpt2 : ∑ t, (inp.track t).hwPt.toInt ^ 2 < 2 ^ 21) (hN : NC ≤ NS)
    (table : PuppiTable) (z : Z0) (data : Arr N Word) (out0 : Arr N' Word) (pf0 old old' : PFOutputs NT NE NS NM) (mem : PFScratch NC NS) (mem' : Arr NC PFNeutralObj)
    (hi : 2 * NE + 2 * NT + 2 * NC + 2 * NM ≤ min N MP7_NCHANN) (ho : 2 * NT + 2 * NE + 2 * NS + 2 * NM ≤ min N' MP7_NCHANN) :
    ∃ r r', fwBoard table z inp data out0 pf0 old mem = .ok r ∧ refBoard table z inp old' mem' = .ok r' ∧
      PuppiGroups inp gs table z r ∧ PuppiGroups inp gs table z r' :=
  C112_groups hp hg (fun g k => apart_alone H he (hf g k) (ha g k)) he.track hpt2 hN table z data out0 pf0 old old' mem mem' hi ho

/-! ### A case -/

/-- The directions of `busy`, exactly on the grid. -/
noncomputable def busyDirections : Directions 4 3 3 2 where
  track := fun t => ((busy.track t).hwEta.toInt * quarterDegree, (busy.track t).hwPhi.toInt * quarterDegree)
  had := fun h => ((busy.hadcalo h).hwEta.toInt * quarterDegree, (busy.hadcalo h).hwPhi.toInt * quarterDegree)
  em := fun e => ((busy.emcalo e).hwEta.toInt * quarterDegree, (busy.emcalo e).hwPhi.toInt * quarterDegree)
  mu := fun m => ((busy.mu m).hwEta.toInt * quarterDegree, (busy.mu m).hwPhi.toInt * quarterDegree)

theorem grid_stands (e p : EtaPhi) (he : |e.toInt| ≤ 250) (hp : |p.toInt| ≤ 250) : Stands e p (e.toInt * quarterDegree, p.toInt * quarterDegree) := by
  obtain ⟨u1, u2⟩ := unit_bounds
  have q : 0 < quarterDegree := by norm_num at u1; linarith
  have k : ∀ n : ℤ, |n| ≤ 250 → |(n : ℝ) * quarterDegree| ≤ 1.1 := fun n hn => by
    have hn' : |(n : ℝ)| ≤ 250 := by exact_mod_cast hn
    rw [abs_mul, abs_of_pos q]
    norm_num at u2 ⊢
    nlinarith [abs_nonneg (n : ℝ)]
  refine ⟨?_, ?_, k _ he, k _ hp⟩ <;>
  · unfold Quantised
    rw [sub_self, abs_zero]
    positivity

theorem busy_directions : HasDirections busy busyDirections :=
  ⟨fun t => grid_stands _ _ (by revert t; decide) (by revert t; decide), fun t => grid_stands _ _ (by revert t; decide) (by revert t; decide),
    fun t => grid_stands _ _ (by revert t; decide) (by revert t; decide), fun t => grid_stands _ _ (by revert t; decide) (by revert t; decide)⟩

/-- Points of the grid with a squared distance of 2304 or more are 0.2062 apart. -/
theorem grid_apart {a b c e : ℤ} (h : 2304 ≤ (a - b) ^ 2 + (c - e) ^ 2) {x : ℝ} (hx : x ≤ 0.2062) :
    x ≤ deltaR (a * quarterDegree, c * quarterDegree) (b * quarterDegree, e * quarterDegree) := by
  obtain ⟨u1, u2⟩ := unit_bounds
  have h' : (2304 : ℝ) ≤ ((a : ℝ) - b) ^ 2 + ((c : ℝ) - e) ^ 2 := by exact_mod_cast h
  refine hx.trans (Real.le_sqrt_of_sq_le ?_)
  show _ ≤ (a * quarterDegree - b * quarterDegree) ^ 2 + (c * quarterDegree - e * quarterDegree) ^ 2
  have e1 : ((a : ℝ) * quarterDegree - b * quarterDegree) ^ 2 + (c * quarterDegree - e * quarterDegree) ^ 2 =
      (((a : ℝ) - b) ^ 2 + ((c : ℝ) - e) ^ 2) * quarterDegree ^ 2 := by ring
  rw [e1]
  have e2 : (0.0043 : ℝ) ^ 2 ≤ quarterDegree ^ 2 := by
    norm_num at u1 ⊢
    nlinarith
  norm_num at e2 ⊢
  nlinarith

theorem busy_apart : ∀ g ∈ busyGroups, ApartR busy busyDirections g := by
  intro g hg
  simp only [busyGroups, List.mem_cons, List.not_mem_nil, or_false] at hg
  rcases hg with rfl | rfl | rfl | rfl | rfl <;> constructor <;> intro x y <;> (try unfold Xor') <;> intros <;> refine grid_apart ?_ (by norm_num) <;> revert x y <;> decide

theorem busy_filled : EmptySlots busy ∧ ∀ g ∈ busyGroups, Filled busy g := by
  refine ⟨by constructor <;> decide, fun g hg => ?_⟩
  simp only [busyGroups, List.mem_cons, List.not_mem_nil, or_false] at hg
  rcases hg with rfl | rfl | rfl | rfl | rfl <;> constructor <;> decide

example (old : PFOutputs 4 3 3 2) (mem : PFScratch 3 3) : ∃ out, pfalgo3_full busy old mem = .ok out ∧ SumOfGroups busy busyGroups out :=
  (C113_radians busy_directions busy_hadron.2.1 busy_filled.1 busy_grouped busy_filled.2 busy_apart).1 old mem

end Verif
