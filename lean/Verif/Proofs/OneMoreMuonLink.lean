import Verif.Spec.OneMoreMuon
import Verif.Proofs.OneMoreLink
import Verif.Proofs.RegMuon
/-! # One more muon on a link -/
namespace Verif.Spec
open Verif
variable {T : Type} [RegObj T]

/-- The objects of positive pt. -/
def posList (l : List T) : List T := l.filter fun o => decide (0 < ptOf o)

theorem posList_append (l l' : List T) : posList (l ++ l') = posList l ++ posList l' := List.filter_append ..

theorem posList_id {l : List T} (h : ∀ e ∈ l, 0 < ptOf e) : posList l = l := List.filter_eq_self.mpr fun e he => by simpa using h e he

theorem posList_map {g : T → T} (hg : ∀ x, ptOf (g x) = ptOf x) (l : List T) : posList (l.map g) = (posList l).map g := by
  unfold posList
  rw [List.filter_map]
  congr 1
  refine List.filter_congr fun x _ => ?_
  show decide (0 < ptOf (g x)) = _
  rw [hg]

theorem posList_filter (c : T → Bool) (l : List T) : posList (l.filter c) = (posList l).filter c := by
  unfold posList
  rw [List.filter_filter, List.filter_filter]
  exact List.filter_congr fun x _ => Bool.and_comm ..

theorem best_posList (n : Nat) (l : List T) : best n (posList l) = best n l := by
  unfold best posList
  rw [List.filter_filter]
  simp

/-- One more object of positive pt. -/
def MoreIn (o : T) (l l' : List T) : Prop := ∃ l₁ l₂, posList l = l₁ ++ l₂ ∧ posList l' = l₁ ++ o :: l₂

/-- It gets in, or the list is full of objects of no less pt. -/
theorem best_more {o : T} {l l' : List T} (h : MoreIn o l l') (n : Nat) :
    (best n l' = best n l ∧ (best n l).length = n ∧ ∀ e ∈ best n l, ptOf o ≤ ptOf e) ∨
    ∃ a b c, best n l = a ++ b ++ c ∧ best n l' = a ++ o :: b ∧ c.length ≤ 1 ∧ (∀ e ∈ c, ptOf e ≤ ptOf o) ∧ (c = [] ∨ (best n l).length = n) := by
  obtain ⟨l1, l2, e1, e2⟩ := h
  obtain ⟨a, b, f1, f2⟩ := sort_one o l1 l2
  have hs : (a ++ o :: b).Pairwise byPt := f2 ▸ List.pairwise_insertionSort byPt _
  have g1 : best n l = (a ++ b).take n := by rw [← f1, ← e1]; rfl
  have g2 : best n l' = (a ++ o :: b).take n := by rw [← f2, ← e2]; rfl
  rcases Nat.lt_or_ge a.length n with h | h
  · right
    obtain ⟨m, rfl⟩ : ∃ m, n = a.length + (m + 1) := ⟨n - a.length - 1, by omega⟩
    refine ⟨a, b.take m, (b.drop m).take 1, ?_, ?_, ?_, fun e he => ?_, ?_⟩
    · rw [g1, List.take_length_add_append, List.append_assoc, List.take_add (l := b)]
    · rw [g2, List.take_length_add_append, List.take_succ_cons]
    · rw [List.length_take]; omega
    · exact (List.pairwise_cons.mp (List.pairwise_append.mp hs).2.1).1 e (List.mem_of_mem_drop (List.mem_of_mem_take he))
    · by_cases hb : b.length ≤ m
      · left
        rw [List.drop_eq_nil_of_le hb, List.take_nil]
      · right
        rw [g1, List.length_take, List.length_append]
        omega
  · left
    rw [g1, g2, List.take_append_of_le_length h, List.take_append_of_le_length h]
    refine ⟨rfl, by rw [List.length_take]; omega, fun e he => ?_⟩
    exact (List.pairwise_append.mp hs).2.2 e (List.mem_of_mem_take he) o (List.mem_cons_self ..)

variable [LawfulReg T]

theorem pad_more {n : Nat} {o : T} {l l' : List T} (hpos : 0 < ptOf o) (h : MoreIn o l l') {old new : Fin n → T}
    (h1 : List.ofFn old = pad n (best n l)) (h2 : List.ofFn new = pad n (best n l')) :
    (new = old ∧ ∀ k, ptOf o ≤ ptOf (old k)) ∨ ∃ i j, PutAt o old new i j ∧ (old j = RegObj.clear ∨ ∀ k, 0 < ptOf (old k)) := by
  rcases best_more h n with ⟨e, hl, hle⟩ | ⟨a, b, c, e1, e2, hc, hcz, hfull⟩
  · left
    refine ⟨List.ofFn_injective (by rw [h1, h2, e]), fun k => hle _ ?_⟩
    rw [pad_of_le (le_of_eq hl), hl, Nat.sub_self, List.replicate_zero, List.append_nil] at h1
    rw [← h1]
    exact (List.mem_ofFn' _ _).mpr ⟨k, rfl⟩
  · right
    have hl : (best n l).length ≤ n := best_length _ _
    have hl' : (best n l').length ≤ n := best_length _ _
    have hall : (best n l).length = n → ∀ k, 0 < ptOf (old k) := fun hn k => by
      have h1 := h1
      rw [pad_of_le hl, hn, Nat.sub_self, List.replicate_zero, List.append_nil] at h1
      refine (mem_best (n := n) (l := l) ?_).2
      rw [← h1]
      exact (List.mem_ofFn' _ _).mpr ⟨k, rfl⟩
    rw [e1] at h1 hl
    rw [e2] at h2 hl'
    obtain ⟨i, j, hp, hj⟩ := pad_put (d := []) hc (fun _ => rfl) hcz (by simpa using hl) (by simpa using hl') hpos (by simpa using h1) (by simpa using h2)
    exact ⟨i, j, hp, hfull.imp hj hall⟩

omit [LawfulReg T] in
theorem MoreIn.congr {o : T} {l l' m m' : List T} (h : MoreIn o l l') (e : posList m = posList l) (e' : posList m' = posList l') : MoreIn o m m' := by
  unfold MoreIn
  rw [e, e']
  exact h

omit [LawfulReg T] in
theorem MoreIn.pick {o : T} {l l' : List T} (h : MoreIn o l l') {c : T → Bool} (hc : c o = true) {g : T → T} (hg : ∀ x, ptOf (g x) = ptOf x) :
    MoreIn (g o) ((l.filter c).map g) ((l'.filter c).map g) := by
  obtain ⟨l1, l2, e1, e2⟩ := h
  refine ⟨(l1.filter c).map g, (l2.filter c).map g, ?_, ?_⟩
  · rw [posList_map hg, posList_filter, e1, List.filter_append, List.map_append]
  · rw [posList_map hg, posList_filter, e2, List.filter_append, List.filter_cons_of_pos hc, List.map_append, List.map_cons]

omit [LawfulReg T] in
theorem MoreIn.skip {o : T} {l l' : List T} (h : MoreIn o l l') {c : T → Bool} (hc : c o = false) {g : T → T} (hg : ∀ x, ptOf (g x) = ptOf x) :
    posList ((l'.filter c).map g) = posList ((l.filter c).map g) := by
  obtain ⟨l1, l2, e1, e2⟩ := h
  rw [posList_map hg, posList_map hg, posList_filter, posList_filter, e1, e2, List.filter_append, List.filter_append,
    List.filter_cons_of_neg (by simp [hc])]

omit [LawfulReg T] in
theorem MoreIn.left {o : T} {l l' : List T} (h : MoreIn o l l') (m : List T) : MoreIn o (l ++ m) (l' ++ m) := by
  obtain ⟨l1, l2, e1, e2⟩ := h
  exact ⟨l1, l2 ++ posList m, by rw [posList_append, e1, List.append_assoc], by rw [posList_append, e2]; simp⟩

omit [LawfulReg T] in
theorem MoreIn.right {o : T} {l l' : List T} (h : MoreIn o l l') (m : List T) : MoreIn o (m ++ l) (m ++ l') := by
  obtain ⟨l1, l2, e1, e2⟩ := h
  exact ⟨posList m ++ l1, l2, by rw [posList_append, e1, List.append_assoc], by rw [posList_append, e2]; simp⟩

/-- With room for all, the best are all. -/
theorem MoreIn.best {o : T} {l l' : List T} (h : MoreIn o l l') {n : Nat} (hn : (posList l').length ≤ n) : MoreIn o (best n l) (best n l') := by
  obtain ⟨l1, l2, e1, e2⟩ := h
  obtain ⟨a, b, f1, f2⟩ := sort_one o l1 l2
  rw [e2, List.length_append, List.length_cons] at hn
  have g1 : Spec.best n l = a ++ b := by
    rw [← f1, ← e1]
    exact List.take_of_length_le (by rw [List.length_insertionSort, show (List.filter (fun o => decide (0 < ptOf o)) l) = _ from e1, List.length_append]; omega)
  have g2 : Spec.best n l' = a ++ o :: b := by
    rw [← f2, ← e2]
    exact List.take_of_length_le (by rw [List.length_insertionSort, show (List.filter (fun o => decide (0 < ptOf o)) l') = _ from e2, List.length_append, List.length_cons]; omega)
  refine ⟨a, b, ?_, ?_⟩
  · rw [← g1]
    exact posList_id fun e he => (mem_best he).2
  · rw [← g2]
    exact posList_id fun e he => (mem_best he).2

theorem posList_holds {n : Nat} {a : Arr n T} {l : List T} (h : Holds a l) (hl : l.length ≤ n) (hp : ∀ e ∈ l, 0 < ptOf e) : posList (List.ofFn a) = l := by
  rw [show List.ofFn a = _ from h, pad_of_le hl, posList_append, posList_id hp]
  have : posList (List.replicate (n - l.length) (RegObj.clear : T)) = [] := by
    refine List.filter_eq_nil_iff.mpr fun e he => ?_
    rw [List.eq_of_mem_replicate he, ptOf_clear]
    decide
  rw [this, List.append_nil]

theorem slice_more {o : T} {l l' : List T} (h : MoreIn o l l') {ie : Fin 3} (ho : inSlice ie o = true) {n : Nat} (hn : (posList l').length ≤ n) :
    MoreIn (etaRel ie o) (slice n ie l) (slice n ie l') := by
  refine (h.pick ho (ptOf_etaRel ie)).best ?_
  rw [posList_map (ptOf_etaRel ie), posList_filter, List.length_map]
  exact le_trans (List.length_filter_le _ _) hn

theorem slice_skip {o : T} {l l' : List T} (h : MoreIn o l l') {ie : Fin 3} (ho : inSlice ie o = false) (n : Nat) : slice n ie l' = slice n ie l := by
  unfold slice
  rw [← best_posList, h.skip ho (ptOf_etaRel ie), best_posList]

/-- Where the muon goes. -/
theorem muInside_zero {ip : Fin 6} {s : Fin 4} {phi : Int} (h : ip.val % 3 = 0) (h1 : -180 ≤ phi) (h2 : phi ≤ 180) :
    (MuInside ip s phi ↔ s = muA ip) ∧ (s = muA ip → muRel ip s phi = phi) := by
  unfold MuInside muRel muA
  rw [Fin.ext_iff]
  have := ip.isLt
  have := s.isLt
  constructor
  · dsimp only
    omega
  · dsimp only
    omega

theorem muInside_one {ip : Fin 6} {s : Fin 4} {phi : Int} (h : ip.val % 3 = 1) (h1 : -180 ≤ phi) (h2 : phi ≤ 180) :
    (MuInside ip s phi ↔ s = muA ip ∧ phi > 60 ∨ s = muB ip ∧ phi ≤ 60) ∧ (s = muA ip → phi > 60 → muRel ip s phi = phi - 240) ∧
      (s = muB ip → phi ≤ 60 → muRel ip s phi = phi + 120) := by
  unfold MuInside muRel muA muB
  rw [Fin.ext_iff, Fin.ext_iff]
  have := ip.isLt
  have := s.isLt
  refine ⟨?_, ?_, ?_⟩ <;> dsimp only <;> omega

theorem muInside_two {ip : Fin 6} {s : Fin 4} {phi : Int} (h : ip.val % 3 = 2) (h1 : -180 ≤ phi) (h2 : phi ≤ 180) :
    (MuInside ip s phi ↔ s = muA ip ∧ phi > -60 ∨ s = muB ip ∧ phi ≤ -60) ∧ (s = muA ip → phi > -60 → muRel ip s phi = phi - 120) ∧
      (s = muB ip → phi ≤ -60 → muRel ip s phi = phi + 240) := by
  unfold MuInside muRel muA muB
  rw [Fin.ext_iff, Fin.ext_iff]
  have := ip.isLt
  have := s.isLt
  refine ⟨?_, ?_, ?_⟩ <;> dsimp only <;> omega

end Verif.Spec
