import Verif.Proofs.Insert
import Verif.Model.PFRef
import Verif.Spec.Sort
/-! # The two pt sorters -/
namespace Verif
open Spec

/-- `setPt` sets the pt. -/
class LawfulPt (T : Type) [HasPt T] : Prop where
  pt_setPt : ∀ (x : T) (p : Pt), HasPt.pt (HasPt.setPt x p) = p

instance : LawfulPt PFNeutralObj := ⟨fun _ _ => rfl⟩

variable {T : Type} [HasPt T] {NIn NOut : Nat}

/-- The pt of an object, as an integer. -/
abbrev key (x : T) : Int := (HasPt.pt x).toInt

/-- `b` gives way to `x`. -/
abbrev yields (x b : T) : Bool := decide (key b ≤ key x)

/-- Non-increasing pt. -/
abbrev SortedD (l : List T) : Prop := l.Pairwise (fun a b => key b ≤ key a)

theorem SortedD.insAt {l : List T} (h : SortedD l) (x : T) : SortedD (insAt (yields x) x l) := by
  induction l with
  | nil => exact List.pairwise_singleton _ _
  | cons b l ih =>
    unfold Verif.insAt
    rw [SortedD, List.pairwise_cons] at h
    split
    · rename_i hb
      have hb : key b ≤ key x := of_decide_eq_true hb
      refine List.pairwise_cons.mpr ⟨fun y hy => ?_, List.pairwise_cons.mpr h⟩
      rcases List.mem_cons.mp hy with rfl | hy
      · exact hb
      · exact le_trans (h.1 y hy) hb
    · rename_i hb
      have hb : ¬ key b ≤ key x := fun h => hb (decide_eq_true h)
      refine List.pairwise_cons.mpr ⟨fun y hy => ?_, ih h.2⟩
      rcases (mem_insAt _ _ _ _).mp hy with rfl | hy
      · omega
      · exact h.1 y hy

theorem SortedD.take {l : List T} (h : SortedD l) (n : Nat) : SortedD (l.take n) :=
  List.Pairwise.sublist (List.take_sublist n l) h

theorem sorted_ofFn {N : Nat} {a : Arr N T} :
    SortedD (List.ofFn a) ↔ ∀ i j : Fin N, i ≤ j → key (a j) ≤ key (a i) := by
  rw [SortedD, List.pairwise_ofFn]
  constructor
  · intro h i j hij
    rcases eq_or_lt_of_le hij with rfl | hlt
    · exact le_refl _
    · exact h hlt
  · intro h i j hij; exact h i j (le_of_lt hij)

theorem upClosed_of_sorted {N : Nat} {a : Arr N T} (h : SortedD (List.ofFn a)) (x : T) :
    UpClosed (yields x) a := by
  intro i j hij hi
  have := sorted_ofFn.mp h i j hij
  have hi : key (a i) ≤ key x := of_decide_eq_true hi
  exact decide_eq_true (le_trans this hi)

/-! ### Passes -/

theorem hwopt_pass_eq (x : T) (a : Arr NOut T) :
    loopDown (ptsort_hwopt_step x) a = arrIns (yields x) x a := by
  apply loopDown_pointwise
  · intro i a j hj
    unfold ptsort_hwopt_step
    simp only []
    split
    · split
      · exact Arr.set_ne _ _ hj
      · split <;> exact Arr.set_ne _ _ hj
    · rfl
  · intro i a b hab
    unfold ptsort_hwopt_step arrIns
    simp only [yields, decide_eq_true_eq]
    rw [hab i (le_refl _)]
    by_cases h1 : key (b i) ≤ key x
    · rw [if_pos h1, if_pos h1]
      by_cases h2 : i.val = 0
      · rw [dif_pos h2, dif_pos h2, Arr.set_same]
      · rw [dif_neg h2, dif_neg h2]
        have hp := hab ⟨i.val - 1, by omega⟩ (by simp)
        rw [hp]
        by_cases h3 : key (b ⟨i.val - 1, by omega⟩) ≤ key x
        · rw [if_pos h3, if_neg (not_lt.mpr h3), Arr.set_same]
        · rw [if_neg h3, if_pos (lt_of_not_ge h3), Arr.set_same]
    · rw [if_neg h1, if_neg h1, hab i (le_refl _)]

omit [HasPt T] in
theorem ptsort_ref_shift_eq (k : Fin NOut) (a : Arr NOut T) :
    ptsort_ref_shift k a = fun i => if k.val < i.val then a ⟨i.val - 1, by omega⟩ else a i := by
  unfold ptsort_ref_shift
  refine loopDown_pointwise _ (fun (b : Arr NOut T) i => if k.val < i.val then b ⟨i.val - 1, by omega⟩ else b i)
    ?_ ?_ a
  · intro i a j hj
    split
    · exact Arr.set_ne _ _ hj
    · rfl
  · intro i a b hab
    by_cases h : k.val < i.val
    · simp only [dif_pos h, if_pos h, Arr.set_same]
      exact hab _ (by simp)
    · simp only [dif_neg h, if_neg h]
      exact hab i (le_refl _)

theorem loopBreak_first {n : Nat} {σ : Type} (c : Fin n → σ → Prop) [∀ i s, Decidable (c i s)]
    (g : Fin n → σ → σ) (l : List (Fin n)) (s : σ) :
    (∃ l1 k l2, l = l1 ++ k :: l2 ∧ (∀ i ∈ l1, ¬ c i s) ∧ c k s ∧
      loopBreak (fun i s => if c i s then (g i s, true) else (s, false)) l s = g k s) ∨
    ((∀ i ∈ l, ¬ c i s) ∧
      loopBreak (fun i s => if c i s then (g i s, true) else (s, false)) l s = s) := by
  induction l with
  | nil => exact Or.inr ⟨by simp, rfl⟩
  | cons i l ih =>
    by_cases h : c i s
    · exact Or.inl ⟨[], i, l, rfl, by simp, h, by simp [loopBreak, h]⟩
    · rcases ih with ⟨l1, k, l2, rfl, h1, h2, h3⟩ | ⟨h1, h2⟩
      · refine Or.inl ⟨i :: l1, k, l2, rfl, ?_, h2, ?_⟩
        · intro j hj
          rcases List.mem_cons.mp hj with rfl | hj
          · exact h
          · exact h1 j hj
        · rw [← h3]; simp [loopBreak, h]
      · refine Or.inr ⟨?_, ?_⟩
        · intro j hj
          rcases List.mem_cons.mp hj with rfl | hj
          · exact h
          · exact h1 j hj
        · conv_rhs => rw [← h2]
          simp [loopBreak, h]

theorem ref_pass_eq (x : T) (a : Arr NOut T) (hs : SortedD (List.ofFn a)) :
    loopBreak (fun iout out =>
        if key x ≥ key (out iout) then
          ((ptsort_ref_shift iout out).set iout x, true)
        else (out, false)) (List.finRange NOut) a = arrIns (yields x) x a := by
  have hup := upClosed_of_sorted hs x
  rcases loopBreak_first (fun (iout : Fin NOut) (out : Arr NOut T) => key x ≥ key (out iout))
      (fun iout out => (ptsort_ref_shift iout out).set iout x) (List.finRange NOut) a with
    ⟨l1, k, l2, hl, h1, h2, h3⟩ | ⟨h1, h2⟩
  · rw [h3]
    have hlow : ∀ i : Fin NOut, i < k → ¬ key (a i) ≤ key x := by
      intro i hi
      have hpw := List.pairwise_lt_finRange NOut
      rw [hl, List.pairwise_append] at hpw
      have : i ∈ l1 ++ k :: l2 := hl ▸ List.mem_finRange i
      rcases List.mem_append.mp this with h | h
      · exact h1 i h
      · rcases List.mem_cons.mp h with h | h
        · exact absurd h (ne_of_lt hi)
        · exact absurd ((List.pairwise_cons.mp hpw.2.1).1 i h) (not_lt_of_gt hi)
    have hhigh : ∀ i : Fin NOut, k ≤ i → key (a i) ≤ key x := by
      intro i hi
      exact of_decide_eq_true (hup k i hi (decide_eq_true h2))
    funext i
    rw [ptsort_ref_shift_eq]
    unfold arrIns
    simp only [yields, decide_eq_true_eq]
    rcases lt_trichotomy i k with h | h | h
    · rw [if_neg (hlow i h), Arr.set_ne _ _ (ne_of_lt h), if_neg (Nat.not_lt.mpr (le_of_lt (Fin.lt_def.mp h)))]
    · subst h
      rw [if_pos (hhigh i (le_refl _)), Arr.set_same]
      by_cases h0 : i.val = 0
      · rw [dif_pos h0]
      · rw [dif_neg h0, if_neg]
        exact hlow _ (by rw [Fin.lt_def]; simp; omega)
    · have hv : k.val < i.val := h
      rw [if_pos (hhigh i (le_of_lt h)), Arr.set_ne _ _ (ne_of_gt h), if_pos hv,
        dif_neg (by omega), if_pos]
      exact hhigh _ (by rw [Fin.le_def]; simp; omega)
  · rw [h2]
    funext i
    unfold arrIns
    rw [if_neg]
    simp only [yields, decide_eq_true_eq]
    exact h1 i (List.mem_finRange i)

/-! ### Whole sorters -/

theorem passes_ofFn (pass : T → Arr NOut T → Arr NOut T)
    (hpass : ∀ x a, SortedD (List.ofFn a) → pass x a = arrIns (yields x) x a)
    (xs : List T) (a : Arr NOut T) (hs : SortedD (List.ofFn a)) :
    List.ofFn (xs.foldl (fun s x => pass x s) a) =
      (xs.foldl (fun l x => insAt (yields x) x l) (List.ofFn a)).take NOut := by
  have h : List.ofFn (xs.foldl (fun s x => pass x s) a) =
      xs.foldl (fun l x => (insAt (yields x) x l).take NOut) (List.ofFn a) := by
    induction xs generalizing a with
    | nil => rfl
    | cons x xs ih =>
      simp only [List.foldl_cons]
      have e : List.ofFn (pass x a) = (insAt (yields x) x (List.ofFn a)).take NOut := by
        rw [hpass x a hs, ofFn_arrIns _ _ _ (upClosed_of_sorted hs x)]
      rw [ih (pass x a) (by rw [e]; exact (hs.insAt x).take _), e]
  rw [h]
  have ht : (List.ofFn a).take NOut = List.ofFn a := by
    rw [List.take_of_length_le]; simp
  have := foldl_insAt_take (fun x : T => yields x) (fun x => x) xs (List.ofFn a) NOut
  rw [ht] at this
  exact this

theorem loop_eq_foldl_ofFn {n : Nat} {α σ : Type} (f : α → σ → σ) (inp : Arr n α) (s : σ) :
    loop (fun i s => f (inp i) s) s = (List.ofFn inp).foldl (fun s x => f x s) s := by
  unfold loop
  rw [List.ofFn_eq_map, List.foldl_map]

/-- The initial zeros. -/
def zeros (tmp0 : Arr NOut T) : Arr NOut T := fun i => HasPt.setPt (tmp0 i) 0

theorem key_zeros [LawfulPt T] (tmp0 : Arr NOut T) (i : Fin NOut) : key (zeros tmp0 i) = 0 := by
  unfold key zeros; rw [LawfulPt.pt_setPt]; rfl

theorem sorted_zeros [LawfulPt T] (tmp0 : Arr NOut T) : SortedD (List.ofFn (zeros tmp0)) := by
  rw [sorted_ofFn]; intro i j _; rw [key_zeros, key_zeros]

theorem hwopt_ofFn [LawfulPt T] (tmp0 : Arr NOut T) (inp : Arr NIn T) :
    List.ofFn (ptsort_hwopt tmp0 inp) =
      ((List.ofFn inp).foldl (fun l x => insAt (yields x) x l) (List.ofFn (zeros tmp0))).take NOut := by
  unfold ptsort_hwopt
  rw [loop_eq_foldl_ofFn (fun x tmp => loopDown (ptsort_hwopt_step x) tmp) inp]
  exact passes_ofFn _ (fun x a _ => hwopt_pass_eq x a) _ _ (sorted_zeros tmp0)

theorem ref_ofFn [LawfulPt T] (tmp0 : Arr NOut T) (inp : Arr NIn T) :
    List.ofFn (ptsort_ref tmp0 inp) =
      ((List.ofFn inp).foldl (fun l x => insAt (yields x) x l) (List.ofFn (zeros tmp0))).take NOut := by
  unfold ptsort_ref
  rw [loop_eq_foldl_ofFn (fun x (out : Arr NOut T) => loopBreak (fun iout out =>
        if key x ≥ key (out iout) then
          ((ptsort_ref_shift iout out).set iout x, true)
        else (out, false)) (List.finRange NOut) out) inp]
  exact passes_ofFn _ (fun x a h => ref_pass_eq x a h) _ _ (sorted_zeros tmp0)

theorem ptsort_eq [LawfulPt T] (mem : Arr NOut T) (inp : Arr NIn T) :
    ptsort_hwopt mem inp = ptsort_ref mem inp :=
  List.ofFn_injective ((hwopt_ofFn mem inp).trans (ref_ofFn mem inp).symm)

/-! ### What the sorted list is -/

/-- Successive insertions in an empty list. -/
def sortL (xs : List T) : List T := xs.foldl (fun l x => insAt (yields x) x l) []

theorem foldl_insAt_perm (xs l : List T) :
    (xs.foldl (fun l x => insAt (yields x) x l) l).Perm (xs ++ l) := by
  induction xs generalizing l with
  | nil => exact List.Perm.refl _
  | cons x xs ih =>
    simp only [List.foldl_cons]
    refine (ih _).trans ?_
    refine ((insAt_perm _ x l).append_left xs).trans ?_
    exact List.perm_middle

theorem foldl_insAt_sorted (xs l : List T) (h : SortedD l) :
    SortedD (xs.foldl (fun l x => insAt (yields x) x l) l) := by
  induction xs generalizing l with
  | nil => exact h
  | cons x xs ih => exact ih _ (h.insAt x)

theorem sortL_perm (xs : List T) : (sortL xs).Perm xs := by
  unfold sortL; simpa using foldl_insAt_perm xs []

theorem sortL_sorted (xs : List T) : SortedD (sortL xs) := foldl_insAt_sorted xs [] List.Pairwise.nil

theorem insAt_append_zeros (x : T) (l z : List T) (hx : 0 ≤ key x) (hz : ∀ y ∈ z, key y = 0) :
    insAt (yields x) x (l ++ z) = insAt (yields x) x l ++ z := by
  induction l with
  | nil =>
    cases z with
    | nil => rfl
    | cons b z =>
      have hb : yields x b = true := decide_eq_true (by rw [hz b (by simp)]; exact hx)
      simp [insAt, hb]
  | cons b l ih =>
    simp only [List.cons_append, insAt]
    split
    · rfl
    · rw [ih]; rfl

theorem foldl_insAt_zeros (xs l z : List T) (hx : ∀ x ∈ xs, 0 ≤ key x) (hz : ∀ y ∈ z, key y = 0) :
    xs.foldl (fun l x => insAt (yields x) x l) (l ++ z) =
      xs.foldl (fun l x => insAt (yields x) x l) l ++ z := by
  induction xs generalizing l with
  | nil => rfl
  | cons x xs ih =>
    simp only [List.foldl_cons]
    rw [insAt_append_zeros x l z (hx x (by simp)) hz]
    exact ih _ (fun y hy => hx y (by simp [hy]))

/-- For non-negative inputs the sorter is "sort, pad with zeros, truncate". -/
theorem hwopt_nonneg [LawfulPt T] (mem : Arr NOut T) (inp : Arr NIn T) (h : ∀ i, 0 ≤ key (inp i)) :
    List.ofFn (ptsort_hwopt mem inp) =
      (sortL (List.ofFn inp) ++ List.ofFn (zeros mem)).take NOut := by
  rw [hwopt_ofFn]
  congr 1
  have := foldl_insAt_zeros (List.ofFn inp) [] (List.ofFn (zeros mem))
    (by intro x hx; obtain ⟨i, rfl⟩ := (List.mem_ofFn' inp x).mp hx; exact h i)
    (by intro y hy; obtain ⟨i, rfl⟩ := (List.mem_ofFn' (zeros mem) y).mp hy; exact key_zeros mem i)
  unfold sortL; simpa using this

theorem hwopt_nonneg_full [LawfulPt T] (mem : Arr NOut T) (inp : Arr NIn T)
    (h : ∀ i, 0 ≤ key (inp i)) (hN : NOut ≤ NIn) :
    List.ofFn (ptsort_hwopt mem inp) = (sortL (List.ofFn inp)).take NOut := by
  rw [hwopt_nonneg mem inp h, List.take_append_of_le_length]
  rw [(sortL_perm _).length_eq]; simpa using hN

theorem topN_take {l cand : List T} (hs : SortedD l) (hp : l.Perm cand) (n : Nat) :
    TopN key cand (l.take n) := by
  refine ⟨hs.take n, l.drop n, ?_, ?_⟩
  · rw [List.take_append_drop]; exact hp
  · intro o ho r hr
    rw [← List.take_append_drop n l, SortedD, List.pairwise_append] at hs
    exact hs.2.2 o ho r hr

theorem hwopt_topN [LawfulPt T] (mem : Arr NOut T) (inp : Arr NIn T)
    (h : ∀ i, 0 ≤ key (inp i)) (hN : NOut ≤ NIn) :
    TopN key (List.ofFn inp) (List.ofFn (ptsort_hwopt mem inp)) := by
  rw [hwopt_nonneg_full mem inp h hN]
  exact topN_take (sortL_sorted _) (sortL_perm _) _

/-- In general: a top-N selection of the inputs and the initial zeros. -/
theorem hwopt_topN_zeros [LawfulPt T] (mem : Arr NOut T) (inp : Arr NIn T) :
    TopN key (List.ofFn inp ++ List.ofFn (zeros mem)) (List.ofFn (ptsort_hwopt mem inp)) := by
  rw [hwopt_ofFn]
  exact topN_take (foldl_insAt_sorted _ _ (sorted_zeros mem)) (foldl_insAt_perm _ _) _

/-! ### The exact order -/

omit [HasPt T] in
theorem insAt_eq_orderedInsert (f : T → Int) (x : T) (l : List T) :
    insAt (fun b => decide (f b ≤ f x)) x l = l.orderedInsert (fun a b => f b ≤ f a) x := by
  induction l with
  | nil => rfl
  | cons b l ih =>
    unfold insAt
    rw [List.orderedInsert_cons, ih]
    by_cases h : f b ≤ f x
    · rw [if_pos h, if_pos (decide_eq_true h)]
    · rw [if_neg h, if_neg (by simpa using h)]

theorem foldl_insAt_eq (xs z : List T) (hz : SortedD z) :
    xs.foldl (fun l x => insAt (yields x) x l) z = (xs.reverse ++ z).insertionSort (fun a b => key b ≤ key a) := by
  have e : z.insertionSort (fun a b => key b ≤ key a) = z := List.Pairwise.insertionSort_eq hz
  unfold List.insertionSort at e ⊢
  rw [List.foldr_append, e, List.foldr_reverse]
  congr 1
  funext l x
  exact insAt_eq_orderedInsert key x l

theorem hwopt_sortedTop [LawfulPt T] (mem : Arr NOut T) (inp : Arr NIn T) :
    List.ofFn (ptsort_hwopt mem inp) = sortedTop key (List.ofFn inp) (List.ofFn (zeros mem)) NOut := by
  rw [hwopt_ofFn, foldl_insAt_eq _ _ (sorted_zeros mem)]
  rfl

omit [HasPt T] in
theorem sortedTop_map {S : Type} (f : T → S) (k : T → Int) (k' : S → Int) (hk : ∀ a, k' (f a) = k a) (cand pad : List T) (n : Nat) :
    (sortedTop k cand pad n).map f = sortedTop k' (cand.map f) (pad.map f) n := by
  unfold sortedTop
  rw [List.map_take, List.map_insertionSort _ (fun a b => k' b ≤ k' a) _ _ (fun a _ b _ => by rw [hk, hk]), List.map_append, List.map_reverse]

end Verif
