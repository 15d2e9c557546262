import Verif.Proofs.Basic
import Mathlib.Data.List.OfFn
import Mathlib.Data.List.FinRange
import Mathlib.Data.List.TakeWhile
/-!
# Insertion into a bounded array

`insAt p x l` inserts `x` before the first element satisfying `p`.  The bounded insertion
`arrIns p x a` is what one pass of the firmware sorters does to an array: elements satisfying `p`
move down by one, the last one falls off, and `x` takes the place of the first of them.
-/
namespace Verif

variable {T : Type}

/-- Insert `x` before the first element of `l` satisfying `p`. -/
def insAt (p : T → Bool) (x : T) : List T → List T
  | [] => [x]
  | b :: l => if p b then x :: b :: l else b :: insAt p x l

/-- Bounded insertion in an array. -/
def arrIns {N : Nat} (p : T → Bool) (x : T) (a : Arr N T) : Arr N T := fun i =>
  if p (a i) then
    if h : i.val = 0 then x
    else if p (a ⟨i.val - 1, by omega⟩) then a ⟨i.val - 1, by omega⟩ else x
  else a i

theorem insAt_length (p : T → Bool) (x : T) (l : List T) : (insAt p x l).length = l.length + 1 := by
  induction l with
  | nil => rfl
  | cons b l ih => unfold insAt; split <;> simp [ih]

theorem insAt_perm (p : T → Bool) (x : T) (l : List T) : (insAt p x l).Perm (x :: l) := by
  induction l with
  | nil => exact List.Perm.refl _
  | cons b l ih =>
    unfold insAt
    split
    · exact List.Perm.refl _
    · exact (List.Perm.cons b ih).trans (List.Perm.swap x b l)

theorem mem_insAt (p : T → Bool) (x : T) (l : List T) (y : T) :
    y ∈ insAt p x l ↔ y = x ∨ y ∈ l := by
  rw [(insAt_perm p x l).mem_iff, List.mem_cons]

/-- Truncating first does not change the truncated insertion. -/
theorem insAt_take (p : T → Bool) (x : T) (l : List T) (N : Nat) :
    (insAt p x (l.take N)).take N = (insAt p x l).take N := by
  induction l generalizing N with
  | nil => simp
  | cons b l ih =>
    cases N with
    | zero => simp
    | succ N =>
      simp only [List.take_succ_cons, insAt]
      split
      · simp only [List.take_succ_cons, List.cons.injEq, true_and]
        cases N with
        | zero => simp
        | succ N => simp [List.take_take]
      · simp only [List.take_succ_cons, List.cons.injEq, true_and]
        exact ih N

theorem foldl_insAt_take {α : Type} (p : α → T → Bool) (g : α → T) (xs : List α) (l : List T)
    (N : Nat) :
    xs.foldl (fun s a => (insAt (p a) (g a) s).take N) (l.take N) =
      (xs.foldl (fun s a => insAt (p a) (g a) s) l).take N := by
  induction xs generalizing l with
  | nil => rfl
  | cons a xs ih =>
    simp only [List.foldl_cons]
    rw [insAt_take, ih]

/-- Elements satisfying `p` form a suffix of the array. -/
def UpClosed {N : Nat} (p : T → Bool) (a : Arr N T) : Prop :=
  ∀ i j : Fin N, i ≤ j → p (a i) = true → p (a j) = true

theorem arrIns_getElem (p : T → Bool) (x : T) (l : List T)
    (hup : ∀ i j (hi : i < l.length) (hj : j < l.length), i ≤ j → p l[i] = true → p l[j] = true)
    (i : Nat) (hi : i < l.length) (hi' : i < (insAt p x l).length) :
    (insAt p x l)[i] =
      if p l[i] then
        if _h : i = 0 then x
        else if p (l[i - 1]'(by omega)) then l[i - 1]'(by omega) else x
      else l[i] := by
  induction l generalizing i with
  | nil => simp at hi
  | cons b l ih =>
    by_cases hb : p b = true
    · have hall : ∀ j (hj : j < (b :: l).length), p (b :: l)[j] = true := fun j hj =>
        hup 0 j (by simp) hj (Nat.zero_le _) (by simpa using hb)
      simp only [insAt, hb, if_true]
      rw [if_pos (hall i hi)]
      cases i with
      | zero => simp
      | succ i =>
        rw [dif_neg (by omega), if_pos (hall (i + 1 - 1) (by omega))]
        simp
    · have e : insAt p x (b :: l) = b :: insAt p x l := if_neg hb
      simp only [e]
      cases i with
      | zero => simp [hb]
      | succ i =>
        simp only [List.length_cons] at hi
        have := ih (fun i j hi hj hij h => by
          have := hup (i + 1) (j + 1) (by simpa using hi) (by simpa using hj) (by omega)
            (by simpa using h)
          simpa using this) i (by omega) (by rw [insAt_length]; omega)
        simp only [List.getElem_cons_succ]
        rw [this]
        by_cases hp : p l[i] = true
        · rw [if_pos hp, if_pos hp]
          cases i with
          | zero => simp [hb]
          | succ i => simp
        · rw [if_neg hp, if_neg hp]

/-- The array pass is the list insertion, truncated. -/
theorem ofFn_arrIns {N : Nat} (p : T → Bool) (x : T) (a : Arr N T) (h : UpClosed p a) :
    List.ofFn (arrIns p x a) = (insAt p x (List.ofFn a)).take N := by
  apply List.ext_getElem
  · simp [insAt_length]
  · intro i h1 h2
    simp only [List.length_ofFn] at h1
    rw [List.getElem_take, arrIns_getElem p x (List.ofFn a) _ i (by simpa using h1)]
    · simp [arrIns]
    · intro i j hi hj hij hp
      simp only [List.length_ofFn] at hi hj
      simp only [List.getElem_ofFn] at hp ⊢
      exact h ⟨i, hi⟩ ⟨j, hj⟩ hij hp

/-! ### Descending passes -/

/-- A descending loop whose step `i` writes only cell `i` and reads cells `i` and `i-1`. -/
theorem loopDown_pointwise {N : Nat} (step : Fin N → Arr N T → Arr N T) (f : Arr N T → Arr N T)
    (hne : ∀ i a j, j ≠ i → step i a j = a j)
    (heq : ∀ (i : Fin N) (a b : Arr N T), (∀ j : Fin N, j.val ≤ i.val → a j = b j) → step i a i = f b i)
    (a : Arr N T) : loopDown step a = f a := by
  have h : ∀ (l : List (Fin N)) (s : Arr N T), l.Pairwise (fun i j => j < i) →
      (∀ i ∈ l, ∀ j : Fin N, j ≤ i → s j = a j) →
      ∀ j, (l.foldl (fun s i => step i s) s) j = if j ∈ l then f a j else s j := by
    intro l
    induction l with
    | nil => intro s _ _ j; simp
    | cons i l ih =>
      intro s hp hs j
      rw [List.pairwise_cons] at hp
      simp only [List.foldl_cons]
      rw [ih (step i s) hp.2 (by
        intro i' hi' j' hj'
        rw [hne i s j' (by
          have := hp.1 i' hi'
          intro e; subst e; exact absurd hj' (by simpa using this))]
        exact hs i' (List.mem_cons_of_mem _ hi') j' hj')]
      by_cases hj : j ∈ l
      · rw [if_pos hj, if_pos (List.mem_cons_of_mem _ hj)]
      · rw [if_neg hj]
        by_cases hji : j = i
        · subst hji
          rw [if_pos (List.mem_cons_self), heq j s a (fun k hk => hs j List.mem_cons_self k hk)]
        · rw [if_neg (by simp [hj, hji]), hne i s j hji]
  funext j
  unfold loopDown
  rw [h _ a (by
    rw [List.pairwise_reverse]
    exact List.pairwise_lt_finRange N) (fun _ _ _ _ => rfl) j]
  rw [if_pos (by simp)]

end Verif
