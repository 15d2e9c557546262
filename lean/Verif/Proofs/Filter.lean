import Mathlib.Data.List.Sort
/-! # Sorting and filtering commute -/
namespace Verif

theorem filter_orderedInsert {A : Type} (r : A → A → Prop) [DecidableRel r] (ht : ∀ a b c, r a b → r b c → r a c) (P : A → Bool) (a : A)
    (l : List A) (hl : l.Pairwise r) :
    (l.orderedInsert r a).filter P = if P a then (l.filter P).orderedInsert r a else l.filter P := by
  induction l with
  | nil => by_cases h : P a <;> simp [h]
  | cons b l ih =>
    rw [List.pairwise_cons] at hl
    have ih := ih hl.2
    rw [List.orderedInsert_cons]
    by_cases hab : r a b
    · rw [if_pos hab]
      by_cases ha : P a
      · rw [List.filter_cons_of_pos ha, if_pos ha]
        by_cases hb : P b
        · rw [List.filter_cons_of_pos hb, List.orderedInsert_cons, if_pos hab]
        · rw [List.filter_cons_of_neg hb]
          cases hf : l.filter P with
          | nil => rfl
          | cons c m =>
            have hc : c ∈ l := (List.mem_filter.mp (hf ▸ List.mem_cons_self)).1
            rw [List.orderedInsert_cons, if_pos (ht _ _ _ hab (hl.1 c hc))]
      · rw [List.filter_cons_of_neg ha, if_neg ha]
    · rw [if_neg hab]
      by_cases hb : P b
      · rw [List.filter_cons_of_pos hb, List.filter_cons_of_pos hb, ih]
        by_cases ha : P a
        · rw [if_pos ha, if_pos ha, List.orderedInsert_cons, if_neg hab]
        · rw [if_neg ha, if_neg ha]
      · rw [List.filter_cons_of_neg hb, List.filter_cons_of_neg hb, ih]

theorem filter_insertionSort {A : Type} (r : A → A → Prop) [DecidableRel r] (htot : ∀ a b, r a b ∨ r b a)
    (ht : ∀ a b c, r a b → r b c → r a c) (P : A → Bool) (l : List A) :
    (l.insertionSort r).filter P = (l.filter P).insertionSort r := by
  have : Std.Total r := ⟨htot⟩
  have : IsTrans A r := ⟨ht⟩
  induction l with
  | nil => rfl
  | cons a l ih =>
    rw [List.insertionSort_cons, filter_orderedInsert r ht P a _ (List.pairwise_insertionSort r l), ih]
    by_cases ha : P a
    · rw [if_pos ha, List.filter_cons_of_pos ha, List.insertionSort_cons]
    · rw [if_neg ha, List.filter_cons_of_neg ha]

end Verif
