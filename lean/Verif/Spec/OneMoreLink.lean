import Verif.Spec.Detector
/-!
# One more object on a link

The words of the links are the same but for one: where one event has a null, the other has an object.
-/
namespace Verif.Spec
variable {T : Type} [RegObj T]

/-- Sector `s` sends `o` instead of a null; the others send the same. -/
structure OneMoreWord (arr arr' : Fin 12 → List T) (s : Fin 12) (o : T) : Prop where
  others : ∀ s', s' ≠ s → arr' s' = arr s'
  word : ∃ l₁ z l₂, arr s = l₁ ++ z :: l₂ ∧ arr' s = l₁ ++ o :: l₂ ∧ ptOf z ≤ 0
  pos : 0 < ptOf o

/-- The words of fibre `k` are the same but for word `m`, a null in one event and `o` in the other; the other fibres are the same. -/
structure OneMoreOnFibre {K : Nat} (fib fib' : Fin K → List T) (k : Fin K) (m : Nat) (o : T) : Prop where
  others : ∀ k', k' ≠ k → fib' k' = fib k'
  free : ∃ z, (fib k)[m]? = some z ∧ ptOf z ≤ 0
  word : fib' k = (fib k).set m o
  pos : 0 < ptOf o

/-- `o` is put at place `i`; what was there and after it, up to place `j`, moves by one place, and what was at place `j` is dropped. -/
structure PutAt {n : Nat} (o : T) (old new : Fin n → T) (i j : Fin n) : Prop where
  le : i ≤ j
  at_ : new i = o
  before : ∀ k, k < i → new k = old k
  moved : ∀ k k' : Fin n, i ≤ k → k < j → k'.val = k.val + 1 → new k' = old k
  after : ∀ k, j < k → new k = old k
  dropped : ptOf (old j) ≤ ptOf o

/-- The three sectors of region `ip`. -/
def SectorOf (ip : Fin 6) (s : Fin 12) : Prop := (s.val + 12 - 2 * ip.val) % 12 ≤ 2

instance (ip : Fin 6) (s : Fin 12) : Decidable (SectorOf ip s) := inferInstanceAs (Decidable (_ ≤ _))

end Verif.Spec
