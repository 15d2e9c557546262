import Verif.Model.PF
import Mathlib.Data.List.Sort
/-! # What a sorted selection is -/
namespace Verif.Spec

/-- `out` is a top-N selection of `cand` by descending key: it is sorted, it is made of candidates
(each used at most once), and nothing left out beats anything selected. -/
def TopN {T : Type} (key : T → Int) (cand out : List T) : Prop :=
  out.Pairwise (fun a b => key b ≤ key a) ∧
  ∃ rest, (out ++ rest).Perm cand ∧ ∀ o ∈ out, ∀ r ∈ rest, key r ≤ key o

/-- The exact order: the candidates sorted by descending key, later candidates first among equals
(Mathlib's stable sort, of the reversed list), the padding after candidates of the same key; the first
`n` of that. -/
def sortedTop {T : Type} (key : T → Int) (cand pad : List T) (n : Nat) : List T :=
  ((cand.reverse ++ pad).insertionSort (fun a b => key b ≤ key a)).take n

end Verif.Spec
