import Verif.Spec.Layout
/-!
# What a receiver makes of arbitrary words

The layout of `Verif.Spec.Layout` seen from the other side: of the two words of an object only the low bits count.
-/
namespace Verif.Spec

/-- The low `b0` bits of the word at channel `k` and the low `b1` bits of the next one are `w`. -/
def ReadAt {N : Nat} (d : Fin N → Word) (k b0 b1 : Nat) (w : Nat × Nat) : Prop :=
  (∃ h : k < N, (d ⟨k, h⟩).toNat % 2 ^ b0 = w.1) ∧ (∃ h : k + 1 < N, (d ⟨k + 1, h⟩).toNat % 2 ^ b1 = w.2)

theorem ReadAt.of_eq {N : Nat} {d : Fin N → Word} {k k' b0 b1 : Nat} {w : Nat × Nat} (e : k' = k) (h0 : k < N) (h1 : k + 1 < N)
    (h : w = ((d ⟨k, h0⟩).toNat % 2 ^ b0, (d ⟨k + 1, h1⟩).toNat % 2 ^ b1)) : ReadAt d k' b0 b1 w := by
  subst e
  subst h
  exact ⟨⟨h0, rfl⟩, ⟨h1, rfl⟩⟩

end Verif.Spec
