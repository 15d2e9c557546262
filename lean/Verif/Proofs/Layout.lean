import Verif.Proofs.Encoding
import Verif.Spec.Layout
namespace Verif
open Spec

theorem toNat_app {m n w : Nat} (a : BitVec m) (b : BitVec n) (h : m + n = w) :
    ((a ++ b).cast h).toNat = b.toNat + 2 ^ n * a.toNat := by
  subst h
  have := b.isLt
  simp only [BitVec.cast_eq, BitVec.toNat_append]
  rw [Nat.shiftLeft_eq, Nat.mul_comm, ← Nat.two_pow_add_eq_or_of_lt this, Nat.add_comm]

theorem word_ptErr (a b : BitVec 16) : (a ++ b : BitVec 32).toNat = ptErrWord b a :=
  toNat_app a b rfl

theorem setWidth32_toNat {w : Nat} (x : BitVec w) (h : w ≤ 32) : (x.setWidth 32).toNat = x.toNat := by
  simp only [BitVec.toNat_setWidth]
  apply Nat.mod_eq_of_lt
  exact Nat.lt_of_lt_of_le x.isLt (Nat.pow_le_pow_right (by decide) h)

theorem word_etaPhi (a b : BitVec 10) : ((a ++ b : BitVec 20).setWidth 32).toNat = etaPhiWord b a := by
  rw [setWidth32_toNat _ (by decide)]
  exact toNat_app a b rfl

theorem word_ptId (a : BitVec 3) (b : BitVec 16) :
    ((a ++ b : BitVec 19).setWidth 32).toNat = ptIdWord b a := by
  rw [setWidth32_toNat _ (by decide)]
  exact toNat_app a b rfl

theorem toNat_app3 {m : Nat} (c : BitVec m) (a b : BitVec 10) :
    (c ++ a ++ b).toNat = etaPhiWord b a + 2 ^ 20 * c.toNat := by
  have h1 := toNat_app (c ++ a) b rfl
  have h2 := toNat_app c a rfl
  simp only [BitVec.cast_eq] at h1 h2
  rw [h1, h2]
  unfold etaPhiWord
  omega

theorem word_had (c : Bool) (a b : BitVec 10) :
    ((BitVec.ofBool c ++ a ++ b : BitVec 21).setWidth 32).toNat =
      etaPhiWord b a + 2 ^ 20 * c.toNat := by
  rw [setWidth32_toNat _ (by decide)]
  refine (toNat_app3 _ _ _).trans ?_
  cases c <;> rfl

theorem word_z0 (c a b : BitVec 10) :
    ((c ++ a ++ b : BitVec 30).setWidth 32).toNat = etaPhiWord b a + 2 ^ 20 * c.toNat := by
  rw [setWidth32_toNat _ (by decide)]
  exact toNat_app3 _ _ _

theorem setBit30_toNat (w : Word) (b : Bool) (h : w.toNat < 2 ^ 30) :
    (setBit w 30 b).toNat = w.toNat + 2 ^ 30 * b.toNat := by
  have e : setBit w 30 b = w ||| ((if b then 1#32 else 0#32) <<< 30) := by
    apply BitVec.eq_of_getLsbD_eq
    intro i hi
    rw [setBit_getLsbD _ _ _ _ (by decide) hi]
    by_cases h30 : i = 30
    · subst h30
      have : w.getLsbD 30 = false := by
        rw [BitVec.getLsbD]
        exact Nat.testBit_lt_two_pow h
      rw [if_pos rfl, BitVec.getLsbD_or, this]
      cases b <;> rfl
    · rw [if_neg h30, BitVec.getLsbD_or]
      have : ((if b then 1#32 else 0#32) <<< 30).getLsbD i = false := by
        cases b
        · simp
        · have hd : ∀ j : Fin 32, j.val ≠ 30 → ((1#32) <<< 30).getLsbD j.val = false := by decide
          exact hd ⟨i, hi⟩ h30
      rw [this, Bool.or_false]
  rw [e, BitVec.toNat_or]
  cases b
  · simp
  · have := Nat.two_pow_add_eq_or_of_lt h 1
    rw [Nat.or_comm] at this
    simp only [if_true, Bool.toNat_true]
    have e2 : ((1#32) <<< 30).toNat = 2 ^ 30 * 1 := by decide
    rw [e2, ← this]
    omega

theorem word_tk (c a b : BitVec 10) (q : Bool) :
    (setBit ((c ++ a ++ b : BitVec 30).setWidth 32) 30 q).toNat =
      etaPhiWord b a + 2 ^ 20 * c.toNat + 2 ^ 30 * q.toNat := by
  rw [setBit30_toNat, word_z0]
  rw [setWidth32_toNat _ (by decide)]
  exact BitVec.isLt _

end Verif
