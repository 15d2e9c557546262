import Verif.Proofs.Arith
import Verif.Spec.Geometry
import Mathlib.Tactic.Linarith
import Mathlib.Tactic.Ring
namespace Verif
open Spec

theorem circleDist2_reg (x y : Int) :
    IsCircleDist2 x y ((reg 10 (x - y)).toInt * (reg 10 (x - y)).toInt) := by
  obtain ⟨k, hk, hlo, hhi⟩ := reg10_cases (x - y)
  constructor
  · refine ⟨_, ?_, rfl⟩
    rw [hk]
    exact Int.modEq_iff_dvd.mpr ⟨-k, by ring⟩
  · intro a ha
    obtain ⟨m, hm⟩ := Int.modEq_iff_dvd.mp ha
    generalize (reg 10 (x - y)).toInt = r at *
    have e : a = r - 1024 * (m + k) := by linarith
    subst e
    generalize m + k = q
    rcases lt_trichotomy q 0 with h | h | h
    · have h1 : q ≤ -1 := by omega
      have h2 : 0 ≤ r - 512 * q := by omega
      nlinarith
    · subst h; simp
    · have h2 : r - 512 * q ≤ 0 := by omega
      nlinarith

theorem circleDist2_unique {x y d e : Int} (hd : IsCircleDist2 x y d) (he : IsCircleDist2 x y e) :
    d = e := by
  obtain ⟨a, ha, rfl⟩ := hd.1
  obtain ⟨b, hb, rfl⟩ := he.1
  exact le_antisymm (hd.2 b hb) (he.2 a ha)

theorem circleDist2_symm {x y d : Int} (h : IsCircleDist2 x y d) : IsCircleDist2 y x d := by
  have flip : ∀ {u v a : Int}, a ≡ u - v [ZMOD 1024] → -a ≡ v - u [ZMOD 1024] := by
    intro u v a h
    have := h.neg
    rwa [neg_sub] at this
  obtain ⟨a, ha, rfl⟩ := h.1
  refine ⟨⟨-a, flip ha, by ring⟩, fun b hb => ?_⟩
  have := h.2 (-b) (flip hb)
  linarith [this, neg_mul_neg b b]

theorem torusDist2_unique {a b c e d d' : Int} (h : IsTorusDist2 a b c e d)
    (h' : IsTorusDist2 a b c e d') : d = d' := by
  obtain ⟨x, y, hx, hy, rfl⟩ := h
  obtain ⟨x', y', hx', hy', rfl⟩ := h'
  rw [circleDist2_unique hx hx', circleDist2_unique hy hy']

theorem dr2_int_torus (e1 p1 e2 p2 : EtaPhi) :
    IsTorusDist2 e1.toInt p1.toInt e2.toInt p2.toInt (dr2_int e1 p1 e2 p2) :=
  ⟨_, _, circleDist2_reg _ _, circleDist2_reg _ _, rfl⟩

theorem dr2_int_symm (e1 p1 e2 p2 : EtaPhi) : dr2_int e1 p1 e2 p2 = dr2_int e2 p2 e1 p1 := by
  obtain ⟨x, y, hx, hy, e⟩ := dr2_int_torus e1 p1 e2 p2
  exact torusDist2_unique (dr2_int_torus e1 p1 e2 p2)
    (by obtain ⟨x, y, hx, hy, e⟩ := dr2_int_torus e2 p2 e1 p1
        exact ⟨x, y, circleDist2_symm hx, circleDist2_symm hy, e⟩)

theorem dr2_int_nonneg (e1 p1 e2 p2 : EtaPhi) : 0 ≤ dr2_int e1 p1 e2 p2 :=
  add_nonneg (mul_self_nonneg _) (mul_self_nonneg _)

theorem dr2_int_le (e1 p1 e2 p2 : EtaPhi) : dr2_int e1 p1 e2 p2 ≤ 524288 := by
  unfold dr2_int
  have h1 := ep_range (reg 10 (e1.toInt - e2.toInt))
  have h2 := ep_range (reg 10 (p1.toInt - p2.toInt))
  simp only []
  nlinarith

theorem dr2_int_exact (e1 p1 e2 p2 : EtaPhi)
    (he : -512 ≤ e1.toInt - e2.toInt ∧ e1.toInt - e2.toInt < 512)
    (hp : -512 ≤ p1.toInt - p2.toInt ∧ p1.toInt - p2.toInt < 512) :
    dr2_int e1 p1 e2 p2 = (e1.toInt - e2.toInt) ^ 2 + (p1.toInt - p2.toInt) ^ 2 := by
  unfold dr2_int
  simp only []
  rw [reg10_toInt he.1 he.2, reg10_toInt hp.1 hp.2]
  ring

theorem dr2_int_cap_toNat {NB : Nat} (e1 p1 e2 p2 : EtaPhi) (m : BitVec NB) :
    ((dr2_int_cap e1 p1 e2 p2 m).toNat : Int) = min (dr2_int e1 p1 e2 p2) m.toNat := by
  have h0 := dr2_int_nonneg e1 p1 e2 p2
  have hd : dr2_int_cap e1 p1 e2 p2 m =
      if dr2_int e1 p1 e2 p2 < (m.toNat : Int) then reg NB (dr2_int e1 p1 e2 p2) else m := rfl
  rw [hd]
  split
  · rename_i h
    have := m.isLt
    rw [reg_toNat_of_lt h0 (by omega), min_eq_left (by omega)]
  · rw [min_eq_right (by omega)]

end Verif
