import Verif.Proofs.Geometry
/-! # Distances: property C21 -/
namespace Verif
open Spec

/-- **C21.** If both coordinate differences are within half the 10-bit range, `dr2_int` is the exact
squared distance. -/
theorem C21_dr2_exact (e1 p1 e2 p2 : EtaPhi)
    (he : -512 ≤ e1.toInt - e2.toInt ∧ e1.toInt - e2.toInt < 512)
    (hp : -512 ≤ p1.toInt - p2.toInt ∧ p1.toInt - p2.toInt < 512) :
    dr2_int e1 p1 e2 p2 = (e1.toInt - e2.toInt) ^ 2 + (p1.toInt - p2.toInt) ^ 2 :=
  dr2_int_exact e1 p1 e2 p2 he hp

/-- **C21.** In general `dr2_int` is the squared distance on the 1024-periodic torus. -/
theorem C21_dr2_torus (e1 p1 e2 p2 : EtaPhi) (d : Int) :
    dr2_int e1 p1 e2 p2 = d ↔ IsTorusDist2 e1.toInt p1.toInt e2.toInt p2.toInt d :=
  ⟨fun h => h ▸ dr2_int_torus e1 p1 e2 p2, fun h => torusDist2_unique (dr2_int_torus e1 p1 e2 p2) h⟩

/-- **C21.** Symmetric in its two points, never negative, at most `2·512²` (so `int` suffices), zero
exactly for equal points. -/
theorem C21_dr2_metric (e1 p1 e2 p2 : EtaPhi) :
    dr2_int e1 p1 e2 p2 = dr2_int e2 p2 e1 p1 ∧ 0 ≤ dr2_int e1 p1 e2 p2 ∧
    dr2_int e1 p1 e2 p2 ≤ 2 * 512 ^ 2 ∧ (dr2_int e1 p1 e2 p2 = 0 ↔ e1 = e2 ∧ p1 = p2) := by
  refine ⟨dr2_int_symm .., dr2_int_nonneg .., dr2_int_le .., ?_, ?_⟩
  · intro h
    have key : ∀ x y : EtaPhi, (reg 10 (x.toInt - y.toInt)).toInt = 0 → x = y := by
      intro x y hxy
      obtain ⟨k, hk, _, _⟩ := reg10_cases (x.toInt - y.toInt)
      have hx := ep_range x
      have hy := ep_range y
      apply BitVec.eq_of_toInt_eq
      omega
    have h1 := mul_self_nonneg (reg 10 (e1.toInt - e2.toInt)).toInt
    have h2 := mul_self_nonneg (reg 10 (p1.toInt - p2.toInt)).toInt
    have h' : (reg 10 (e1.toInt - e2.toInt)).toInt * (reg 10 (e1.toInt - e2.toInt)).toInt +
      (reg 10 (p1.toInt - p2.toInt)).toInt * (reg 10 (p1.toInt - p2.toInt)).toInt = 0 := h
    exact ⟨key _ _ (mul_self_eq_zero.mp (by omega)), key _ _ (mul_self_eq_zero.mp (by omega))⟩
  · rintro ⟨rfl, rfl⟩
    rw [dr2_int_exact _ _ _ _ (by omega) (by omega)]
    ring

/-- **C21.** `dr2_int_cap` is the distance capped at `max`, for every register width and cap. -/
theorem C21_dr2_cap {NB : Nat} (e1 p1 e2 p2 : EtaPhi) (m : BitVec NB) :
    ((dr2_int_cap e1 p1 e2 p2 m).toNat : Int) = min (dr2_int e1 p1 e2 p2) m.toNat :=
  dr2_int_cap_toNat e1 p1 e2 p2 m

/-- Non-vacuity: an ordinary pair, and a pair beyond half range for which the plain difference is
*not* what the code computes (300 − (−300) = 600 wraps to −424). -/
example : dr2_int 5 7 2 3 = 25 ∧ dr2_int 300 0 (-300) 0 = 424 ^ 2 := by decide

end Verif
