import Verif.Model.PF
import Verif.Proofs.Basic
/-! # Register arithmetic -/
namespace Verif

theorem reg_toInt (w : Nat) (x : Int) : (reg w x).toInt = x.bmod (2 ^ w) := by
  simp [reg, BitVec.toInt_ofInt]

theorem reg16_toInt {x : Int} (h1 : -32768 ≤ x) (h2 : x < 32768) : (reg 16 x).toInt = x := by
  rw [reg_toInt]; exact Int.bmod_eq_of_le (by omega) (by omega)

theorem reg10_toInt {x : Int} (h1 : -512 ≤ x) (h2 : x < 512) : (reg 10 x).toInt = x := by
  rw [reg_toInt]; exact Int.bmod_eq_of_le (by omega) (by omega)

theorem pt_range (p : Pt) : -32768 ≤ p.toInt ∧ p.toInt < 32768 := by
  have h1 := BitVec.le_toInt p
  have h2 := @BitVec.toInt_lt 16 p
  constructor <;> simpa using ‹_›

theorem ep_range (p : EtaPhi) : -512 ≤ p.toInt ∧ p.toInt < 512 := by
  have h1 := BitVec.le_toInt p
  have h2 := @BitVec.toInt_lt 10 p
  constructor <;> simpa using ‹_›

/-- `reg 16 x` for any `x`: the representative of `x` modulo 65536 in range. -/
theorem reg16_cases (x : Int) :
    ∃ k : Int, (reg 16 x).toInt = x + 65536 * k ∧ -32768 ≤ (reg 16 x).toInt ∧
      (reg 16 x).toInt < 32768 := by
  have := pt_range (reg 16 x)
  refine ⟨-((x - (reg 16 x).toInt) / 65536), ?_, this.1, this.2⟩
  have h : (reg 16 x).toInt = x.bmod 65536 := reg_toInt 16 x
  have h2 := @Int.emod_bmod x 65536
  have h3 : (x - x.bmod 65536) % 65536 = 0 := by
    have := Int.bmod_emod (x := x) (m := 65536)
    omega
  rw [h]
  omega

theorem reg10_cases (x : Int) :
    ∃ k : Int, (reg 10 x).toInt = x + 1024 * k ∧ -512 ≤ (reg 10 x).toInt ∧
      (reg 10 x).toInt < 512 := by
  have := ep_range (reg 10 x)
  refine ⟨-((x - (reg 10 x).toInt) / 1024), ?_, this.1, this.2⟩
  have h : (reg 10 x).toInt = x.bmod 1024 := reg_toInt 10 x
  have h3 : (x - x.bmod 1024) % 1024 = 0 := by
    have := Int.bmod_emod (x := x) (m := 1024)
    omega
  rw [h]
  omega

theorem reg_toNat (w : Nat) (x : Int) : ((reg w x).toNat : Int) = x % (2 ^ w : Nat) := by
  simp [reg, BitVec.toNat_ofInt]
  apply Int.max_eq_left
  apply Int.emod_nonneg
  have : (2:Int)^w > 0 := Int.pow_pos (by decide)
  omega

theorem reg_toNat_of_lt {w : Nat} {x : Int} (h0 : 0 ≤ x) (h : x < (2 ^ w : Nat)) :
    ((reg w x).toNat : Int) = x := by
  rw [reg_toNat]; exact Int.emod_eq_of_lt h0 h

end Verif
