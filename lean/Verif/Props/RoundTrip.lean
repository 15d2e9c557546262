import Verif.Model.Convert
import Verif.Proofs.Arith
/-! # Conversions there and back: property C55 -/
namespace Verif

theorem reg_self {w : Nat} (x : BitVec w) : reg w x.toInt = x := BitVec.ofInt_toInt

theorem reg10_reg16 (x : BitVec 10) : reg 10 (reg 16 x.toInt).toInt = x := by
  have h1 := BitVec.le_toInt x
  have h2 := @BitVec.toInt_lt 10 x
  rw [reg16_toInt (by omega) (by omega)]
  exact reg_self x

theorem reg16_reg10 {x : BitVec 16} (h : -512 ≤ x.toInt ∧ x.toInt < 512) : reg 16 (reg 10 x.toInt).toInt = x := by
  rw [reg10_toInt h.1 h.2]
  exact reg_self x

/-- **C55.** Firmware objects survive `fw2dpf` followed by `dpf2fw`, whatever the objects converted into held, except
that the pt error of a muon becomes 0 and the quality of a track is that of the stubs and chi2 of the destination. -/
theorem C55_there_and_back :
    (∀ (x : HadCaloObj) (o : CaloCluster), fw_had (dpf_had x o) = x) ∧
    (∀ (x : EmCaloObj) (o : CaloCluster), fw_em (dpf_em x o) = x) ∧
    (∀ (x : MuObj) (o : Muon), fw_mu (dpf_mu x o) = { x with hwPtErr := 0 }) ∧
    (∀ (x : TkObj) (o : PropagatedTrack), fw_track (dpf_track x o) =
      { x with hwTightQuality := decide (6 ≤ o.hwStubs.toNat ∧ o.hwChi2.toNat < 500) }) := by
  refine ⟨fun x o => ?_, fun x o => ?_, fun x o => ?_, fun x o => ?_⟩ <;> cases x
  · simp only [fw_had, dpf_had, reg_self, reg10_reg16]
  · simp only [fw_em, dpf_em, reg_self, reg10_reg16]
  · simp only [fw_mu, dpf_mu, reg_self, reg10_reg16]
  · simp only [fw_track, dpf_track, reg_self, reg10_reg16, Bool.decide_and]

/-- **C55.** Clusters, tracks and muons survive `dpf2fw` followed by `fw2dpf` into the same object, when position and
z0 fit 10 bits; the other fields are not touched. -/
theorem C55_back_and_there :
    (∀ c : CaloCluster, (-512 ≤ c.hwEta.toInt ∧ c.hwEta.toInt < 512) → (-512 ≤ c.hwPhi.toInt ∧ c.hwPhi.toInt < 512) →
      dpf_had (fw_had c) c = c ∧ dpf_em (fw_em c) c = c) ∧
    (∀ m : Muon, (-512 ≤ m.hwEta.toInt ∧ m.hwEta.toInt < 512) → (-512 ≤ m.hwPhi.toInt ∧ m.hwPhi.toInt < 512) →
      dpf_mu (fw_mu m) m = m) ∧
    (∀ t : PropagatedTrack, (-512 ≤ t.hwEta.toInt ∧ t.hwEta.toInt < 512) → (-512 ≤ t.hwPhi.toInt ∧ t.hwPhi.toInt < 512) →
      (-512 ≤ t.hwZ0.toInt ∧ t.hwZ0.toInt < 512) → dpf_track (fw_track t) t = t) := by
  refine ⟨fun c h1 h2 => ?_, fun m h1 h2 => ?_, fun t h1 h2 h3 => ?_⟩
  · simp only [fw_had, dpf_had, fw_em, dpf_em, reg_self, reg16_reg10 h1, reg16_reg10 h2, and_self]
  · simp only [fw_mu, dpf_mu, reg_self, reg16_reg10 h1, reg16_reg10 h2]
  · simp only [fw_track, dpf_track, reg_self, reg16_reg10 h1, reg16_reg10 h2, reg16_reg10 h3]

/-- **C55.** Outside that range a position is not preserved. -/
theorem C55_range_needed (c : CaloCluster) (h : ¬ (-512 ≤ c.hwEta.toInt ∧ c.hwEta.toInt < 512)) :
    dpf_had (fw_had c) c ≠ c ∧ dpf_em (fw_em c) c ≠ c := by
  have key : reg 16 (reg 10 c.hwEta.toInt).toInt ≠ c.hwEta := by
    intro he
    have h1 := BitVec.le_toInt (reg 10 c.hwEta.toInt)
    have h2 := @BitVec.toInt_lt 10 (reg 10 c.hwEta.toInt)
    have h3 := congrArg BitVec.toInt he
    rw [reg16_toInt (by omega) (by omega)] at h3
    rw [h3] at h1 h2
    exact h ⟨by simpa using h1, by simpa using h2⟩
  exact ⟨fun he => key (congrArg CaloCluster.hwEta he), fun he => key (congrArg CaloCluster.hwEta he)⟩

/-- A case of each: a track with negative coordinates, and one outside the range. -/
example : fw_track (dpf_track ⟨100, 7, -300, 511, -2, true⟩ ⟨⟨0, 0, 0, false, 9, 3, 5, 0⟩, 1, 1, 1, 1, 1, true, true, true⟩) =
      ⟨100, 7, -300, 511, -2, false⟩ ∧
    (dpf_track (fw_track ⟨⟨0, 0, 0, false, 9, 3, 6, 0⟩, 1, 1, 1, 600, 1, true, true, true⟩)
      ⟨⟨0, 0, 0, false, 9, 3, 6, 0⟩, 1, 1, 1, 600, 1, true, true, true⟩).hwEta.toInt = -424 := by decide

end Verif
