import Verif.Spec.Detector
/-! # Turning and reflecting the detector -/
namespace Verif.Spec

/-- The sector `2j` sectors further on: a turn by `j` times 60 degrees. -/
def turnSector (j : Nat) (s : Fin 12) : Fin 12 := ⟨(s.val + 2 * j) % 12, Nat.mod_lt _ (by decide)⟩
/-- The muon sector `k` quarters of a turn further on. -/
def turnMuSector (k : Nat) (s : Fin 4) : Fin 4 := ⟨(s.val + k) % 4, Nat.mod_lt _ (by decide)⟩

/-- Region `ir'` is where region `ir` is after a turn by `j` times 60 degrees. -/
def Turned (j : Nat) (ir ir' : Fin 18) : Prop :=
  regionEta ir' = regionEta ir ∧ (regionPhi ir').val = ((regionPhi ir).val + j) % 6

/-- Region `ir'` is on the other side of the detector. -/
def Flipped (ir ir' : Fin 18) : Prop := (regionEta ir').val + (regionEta ir).val = 2 ∧ regionPhi ir' = regionPhi ir

/-- The object reflected in eta. -/
def flipEta {T : Type} [RegObj T] (o : T) : T := RegObj.setEta o (-(RegObj.eta o))

end Verif.Spec
