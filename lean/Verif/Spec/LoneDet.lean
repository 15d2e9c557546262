import Verif.Spec.Detector
import Verif.Spec.Single
/-!
# One object of each kind in the whole detector

What each of the 18 regions sees of it.
-/
namespace Verif.Spec
variable {T : Type} [RegObj T]

/-- Sector `s0` sends `X` (if it is not null) among null words, the other sectors send null words. -/
def Lone (arr : Fin 12 → List T) (s0 : Fin 12) (X : T) : Prop :=
  ∀ s, (arr s).filter (fun o => decide (0 < ptOf o)) = if s = s0 ∧ 0 < ptOf X then [X] else []

/-- Region (`ie`, `ip`) is connected to the sector, and the object is in its eta window. -/
def Sees (ie : Fin 3) (ip : Fin 6) (s : Fin 12) (o : T) : Prop :=
  inSlice ie o = true ∧ (s.val = 2 * ip.val ∨ s.val = 2 * ip.val + 1 ∨ s.val = (2 * ip.val + 2) % 12)

instance (ie : Fin 3) (ip : Fin 6) (s : Fin 12) (o : T) : Decidable (Sees ie ip s o) := by unfold Sees; infer_instance

/-- What the region has of the object. -/
def viewOf (ie : Fin 3) (ip : Fin 6) (s : Fin 12) (o : T) : T := if 0 < ptOf o ∧ Sees ie ip s o then place ie ip s o else RegObj.clear

/-- A track, an EM cluster, a calorimeter cluster and a muon, and the sectors that send them. -/
structure LoneEvent where
  of : Single
  sT : Fin 12
  sC : Fin 12
  sH : Fin 12
  sM : Fin 12

/-- The four objects seen from a region (of the muon, `M`). -/
def LoneEvent.view (e : LoneEvent) (ie : Fin 3) (ip : Fin 6) (M : MuObj) : Single :=
  ⟨viewOf ie ip e.sT e.of.T, viewOf ie ip e.sC e.of.C, viewOf ie ip e.sH e.of.H, M⟩

/-- How many regions see an object. -/
def copies (s : Fin 12) (eta : Int) : Nat := (if 57 ≤ eta.natAbs ∧ eta.natAbs ≤ 171 then 2 else 1) * (if s.val % 2 = 0 then 2 else 1)

end Verif.Spec
