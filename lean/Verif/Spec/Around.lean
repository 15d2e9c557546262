import Verif.Spec.Influence
import Verif.Spec.DetectorPuppi
/-!
# What is around a point

Lists of objects, cut to those of non-null pt within a distance of a point.  Slot numbers and array sizes play no part.
-/
open Classical
namespace Verif.Spec
variable {NT NC NE NM NT' NC' NE' NM' : Nat}

/-- The objects of a list within `R` of `p`, in the order of the list, without those of null pt. -/
noncomputable def around {A : Type} (R : ℝ) (p : Dir) (null : A → Prop) (pos : A → Dir) (l : List A) : List A :=
  l.filter fun o => decide (¬ null o ∧ gap p (pos o) < R)

/-- The two events have the same objects, in the same order, within `R` of `p`. -/
structure SameAround (R : ℝ) (p : Dir) (inp : PFInputs NT NC NE NM) (inp' : PFInputs NT' NC' NE' NM') : Prop where
  track : around R p (·.hwPt = 0) (fun o => (o.hwEta, o.hwPhi)) (List.ofFn inp.track) =
    around R p (·.hwPt = 0) (fun o => (o.hwEta, o.hwPhi)) (List.ofFn inp'.track)
  had : around R p (·.hwPt = 0) (fun o => (o.hwEta, o.hwPhi)) (List.ofFn inp.hadcalo) =
    around R p (·.hwPt = 0) (fun o => (o.hwEta, o.hwPhi)) (List.ofFn inp'.hadcalo)
  em : around R p (·.hwPt = 0) (fun o => (o.hwEta, o.hwPhi)) (List.ofFn inp.emcalo) =
    around R p (·.hwPt = 0) (fun o => (o.hwEta, o.hwPhi)) (List.ofFn inp'.emcalo)
  mu : around R p (·.hwPt = 0) (fun o => (o.hwEta, o.hwPhi)) (List.ofFn inp.mu) =
    around R p (·.hwPt = 0) (fun o => (o.hwEta, o.hwPhi)) (List.ofFn inp'.mu)

/-- How the arrays of a region look when it is not full: empty slots are really empty, and the EM array has some, at the end. -/
structure Packed (inp : PFInputs NT NC NE NM) : Prop where
  track : ∀ t, (inp.track t).hwPt = 0 → (inp.track t).hwPtErr = 0
  had : ∀ h, (inp.hadcalo h).hwPt = 0 → (inp.hadcalo h).hwEmPt = 0
  em : ∀ e, (inp.emcalo e).hwPt = 0 → inp.emcalo e = EmCaloObj.clear
  emLast : ∀ e e', e ≤ e' → (inp.emcalo e).hwPt = 0 → (inp.emcalo e').hwPt = 0
  emFree : ∃ e, (inp.emcalo e).hwPt = 0

/-- What is seen of neutral candidates within `r` of `p`. -/
noncomputable def seenAround (r : ℝ) (p : Dir) (l : List Seen) : List Seen := around r p (·.1 = 0) (fun o => (o.2.1, o.2.2.1)) l

/-- Charged candidates within `r` of `p`. -/
noncomputable def chargedAround (r : ℝ) (p : Dir) (l : List PFChargedObj) : List PFChargedObj :=
  around r p (·.hwPt = 0) (fun o => (o.hwEta, o.hwPhi)) l

/-! ### In the detector -/

/-- The objects of sector `s`, of positive pt, within `R` of a direction. -/
noncomputable def detAround {T : Type} [RegObj T] (R : ℝ) (P : Pos) (s : Fin 12) (l : List T) : List T :=
  l.filter fun o => decide (0 < ptOf o ∧ Real.sqrt (detDist2 P (posOf s o) : ℤ) < R)

/-- A direction in the coordinates of region (`ie`, `ip`). -/
def dirIn (ie : Fin 3) (ip : Fin 6) (P : Pos) : Dir :=
  (BitVec.ofInt 10 (P.eta - etaC ie), BitVec.ofInt 10 ((P.phi - 120 * (2 * ip.val + 1)).bmod 1440))

/-- The region has room left for one more. -/
def Room {T : Type} [RegObj T] (nreg : Nat) (ie : Fin 3) (ip : Fin 6) (arr : Fin 12 → List T) : Prop :=
  (window ie (arr ⟨2 * ip.val, by omega⟩)).length + (window ie (arr ⟨2 * ip.val + 1, by omega⟩)).length +
    (window ie (arr ⟨(2 * ip.val + 2) % 12, by omega⟩)).length < nreg

end Verif.Spec
