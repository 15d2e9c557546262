import Verif.Model.Data
/-! # What the test benches should call equal -/
namespace Verif.Spec

/-- Two objects are equal for a test bench: both have pt 0, or the compared fields agree. -/
def SameObj {T K : Type} (pt : T → Pt) (fields : T → K) (a b : T) : Prop :=
  (pt a = 0 ∧ pt b = 0) ∨ (pt a ≠ 0 ∧ fields a = fields b)

/-- The fields compared for each class. -/
def hadFields (o : HadCaloObj) := (o.hwPt, o.hwEmPt, o.hwEta, o.hwPhi, o.hwIsEM)
@[inherit_doc hadFields] def emFields (o : EmCaloObj) := (o.hwPt, o.hwPtErr, o.hwEta, o.hwPhi)
@[inherit_doc hadFields] def trackFields (o : TkObj) := (o.hwPt, o.hwPtErr, o.hwEta, o.hwPhi, o.hwZ0)
@[inherit_doc hadFields] def muFields (o : MuObj) := (o.hwPt, o.hwPtErr, o.hwEta, o.hwPhi)
@[inherit_doc hadFields] def chFields (o : PFChargedObj) := (o.hwPt, o.hwEta, o.hwPhi, o.hwId, o.hwZ0)
@[inherit_doc hadFields] def neFields (o : PFNeutralObj) := (o.hwPt, o.hwEta, o.hwPhi, o.hwId)

/-- The same particles in every slot of two results. -/
structure Agree {NT NE NS NM : Nat} (a b : PFOutputs NT NE NS NM) : Prop where
  charged : ∀ i, SameObj PFChargedObj.hwPt chFields (a.outch i) (b.outch i)
  photon : ∀ i, SameObj PFNeutralObj.hwPt neFields (a.outpho i) (b.outpho i)
  neutral : ∀ i, SameObj PFNeutralObj.hwPt neFields (a.outne i) (b.outne i)
  muon : ∀ i, SameObj PFChargedObj.hwPt chFields (a.outmu i) (b.outmu i)

end Verif.Spec
