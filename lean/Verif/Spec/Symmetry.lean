import Verif.Spec.PF
/-!
# Moving an event

A motion of the eta-phi torus, applied to every object of an event, and what it should do to the
particles found.
-/
namespace Verif.Spec

/-- A map of positions that keeps all squared distances. -/
structure Motion where
  eta : EtaPhi → EtaPhi → EtaPhi
  phi : EtaPhi → EtaPhi → EtaPhi
  isometry : ∀ e1 p1 e2 p2,
    dist2 (eta e1 p1) (phi e1 p1) (eta e2 p2) (phi e2 p2) = dist2 e1 p1 e2 p2

variable {NT NC NE NM NS : Nat}

/-- The event with every object moved (empty slots too). -/
def Motion.inputs (g : Motion) (inp : PFInputs NT NC NE NM) : PFInputs NT NC NE NM where
  emcalo i := { inp.emcalo i with
    hwEta := g.eta (inp.emcalo i).hwEta (inp.emcalo i).hwPhi, hwPhi := g.phi (inp.emcalo i).hwEta (inp.emcalo i).hwPhi }
  hadcalo i := { inp.hadcalo i with
    hwEta := g.eta (inp.hadcalo i).hwEta (inp.hadcalo i).hwPhi, hwPhi := g.phi (inp.hadcalo i).hwEta (inp.hadcalo i).hwPhi }
  track i := { inp.track i with
    hwEta := g.eta (inp.track i).hwEta (inp.track i).hwPhi, hwPhi := g.phi (inp.track i).hwEta (inp.track i).hwPhi }
  mu i := { inp.mu i with
    hwEta := g.eta (inp.mu i).hwEta (inp.mu i).hwPhi, hwPhi := g.phi (inp.mu i).hwEta (inp.mu i).hwPhi }

/-- `o'` is the charged particle `o` moved (particles of zero pt have no position). -/
structure Motion.Charged (g : Motion) (o o' : PFChargedObj) : Prop where
  pt : o'.hwPt = o.hwPt
  id : o'.hwId = o.hwId
  z0 : o'.hwZ0 = o.hwZ0
  eta : o.hwPt ≠ 0 → o'.hwEta = g.eta o.hwEta o.hwPhi
  phi : o.hwPt ≠ 0 → o'.hwPhi = g.phi o.hwEta o.hwPhi

/-- `o'` is the neutral particle `o` moved. -/
structure Motion.Neutral (g : Motion) (o o' : PFNeutralObj) : Prop where
  pt : o'.hwPt = o.hwPt
  id : o'.hwId = o.hwId
  puppi : o'.hwPtPuppi = o.hwPtPuppi
  eta : o.hwPt ≠ 0 → o'.hwEta = g.eta o.hwEta o.hwPhi
  phi : o.hwPt ≠ 0 → o'.hwPhi = g.phi o.hwEta o.hwPhi

/-- The whole result moved, slot by slot. -/
structure Motion.Outputs (g : Motion) (o o' : PFOutputs NT NE NS NM) : Prop where
  charged : ∀ i, g.Charged (o.outch i) (o'.outch i)
  photon : ∀ i, g.Neutral (o.outpho i) (o'.outpho i)
  neutral : ∀ i, g.Neutral (o.outne i) (o'.outne i)
  muon : ∀ i, g.Charged (o.outmu i) (o'.outmu i)

/-- Two runs that end the same way: with the same fault, or both with a result, and then related. -/
def SameRun {α β : Type} (R : α → β → Prop) : Run α → Run β → Prop
  | .ok a, .ok b => R a b
  | .error e, .error e' => e = e'
  | _, _ => False

end Verif.Spec
