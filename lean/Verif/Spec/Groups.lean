import Verif.Spec.Isolated
/-!
# Events of well separated particles

A group has at most one object of each kind, given by their slots.  An event is grouped if each of its objects is in one group and objects of
different groups are outside the distance cuts of the links.
-/
namespace Verif.Spec
variable {NT NC NE NM NS : Nat}

/-- At most one slot of each array. -/
structure Group (NT NC NE NM : Nat) where
  track : Option (Fin NT)
  had : Option (Fin NC)
  em : Option (Fin NE)
  mu : Option (Fin NM)

/-- The objects of a group. -/
def groupSingle (inp : PFInputs NT NC NE NM) (g : Group NT NC NE NM) : Single where
  T := (g.track.map inp.track).getD TkObj.clear
  C := (g.em.map inp.emcalo).getD EmCaloObj.clear
  H := (g.had.map inp.hadcalo).getD HadCaloObj.clear
  M := (g.mu.map inp.mu).getD MuObj.clear

/-- Nothing outside the group is within the distance cuts of the links of anything inside.  Empty slots may be, except an EM slot at a track
(and at a calorimeter cluster, for the variant with protection). -/
structure Alone (v : Variant) (inp : PFInputs NT NC NE NM) (g : Group NT NC NE NM) : Prop where
  muTk : ∀ m t, g.mu = some m → muDist2 inp m t < 2101 → g.track = some t ∨ (inp.track t).hwPt.toInt = 0
  tkMu : ∀ m t, g.track = some t → muDist2 inp m t < 2101 → g.mu = some m ∨ (inp.mu m).hwPt.toInt = 0
  tkEm : ∀ t e, g.track = some t → tkEmDist2 inp t e < 84 → g.em = some e
  emTk : ∀ t e, g.em = some e → tkEmDist2 inp t e < 84 → g.track = some t ∨ (inp.track t).hwPt.toInt = 0
  emHad : ∀ e h, g.em = some e → emHadDist2 inp e h < 525 → g.had = some h ∨ (inp.hadcalo h).hwEmPt.toInt = 0
  hadEm : ∀ e h, g.had = some h → emHadDist2 inp e h < 525 → g.em = some e ∨ (v.protect = false ∧ (inp.emcalo e).hwPt.toInt = 0)
  tkHad : ∀ t h, g.track = some t → tkHadDist2 inp t h < 756 → g.had = some h ∨ (inp.hadcalo h).hwPt.toInt = 0
  hadTk : ∀ t h, g.had = some h → tkHadDist2 inp t h < 756 → g.track = some t ∨ ((inp.track t).hwPt.toInt = 0 ∧ (inp.track t).hwPtErr.toInt = 0)

/-- Every object is in one of the groups, and in one only. -/
structure Grouped (inp : PFInputs NT NC NE NM) (gs : List (Group NT NC NE NM)) : Prop where
  track : ∀ t, (inp.track t).hwPt.toInt ≠ 0 → ∃ g ∈ gs, g.track = some t
  had : ∀ h, (inp.hadcalo h).hwPt.toInt ≠ 0 → ∃ g ∈ gs, g.had = some h
  em : ∀ e, (inp.emcalo e).hwPt.toInt ≠ 0 → ∃ g ∈ gs, g.em = some e
  mu : ∀ m, 0 < (inp.mu m).hwPt.toInt → ∃ g ∈ gs, g.mu = some m
  oneTrack : (gs.filterMap Group.track).Nodup
  oneHad : (gs.filterMap Group.had).Nodup
  oneEm : (gs.filterMap Group.em).Nodup
  oneMu : (gs.filterMap Group.mu).Nodup

end Verif.Spec
