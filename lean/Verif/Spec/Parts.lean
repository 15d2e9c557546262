import Verif.Spec.PFPart
/-!
# Events that fall apart into parts

Parts of any size, each on its own.
-/
namespace Verif.Spec
variable {NT NC NE NM : Nat}

/-- A part of an event that is on its own and lists its objects in the order of the event. -/
structure SeparatePart (v : Variant) (inp : PFInputs NT NC NE NM) where
  nt : Nat
  nc : Nat
  ne : Nat
  nm : Nat
  event : PFInputs nt nc ne nm
  ft : Fin nt → Fin NT
  fh : Fin nc → Fin NC
  fe : Fin ne → Fin NE
  fm : Fin nm → Fin NM
  part : Part v inp event ft fh fe fm
  ordered : Ordered v event ft fh fe

/-- Every object is in one of the parts, and in one only. -/
structure FallsApart {v : Variant} (inp : PFInputs NT NC NE NM) (ps : List (SeparatePart v inp)) : Prop where
  track : ∀ t, (inp.track t).hwPt.toInt ≠ 0 → ∃ p ∈ ps, Has p.ft t
  had : ∀ h, (inp.hadcalo h).hwPt.toInt ≠ 0 → ∃ p ∈ ps, Has p.fh h
  em : ∀ e, (inp.emcalo e).hwPt.toInt ≠ 0 → ∃ p ∈ ps, Has p.fe e
  mu : ∀ m, 0 < (inp.mu m).hwPt.toInt → ∃ p ∈ ps, Has p.fm m
  oneTrack : (ps.flatMap fun p => List.ofFn p.ft).Nodup
  oneHad : (ps.flatMap fun p => List.ofFn p.fh).Nodup
  oneEm : (ps.flatMap fun p => List.ofFn p.fe).Nodup
  oneMu : (ps.flatMap fun p => List.ofFn p.fm).Nodup

end Verif.Spec
