import Verif.Spec.PF
/-!
# Part of an event

A part of an event is given by maps from its objects to those of the event.  It is on its own if nothing outside is
within the distance cuts of anything inside, apart from empty slots.
-/
namespace Verif.Spec
variable {NT NC NE NM nt nc ne nm : Nat}

/-- Some index is sent to `i`. -/
def Has {n k : Nat} (f : Fin k → Fin n) (i : Fin n) : Prop := ∃ a, f a = i
instance {n k : Nat} (f : Fin k → Fin n) (i : Fin n) : Decidable (Has f i) := by unfold Has; infer_instance

/-- `p` is a part of `inp` that is on its own.  The distance cuts are those of the four kinds of links.  Empty slots do
no harm, with one exception: an empty EM slot attracts tracks like any other cluster (`tkEm`).  For the variant with
protection, it also protects. -/
structure Part (v : Variant) (inp : PFInputs NT NC NE NM) (p : PFInputs nt nc ne nm)
    (ft : Fin nt → Fin NT) (fh : Fin nc → Fin NC) (fe : Fin ne → Fin NE) (fm : Fin nm → Fin NM) : Prop where
  track : ∀ t, inp.track (ft t) = p.track t
  had : ∀ h, inp.hadcalo (fh h) = p.hadcalo h
  em : ∀ e, inp.emcalo (fe e) = p.emcalo e
  mu : ∀ m, inp.mu (fm m) = p.mu m
  injT : Function.Injective ft
  injH : Function.Injective fh
  injE : Function.Injective fe
  injM : Function.Injective fm
  muTk : ∀ m t, muDist2 inp (fm m) t < 2101 → Has ft t ∨ (inp.track t).hwPt.toInt = 0
  tkMu : ∀ m t, muDist2 inp m (ft t) < 2101 → Has fm m ∨ (inp.mu m).hwPt.toInt = 0
  tkEm : ∀ t e, tkEmDist2 inp (ft t) e < 84 → Has fe e
  emTk : ∀ t e, tkEmDist2 inp t (fe e) < 84 → Has ft t ∨ (inp.track t).hwPt.toInt = 0
  emHad : ∀ e h, emHadDist2 inp (fe e) h < 525 → Has fh h ∨ (inp.hadcalo h).hwEmPt.toInt = 0
  hadEm : ∀ e h, emHadDist2 inp e (fh h) < 525 → Has fe e ∨ (v.protect = false ∧ (inp.emcalo e).hwPt.toInt = 0)
  tkHad : ∀ t h, tkHadDist2 inp (ft t) h < 756 → Has fh h ∨ (inp.hadcalo h).hwPt.toInt = 0
  hadTk : ∀ t h, tkHadDist2 inp t (fh h) < 756 → Has ft t ∨ ((inp.track t).hwPt.toInt = 0 ∧ (inp.track t).hwPtErr.toInt = 0)

/-- Of two candidates `a < b` that tie, the part keeps the order. -/
def KeepsTies {n k : Nat} (f : Fin k → Fin n) (Q : Fin k → Prop) (G : Fin k → Int) : Prop :=
  ∀ a b, a < b → Q a → Q b → G a = G b → f a ≤ f b

/-- The part lists its objects in the order of the event, as far as links are decided by the order. -/
structure Ordered (v : Variant) (p : PFInputs nt nc ne nm) (ft : Fin nt → Fin NT) (fh : Fin nc → Fin NC) (fe : Fin ne → Fin NE) : Prop where
  mu : ∀ m, KeepsTies ft (fun t => muDist2 p m t < 2101 ∧ muDpt p m t < (p.mu m).hwPt.toInt / 2) (muDpt p m)
  em : ∀ t, KeepsTies fe (fun c => tkEmDist2 p t c < 84) (tkEmDist2 p t)
  had : ∀ e, KeepsTies fh (fun h => (p.emcalo e).hwPt.toInt / 2 < (p.hadcalo h).hwEmPt.toInt ∧ emHadDist2 p e h < 525) (emHadDist2 p e)
  calo : ∀ t, KeepsTies fh (Compatible p v t) (metric p v t)

end Verif.Spec

namespace Verif.Spec

/-- The candidates that are seen, by descending pt, the later first among equals. -/
def neutralsByPt {n : Nat} (s : Fin n → Seen) : List Seen :=
  ((List.ofFn s).reverse.filter fun x => decide (x.1 ≠ 0)).insertionSort fun a b => b.1 ≤ a.1

/-- A list cut or filled up with nothing to `n`. -/
def fit (n : Nat) (l : List Seen) : List Seen := (l ++ List.replicate n (0, 0, 0, 0)).take n

end Verif.Spec
