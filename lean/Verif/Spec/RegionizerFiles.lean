import Verif.Model.RegionizerTest
import Verif.Spec.Layout
import Verif.Spec.Pattern
/-! # Where the regionizer test bench puts things in its files -/
namespace Verif.Spec
variable {sz : RegSizes} {NC NE NT NM : Nat}

/-- The two words of an object on link `c`, in rows `r` and `r + 1`. -/
def ObjAt (rows : List PatRow) (r c : Nat) (w : Nat × Nat) : Prop :=
  ∃ row0 row1 x0 x1, rows[r]? = some row0 ∧ rows[r + 1]? = some row1 ∧ row0.2[c]? = some x0 ∧ row1.2[c]? = some x1 ∧
    (x0.toNat, x1.toNat) = w

/-- What link `c` carries in time slot `ic` of the input file: links 0–11 the clusters of the sectors, 12–23 the
electromagnetic ones, 24–47 the tracks, two links per sector, 48–51 the muons of the four sectors. -/
def inLink (d : RegRecord sz NC NE NT NM) (ic c : Nat) : Nat × Nat :=
  if h : c < 12 then if h' : ic < sz.calo then hadWords (d.inp.calo ⟨c, h⟩ ⟨ic, h'⟩) else (0, 0)
  else if h : c < 24 then if h' : ic < sz.em then emWords (d.inp.em ⟨c - 12, by show _ < 12; omega⟩ ⟨ic, h'⟩) else (0, 0)
  else if h : c < 48 then
    if h' : ic < sz.track / 2 then tkWords (d.inp.track ⟨(c - 24) / 2, by show _ < 12; omega⟩ ⟨2 * ic + (c - 24) % 2, by omega⟩) else (0, 0)
  else if h : c < 52 then if h' : ic < NM then muWords (d.mu_in ⟨c - 48, by show _ < 4; omega⟩ ⟨ic, h'⟩) else (0, 0)
  else (0, 0)

/-- What link `c` carries in time slot `ic` of the output file: the objects of region `ic`, first the clusters, then the
electromagnetic ones, the tracks and the muons. -/
def outLink (d : RegRecord sz NC NE NT NM) (ic : Fin 18) (c : Nat) : Nat × Nat :=
  if h : c < NC then hadWords (d.calo ic ⟨c, h⟩)
  else if h : c < NC + NE then emWords (d.em ic ⟨c - NC, by omega⟩)
  else if h : c < NC + NE + NT then tkWords (d.track ic ⟨c - (NC + NE), by omega⟩)
  else if h : c < NC + NE + NT + NM then muWords (d.mu ic ⟨c - (NC + NE + NT), by omega⟩)
  else (0, 0)

/-- The numbers printed for a cluster: pt, eta, phi, electromagnetic pt, flag. -/
def hadNumbers (o : HadCaloObj) : List Int :=
  [o.hwPt.toInt, o.hwEta.toInt, o.hwPhi.toInt, o.hwEmPt.toInt, if o.hwIsEM = true then 1 else 0]
/-- For an electromagnetic cluster: pt, eta, phi, error. -/
def emNumbers (o : EmCaloObj) : List Int := [o.hwPt.toInt, o.hwEta.toInt, o.hwPhi.toInt, o.hwPtErr.toInt]
/-- For a track: pt, eta, phi, error, z0. -/
def tkNumbers (o : TkObj) : List Int := [o.hwPt.toInt, o.hwEta.toInt, o.hwPhi.toInt, o.hwPtErr.toInt, o.hwZ0.toInt]
/-- For a muon: pt, eta, phi, error. -/
def muNumbers (o : MuObj) : List Int := [o.hwPt.toInt, o.hwEta.toInt, o.hwPhi.toInt, o.hwPtErr.toInt]

/-- The numbers from column `p` on. -/
def ColumnsAt (line : List Int) (p : Nat) (xs : List Int) : Prop := (line.drop p).take xs.length = xs


end Verif.Spec
