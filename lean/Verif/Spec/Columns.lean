import Verif.Spec.Text
import Verif.Model.Data
/-!
# Tables with fixed columns
-/
namespace Verif.Spec

/-- A column: where it begins, how wide it is, and the number in it. -/
abbrev Column := Nat × Nat × Int

/-- The text has this length, and the columns hold the numbers. -/
def Table (t : List Char) (len : Nat) (cols : List Column) : Prop :=
  t.length = len ∧ ∀ c ∈ cols, c.1 + c.2.1 ≤ len ∧ ints ((t.drop c.1).take c.2.1) = [c.2.2]

/-- The columns of a piece that is not at the beginning. -/
def shift (a : Nat) (cols : List Column) : List Column := cols.map fun c => (a + c.1, c.2)

/-- The columns of pieces of the same length, one after the other. -/
def slotCols {n : Nat} (len : Nat) (cols : Fin n → List Column) : List Column := (List.finRange n).flatMap fun i => shift (i.val * len) (cols i)

/-- The number can be written in `w` characters. -/
def HasRoom (w : Nat) (x : Int) : Prop := -(10 ^ (w - 1) : Nat) < x ∧ x < (10 ^ w : Nat)

/-- The columns of an object of this kind in the dumps of the regionizer; 27 characters. -/
def hadColumns (o : HadCaloObj) : List Column := [(7, 4, o.hwPt.toInt), (12, 4, o.hwEta.toInt), (17, 4, o.hwPhi.toInt), (22, 3, o.hwEmPt.toInt), (26, 1, if o.hwIsEM then 1 else 0)]

/-- There is room for the numbers. -/
def hadRoom (o : HadCaloObj) : Prop := HasRoom 4 o.hwPt.toInt ∧ HasRoom 3 o.hwEmPt.toInt

/-- The columns of an object of this kind in the dumps of the regionizer; 25 characters. -/
def emColumns (o : EmCaloObj) : List Column := [(7, 4, o.hwPt.toInt), (12, 4, o.hwEta.toInt), (17, 4, o.hwPhi.toInt), (22, 3, o.hwPtErr.toInt)]

/-- There is room for the numbers. -/
def emRoom (o : EmCaloObj) : Prop := HasRoom 4 o.hwPt.toInt ∧ HasRoom 3 o.hwPtErr.toInt

/-- The columns of an object of this kind in the dumps of the regionizer; 31 characters. -/
def tkColumns (o : TkObj) : List Column := [(7, 4, o.hwPt.toInt), (12, 4, o.hwEta.toInt), (17, 4, o.hwPhi.toInt), (22, 4, o.hwPtErr.toInt), (27, 4, o.hwZ0.toInt)]

/-- There is room for the numbers. -/
def tkRoom (o : TkObj) : Prop := HasRoom 4 o.hwPt.toInt ∧ HasRoom 4 o.hwPtErr.toInt

/-- The columns of an object of this kind in the dumps of the regionizer; 26 characters. -/
def muColumns (o : MuObj) : List Column := [(7, 4, o.hwPt.toInt), (12, 4, o.hwEta.toInt), (17, 4, o.hwPhi.toInt), (22, 4, o.hwPtErr.toInt)]

/-- There is room for the numbers. -/
def muRoom (o : MuObj) : Prop := HasRoom 4 o.hwPt.toInt ∧ HasRoom 4 o.hwPtErr.toInt

/-- The object in a slot, if there is such a slot. -/
def pick {N : Nat} {T : Type} (a : Arr N T) (z : T) (i : Nat) : T := if h : i < N then a ⟨i, h⟩ else z

end Verif.Spec
