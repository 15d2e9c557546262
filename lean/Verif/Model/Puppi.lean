import Verif.Model.PF
/-!
# puppi/firmware/simple_puppi.cpp and puppi/simple_puppi_ref.cpp

`NT` is `NTRACK` and `NN` is `NNEUTRALS` (= `NPHOTON + NSELCALO`).  The weight table is filled by
`lut_puppiweight_init` (puppi/firmware/simple_puppi.h:35-44) with floating-point arithmetic (see `Model/PuppiTable.lean`);
here the table is a parameter.  Both functions change `hwPtPuppi` of the neutrals in place; the
model returns the array after the call.
-/
namespace Verif

variable {NT NN : Nat}

/-- `PUPPI_TABLE_SIZE` — puppi/firmware/simple_puppi.h:9 -/
abbrev PUPPI_TABLE_SIZE : Nat := 1174
/-- The table of 8-bit weights — puppi/firmware/simple_puppi.cpp:14-18, puppi/simple_puppi_ref.cpp:12-13 -/
abbrev PuppiTable := Arr PUPPI_TABLE_SIZE (BitVec 8)

/-- `_lut_shift15_invert_init` — puppi/firmware/simple_puppi.cpp:27-32 -/
def lut_shift15_invert : Arr 512 (BitVec 16) := fun i =>
  if i.val = 0 then reg 16 32768 else reg 16 (32768 / (i.val : Int))

/-- `_lut_shift15_divide` — puppi/firmware/simple_puppi.cpp:33-37: a 33-bit product returned as `int` -/
def lut_shift15_divide (num : BitVec 17) (den : BitVec 9) : Int :=
  toCInt ((num.toNat : Int) * ((lut_shift15_invert den.toFin).toNat : Int))

/-- `pt2_shift[it]` — puppi/firmware/simple_puppi.cpp:57-62 -/
def puppi_pt2_shift (c : PFChargedObj) : BitVec 17 :=
  let mypt2 : Int := shr (c.hwPt.toInt * c.hwPt.toInt) 5
  reg 17 (if mypt2 < 131071 then mypt2 else 131071)

/-- The vertex window — puppi/firmware/simple_puppi.cpp:70 and puppi/simple_puppi_ref.cpp:23
(`DZMAX` is a `z0_t`) -/
def puppi_outside (Z0 : Z0) (c : PFChargedObj) : Bool :=
  let DZMAX : Verif.Z0 := reg 10 256
  decide (Z0.toInt - c.hwZ0.toInt > DZMAX.toInt) || decide (Z0.toInt - c.hwZ0.toInt < -DZMAX.toInt)

/-- The sum over tracks of one neutral — puppi/firmware/simple_puppi.cpp:66-78 -/
def puppi_hw_sum (pfch : Arr NT PFChargedObj) (ne : PFNeutralObj) (Z0 : Z0) : Run Int :=
  loopM (fun it sum =>
      if puppi_outside Z0 (pfch it) then .ok sum
      else
        let dr2 := dr2_int (pfch it).hwEta (pfch it).hwPhi ne.hwEta ne.hwPhi
        if dr2 ≤ 8404 then
          let dr2short : BitVec 9 := reg 9 (shr dr2 5)
          cint (sum + lut_shift15_divide (puppi_pt2_shift (pfch it)) dr2short)
        else .ok sum) 0

/-- The weighting of one neutral — puppi/firmware/simple_puppi.cpp:82-93 -/
def puppi_hw_weight (table : PuppiTable) (sum : Int) (ne : PFNeutralObj) : PFNeutralObj :=
  let eToAlpha : BitVec 32 := reg 32 (shr sum 10)
  if h : eToAlpha.toNat < PUPPI_TABLE_SIZE then
    let weight : BitVec 8 := if eToAlpha.toNat = 0 then 0 else table ⟨eToAlpha.toNat, h⟩
    let ptnew : Int := shr (ne.hwPt.toInt * (weight.toNat : Int)) 8
    { ne with hwPtPuppi := reg 16 ptnew }
  else { ne with hwPtPuppi := ne.hwPt }

/-- `simple_puppi_hw` — puppi/firmware/simple_puppi.cpp:39-95 -/
def simple_puppi_hw (table : PuppiTable) (pfch : Arr NT PFChargedObj) (pfallne : Arr NN PFNeutralObj)
    (Z0 : Z0) : Run (Arr NN PFNeutralObj) := do
  let sums ← buildM (fun i => puppi_hw_sum pfch (pfallne i) Z0)
  .ok (fun i => puppi_hw_weight table (sums i) (pfallne i))

/-- The sum of one neutral — puppi/simple_puppi_ref.cpp:21-33; all in `int` -/
def puppi_ref_sum (pfch : Arr NT PFChargedObj) (ne : PFNeutralObj) (Z0 : Z0) : Run Int :=
  loopM (fun it sum =>
      if puppi_outside Z0 (pfch it) then .ok sum
      else
        let dr2 := dr2_int (pfch it).hwEta (pfch it).hwPhi ne.hwEta ne.hwPhi
        if dr2 ≤ 8404 then
          let dr2short : BitVec 9 := reg 9 (shr dr2 5)
          let pt2 : Int := (pfch it).hwPt.toInt * (pfch it).hwPt.toInt
          let term : Int := 32768 / (if dr2short.toNat > 0 then (dr2short.toNat : Int) else 1)
          (do let term ← cint (min (shr pt2 5) 131071 * term)
              cint (sum + term))
        else .ok sum) 0

/-- The weight of one neutral — puppi/simple_puppi_ref.cpp:35-54 -/
def puppi_ref_weight (table : PuppiTable) (sum : Int) : Run Int :=
  let eToAlpha := shr sum 10
  if eToAlpha > 0 then
    if eToAlpha ≥ 1174 then .ok 256
    else
      let index := if eToAlpha ≥ PUPPI_TABLE_SIZE then (PUPPI_TABLE_SIZE : Int) else eToAlpha
      if h : 0 ≤ index ∧ index.toNat < PUPPI_TABLE_SIZE then .ok ((table ⟨index.toNat, h.2⟩).toNat : Int)
      else .error .oob
  else .ok 0

/-- One neutral — puppi/simple_puppi_ref.cpp:20-54 -/
def puppi_ref_one (table : PuppiTable) (pfch : Arr NT PFChargedObj) (Z0 : Z0) (ne : PFNeutralObj) :
    Run PFNeutralObj :=
  if ne.hwPt = 0 then .ok ne
  else do
    let sum ← puppi_ref_sum pfch ne Z0
    let weight ← puppi_ref_weight table sum
    .ok { ne with hwPtPuppi := reg 16 (shr (ne.hwPt.toInt * weight) 8) }

/-- `simple_puppi_ref` — puppi/simple_puppi_ref.cpp:7-57 -/
def simple_puppi_ref (table : PuppiTable) (pfch : Arr NT PFChargedObj) (pfallne : Arr NN PFNeutralObj)
    (Z0 : Z0) : Run (Arr NN PFNeutralObj) :=
  buildM (fun i => puppi_ref_one table pfch Z0 (pfallne i))

end Verif
