import Verif.Model.Data
/-!
# vertexing/firmware/simple_vtx.{h,cpp}, vertexing/simple_vtx_ref.cpp

`NPOW` is a parameter and `NALLTRACK` is `2^NPOW` (6 and 64 in firmware/data.h:16-17); in the reference
the number of tracks is a parameter.

* `z0bin` and `convertZ0` are called by the firmware but their definitions are commented out
  (vertexing/firmware/simple_vtx.cpp:8-36), so they are parameters.
* `vtxbin` and `sumbin` are read and written at the same indices; they are kept as one array of pairs.
* The reference computes the bin as `double`; `z0*1./20.` is truncated to `ap_int<5>`.  The division of an
  integer below 512 by 20, correctly rounded, never reaches the next integer, so the truncation is that of
  the exact quotient.
-/
namespace Verif

/-- `NVTXBINS` — firmware/data.h:15 -/
abbrev NVTXBINS : Nat := 15
/-- `VTXPTMAX` — firmware/data.h:19 -/
abbrev VTXPTMAX : Int := 200

/-- `a[k]` with a signed run-time index. -/
def Arr.readI {n : Nat} {α : Type} (a : Arr n α) (k : Int) : Run α :=
  if k < 0 then .error .oob else a.read k.toNat

/-- `a[k] = x` with a signed run-time index. -/
def Arr.writeI {n : Nat} {α : Type} (a : Arr n α) (k : Int) (x : α) : Run (Arr n α) :=
  if k < 0 then .error .oob else a.write k.toNat x

/-- A histogram: for each bin the multiplicity and the pt sum. -/
abbrev VtxHist := Arr NVTXBINS (VtxT × Pt)

/-- `pt > VTXPTMAX ? pt=VTXPTMAX : pt=pt` — vertexing/simple_vtx_ref.cpp:21, vertexing/firmware/simple_vtx.cpp:40 -/
def vtxCap (pt : Pt) : Pt := if pt.toInt > VTXPTMAX then reg 16 VTXPTMAX else pt

/-- The bin of a track in the reference — vertexing/simple_vtx_ref.cpp:17-19 -/
def vtx_ref_bin (z0 : Z0) : BitVec 5 :=
  let bin : BitVec 5 := reg 5 (z0.toInt.tdiv 20)
  let bin : BitVec 5 := if bin.toInt < 0 then reg 5 0 else bin
  if bin.toInt > NVTXBINS then reg 5 NVTXBINS else bin

/-- One track of the reference — vertexing/simple_vtx_ref.cpp:17-23 -/
def vtx_ref_add (t : TkObj) (h : VtxHist) : Run VtxHist := do
  let bin := vtx_ref_bin t.hwZ0
  let pt := vtxCap t.hwPt
  let old ← h.readI bin.toInt
  h.writeI bin.toInt (reg 5 (old.1.toInt + 1), reg 16 (old.2.toInt + pt.toInt))

/-- `simple_vtx_ref` — vertexing/simple_vtx_ref.cpp:10-37 -/
def simple_vtx_ref {NALL : Nat} (track : Arr NALL TkObj) : Run VtxObj := do
  let h ← loopM (fun it h => vtx_ref_add (track it) h) (fun _ => (0, 0))
  let out := loop (fun (it : Fin NVTXBINS) (o : VtxObj) =>
      if (h it).2.toInt > o.hwSumPt.toInt then
        { o with hwSumPt := (h it).2, mult := (h it).1, hwZ0 := reg 10 (20 * (it.val : Int) + 10) }
      else o) { hwSumPt := 0, hwZ0 := 0, mult := 0, hwId := 0 }
  .ok { out with hwId := if out.mult.toInt > 3 then 1 else 0 }

/-- `fillVtx` — vertexing/firmware/simple_vtx.cpp:37-43 -/
def fillVtx (z0bin : Z0 → BitVec 5) (t : TkObj) (h : VtxHist) : Run VtxHist := do
  let bin0 := z0bin t.hwZ0
  let pt0 := vtxCap t.hwPt
  let old ← h.readI bin0.toInt
  h.writeI bin0.toInt (if pt0.toInt > 0 then reg 5 (old.1.toInt + 1) else reg 5 (old.1.toInt + 0),
    reg 16 (old.2.toInt + pt0.toInt))

/-- Body of the reduction: `vtxbin[i][j]+=vtxbin[i+pow][j]` for all `j` — vertexing/firmware/simple_vtx.cpp:76-79 -/
def vtx_add_row {N : Nat} (rows : Arr N VtxHist) (i pow : Int) : Run (Arr N VtxHist) := do
  let a ← rows.readI i
  let b ← rows.readI (i + pow)
  rows.writeI i (fun j => (reg 5 ((a j).1.toInt + (b j).1.toInt), reg 16 ((a j).2.toInt + (b j).2.toInt)))

/-- One level of the reduction — vertexing/firmware/simple_vtx.cpp:73-80.  The loop variable takes the
values `m*2*pow` as long as they are below `NALLTRACK`; `pow` is an `ap_int<7>`. -/
def vtx_level {N : Nat} (k : Nat) (rows : Arr N VtxHist) : Run (Arr N VtxHist) := do
  let p1 ← cint (2 ^ k : Nat)
  let pow : BitVec 7 := reg 7 p1
  loopM (fun (m : Fin N) rows =>
    let i : Int := (m.val : Int) * (pow.toInt * 2)
    if i < N then vtx_add_row rows i pow.toInt else .ok rows) rows

/-- The reduction — vertexing/firmware/simple_vtx.cpp:71-81 -/
def vtx_tree {NPOW : Nat} (rows : Arr (2 ^ NPOW) VtxHist) : Run (Arr (2 ^ NPOW) VtxHist) :=
  loopM (fun (k : Fin NPOW) rows => vtx_level k.val rows) rows

/-- `simple_vtx_hwopt` — vertexing/firmware/simple_vtx.cpp:44-94.  `out0` is what `*outvtx` holds before. -/
def simple_vtx_hwopt {NPOW : Nat} (z0bin : Z0 → BitVec 5) (convertZ0 : Z0 → Z0)
    (track : Arr (2 ^ NPOW) TkObj) (out0 : VtxObj) : Run VtxObj := do
  let rows ← buildM (fun i => fillVtx z0bin (track i) (fun _ => (0, 0)))
  let rows ← vtx_tree rows
  let h := rows ⟨0, Nat.two_pow_pos NPOW⟩
  let out := loop (fun (it : Fin NVTXBINS) (o : VtxObj) =>
      if (h it).2.toInt > o.hwSumPt.toInt then
        { o with hwSumPt := (h it).2, mult := (h it).1, hwZ0 := reg 10 (it.val : Int) }
      else o) { out0 with hwSumPt := 0 }
  let out := { out with hwZ0 := convertZ0 out.hwZ0 }
  .ok { out with hwId := if out.mult.toInt > 3 then 1 else 0 }

end Verif
