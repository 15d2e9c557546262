import Verif.Model.Float
import Verif.Model.SimpleVtx
import Mathlib.Analysis.SpecialFunctions.Trigonometric.Basic
/-!
# vertexing/simple_vtx_test.cpp, utils/random_inputs.h: events made of `rand()`

`rand()` is any sequence of numbers with the maximum `RAND_MAX`; the functions take the number of draws made so far and
return it.  In `rand()/… + rand()/…` the order of the two calls is unspecified, and the sum is the same for both.
Storing a floating-point number in an `ap_int` drops the fraction and keeps the low bits.
-/
namespace Verif

/-- `RAND_MAX` and what the successive calls of `rand()` return. -/
structure Rand where
  max : ℕ
  draw : ℕ → ℕ

namespace Rounding
variable (R : Rounding) (D : Rand)

/-- `rand()/float(RAND_MAX)`, `float(rand())/RAND_MAX` — vertexing/simple_vtx_test.cpp:19, 28 and others -/
noncomputable def unitDraw (k : ℕ) : ℝ := R.f32 (R.f32 (D.draw k) / R.f32 D.max)

/-- `(rand()/float(RAND_MAX))*2.0-1.0` stored in a `float` — vertexing/simple_vtx_test.cpp:28 and others -/
noncomputable def symDraw (k : ℕ) : ℝ := R.f32 (R.f64 (R.f64 (R.unitDraw D k * 2) - 1))

/-- `(rand() % m/2) + m/2` for `int`s — vertexing/simple_vtx_test.cpp:22-23 -/
def halfDraw (k : ℕ) (m : ℤ) : Run ℤ :=
  if m = 0 then .error .divByZero else .ok (((D.draw k : ℤ).tmod m).tdiv 2 + m.tdiv 2)

/-- `ETAPHI_SCALE` of the bench, a macro of type `double` — vertexing/simple_vtx_test.cpp:8 -/
noncomputable def svEtaPhi : ℝ := R.f64 (720 / R.f64 Real.pi)

/-- The assignments to one track — vertexing/simple_vtx_test.cpp:31-35, 41-45 -/
noncomputable def svStore (t : TkObj) (pt eta phi z : ℝ) : TkObj :=
  { t with
    hwPt := reg 16 (ctrunc (R.f64 (pt * 4)))
    hwPtErr := reg 16 (ctrunc (R.f64 (R.f64 (R.f64 (R.f64 (1 / 5) * pt) + 4) * 4)))
    hwEta := reg 10 (ctrunc (R.f64 (eta * R.svEtaPhi)))
    hwPhi := reg 10 (ctrunc (R.f64 (phi * R.svEtaPhi)))
    hwZ0 := reg 10 (ctrunc (R.f64 (z * 20))) }

/-- A pile-up track — vertexing/simple_vtx_test.cpp:28-35; five draws -/
noncomputable def svPU (k : ℕ) (t : TkObj) : TkObj :=
  let pt := R.f32 (R.f32 (20 * R.unitDraw D k) + 2)
  let gaus := R.f32 (R.unitDraw D (k + 3) + R.unitDraw D (k + 4))
  R.svStore t pt (R.symDraw D (k + 1)) (R.symDraw D (k + 2)) (R.f32 (gaus * 4))

/-- `pZPV` — vertexing/simple_vtx_test.cpp:39-40; `rand()/RAND_MAX` is a division of `int`s -/
noncomputable def svPZ (zPV : ℝ) (q : ℕ) : ℝ :=
  let pGaus := R.f32 (R.f64 (1 / 2 * (q : ℝ)))
  R.f32 (R.f64 (R.f64 (R.f64 (pGaus - 1 / 2) * R.f32 (7 / 10)) + zPV))

/-- A track of the primary vertex — vertexing/simple_vtx_test.cpp:38-45; five draws -/
noncomputable def svPV (zPV : ℝ) (k : ℕ) (t : TkObj) : TkObj :=
  let pt := R.f32 (R.f32 (100 * R.unitDraw D k) + 2)
  R.svStore t pt (R.symDraw D (k + 1)) (R.symDraw D (k + 2)) (R.svPZ zPV (D.draw (k + 3) / D.max + D.draw (k + 4) / D.max))

/-- The clearing of a track: `hwTightQuality` is not cleared — vertexing/simple_vtx_test.cpp:25 -/
def svWipe (t : TkObj) : TkObj := { t with hwPt := 0, hwPtErr := 0, hwEta := 0, hwPhi := 0, hwZ0 := 0 }

/-- The event of one test — vertexing/simple_vtx_test.cpp:19-47, for the one sector of firmware/data.h:18
(`NALLTRACK/NSECTOR` is `1 << NPOW/NSECTOR`, the right number for one sector).  `track` is what the array holds before. -/
noncomputable def svEvent {N : Nat} (NPV : ℕ) (track : Arr N TkObj) (k : ℕ) : Run (Arr N TkObj × ℕ × ℝ) := do
  let gaus := R.f32 (R.unitDraw D k + R.unitDraw D (k + 1))
  let zPV := R.f32 (gaus * 4)
  let npu ← halfDraw D (k + 2) ((N : ℤ) - NPV)
  let npv ← halfDraw D (k + 3) NPV
  let track := loop (fun (i : Fin N) (track : Arr N TkObj) => track.set i (svWipe (track i))) track
  let (track, k) ← loopM (n := npu.toNat) (fun i (st : Arr N TkObj × ℕ) => do
    let t ← st.1.readI (i.val : ℤ)
    let track ← st.1.writeI (i.val : ℤ) (R.svPU D st.2 t)
    .ok (track, st.2 + 5)) (track, k + 4)
  let (track, k) ← loopM (n := npv.toNat) (fun i (st : Arr N TkObj × ℕ) => do
    let t ← st.1.readI (npu + i.val)
    let track ← st.1.writeI (npu + i.val) (R.svPV D zPV st.2 t)
    .ok (track, st.2 + 5)) (track, k)
  .ok (track, k, zPV)

/-- One test: its event, and the two vertices whose positions are printed. -/
structure SvLine (N : Nat) where
  track : Arr N TkObj
  zPV : ℝ
  hw : VtxObj
  ref : VtxObj

/-- The state from one test to the next: `track`, the draws made, `outvtx`, the lines printed. -/
structure SvState (N : Nat) where
  track : Arr N TkObj
  draws : ℕ
  outvtx : VtxObj
  lines : List (SvLine N)

/-- One test — vertexing/simple_vtx_test.cpp:19-51 -/
noncomputable def svTest {NPOW : Nat} (NPV : ℕ) (z0bin : Z0 → BitVec 5) (convertZ0 : Z0 → Z0) (s : SvState (2 ^ NPOW)) :
    Run (SvState (2 ^ NPOW)) := do
  let (track, draws, zPV) ← R.svEvent D NPV s.track s.draws
  let hw ← simple_vtx_hwopt z0bin convertZ0 track s.outvtx
  let ref ← simple_vtx_ref track
  .ok { track, draws, outvtx := hw, lines := s.lines ++ [⟨track, zPV, hw, ref⟩] }

/-- `main` — vertexing/simple_vtx_test.cpp:10-54, `NTEST` tests; it returns 0.  `track0` and `out0` are what the local variables
hold before they are assigned. -/
noncomputable def svMain {NPOW : Nat} (NTEST NPV : ℕ) (z0bin : Z0 → BitVec 5) (convertZ0 : Z0 → Z0) (track0 : Arr (2 ^ NPOW) TkObj)
    (out0 : VtxObj) : Run (List (SvLine (2 ^ NPOW))) := do
  let s ← loopM (n := NTEST) (fun _ s => R.svTest D NPV z0bin convertZ0 s) ⟨track0, 0, out0, []⟩
  .ok s.lines

end Rounding
end Verif
