import Verif.Model.Float
import Verif.Model.Convert
import Mathlib.Analysis.SpecialFunctions.Trigonometric.Basic
/-!
# Floating-point filling and reading of the discrete objects — DiscretePFInputs.h

Every function takes the rounding of `float` and `double` as a parameter; the arguments of type `float` are real numbers.
Conversions to integer types of values that do not fit are faults.  `round` is applied to a `float`.
-/
namespace Verif
namespace Rounding
variable (R : Rounding)

/-- `PT_SCALE` — DiscretePFInputs.h:35 -/
def PT_SCALE : ℝ := 4
/-- `ETAPHI_SCALE` — DiscretePFInputs.h:37: the product and the quotient are `double`, the constant a `float`. -/
noncomputable def ETAPHI_SCALE : ℝ := R.f32 (R.f64 (4 * R.f64 (180 / R.f64 Real.pi)))
/-- `PHI_WRAP` — DiscretePFInputs.h:38 -/
def PHI_WRAP : ℤ := 1440
/-- `INVPT_SCALE` — DiscretePFInputs.h:97 -/
def INVPT_SCALE : ℝ := 20000
/-- `VTX_PHI_SCALE` — DiscretePFInputs.h:98 -/
noncomputable def VTX_PHI_SCALE : ℝ := R.f32 (R.f64 (1 / R.f64 (25 / 10 ^ 7)))
/-- `VTX_ETA_SCALE` — DiscretePFInputs.h:99 -/
noncomputable def VTX_ETA_SCALE : ℝ := R.f32 (R.f64 (1 / R.f64 (1 / 10 ^ 5)))
/-- `Z0_SCALE` — DiscretePFInputs.h:100 -/
def Z0_SCALE : ℝ := 20
/-- `PUPPI_SCALE` — DiscretePFInputs.h:260 -/
def PUPPI_SCALE : ℝ := 100

/-- `round(x * scale)` — DiscretePFInputs.h:42-45 and others -/
noncomputable def quant (scale x : ℝ) : ℤ := cround (R.f32 (x * scale))
/-- `float(n) / scale` — DiscretePFInputs.h:52-57 and others -/
noncomputable def unquant (scale : ℝ) (n : ℤ) : ℝ := R.f32 (R.f32 n / scale)

/-- `hwPhi` — DiscretePFInputs.h:46, 163, 214: `%` of C on `int`s -/
noncomputable def quantPhi (phi : ℝ) : Run (BitVec 16) := do
  let n ← toI16 (R.quant R.ETAPHI_SCALE phi)
  .ok (BitVec.ofInt 16 (n.toInt.tmod PHI_WRAP))

/-- `CaloCluster::fill` — DiscretePFInputs.h:41-50 -/
noncomputable def fillCluster (pt emPt ptErr eta phi : ℝ) (em : Bool) (flags : BitVec 32) : Run CaloCluster := do
  let hwPt ← toI16 (R.quant PT_SCALE pt)
  let hwEmPt ← toI16 (R.quant PT_SCALE emPt)
  let hwPtErr ← toI16 (R.quant PT_SCALE ptErr)
  let hwEta ← toI16 (R.quant R.ETAPHI_SCALE eta)
  let hwPhi ← R.quantPhi phi
  .ok { hwPt, hwEmPt, hwPtErr, hwEta, hwPhi, hwFlags := flags.setWidth 16, isEM := em, used := false }

/-- `floatPt`, `floatEmPt`, `floatPtErr`, `floatCaloPtErr` — DiscretePFInputs.h:52-54, 168-170, 218, 262 -/
noncomputable def floatPt (hwPt : BitVec 16) : ℝ := R.unquant PT_SCALE hwPt.toInt
/-- `minFloatPt` — DiscretePFInputs.h:55 -/
noncomputable def minFloatPt : ℝ := R.f32 (1 / PT_SCALE)
/-- `floatEta`, `floatPhi` — DiscretePFInputs.h:56-57, 171-172, 219-220, 263-264 -/
noncomputable def floatEtaPhi (hw : BitVec 16) : ℝ := R.unquant R.ETAPHI_SCALE hw.toInt
/-- `setFloatPt`, `setFloatEmPt` — DiscretePFInputs.h:58-59, 273 -/
noncomputable def setFloatPt (pt : ℝ) : Run (BitVec 16) := toI16 (R.quant PT_SCALE pt)

/-- `InputTrack::fillInput` — DiscretePFInputs.h:104-111; `hwChi2` and `hwStubs` stay as they are -/
noncomputable def fillInput (t : InputTrack) (pt eta phi : ℝ) (charge : ℤ) (dz : ℝ) (flags : BitVec 32) : Run InputTrack := do
  let hwInvpt ← toU16 (R.quant INVPT_SCALE (R.f32 (1 / pt)))
  let hwVtxEta ← toI32 (R.quant R.VTX_ETA_SCALE eta)
  let hwVtxPhi ← toI32 (R.quant R.VTX_PHI_SCALE phi)
  let hwZ0 ← toI16 (R.quant Z0_SCALE dz)
  .ok { t with hwInvpt, hwVtxEta, hwVtxPhi, hwCharge := decide (charge > 0), hwZ0, hwFlags := flags.setWidth 16 }

/-- `floatVtxPt` — DiscretePFInputs.h:113; only for `hwInvpt` other than 0 (otherwise infinite) -/
noncomputable def floatVtxPt (t : InputTrack) : ℝ := R.f32 (1 / R.unquant INVPT_SCALE t.hwInvpt.toNat)
/-- `floatVtxEta` — DiscretePFInputs.h:114 -/
noncomputable def floatVtxEta (t : InputTrack) : ℝ := R.unquant R.VTX_ETA_SCALE t.hwVtxEta.toInt
/-- `floatVtxPhi` — DiscretePFInputs.h:115 -/
noncomputable def floatVtxPhi (t : InputTrack) : ℝ := R.unquant R.VTX_PHI_SCALE t.hwVtxPhi.toInt
/-- `floatDZ` — DiscretePFInputs.h:116 -/
noncomputable def floatDZ (t : InputTrack) : ℝ := R.unquant Z0_SCALE t.hwZ0.toInt

/-- `PropagatedTrack::fillPropagated` — DiscretePFInputs.h:158-166; `flags` is not used, `fromPV` stays as it is -/
noncomputable def fillPropagated (t : PropagatedTrack) (pt ptErr caloPtErr eta phi : ℝ) (_flags : BitVec 32) : Run PropagatedTrack := do
  let hwPt ← toI16 (R.quant PT_SCALE pt)
  let hwPtErr ← toI16 (R.quant PT_SCALE ptErr)
  let hwCaloPtErr ← toI16 (R.quant PT_SCALE caloPtErr)
  let hwEta ← toI16 (R.quant R.ETAPHI_SCALE eta)
  let hwPhi ← R.quantPhi phi
  .ok { t with hwPt, hwPtErr, hwCaloPtErr, hwEta, hwPhi, muonLink := false, used := false }

/-- `Muon::fill` — DiscretePFInputs.h:210-217 -/
noncomputable def fillMuon (pt eta phi : ℝ) (charge : ℤ) (flags : BitVec 32) : Run Muon := do
  let hwPt ← toI16 (R.quant PT_SCALE pt)
  let hwEta ← toI16 (R.quant R.ETAPHI_SCALE eta)
  let hwPhi ← R.quantPhi phi
  .ok { hwPt, hwEta, hwPhi, hwFlags := flags.setWidth 16, hwCharge := decide (charge > 0) }

/-- `intCharge` — DiscretePFInputs.h:117, 221 -/
def intCharge (hwCharge : Bool) : ℤ := if hwCharge then 1 else -1

/-- `PFParticle::floatVtxEta` — DiscretePFInputs.h:265 -/
noncomputable def pfVtxEta (p : PFParticle) : ℝ :=
  if p.track.hwPt.toInt > 0 then R.floatVtxEta p.track.toInputTrack else R.unquant R.ETAPHI_SCALE p.hwVtxEta.toInt
/-- `PFParticle::floatVtxPhi` — DiscretePFInputs.h:266 -/
noncomputable def pfVtxPhi (p : PFParticle) : ℝ :=
  if p.track.hwPt.toInt > 0 then R.floatVtxPhi p.track.toInputTrack else R.unquant R.ETAPHI_SCALE p.hwVtxPhi.toInt
/-- `PFParticle::floatDZ` — DiscretePFInputs.h:267 -/
noncomputable def pfDZ (p : PFParticle) : ℝ := R.floatDZ p.track.toInputTrack
/-- `PFParticle::floatPuppiW` — DiscretePFInputs.h:268 -/
noncomputable def floatPuppiW (p : PFParticle) : ℝ := R.unquant PUPPI_SCALE p.hwPuppiWeight.toNat
/-- `PFParticle::intCharge` — DiscretePFInputs.h:269 -/
def pfCharge (p : PFParticle) : ℤ := if p.track.hwPt.toInt > 0 then intCharge p.track.hwCharge else 0
/-- `PFParticle::setPuppiW` — DiscretePFInputs.h:270-272 -/
noncomputable def setPuppiW (w : ℝ) : Run (BitVec 16) := toU16 (R.quant PUPPI_SCALE w)

/-- `hwZPV = event_.z0 * Z0_SCALE` — utils/DiscretePFInputs_IO.h:52 (and 54): the constructor of `ap_int<10>` drops the
fraction and keeps the low ten bits -/
noncomputable def zpv (z0 : ℝ) : Z0 := reg 10 (ctrunc (R.f32 (z0 * Z0_SCALE)))
/-- `z0_t pv = round(z0 * Z0_SCALE)` — vertexing/bram_hist_vtx_test.cpp:45-46 -/
noncomputable def pvRound (z0 : ℝ) : Z0 := reg 10 (R.quant Z0_SCALE z0)

end Rounding
end Verif
