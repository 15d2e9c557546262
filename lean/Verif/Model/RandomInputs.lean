import Verif.Model.Random
/-!
# utils/random_inputs.h: `RandomPFInputs`

Three test benches include it and have their only use of it commented out.  `CaloObj` is the base of `HadCaloObj`.
`calo[icalo].hwPt += x` for a `float` `x` is read as adding `x` cut to an integer.
-/
namespace Verif

/-- `CaloObj` — firmware/data.h:55-58 -/
structure CaloObj where
  hwPt : Pt
  hwEta : EtaPhi
  hwPhi : EtaPhi
  deriving DecidableEq

namespace Rounding
variable (R : Rounding) (D : Rand)

/-- `ETAPHI_SCALE`, here a `const float` — utils/random_inputs.h:10 -/
noncomputable def riEtaPhi : ℝ := R.f32 (R.f64 (720 / R.f64 Real.pi))

/-- A product of `float`s stored in an `ap_int` — utils/random_inputs.h:17-19 and others -/
noncomputable def store (w : ℕ) (x scale : ℝ) : BitVec w := reg w (ctrunc (R.f32 (x * scale)))

/-- `(rand()/float(RAND_MAX))*a+b` with `float` arithmetic — utils/random_inputs.h:16, 21, 25-26, 44 -/
noncomputable def linDraw (a b : ℝ) (k : ℕ) : ℝ := R.f32 (R.f32 (R.unitDraw D k * a) + b)

/-- `0.2*pt+4` — utils/random_inputs.h:28, 34, 46 -/
noncomputable def riErr (pt : ℝ) : ℝ := R.f64 (R.f64 (R.f64 (1 / 5) * pt) + 4)

/-- A neutral cluster — utils/random_inputs.h:16-19 -/
noncomputable def riNeutral (k : ℕ) : CaloObj :=
  { hwPt := R.store 16 (R.linDraw D 80 1 k) 4
    hwEta := R.store 10 (R.symDraw D (k + 1)) R.riEtaPhi
    hwPhi := R.store 10 (R.symDraw D (k + 2)) R.riEtaPhi }

/-- `z` — utils/random_inputs.h:26 -/
noncomputable def riZ (zPV : ℝ) (i k : ℕ) : ℝ :=
  if i % 2 = 0 then R.f32 (R.f64 (R.f64 (zPV + R.f64 (R.unitDraw D k * R.f64 (7 / 10))) - R.f64 (35 / 100)))
  else R.linDraw D 30 (-15) k

/-- A track — utils/random_inputs.h:25-31 -/
noncomputable def riTrack (zPV : ℝ) (i k : ℕ) (t : TkObj) : TkObj :=
  { t with
    hwPt := R.store 16 (R.linDraw D 50 2 k) 4
    hwPtErr := reg 16 (ctrunc (R.f64 (R.riErr (R.linDraw D 50 2 k) * 4)))
    hwEta := R.store 10 (R.symDraw D (k + 1)) R.riEtaPhi
    hwPhi := R.store 10 (R.symDraw D (k + 2)) R.riEtaPhi
    hwZ0 := R.store 10 (R.riZ D zPV i (k + 3)) 20 }

/-- `deta_calo`, `dphi_calo` — utils/random_inputs.h:35 -/
noncomputable def riShift (k : ℕ) : ℝ := R.f32 (R.f64 (R.f64 (R.unitDraw D k * R.f64 (3 / 10)) - R.f64 (15 / 100)))

/-- What a track leaves in the cluster drawn for it — utils/random_inputs.h:34-40; `k` is the first draw of the track -/
noncomputable def riDeposit (k : ℕ) (c : CaloObj) : CaloObj :=
  let pt := R.linDraw D 50 2 k
  let dpt := R.f32 (R.f64 (R.f64 (R.f32 (R.unitDraw D (k + 5) * 3) - 3 / 2) * R.riErr pt))
  if R.f32 (pt + dpt) > 0 then
    { hwPt := reg 16 (c.hwPt.toInt + ctrunc (R.f32 (R.f32 (pt + dpt) * 4)))
      hwEta := R.store 10 (R.f32 (R.symDraw D (k + 1) + R.riShift D (k + 6))) R.riEtaPhi
      hwPhi := R.store 10 (R.f32 (R.symDraw D (k + 2) + R.riShift D (k + 7))) R.riEtaPhi }
  else c

/-- A muon — utils/random_inputs.h:44-48 -/
noncomputable def riMuon (k : ℕ) : MuObj :=
  { hwPt := R.store 16 (R.linDraw D 50 2 k) 4
    hwPtErr := reg 16 (ctrunc (R.f64 (R.riErr (R.linDraw D 50 2 k) * 4)))
    hwEta := R.store 10 (R.symDraw D (k + 1)) R.riEtaPhi
    hwPhi := R.store 10 (R.symDraw D (k + 2)) R.riEtaPhi }

/-- One track of the loop — utils/random_inputs.h:25-40: the fifth draw chooses the cluster, every third track leaves nothing -/
noncomputable def riCharged {NT NC : ℕ} (zPV : ℝ) (i : ℕ) (st : Arr NT TkObj × Arr NC CaloObj × ℕ) :
    Run (Arr NT TkObj × Arr NC CaloObj × ℕ) := do
  let k := st.2.2
  let t ← st.1.read i
  let track ← st.1.write i (R.riTrack D zPV i k t)
  if NC = 0 then .error .divByZero
  else
    let icalo := D.draw (k + 4) % NC
    if i % 3 = 1 ∨ icalo ≥ NC then .ok (track, st.2.1, k + 5)
    else do
      let c ← st.2.1.read icalo
      let calo ← st.2.1.write icalo (R.riDeposit D k c)
      .ok (track, calo, k + 8)

/-- `nextRegion` — utils/random_inputs.h:8-52; it returns true.  The arrays are what the caller passes; only the tracks and clusters drawn are written. -/
noncomputable def riRegion {NT NC NM : ℕ} (calo : Arr NC CaloObj) (track : Arr NT TkObj) (mu : Arr NM MuObj) (k : ℕ) :
    Run (Arr NC CaloObj × Arr NT TkObj × Arr NM MuObj × Z0 × ℕ) := do
  let ncharged ← halfDraw D k NT
  if 3 * NC / 4 = 0 then .error .divByZero
  else do
    let nneutral := D.draw (k + 1) % (3 * NC / 4)
    let (calo, k) ← loopM (n := NC) (fun i (st : Arr NC CaloObj × ℕ) =>
      if i.val % 2 = 1 ∧ i.val < nneutral then .ok (st.1.set i (R.riNeutral D st.2), st.2 + 3) else .ok st) (calo, k + 2)
    let zPV := R.linDraw D 20 (-10) k
    let hwZPV := R.store 10 zPV 20
    let (track, calo, k) ← loopM (n := min ncharged.toNat NT) (fun i (st : Arr NT TkObj × Arr NC CaloObj × ℕ) => R.riCharged D zPV i.val st)
      (track, calo, k + 1)
    let (mu, k) ← loopM (n := NM) (fun i (st : Arr NM MuObj × ℕ) => .ok (st.1.set i (R.riMuon D st.2), st.2 + 3)) (mu, k)
    .ok (calo, track, mu, hwZPV, k)

end Rounding
end Verif
