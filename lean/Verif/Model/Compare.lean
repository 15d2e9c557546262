import Verif.Model.PF
/-!
# utils/test_utils.cpp, utils/test_utils.h — the comparison helpers of the test benches

Only the returned value is modelled here; the `printf` of a mismatch is in `Verif.Model.PFTestOutput`.
-/
namespace Verif

/-- `had_equals` — utils/test_utils.cpp:4-16 -/
def had_equals (out_ref out : HadCaloObj) : Bool :=
  if out_ref.hwPt = 0 then decide (out.hwPt = 0)
  else decide (out_ref.hwPt = out.hwPt) && decide (out_ref.hwEmPt = out.hwEmPt) &&
    decide (out_ref.hwEta = out.hwEta) && decide (out_ref.hwPhi = out.hwPhi) &&
    decide (out_ref.hwIsEM = out.hwIsEM)

/-- `em_equals` — utils/test_utils.cpp:17-29 -/
def em_equals (out_ref out : EmCaloObj) : Bool :=
  if out_ref.hwPt = 0 then decide (out.hwPt = 0)
  else decide (out_ref.hwPt = out.hwPt) && decide (out_ref.hwPtErr = out.hwPtErr) &&
    decide (out_ref.hwEta = out.hwEta) && decide (out_ref.hwPhi = out.hwPhi)

/-- `track_equals` — utils/test_utils.cpp:31-43 (does not look at `hwTightQuality`) -/
def track_equals (out_ref out : TkObj) : Bool :=
  if out_ref.hwPt = 0 then decide (out.hwPt = 0)
  else decide (out_ref.hwPt = out.hwPt) && decide (out_ref.hwPtErr = out.hwPtErr) &&
    decide (out_ref.hwEta = out.hwEta) && decide (out_ref.hwPhi = out.hwPhi) &&
    decide (out_ref.hwZ0 = out.hwZ0)

/-- `mu_equals` — utils/test_utils.cpp:44-56 -/
def mu_equals (out_ref out : MuObj) : Bool :=
  if out_ref.hwPt = 0 then decide (out.hwPt = 0)
  else decide (out_ref.hwPt = out.hwPt) && decide (out_ref.hwPtErr = out.hwPtErr) &&
    decide (out_ref.hwEta = out.hwEta) && decide (out_ref.hwPhi = out.hwPhi)

/-- `pf_equals(PFChargedObj)` — utils/test_utils.cpp:58-74 -/
def pf_equals_ch (out_ref out : PFChargedObj) : Bool :=
  if out_ref.hwPt = 0 then decide (out.hwPt = 0)
  else decide (out_ref.hwPt = out.hwPt) && decide (out_ref.hwEta = out.hwEta) &&
    decide (out_ref.hwPhi = out.hwPhi) && decide (out_ref.hwId = out.hwId) &&
    decide (out_ref.hwZ0 = out.hwZ0)

/-- `pf_equals(PFNeutralObj)` — utils/test_utils.cpp:75-90 (does not look at `hwPtPuppi`) -/
def pf_equals_ne (out_ref out : PFNeutralObj) : Bool :=
  if out_ref.hwPt = 0 then decide (out.hwPt = 0)
  else decide (out_ref.hwPt = out.hwPt) && decide (out_ref.hwEta = out.hwEta) &&
    decide (out_ref.hwPhi = out.hwPhi) && decide (out_ref.hwId = out.hwId)

/-- `count_nonzero` — utils/test_utils.h:11-15 (`NMAX` is the size of the array) -/
def count_nonzero {T : Type} [HasPt T] {NMAX : Nat} (objs : Arr NMAX T) : Nat :=
  loop (fun i ret => if (HasPt.pt (objs i)).toInt > 0 then ret + 1 else ret) 0

end Verif
