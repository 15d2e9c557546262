import Verif.Model.DumpIO
/-!
# utils/DiscretePF2Firmware.h and utils/Firmware2DiscretePF.h

Vectors have fewer than `2^32` elements, so the `unsigned int` loop variables do not wrap.
-/
namespace Verif

/-- `convert(PropagatedTrack, TkObj)` — utils/DiscretePF2Firmware.h:12-19 -/
def fw_track (t : PropagatedTrack) : TkObj :=
  { hwPt := reg 16 t.hwPt.toInt
    hwPtErr := reg 16 t.hwCaloPtErr.toInt
    hwEta := reg 10 t.hwEta.toInt
    hwPhi := reg 10 t.hwPhi.toInt
    hwZ0 := reg 10 t.hwZ0.toInt
    hwTightQuality := decide (t.hwStubs.toNat ≥ 6) && decide (t.hwChi2.toNat < 500) }

/-- `convert(CaloCluster, HadCaloObj)` — utils/DiscretePF2Firmware.h:20-26 -/
def fw_had (c : CaloCluster) : HadCaloObj :=
  { hwPt := reg 16 c.hwPt.toInt
    hwEmPt := reg 16 c.hwEmPt.toInt
    hwEta := reg 10 c.hwEta.toInt
    hwPhi := reg 10 c.hwPhi.toInt
    hwIsEM := c.isEM }

/-- `convert(CaloCluster, EmCaloObj)` — utils/DiscretePF2Firmware.h:27-32 -/
def fw_em (c : CaloCluster) : EmCaloObj :=
  { hwPt := reg 16 c.hwPt.toInt
    hwPtErr := reg 16 c.hwPtErr.toInt
    hwEta := reg 10 c.hwEta.toInt
    hwPhi := reg 10 c.hwPhi.toInt }

/-- `convert(Muon, MuObj)` — utils/DiscretePF2Firmware.h:33-38 -/
def fw_mu (m : Muon) : MuObj :=
  { hwPt := reg 16 m.hwPt.toInt
    hwPtErr := 0
    hwEta := reg 10 m.hwEta.toInt
    hwPhi := reg 10 m.hwPhi.toInt }

/-- `convert<NMAX>` — utils/DiscretePF2Firmware.h:40-48 -/
def fw_many {NMAX : Nat} {A B : Type} (conv : A → B) (clear : B) (inn : List A) (out : Arr NMAX B) : Arr NMAX B :=
  let out := loop (n := min NMAX inn.length) (fun i (out : Arr NMAX B) =>
    out.set ⟨i.val, Nat.lt_of_lt_of_le i.isLt (Nat.min_le_left _ _)⟩
      (conv (inn[i.val]'(Nat.lt_of_lt_of_le i.isLt (Nat.min_le_right _ _))))) out
  loop (n := NMAX) (fun i (out : Arr NMAX B) => if inn.length ≤ i.val then out.set i clear else out) out

/-- The public `nextRegion` — utils/DiscretePFInputs_IO.h:42-60.  `zpv` is the floating-point computation of
the primary vertex. -/
def DumpReader.nextRegion {NT NC NE NM : Nat} (fall : Option Bool) (zpv : BitVec 32 → Z0) (s : DumpReader)
    (inp : PFInputs NT NC NE NM) (hwZPV : Z0) : Run (Bool × DumpReader × PFInputs NT NC NE NM × Z0) := do
  let (b, s) ← s.seek fall
  if !b then .ok (false, s, inp, hwZPV)
  else
    match s.event.regions[s.iregion]? with
    | none => .error .oob
    | some r =>
      .ok (true, { s with iregion := s.iregion + 1 },
        { track := fw_many fw_track TkObj.clear r.track inp.track
          hadcalo := fw_many fw_had HadCaloObj.clear r.calo inp.hadcalo
          emcalo := fw_many fw_em EmCaloObj.clear r.emcalo inp.emcalo
          mu := fw_many fw_mu MuObj.clear r.muon inp.mu }, zpv s.event.z0)

/-- `PFParticle` — DiscretePFInputs.h:242-254 -/
structure PFParticle where
  hwPt : BitVec 16
  hwEta : BitVec 16
  hwPhi : BitVec 16
  hwId : BitVec 8
  hwVtxEta : BitVec 16
  hwVtxPhi : BitVec 16
  hwFlags : BitVec 16
  cluster : CaloCluster
  track : PropagatedTrack
  chargedPV : Bool
  hwPuppiWeight : BitVec 16
  hwStatus : BitVec 16
  deriving DecidableEq, Repr

/-- `convert(PFChargedObj, PropagatedTrack, ...)` — utils/Firmware2DiscretePF.h:13-29; `pf` is the
uninitialised local -/
def dpf_charged (pf : PFParticle) (src : PFChargedObj) (track : PropagatedTrack) : PFParticle :=
  { pf with
    hwPt := reg 16 src.hwPt.toInt
    hwEta := reg 16 src.hwEta.toInt
    hwPhi := reg 16 src.hwPhi.toInt
    hwVtxEta := reg 16 src.hwEta.toInt
    hwVtxPhi := reg 16 src.hwPhi.toInt
    track := track
    cluster := { pf.cluster with hwPt := 0 }
    hwId := if src.hwId = PID_Electron then 1 else if src.hwId = PID_Muon then 4 else 0
    hwStatus := 0 }

/-- `convert(PFNeutralObj, ...)` — utils/Firmware2DiscretePF.h:30-45 -/
def dpf_neutral (pf : PFParticle) (src : PFNeutralObj) : PFParticle :=
  { pf with
    hwPt := reg 16 src.hwPt.toInt
    hwEta := reg 16 src.hwEta.toInt
    hwPhi := reg 16 src.hwPhi.toInt
    hwVtxEta := reg 16 src.hwEta.toInt
    hwVtxPhi := reg 16 src.hwPhi.toInt
    track := { pf.track with hwPt := 0 }
    cluster := { pf.cluster with hwPt := reg 16 src.hwPt.toInt }
    hwId := if src.hwId = PID_Photon then 3 else 2
    hwStatus := 0 }

/-- `convert(TkObj, PropagatedTrack)` — utils/Firmware2DiscretePF.h:48-54 -/
def dpf_track (inn : TkObj) (out : PropagatedTrack) : PropagatedTrack :=
  { out with
    hwPt := reg 16 inn.hwPt.toInt
    hwCaloPtErr := reg 16 inn.hwPtErr.toInt
    hwEta := reg 16 inn.hwEta.toInt
    hwPhi := reg 16 inn.hwPhi.toInt
    hwZ0 := reg 16 inn.hwZ0.toInt }

/-- `convert(HadCaloObj, CaloCluster)` — utils/Firmware2DiscretePF.h:55-61 -/
def dpf_had (inn : HadCaloObj) (out : CaloCluster) : CaloCluster :=
  { out with
    hwPt := reg 16 inn.hwPt.toInt
    hwEmPt := reg 16 inn.hwEmPt.toInt
    hwEta := reg 16 inn.hwEta.toInt
    hwPhi := reg 16 inn.hwPhi.toInt
    isEM := inn.hwIsEM }

/-- `convert(EmCaloObj, CaloCluster)` — utils/Firmware2DiscretePF.h:62-67 -/
def dpf_em (inn : EmCaloObj) (out : CaloCluster) : CaloCluster :=
  { out with
    hwPt := reg 16 inn.hwPt.toInt
    hwPtErr := reg 16 inn.hwPtErr.toInt
    hwEta := reg 16 inn.hwEta.toInt
    hwPhi := reg 16 inn.hwPhi.toInt }

/-- `convert(MuObj, Muon)` — utils/Firmware2DiscretePF.h:68-72 -/
def dpf_mu (inn : MuObj) (out : Muon) : Muon :=
  { out with
    hwPt := reg 16 inn.hwPt.toInt
    hwEta := reg 16 inn.hwEta.toInt
    hwPhi := reg 16 inn.hwPhi.toInt }

/-- `convert<NMAX>(in, out)` for neutral particles — utils/Firmware2DiscretePF.h:75-80 (for charged ones the
call inside has no matching function); `junk` are the uninitialised locals -/
def dpf_neutrals {NMAX : Nat} (junk : Fin NMAX → PFParticle) (inn : Arr NMAX PFNeutralObj) (out : List PFParticle) :
    List PFParticle :=
  loop (fun i out => if (inn i).hwPt.toInt > 0 then out ++ [dpf_neutral (junk i) (inn i)] else out) out

/-- `convert<NMAX>(in, srctracks, out)` — utils/Firmware2DiscretePF.h:81-89 -/
def dpf_chargeds {NMAX : Nat} (junk : Fin NMAX → PFParticle) (inn : Arr NMAX PFChargedObj)
    (srctracks : List PropagatedTrack) (out : List PFParticle) : Run (List PFParticle) :=
  loopM (fun i out =>
    if (inn i).hwPt.toInt > 0 then do
      cassert (decide (i.val < srctracks.length))
      match srctracks[i.val]? with
      | some t => .ok (out ++ [dpf_charged (junk i) (inn i) t])
      | none => .error .oob
    else .ok out) out

end Verif
