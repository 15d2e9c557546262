import Verif.Model.Ap
/-! # firmware/data.h -/
namespace Verif

/-- `pt_t`, `ap_int<16>` — firmware/data.h:6 -/
abbrev Pt := BitVec 16
/-- `etaphi_t`, `ap_int<10>` — firmware/data.h:7 -/
abbrev EtaPhi := BitVec 10
/-- `vtx_t`, `ap_int<5>` — firmware/data.h:8 -/
abbrev VtxT := BitVec 5
/-- `particleid_t`, `ap_uint<3>` — firmware/data.h:9 -/
abbrev ParticleId := BitVec 3
/-- `z0_t`, `ap_int<10>` — firmware/data.h:10 -/
abbrev Z0 := BitVec 10
/-- `MP7DataWord`, `ap_uint<32>` — firmware/data.h:116 -/
abbrev Word := BitVec 32

/-- `enum PID` — firmware/data.h:12 -/
def PID_Charged : ParticleId := 0
@[inherit_doc PID_Charged] def PID_Neutral : ParticleId := 1
@[inherit_doc PID_Charged] def PID_Photon : ParticleId := 2
@[inherit_doc PID_Charged] def PID_Electron : ParticleId := 3
@[inherit_doc PID_Charged] def PID_Muon : ParticleId := 4

/-- `HadCaloObj` (with its base `CaloObj`) — firmware/data.h:55-62 -/
structure HadCaloObj where
  hwPt : Pt
  hwEta : EtaPhi
  hwPhi : EtaPhi
  hwEmPt : Pt
  hwIsEM : Bool
  deriving DecidableEq, Repr

/-- `clear(HadCaloObj&)` — firmware/data.h:63-65 -/
def HadCaloObj.clear : HadCaloObj := ⟨0, 0, 0, 0, false⟩

/-- `EmCaloObj` — firmware/data.h:67-70 -/
structure EmCaloObj where
  hwPt : Pt
  hwPtErr : Pt
  hwEta : EtaPhi
  hwPhi : EtaPhi
  deriving DecidableEq, Repr

/-- `clear(EmCaloObj&)` — firmware/data.h:71-73 -/
def EmCaloObj.clear : EmCaloObj := ⟨0, 0, 0, 0⟩

/-- `TkObj` — firmware/data.h:75-80 -/
structure TkObj where
  hwPt : Pt
  hwPtErr : Pt
  hwEta : EtaPhi
  hwPhi : EtaPhi
  hwZ0 : Z0
  hwTightQuality : Bool
  deriving DecidableEq, Repr

/-- `clear(TkObj&)` — firmware/data.h:81-83 -/
def TkObj.clear : TkObj := ⟨0, 0, 0, 0, 0, false⟩

/-- `MuObj` — firmware/data.h:85-88 -/
structure MuObj where
  hwPt : Pt
  hwPtErr : Pt
  hwEta : EtaPhi
  hwPhi : EtaPhi
  deriving DecidableEq, Repr

/-- `clear(MuObj&)` — firmware/data.h:89-91 -/
def MuObj.clear : MuObj := ⟨0, 0, 0, 0⟩

/-- `PFChargedObj` — firmware/data.h:94-99 -/
structure PFChargedObj where
  hwPt : Pt
  hwEta : EtaPhi
  hwPhi : EtaPhi
  hwId : ParticleId
  hwZ0 : Z0
  deriving DecidableEq, Repr

/-- `PFNeutralObj` — firmware/data.h:100-105 -/
structure PFNeutralObj where
  hwPt : Pt
  hwEta : EtaPhi
  hwPhi : EtaPhi
  hwId : ParticleId
  hwPtPuppi : Pt
  deriving DecidableEq, Repr

/-- `VtxObj` — firmware/data.h:106-111 -/
structure VtxObj where
  hwSumPt : Pt
  hwZ0 : Z0
  mult : VtxT
  hwId : ParticleId
  deriving DecidableEq, Repr

/-- `MP7_NCHANN` — firmware/data.h:113 -/
def MP7_NCHANN : Nat := 144
/-- `CTP7_NCHANN_IN` — firmware/data.h:114 -/
def CTP7_NCHANN_IN : Nat := 67
/-- `CTP7_NCHANN_OUT` — firmware/data.h:115 -/
def CTP7_NCHANN_OUT : Nat := 48

/-- Array sizes chosen by a build configuration — firmware/data.h:22-49
(`NPHOTON` is always `NEMCALO`). -/
structure Config where
  NTRACK : Nat
  NCALO : Nat
  NMU : Nat
  NEMCALO : Nat
  NSELCALO : Nat
  deriving DecidableEq, Repr

/-- `#ifdef TESTMP7` — firmware/data.h:23-28 -/
def Config.mp7 : Config := ⟨15, 15, 2, 15, 10⟩
/-- `#elif TESTCTP7` — firmware/data.h:30-35 -/
def Config.ctp7 : Config := ⟨7, 5, 2, 5, 4⟩
/-- `#else` — firmware/data.h:43-48 -/
def Config.default : Config := ⟨7, 5, 2, 5, 4⟩

/-- The four input arrays of the PF algorithm, for given `NTRACK NCALO NEMCALO NMU`. -/
structure PFInputs (NT NC NE NM : Nat) where
  emcalo : Arr NE EmCaloObj
  hadcalo : Arr NC HadCaloObj
  track : Arr NT TkObj
  mu : Arr NM MuObj

/-- The four output arrays of the PF algorithm, for given `NTRACK NEMCALO NSELCALO NMU`. -/
structure PFOutputs (NT NE NS NM : Nat) where
  outch : Arr NT PFChargedObj
  outpho : Arr NE PFNeutralObj
  outne : Arr NS PFNeutralObj
  outmu : Arr NM PFChargedObj

end Verif
