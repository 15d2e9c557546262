import Verif.Model.Data
/-!
# firmware/simple_fullpfalgo.cpp — the PF algorithm

Function by function.  `NT NC NE NM NS` stand for `NTRACK NCALO NEMCALO NMU NSELCALO`.
`ap_uint<N>` link words are modelled as `Fin N → Bool` (bit `i` of the word is the value at `i`).
HLS pragmas have no functional effect and are not modelled.
-/
namespace Verif

/-- `PFALGO3_DR2MAX_TK_CALO` — firmware/simple_fullpfalgo.h:20 -/
def PFALGO3_DR2MAX_TK_CALO : Nat := 756
/-- `PFALGO3_DR2MAX_EM_CALO` — firmware/simple_fullpfalgo.h:21 -/
def PFALGO3_DR2MAX_EM_CALO : Nat := 525
/-- `PFALGO3_DR2MAX_TK_MU` — firmware/simple_fullpfalgo.h:22 -/
def PFALGO3_DR2MAX_TK_MU : Nat := 2101
/-- `PFALGO3_DR2MAX_TK_EM` — firmware/simple_fullpfalgo.h:23 -/
def PFALGO3_DR2MAX_TK_EM : Nat := 84
/-- `PFALGO3_TK_MAXINVPT_LOOSE` — firmware/simple_fullpfalgo.h:24 -/
def PFALGO3_TK_MAXINVPT_LOOSE : Int := 40
/-- `PFALGO3_TK_MAXINVPT_TIGHT` — firmware/simple_fullpfalgo.h:25 -/
def PFALGO3_TK_MAXINVPT_TIGHT : Int := 80

/-- `dr2_int` — firmware/simple_fullpfalgo.cpp:14-18.  The result is at most `2·512²` and fits `int`. -/
def dr2_int (eta1 phi1 eta2 phi2 : EtaPhi) : Int :=
  let deta : EtaPhi := reg 10 (eta1.toInt - eta2.toInt)
  let dphi : EtaPhi := reg 10 (phi1.toInt - phi2.toInt)
  deta.toInt * deta.toInt + dphi.toInt * dphi.toInt

/-- `dr2_int_cap<NB>` — firmware/simple_fullpfalgo.cpp:19-25 -/
def dr2_int_cap {NB : Nat} (eta1 phi1 eta2 phi2 : EtaPhi) (max : BitVec NB) : BitVec NB :=
  let deta : EtaPhi := reg 10 (eta1.toInt - eta2.toInt)
  let dphi : EtaPhi := reg 10 (phi1.toInt - phi2.toInt)
  let dr2 : Int := deta.toInt * deta.toInt + dphi.toInt * dphi.toInt
  if dr2 < (max.toNat : Int) then reg NB dr2 else max

/-- `dr2_dpt_int_cap<NB,ap_int<18>>` — firmware/simple_fullpfalgo.cpp:26-36 -/
def dr2_dpt_int_cap {NB : Nat} (eta1 phi1 eta2 phi2 : EtaPhi) (pt1 pt2 : Pt)
    (ptscale : BitVec 18) (dr2max max : BitVec NB) : BitVec NB :=
  let deta : EtaPhi := reg 10 (eta1.toInt - eta2.toInt)
  let dphi : EtaPhi := reg 10 (phi1.toInt - phi2.toInt)
  let dr2 : Int := deta.toInt * deta.toInt + dphi.toInt * dphi.toInt
  let dpt0 : Pt := reg 16 (pt1.toInt - pt2.toInt)
  let dpt : Pt := if dpt0.toInt < 0 then 0 else dpt0
  let dpt2 : BitVec 26 :=
    if dpt.toInt > 5792 then reg 26 33554431 else reg 26 (dpt.toInt * dpt.toInt)
  let dq : Int := toCInt (dr2 + shr (dpt2.toInt * ptscale.toInt) 8)
  if dr2 < (dr2max.toNat : Int) ∧ dq < (max.toNat : Int) then reg NB dq else max

/-- Types with an `hwPt` member (what the sorting templates need of their type parameter). -/
class HasPt (T : Type) where
  pt : T → Pt
  setPt : T → Pt → T

instance : HasPt PFNeutralObj := ⟨PFNeutralObj.hwPt, fun x p => { x with hwPt := p }⟩

section PtSort
variable {T : Type} [HasPt T] {NIn NOut : Nat}

/-- One step of the inner loop of `ptsort_hwopt` — firmware/simple_fullpfalgo.cpp:50-56 -/
def ptsort_hwopt_step (x : T) (iout : Fin NOut) (tmp : Arr NOut T) : Arr NOut T :=
  if (HasPt.pt (tmp iout)).toInt ≤ (HasPt.pt x).toInt then
    if h : iout.val = 0 then tmp.set iout x
    else
      let prev : Fin NOut := ⟨iout.val - 1, by omega⟩
      if (HasPt.pt (tmp prev)).toInt > (HasPt.pt x).toInt then tmp.set iout x
      else tmp.set iout (tmp prev)
  else tmp

/-- `ptsort_hwopt<T,NIn,NOut>` — firmware/simple_fullpfalgo.cpp:38-64.
`tmp0` is the uninitialised scratch array `tmp`. -/
def ptsort_hwopt (tmp0 : Arr NOut T) (inp : Arr NIn T) : Arr NOut T :=
  let tmp : Arr NOut T := fun iout => HasPt.setPt (tmp0 iout) 0
  loop (fun it tmp => loopDown (ptsort_hwopt_step (inp it)) tmp) tmp

end PtSort

variable {NT NC NE NM NS : Nat}

/-- `tk2em_drvals<DR2MAX>` — firmware/simple_fullpfalgo.cpp:68-77 -/
def tk2em_drvals (DR2MAX : Nat) (calo : Arr NE EmCaloObj) (track : Arr NT TkObj)
    (isMu : Arr NT Bool) : Arr NT (Arr NE (BitVec 7)) :=
  let eDR2MAX : BitVec 7 := reg 7 DR2MAX
  fun it icalo =>
    if isMu it then eDR2MAX
    else dr2_int_cap (track it).hwEta (track it).hwPhi (calo icalo).hwEta (calo icalo).hwPhi eDR2MAX

/-- Element `i` of the table built by `init_dr2max_times_pterr2_inv<DR2MAX>` —
firmware/simple_fullpfalgo.cpp:95-101 -/
def dr2max_times_pterr2_inv (DR2MAX : Nat) (i : Nat) : Int :=
  let tmp : Int := ((DR2MAX * 256) / (if i = 0 then 1 else i * i) : Nat)
  let int18_max : Int := 131071
  if tmp > int18_max then int18_max else tmp

/-- `calc_dptscale<DR2MAX>` — firmware/simple_fullpfalgo.cpp:102-112.  The table has 512 entries
and is indexed with the signed `trackHwPtErr`: a negative index is out of bounds. -/
def calc_dptscale (DR2MAX : Nat) (trackHwPtErr : Pt) : Run Int :=
  if trackHwPtErr.toInt < 512 then
    if trackHwPtErr.toInt < 0 then .error .oob
    else .ok (dr2max_times_pterr2_inv DR2MAX trackHwPtErr.toInt.toNat)
  else .ok 0

/-- `caloPtMin` of a track — firmware/simple_fullpfalgo.cpp:120,122 (same as 83-84) -/
def caloPtMin (t : TkObj) : Pt :=
  let m : Pt := reg 16 (t.hwPt.toInt - 2 * t.hwPtErr.toInt)
  if m.toInt < 0 then 0 else m

/-- `tk2calo_drdptvals<DR2MAX>` — firmware/simple_fullpfalgo.cpp:114-132 -/
def tk2calo_drdptvals (DR2MAX : Nat) (calo : Arr NC HadCaloObj) (track : Arr NT TkObj) :
    Run (Arr NT (Arr NC (BitVec 12))) :=
  let eDR2MAX : BitVec 12 := reg 12 DR2MAX
  let eDQMAX : BitVec 12 := reg 12 (5 * DR2MAX)
  buildM fun it => do
    let s ← calc_dptscale DR2MAX (track it).hwPtErr
    let dptscale : BitVec 18 := reg 18 s
    .ok fun icalo =>
      if (calo icalo).hwPt.toInt > (caloPtMin (track it)).toInt then
        dr2_dpt_int_cap (track it).hwEta (track it).hwPhi (calo icalo).hwEta (calo icalo).hwPhi
          (track it).hwPt (calo icalo).hwPt dptscale eDR2MAX eDQMAX
      else eDQMAX

/-- `tk2calo_drvals<DR2MAX>` — firmware/simple_fullpfalgo.cpp:79-93
(used by the alternative `tk2calo_link_dronly` only) -/
def tk2calo_drvals (DR2MAX : Nat) (calo : Arr NC HadCaloObj) (track : Arr NT TkObj) :
    Arr NT (Arr NC (BitVec 10)) :=
  let eDR2MAX : BitVec 10 := reg 10 DR2MAX
  fun it icalo =>
    if (calo icalo).hwPt.toInt > (caloPtMin (track it)).toInt then
      dr2_int_cap (track it).hwEta (track it).hwPhi (calo icalo).hwEta (calo icalo).hwPhi eDR2MAX
    else eDR2MAX

/-- `em2calo_drvals<DR2MAX>` — firmware/simple_fullpfalgo.cpp:134-147 -/
def em2calo_drvals (DR2MAX : Nat) (hadcalo : Arr NC HadCaloObj) (emcalo : Arr NE EmCaloObj) :
    Arr NE (Arr NC (BitVec 10)) :=
  let eDR2MAX : BitVec 10 := reg 10 DR2MAX
  fun it icalo =>
    let hadcaloEmPtMin : Pt := reg 16 (shr (emcalo it).hwPt.toInt 1)
    if (hadcalo icalo).hwEmPt.toInt > hadcaloEmPtMin.toInt then
      dr2_int_cap (emcalo it).hwEta (emcalo it).hwPhi (hadcalo icalo).hwEta (hadcalo icalo).hwPhi
        eDR2MAX
    else eDR2MAX

/-- `pick_closest<DR2MAX,NTK,NCA,DR_T>` — firmware/simple_fullpfalgo.cpp:149-163 -/
def pick_closest {NTK NCA NB : Nat} (DR2MAX : Nat) (drval : Arr NTK (Arr NCA (BitVec NB))) :
    Arr NTK (Arr NCA Bool) :=
  let eDR2MAX : BitVec NB := reg NB DR2MAX
  fun it icalo =>
    let mydr := drval it icalo
    loop (fun j link =>
        if icalo.val ≤ j.val then link && decide ((drval it j).toNat ≥ mydr.toNat)
        else link && decide ((drval it j).toNat > mydr.toNat))
      (decide (mydr ≠ eDR2MAX))

/-- `tk2calo_link_dronly` — firmware/simple_fullpfalgo.cpp:164-171 (not called by `pfalgo3_full`) -/
def tk2calo_link_dronly (calo : Arr NC HadCaloObj) (track : Arr NT TkObj) : Arr NT (Arr NC Bool) :=
  pick_closest PFALGO3_DR2MAX_TK_CALO (tk2calo_drvals PFALGO3_DR2MAX_TK_CALO calo track)

/-- `tk2calo_link_drdpt` — firmware/simple_fullpfalgo.cpp:172-180 -/
def tk2calo_link_drdpt (calo : Arr NC HadCaloObj) (track : Arr NT TkObj) :
    Run (Arr NT (Arr NC Bool)) := do
  let drvals ← tk2calo_drdptvals PFALGO3_DR2MAX_TK_CALO calo track
  .ok (pick_closest (5 * PFALGO3_DR2MAX_TK_CALO) drvals)

/-- `tk2em_link` — firmware/simple_fullpfalgo.cpp:182-194 -/
def tk2em_link (calo : Arr NE EmCaloObj) (track : Arr NT TkObj) (isMu : Arr NT Bool) :
    Arr NT (Arr NE Bool) :=
  pick_closest PFALGO3_DR2MAX_TK_EM (tk2em_drvals PFALGO3_DR2MAX_TK_EM calo track isMu)

/-- `em2calo_link` — firmware/simple_fullpfalgo.cpp:195-202 -/
def em2calo_link (emcalo : Arr NE EmCaloObj) (hadcalo : Arr NC HadCaloObj) :
    Arr NE (Arr NC Bool) :=
  pick_closest PFALGO3_DR2MAX_EM_CALO (em2calo_drvals PFALGO3_DR2MAX_EM_CALO hadcalo emcalo)

/-- `tk2calo_tkerr2` — firmware/simple_fullpfalgo.cpp:206-210 (at most 2^30, fits `int`) -/
def tk2calo_tkerr2 (track : Arr NT TkObj) : Arr NT Int :=
  fun it => (track it).hwPtErr.toInt * (track it).hwPtErr.toInt

/-- `tk2calo_sumtk` — firmware/simple_fullpfalgo.cpp:211-221; returns `sumtk`, `sumtkerr2` -/
def tk2calo_sumtk (track : Arr NT TkObj) (isEle isMu : Arr NT Bool) (tkerr2 : Arr NT Int)
    (link : Arr NT (Arr NC Bool)) : Run (Arr NC (Pt × Int)) :=
  buildM fun icalo =>
    loopM (fun it (s : Pt × Int) =>
        if !isEle it && link it icalo && !isMu it then do
          let sumerr ← cint (s.2 + tkerr2 it)
          .ok (reg 16 (s.1.toInt + (track it).hwPt.toInt), sumerr)
        else .ok s)
      ((0 : Pt), (0 : Int))

/-- `tk2em_sumtk` — firmware/simple_fullpfalgo.cpp:223-232 -/
def tk2em_sumtk (track : Arr NT TkObj) (link : Arr NT (Arr NE Bool)) : Arr NE Pt :=
  fun icalo =>
    loop (fun it sum =>
        if link it icalo then reg 16 (sum.toInt + (track it).hwPt.toInt) else sum)
      (0 : Pt)

/-- `em2calo_sumem` — firmware/simple_fullpfalgo.cpp:234-246; returns `sumem`, `keepcalo`.
Note line 240: the `else` branch assigns `keep = false`. -/
def em2calo_sumem (emcalo : Arr NE EmCaloObj) (isEM : Arr NE Bool) (link : Arr NE (Arr NC Bool)) :
    Arr NC (Pt × Bool) :=
  fun icalo =>
    loop (fun iem (s : Pt × Bool) =>
        if link iem icalo then
          if isEM iem then (reg 16 (s.1.toInt + (emcalo iem).hwPt.toInt), s.2)
          else (s.1, false)
        else s)
      ((0 : Pt), false)

/-- `tk2calo_tkalgo` — firmware/simple_fullpfalgo.cpp:248-268 -/
def tk2calo_tkalgo (track : Arr NT TkObj) (isEle isMu : Arr NT Bool) (link : Arr NT (Arr NC Bool)) :
    Arr NT PFChargedObj :=
  let TKPT_MAX_LOOSE : Pt := reg 16 PFALGO3_TK_MAXINVPT_LOOSE
  let TKPT_MAX_TIGHT : Pt := reg 16 PFALGO3_TK_MAXINVPT_TIGHT
  fun it =>
    let goodByPt : Bool := decide ((track it).hwPt.toInt <
      (if (track it).hwTightQuality then TKPT_MAX_TIGHT else TKPT_MAX_LOOSE).toInt)
    let orReduce : Bool := (List.finRange NC).any (fun i => link it i)
    let good : Bool := isMu it || isEle it || goodByPt || orReduce
    if good then
      { hwPt := (track it).hwPt, hwEta := (track it).hwEta, hwPhi := (track it).hwPhi,
        hwId := if isEle it then PID_Electron else if isMu it then PID_Muon else PID_Charged,
        hwZ0 := (track it).hwZ0 }
    else { hwPt := 0, hwEta := 0, hwPhi := 0, hwId := 0, hwZ0 := 0 }

/-- `calopt` of one cluster — firmware/simple_fullpfalgo.cpp:275-284 -/
def tk2calo_calopt (calo : HadCaloObj) (sumtk : Pt) (sumtkerr2 : Int) : Run Pt :=
  if sumtk = 0 then .ok calo.hwPt
  else
    let ptdiff : Pt := reg 16 (calo.hwPt.toInt - sumtk.toInt)
    if ptdiff.toInt > 0 then do
      let lim ← cint (sumtkerr2 + shr sumtkerr2 1)
      .ok (if ptdiff.toInt * ptdiff.toInt > lim then ptdiff else 0)
    else .ok 0

/-- `tk2calo_caloalgo` — firmware/simple_fullpfalgo.cpp:271-289.
`old` is the previous content of `pfout` (its `hwPtPuppi` is not written). -/
def tk2calo_caloalgo (calo : Arr NC HadCaloObj) (sumtk : Arr NC Pt) (sumtkerr2 : Arr NC Int)
    (old : Arr NC PFNeutralObj) : Run (Arr NC PFNeutralObj) :=
  buildM fun icalo => do
    let calopt ← tk2calo_calopt (calo icalo) (sumtk icalo) (sumtkerr2 icalo)
    .ok { old icalo with
      hwPt := calopt,
      hwEta := if calopt ≠ 0 then (calo icalo).hwEta else 0,
      hwPhi := if calopt ≠ 0 then (calo icalo).hwPhi else 0,
      hwId := if calopt ≠ 0 then PID_Neutral else 0 }

/-- `tk2em_emalgo` — firmware/simple_fullpfalgo.cpp:290-312; returns `isEM`, `photonPt` -/
def tk2em_emalgo (calo : Arr NE EmCaloObj) (sumtk : Arr NE Pt) : Run (Arr NE (Bool × Pt)) :=
  buildM fun icalo =>
    if sumtk icalo = 0 then .ok (true, (calo icalo).hwPt)
    else do
      let ptdiff : Pt := reg 16 ((calo icalo).hwPt.toInt - (sumtk icalo).toInt)
      let ptdiff2 : Int := ptdiff.toInt * ptdiff.toInt
      let sigma2 : Int := (calo icalo).hwPtErr.toInt * (calo icalo).hwPtErr.toInt
      let sigma2Lo ← cint (sigma2 * 4)
      let sigma2Hi ← cint (sigma2 + shr sigma2 1)
      .ok <|
        if (ptdiff.toInt > 0 ∧ ptdiff2 ≤ sigma2Hi) ∨ (ptdiff.toInt < 0 ∧ ptdiff2 < sigma2Lo) then
          (true, 0)
        else if ptdiff.toInt > 0 then (true, ptdiff)
        else (false, 0)

/-- `tk2em_elealgo` — firmware/simple_fullpfalgo.cpp:313-321 -/
def tk2em_elealgo (link : Arr NT (Arr NE Bool)) (isEM : Arr NE Bool) : Arr NT Bool :=
  fun it => loop (fun icalo ele => if isEM icalo && link it icalo then true else ele) false

/-- `tk2em_photons` — firmware/simple_fullpfalgo.cpp:322-329 -/
def tk2em_photons (calo : Arr NE EmCaloObj) (photonPt : Arr NE Pt) (old : Arr NE PFNeutralObj) :
    Arr NE PFNeutralObj :=
  fun icalo => { old icalo with
    hwPt := photonPt icalo,
    hwEta := if photonPt icalo ≠ 0 then (calo icalo).hwEta else 0,
    hwPhi := if photonPt icalo ≠ 0 then (calo icalo).hwPhi else 0,
    hwId := if photonPt icalo ≠ 0 then PID_Photon else 0 }

/-- `em2calo_sub` — firmware/simple_fullpfalgo.cpp:331-350 -/
def em2calo_sub (calo : Arr NC HadCaloObj) (sumem : Arr NC Pt) (keepcalo : Arr NC Bool) :
    Arr NC HadCaloObj :=
  fun icalo =>
    let ptsub : Pt := reg 16 ((calo icalo).hwPt.toInt - (sumem icalo).toInt)
    let emsub : Pt := reg 16 ((calo icalo).hwEmPt.toInt - (sumem icalo).toInt)
    if ptsub.toInt ≤ shr (calo icalo).hwPt.toInt 4 ∨
        ((calo icalo).hwIsEM = true ∧ emsub.toInt ≤ shr (calo icalo).hwEmPt.toInt 3 ∧
          keepcalo icalo = false) then
      { hwPt := 0, hwEmPt := 0, hwEta := 0, hwPhi := 0, hwIsEM := false }
    else
      { hwPt := ptsub, hwEmPt := if emsub.toInt > 0 then emsub else 0,
        hwEta := (calo icalo).hwEta, hwPhi := (calo icalo).hwPhi, hwIsEM := (calo icalo).hwIsEM }

/-- `spfph_mu2trk_dptvals` — firmware/simple_fullpfalgo.cpp:356-368 -/
def spfph_mu2trk_dptvals (mu : Arr NM MuObj) (track : Arr NT TkObj) : Arr NM (Arr NT Pt) :=
  let DR2MAX : BitVec 12 := reg 12 PFALGO3_DR2MAX_TK_MU
  fun im it =>
    let dpt : Pt := reg 16 ((mu im).hwPt.toInt - (track it).hwPt.toInt)
    if (dr2_int_cap (mu im).hwEta (mu im).hwPhi (track it).hwEta (track it).hwPhi DR2MAX).toNat
        < DR2MAX.toNat then
      if dpt.toInt > 0 then dpt else reg 16 (-dpt.toInt)
    else reg 16 (shr (mu im).hwPt.toInt 1)

/-- `spfph_mu2trk_linkstep` — firmware/simple_fullpfalgo.cpp:370-382
(result indexed `[it][im]` as in the code) -/
def spfph_mu2trk_linkstep (mu : Arr NM MuObj) (dptval : Arr NM (Arr NT Pt)) :
    Arr NT (Arr NM Bool) :=
  fun it im =>
    let mydpt := dptval im it
    loop (fun j link =>
        if it.val ≤ j.val then link && decide ((dptval im j).toInt ≥ mydpt.toInt)
        else link && decide ((dptval im j).toInt > mydpt.toInt))
      (decide (mydpt.toInt < shr (mu im).hwPt.toInt 1))

/-- `spfph_mutrk_link` — firmware/simple_fullpfalgo.cpp:384-395 -/
def spfph_mutrk_link (mu : Arr NM MuObj) (track : Arr NT TkObj) : Arr NT (Arr NM Bool) :=
  spfph_mu2trk_linkstep mu (spfph_mu2trk_dptvals mu track)

/-- `spfph_mualgo` — firmware/simple_fullpfalgo.cpp:397-421; `ibest = -1` is `none`.
Returns `pfmuout` and the updated `isMu`. -/
def spfph_mualgo (mu : Arr NM MuObj) (track : Arr NT TkObj) (link : Arr NT (Arr NM Bool))
    (pfmuout0 : Arr NM PFChargedObj) (isMu0 : Arr NT Bool) :
    Arr NM PFChargedObj × Arr NT Bool :=
  loop (fun im (st : Arr NM PFChargedObj × Arr NT Bool) =>
      let gb : Bool × Option (Fin NT) :=
        loop (fun it gb => if link it im then (true, some it) else gb) (false, none)
      match gb.2 with
      | some ibest =>
        if (mu im).hwPt.toInt > 0 ∧ gb.1 = true then
          (st.1.set im
            { hwPt := (track ibest).hwPt, hwEta := (track ibest).hwEta,
              hwPhi := (track ibest).hwPhi, hwId := PID_Muon, hwZ0 := (track ibest).hwZ0 },
           st.2.set ibest true)
        else (st.1.set im { hwPt := 0, hwEta := 0, hwPhi := 0, hwId := 0, hwZ0 := 0 }, st.2)
      | none => (st.1.set im { hwPt := 0, hwEta := 0, hwPhi := 0, hwId := 0, hwZ0 := 0 }, st.2))
    (pfmuout0, isMu0)

/-- Uninitialised local memory of `pfalgo3_full`: `outne_all` (line 505) and the scratch array of
`ptsort_hwopt` (line 40). -/
structure PFScratch (NC NS : Nat) where
  outne_all : Arr NC PFNeutralObj
  tmp : Arr NS PFNeutralObj

/-- `pfalgo3_full` — firmware/simple_fullpfalgo.cpp:427-510.
`old` is the previous content of the output arrays, `mem` uninitialised local memory. -/
def pfalgo3_full (inp : PFInputs NT NC NE NM) (old : PFOutputs NT NE NS NM)
    (mem : PFScratch NC NS) : Run (PFOutputs NT NE NS NM) := do
  -- TK-MU linking
  let mu_track_link_bit := spfph_mutrk_link inp.mu inp.track
  let mures := spfph_mualgo inp.mu inp.track mu_track_link_bit old.outmu (fun _ => false)
  let outmu := mures.1
  let isMu := mures.2
  -- TK-EM linking
  let em_track_link_bit := tk2em_link inp.emcalo inp.track isMu
  let sumtk2em := tk2em_sumtk inp.track em_track_link_bit
  let em ← tk2em_emalgo inp.emcalo sumtk2em
  let isEM : Arr NE Bool := fun i => (em i).1
  let photonPt : Arr NE Pt := fun i => (em i).2
  let outpho := tk2em_photons inp.emcalo photonPt old.outpho
  let isEle := tk2em_elealgo em_track_link_bit isEM
  let em_calo_link_bit := em2calo_link inp.emcalo inp.hadcalo
  let sk := em2calo_sumem inp.emcalo isEM em_calo_link_bit
  let hadcalo_sub := em2calo_sub inp.hadcalo (fun i => (sk i).1) (fun i => (sk i).2)
  -- TK-HAD linking
  let calo_track_link_bit ← tk2calo_link_drdpt hadcalo_sub inp.track
  let tkerr2 := tk2calo_tkerr2 inp.track
  let outch := tk2calo_tkalgo inp.track isEle isMu calo_track_link_bit
  let sums ← tk2calo_sumtk inp.track isEle isMu tkerr2 calo_track_link_bit
  let outne_all ← tk2calo_caloalgo hadcalo_sub (fun i => (sums i).1) (fun i => (sums i).2)
    mem.outne_all
  let outne := ptsort_hwopt mem.tmp outne_all
  .ok { outch := outch, outpho := outpho, outne := outne, outmu := outmu }

end Verif
