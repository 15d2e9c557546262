import Verif.Model.PF
/-!
# simple_fullpfalgo_ref.cpp — the C++ reference of the PF algorithm

`int ibest = -1` is `none`.  Debug printing (`g_debug_`) is in `Model/PFRefDebug.lean`,
`link_ref` (lines 56-63, no caller) in `Model/Unused.lean`.
-/
namespace Verif

variable {NT NC NE NM NS : Nat}

/-- The selection loop shared by the two `best_match_ref` — simple_fullpfalgo_ref.cpp:18-24, 29-35:
keep the first index with the smallest `dr` below `DR2MAX` among those not skipped. -/
def best_match_loop {n : Nat} (DR2MAX : Int) (skip : Fin n → Bool) (dr : Fin n → Int) :
    Int × Option (Fin n) :=
  loop (fun ic (s : Int × Option (Fin n)) =>
      if skip ic then s
      else if dr ic < s.1 then (dr ic, some ic) else s)
    (DR2MAX, none)

/-- `best_match_ref<NCAL,DR2MAX,false,EmCaloObj>` — simple_fullpfalgo_ref.cpp:14-25 -/
def best_match_ref_em (DR2MAX : Int) (calo : Arr NE EmCaloObj) (track : TkObj) : Option (Fin NE) :=
  (best_match_loop DR2MAX (fun _ => false)
    (fun ic => dr2_int track.hwEta track.hwPhi (calo ic).hwEta (calo ic).hwPhi)).2

/-- `best_match_ref<NCAL,DR2MAX,true,HadCaloObj>` — simple_fullpfalgo_ref.cpp:14-25
(the `dr`-only alternative, line 295) -/
def best_match_ref_calo (DR2MAX : Int) (calo : Arr NC HadCaloObj) (track : TkObj) :
    Option (Fin NC) :=
  (best_match_loop DR2MAX (fun ic => decide ((calo ic).hwPt.toInt ≤ (caloPtMin track).toInt))
    (fun ic => dr2_int track.hwEta track.hwPhi (calo ic).hwEta (calo ic).hwPhi)).2

/-- `best_match_ref<NCAL,DR2MAX>(HadCaloObj[], EmCaloObj)` — simple_fullpfalgo_ref.cpp:26-36 -/
def best_match_ref_had (DR2MAX : Int) (calo : Arr NC HadCaloObj) (em : EmCaloObj) :
    Option (Fin NC) :=
  let emPtMin : Pt := reg 16 (shr em.hwPt.toInt 1)
  (best_match_loop DR2MAX (fun ic => decide ((calo ic).hwEmPt.toInt ≤ emPtMin.toInt))
    (fun ic => dr2_int em.hwEta em.hwPhi (calo ic).hwEta (calo ic).hwPhi)).2

/-- `best_match_with_pt_ref<NCAL,DR2MAX,HadCaloObj>` — simple_fullpfalgo_ref.cpp:38-53.
Line 48 is `int` arithmetic. -/
def best_match_with_pt_ref (DR2MAX : Nat) (calo : Arr NC HadCaloObj) (track : TkObj) :
    Run (Option (Fin NC)) := do
  let ptMin := caloPtMin track
  let dptscale : Int :=
    Int.tdiv ((DR2MAX * 256 : Nat) : Int) (max 1 (track.hwPtErr.toInt * track.hwPtErr.toInt))
  let r ← loopM (fun ic (s : Int × Option (Fin NC)) =>
      if (calo ic).hwPt.toInt ≤ ptMin.toInt then .ok s
      else
        let dr := dr2_int track.hwEta track.hwPhi (calo ic).hwEta (calo ic).hwPhi
        if dr ≥ (DR2MAX : Int) then .ok s
        else do
          let d : Int := max (track.hwPt.toInt - (calo ic).hwPt.toInt) 0
          let d2 ← cint (d * d)
          let d2s ← cint (d2 * dptscale)
          let dr ← cint (dr + shr d2s 8)
          .ok (if s.2 = none ∨ dr < s.1 then (dr, some ic) else s))
    ((0 : Int), (none : Option (Fin NC)))
  .ok r.2

/-- `for (i2 = NOut-1; i2 > iout; --i2) out[i2] = out[i2-1];` — simple_fullpfalgo_ref.cpp:73-75 -/
def ptsort_ref_shift {T : Type} {NOut : Nat} (iout : Fin NOut) (out : Arr NOut T) : Arr NOut T :=
  loopDown (fun i2 out =>
    if h : iout.val < i2.val then out.set i2 (out ⟨i2.val - 1, by omega⟩) else out) out

/-- `ptsort_ref<T,NIn,NOut>` — simple_fullpfalgo_ref.cpp:65-81; `out0` is the incoming content of
`out`. -/
def ptsort_ref {T : Type} [HasPt T] {NIn NOut : Nat} (out0 : Arr NOut T) (inp : Arr NIn T) :
    Arr NOut T :=
  let out : Arr NOut T := fun iout => HasPt.setPt (out0 iout) 0
  loop (fun it out =>
      loopBreak (fun iout out =>
          if (HasPt.pt (inp it)).toInt ≥ (HasPt.pt (out iout)).toInt then
            ((ptsort_ref_shift iout out).set iout (inp it), true)
          else (out, false))
        (List.finRange NOut) out)
    out

/-- What `pfalgo3_em_ref` writes. -/
structure EmRefOut (NT NC NE : Nat) where
  isEle : Arr NT Bool
  outpho : Arr NE PFNeutralObj
  hadcalo_out : Arr NC HadCaloObj

/-- `calo_sumtk` accumulation — simple_fullpfalgo_ref.cpp:90-105 -/
def em_ref_sumtk (track : Arr NT TkObj) (tk2em : Arr NT (Option (Fin NE))) : Arr NE Pt :=
  loop (fun it (s : Arr NE Pt) =>
      match tk2em it with
      | some ic => s.set ic (reg 16 ((s ic).toInt + (track it).hwPt.toInt))
      | none => s)
    (fun _ => 0)

/-- One EM cluster: `isEM[ic]` and `photonPt` — simple_fullpfalgo_ref.cpp:111-139 -/
def em_ref_algo (em : EmCaloObj) (sumtk : Pt) : Run (Bool × Pt) :=
  if sumtk.toInt > 0 then do
    let ptdiff : Pt := reg 16 (em.hwPt.toInt - sumtk.toInt)
    let sigma2 : Int := em.hwPtErr.toInt * em.hwPtErr.toInt
    let sigma2Lo ← cint (4 * sigma2)
    let sigma2Hi ← cint (sigma2 + shr sigma2 1)
    let ptdiff2 : Int := ptdiff.toInt * ptdiff.toInt
    .ok <|
      if (ptdiff.toInt > 0 ∧ ptdiff2 ≤ sigma2Hi) ∨ (ptdiff.toInt < 0 ∧ ptdiff2 < sigma2Lo) then
        (true, 0)
      else if ptdiff.toInt > 0 then (true, ptdiff)
      else (false, 0)
  else .ok (true, em.hwPt)

/-- `sub`, `keep` — simple_fullpfalgo_ref.cpp:164-170 -/
def em_ref_subkeep (emcalo : Arr NE EmCaloObj) (isEM : Arr NE Bool)
    (em2calo : Arr NE (Option (Fin NC))) (ih : Fin NC) : Pt × Bool :=
  loop (fun ic (s : Pt × Bool) =>
      if em2calo ic = some ih then
        if isEM ic then (reg 16 (s.1.toInt + (emcalo ic).hwPt.toInt), s.2)
        else (s.1, true)
      else s)
    ((0 : Pt), false)

/-- `hadcalo_out[ih]` — simple_fullpfalgo_ref.cpp:163, 171-189 -/
def em_ref_hadsub (had : HadCaloObj) (sub : Pt) (keep : Bool) : HadCaloObj :=
  let emdiff : Pt := reg 16 (had.hwEmPt.toInt - sub.toInt)
  let alldiff : Pt := reg 16 (had.hwPt.toInt - sub.toInt)
  if alldiff.toInt ≤ shr had.hwPt.toInt 4 then { had with hwPt := 0, hwEmPt := 0 }
  else if (had.hwIsEM = true ∧ emdiff.toInt ≤ shr had.hwEmPt.toInt 3) ∧ keep = false then
    { had with hwPt := 0, hwEmPt := 0 }
  else { had with hwPt := alldiff, hwEmPt := if emdiff.toInt > 0 then emdiff else 0 }

/-- `pfalgo3_em_ref` — simple_fullpfalgo_ref.cpp:84-191 -/
def pfalgo3_em_ref (emcalo : Arr NE EmCaloObj) (hadcalo : Arr NC HadCaloObj) (track : Arr NT TkObj)
    (isMu : Arr NT Bool) (oldpho : Arr NE PFNeutralObj) : Run (EmRefOut NT NC NE) := do
  let tk2em : Arr NT (Option (Fin NE)) := fun it =>
    if (track it).hwPt.toInt > 0 ∧ isMu it = false then
      best_match_ref_em PFALGO3_DR2MAX_TK_EM emcalo (track it)
    else none
  let calo_sumtk := em_ref_sumtk track tk2em
  let em ← buildM fun ic => em_ref_algo (emcalo ic) (calo_sumtk ic)
  let isEM : Arr NE Bool := fun ic => (em ic).1
  let outpho : Arr NE PFNeutralObj := fun ic =>
    { oldpho ic with
      hwPt := (em ic).2,
      hwEta := if (em ic).2 ≠ 0 then (emcalo ic).hwEta else 0,
      hwPhi := if (em ic).2 ≠ 0 then (emcalo ic).hwPhi else 0,
      hwId := if (em ic).2 ≠ 0 then PID_Photon else 0 }
  let isEle : Arr NT Bool := fun it =>
    match tk2em it with
    | some ic => isEM ic
    | none => false
  let em2calo : Arr NE (Option (Fin NC)) := fun ic =>
    best_match_ref_had PFALGO3_DR2MAX_EM_CALO hadcalo (emcalo ic)
  let hadcalo_out : Arr NC HadCaloObj := fun ih =>
    let sk := em_ref_subkeep emcalo isEM em2calo ih
    em_ref_hadsub (hadcalo ih) sk.1 sk.2
  .ok { isEle := isEle, outpho := outpho, hadcalo_out := hadcalo_out }

/-- Best track of a muon, lines 241-252 of simple_fullpfalgo_ref.cpp -/
def mu_ref_best (mu : MuObj) (track : Arr NT TkObj) : Option (Fin NT) :=
  (loop (fun it (s : Int × Option (Fin NT)) =>
      let dr := dr2_int mu.hwEta mu.hwPhi (track it).hwEta (track it).hwPhi
      if dr < (PFALGO3_DR2MAX_TK_MU : Int) then
        let dpt : Int := (((track it).hwPt.toInt - mu.hwPt.toInt).natAbs : Int)
        if dpt < s.1 then (dpt, some it) else s
      else s)
    (shr mu.hwPt.toInt 1, (none : Option (Fin NT)))).2

/-- The muon loop — simple_fullpfalgo_ref.cpp:234-265; returns `outmu`, `isMu` -/
def mu_ref (mu : Arr NM MuObj) (track : Arr NT TkObj) : Arr NM PFChargedObj × Arr NT Bool :=
  loop (fun im (st : Arr NM PFChargedObj × Arr NT Bool) =>
      if (mu im).hwPt.toInt > 0 then
        match mu_ref_best (mu im) track with
        | some ibest =>
          (st.1.set im
            { hwPt := (track ibest).hwPt, hwEta := (track ibest).hwEta,
              hwPhi := (track ibest).hwPhi, hwId := PID_Muon, hwZ0 := (track ibest).hwZ0 },
           st.2.set ibest true)
        | none => st
      else st)
    ((fun _ => { hwPt := 0, hwEta := 0, hwPhi := 0, hwId := 0, hwZ0 := 0 }), fun _ => false)

/-- State of the track-to-calorimeter loop: `track_good`, `calo_sumtk`, `calo_sumtkErr2`. -/
structure TkHadState (NT NC : Nat) where
  track_good : Arr NT Bool
  calo_sumtk : Arr NC Pt
  calo_sumtkErr2 : Arr NC Int

/-- The loop of lines 292-303 of simple_fullpfalgo_ref.cpp -/
def tkhad_ref (hadcalo_subem : Arr NC HadCaloObj) (track : Arr NT TkObj) (isEle isMu : Arr NT Bool)
    (track_good0 : Arr NT Bool) : Run (TkHadState NT NC) :=
  loopM (fun it (s : TkHadState NT NC) =>
      if (track it).hwPt.toInt > 0 ∧ isEle it = false ∧ isMu it = false then do
        let ibest ← best_match_with_pt_ref PFALGO3_DR2MAX_TK_CALO hadcalo_subem (track it)
        match ibest with
        | some ic => do
          let err2 ← cint (s.calo_sumtkErr2 ic + (track it).hwPtErr.toInt * (track it).hwPtErr.toInt)
          .ok { track_good := s.track_good.set it true,
                calo_sumtk := s.calo_sumtk.set ic
                  (reg 16 ((s.calo_sumtk ic).toInt + (track it).hwPt.toInt)),
                calo_sumtkErr2 := s.calo_sumtkErr2.set ic err2 }
        | none => .ok s
      else .ok s)
    { track_good := track_good0, calo_sumtk := fun _ => 0, calo_sumtkErr2 := fun _ => 0 }

/-- `calo_subpt[ic]` — simple_fullpfalgo_ref.cpp:305-327 -/
def calo_subpt_ref (calo : HadCaloObj) (sumtk : Pt) (sumtkErr2 : Int) : Run Pt :=
  if sumtk.toInt > 0 then do
    let ptdiff : Pt := reg 16 (calo.hwPt.toInt - sumtk.toInt)
    let sigmamult ← cint (sumtkErr2 + shr sumtkErr2 1)
    .ok (if ptdiff.toInt > 0 ∧ ptdiff.toInt * ptdiff.toInt > sigmamult then ptdiff else 0)
  else .ok calo.hwPt

/-- `pfalgo3_full_ref` — simple_fullpfalgo_ref.cpp:193-354.
`old` is the previous content of the output arrays, `mem` the uninitialised `outne_all`. -/
def pfalgo3_full_ref (inp : PFInputs NT NC NE NM) (old : PFOutputs NT NE NS NM)
    (mem : Arr NC PFNeutralObj) : Run (PFOutputs NT NE NS NM) := do
  let mures := mu_ref inp.mu inp.track
  let outmu := mures.1
  let isMu := mures.2
  let em ← pfalgo3_em_ref inp.emcalo inp.hadcalo inp.track isMu old.outpho
  let track_good0 : Arr NT Bool := fun it =>
    decide ((inp.track it).hwPt.toInt <
      (if (inp.track it).hwTightQuality then (reg 16 PFALGO3_TK_MAXINVPT_TIGHT : Pt)
        else reg 16 PFALGO3_TK_MAXINVPT_LOOSE).toInt) || em.isEle it || isMu it
  let outne0 : Arr NS PFNeutralObj := fun i =>
    { old.outne i with hwPt := 0, hwEta := 0, hwPhi := 0, hwId := 0 }
  let s ← tkhad_ref em.hadcalo_out inp.track em.isEle isMu track_good0
  let calo_subpt ← buildM fun ic =>
    calo_subpt_ref (em.hadcalo_out ic) (s.calo_sumtk ic) (s.calo_sumtkErr2 ic)
  let outch : Arr NT PFChargedObj := fun it =>
    if s.track_good it then
      { hwPt := (inp.track it).hwPt, hwEta := (inp.track it).hwEta, hwPhi := (inp.track it).hwPhi,
        hwId := if em.isEle it then PID_Electron else if isMu it then PID_Muon else PID_Charged,
        hwZ0 := (inp.track it).hwZ0 }
    else { hwPt := 0, hwEta := 0, hwPhi := 0, hwId := 0, hwZ0 := 0 }
  let outne_all : Arr NC PFNeutralObj := fun ic =>
    if (calo_subpt ic).toInt > 0 then
      { mem ic with hwPt := calo_subpt ic, hwEta := (em.hadcalo_out ic).hwEta,
                    hwPhi := (em.hadcalo_out ic).hwPhi, hwId := PID_Neutral }
    else { mem ic with hwPt := 0, hwEta := 0, hwPhi := 0, hwId := 0 }
  .ok { outch := outch, outpho := em.outpho, outne := ptsort_ref outne0 outne_all, outmu := outmu }

end Verif
