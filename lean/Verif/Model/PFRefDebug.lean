import Verif.Model.PFRef
import Verif.Model.Convert
import Verif.Model.Discrete
import Verif.Model.VertexTestOutput
/-!
# simple_fullpfalgo_ref.cpp with debugging on

`pfalgo3_full_ref_set_debug(true)`: the reference of the PF algorithm and the text that it prints.  The messages of lines
195-219 and 309-318 need `FASTPUPPI_NTUPLERPRODUCER_DISCRETEPFINPUTS_MORE` (DiscretePFInputs.h:6, for C++11 and CMSSW), here
the parameter `more`.  What is printed before a fault is not modelled.
-/
namespace Verif

variable {NT NC NE NM NS : Nat}

/-- What the numbers with decimals depend on: the rounding of the types, and the rounding of `%.2f` to a number of hundredths. -/
structure DebugText where
  R : Rounding
  hundredths : ℝ → Nat

/-- `%.2f` of a number that is not negative and is printed as `n` hundredths -/
def fmtF2 (n : Nat) : List Char := Nat.toDigits 10 (n / 100) ++ ('.' :: fmtZ 10 2 (n % 100))

/-- `%w.2f` (`plus = []`) or `%+w.2f` (`plus = ['+']`) -/
noncomputable def DebugText.fmtF (F : DebugText) (plus : List Char) (w : Nat) (x : ℝ) : List Char :=
  padText w ((if x < 0 then ['-'] else plus) ++ fmtF2 (F.hundredths |x|))

/-- `std::sqrt(float(n))`, rounded like the other operations -/
noncomputable def DebugText.sqrt (F : DebugText) (n : Int) : ℝ := F.R.f32 (√(F.R.f32 n))

/-- What is in the converted objects before they are filled. -/
structure DebugJunk (NT NC NE NM : Nat) where
  track : Arr NT PropagatedTrack
  em : Arr NE CaloCluster
  had : Arr NC CaloCluster
  mu : Arr NM Muon
  sub : Arr NC CaloCluster

/-! ## The inputs: lines 195-219 -/

noncomputable def DebugText.track (F : DebugText) (i : Nat) (tk : PropagatedTrack) : List Char :=
  "FW  \t track ".toList ++ (fmtN 3 i ++ (": pt ".toList ++ (fmtN 8 tk.hwPt.toInt ++ (" [ ".toList ++ (F.fmtF [] 7 (F.R.floatPt tk.hwPt) ++
    (" ]  calo eta ".toList ++ (fmtP 7 tk.hwEta.toInt ++ (" [ ".toList ++ (F.fmtF ['+'] 5 (F.R.floatEtaPhi tk.hwEta) ++
    (" ]  calo phi ".toList ++ (fmtP 7 tk.hwPhi.toInt ++ (" [ ".toList ++ (F.fmtF ['+'] 5 (F.R.floatEtaPhi tk.hwPhi) ++
    (" ]  calo ptErr ".toList ++ (fmtN 6 tk.hwCaloPtErr.toInt ++ (" [ ".toList ++ (F.fmtF [] 7 (F.R.floatPt tk.hwCaloPtErr) ++
    " ] \n".toList)))))))))))))))))

noncomputable def DebugText.em (F : DebugText) (i : Nat) (em : CaloCluster) : List Char :=
  "FW  \t EM    ".toList ++ (fmtN 3 i ++ (": pt ".toList ++ (fmtN 8 em.hwPt.toInt ++ (" [ ".toList ++ (F.fmtF [] 7 (F.R.floatPt em.hwPt) ++
    (" ]  calo eta ".toList ++ (fmtP 7 em.hwEta.toInt ++ (" [ ".toList ++ (F.fmtF ['+'] 5 (F.R.floatEtaPhi em.hwEta) ++
    (" ]  calo phi ".toList ++ (fmtP 7 em.hwPhi.toInt ++ (" [ ".toList ++ (F.fmtF ['+'] 5 (F.R.floatEtaPhi em.hwPhi) ++
    (" ]  calo ptErr ".toList ++ (fmtN 6 em.hwPtErr.toInt ++ (" [ ".toList ++ (F.fmtF [] 7 (F.R.floatPt em.hwPtErr) ++
    " ] \n".toList)))))))))))))))))

noncomputable def DebugText.had (F : DebugText) (i : Nat) (calo : CaloCluster) : List Char :=
  "FW  \t calo  ".toList ++ (fmtN 3 i ++ (": pt ".toList ++ (fmtN 8 calo.hwPt.toInt ++ (" [ ".toList ++ (F.fmtF [] 7 (F.R.floatPt calo.hwPt) ++
    (" ]  calo eta ".toList ++ (fmtP 7 calo.hwEta.toInt ++ (" [ ".toList ++ (F.fmtF ['+'] 5 (F.R.floatEtaPhi calo.hwEta) ++
    (" ]  calo phi ".toList ++ (fmtP 7 calo.hwPhi.toInt ++ (" [ ".toList ++ (F.fmtF ['+'] 5 (F.R.floatEtaPhi calo.hwPhi) ++
    (" ]  calo emPt ".toList ++ (fmtN 7 calo.hwEmPt.toInt ++ (" [ ".toList ++ (F.fmtF [] 7 (F.R.floatPt calo.hwEmPt) ++
    (" ]   isEM ".toList ++ (fmtN 0 (b2i calo.isEM) ++ " \n".toList)))))))))))))))))))

noncomputable def DebugText.mu (F : DebugText) (i : Nat) (muon : Muon) : List Char :=
  "FW  \t muon  ".toList ++ (fmtN 3 i ++ (": pt ".toList ++ (fmtN 8 muon.hwPt.toInt ++ (" [ ".toList ++ (F.fmtF [] 7 (F.R.floatPt muon.hwPt) ++
    (" ]  muon eta ".toList ++ (fmtP 7 muon.hwEta.toInt ++ (" [ ".toList ++ (F.fmtF ['+'] 5 (F.R.floatEtaPhi muon.hwEta) ++
    (" ]  muon phi ".toList ++ (fmtP 7 muon.hwPhi.toInt ++ (" [ ".toList ++ (F.fmtF ['+'] 5 (F.R.floatEtaPhi muon.hwPhi) ++
    " ]   \n".toList)))))))))))))

/-- Lines 197-218; the objects of null pt are skipped. -/
noncomputable def DebugText.inputs (F : DebugText) (junk : DebugJunk NT NC NE NM) (inp : PFInputs NT NC NE NM) : List Char :=
  (List.finRange NT).flatMap (fun i => if (inp.track i).hwPt = 0 then [] else F.track i.val (dpf_track (inp.track i) (junk.track i))) ++
  (List.finRange NE).flatMap (fun i => if (inp.emcalo i).hwPt = 0 then [] else F.em i.val (dpf_em (inp.emcalo i) (junk.em i))) ++
  (List.finRange NC).flatMap (fun i => if (inp.hadcalo i).hwPt = 0 then [] else F.had i.val (dpf_had (inp.hadcalo i) (junk.had i))) ++
  (List.finRange NM).flatMap (fun i => if (inp.mu i).hwPt = 0 then [] else F.mu i.val (dpf_mu (inp.mu i) (junk.mu i)))

/-! ## Muons: lines 260, 262 -/

/-- What is printed about a muon. -/
def debug_mu (track : Arr NT TkObj) (im : Nat) (mu : MuObj) : List Char :=
  if mu.hwPt.toInt > 0 then
    match mu_ref_best mu track with
    | some ibest => "FW  \t muon ".toList ++ (fmtN 3 im ++ (" linked to track ".toList ++ (fmtN 3 ibest.val ++ " \n".toList)))
    | none => "FW  \t muon ".toList ++ (fmtN 3 im ++ " not linked to any track\n".toList)
  else []

/-! ## `pfalgo3_em_ref` -/

/-- Line 99 -/
def debug_tkem (emcalo : Arr NE EmCaloObj) (it : Nat) (tk : TkObj) (tk2em : Option (Fin NE)) : List Char :=
  match tk2em with
  | some ic => "FW  \t track  ".toList ++ (fmtN 3 it ++ (" pt ".toList ++ (fmtN 7 tk.hwPt.toInt ++ (" matched to em calo ".toList ++ (fmtN 3 ic.val ++
      (" pt ".toList ++ (fmtN 7 (emcalo ic).hwPt.toInt ++ "\n".toList)))))))
  | none => []

/-- Line 108 -/
def debug_sumtk (ic : Nat) (em : EmCaloObj) (sumtk : Pt) : List Char :=
  if em.hwPt.toInt > 0 then
    "FW  \t emcalo ".toList ++ (fmtN 3 ic ++ (" pt ".toList ++ (fmtN 7 em.hwPt.toInt ++ (" has sumtk ".toList ++ (fmtN 7 sumtk.toInt ++ "\n".toList)))))
  else []

/-- The beginning of the messages of lines 122, 127, 132 -/
noncomputable def DebugText.window (F : DebugText) (ic : Nat) (em : EmCaloObj) (ptdiff : Pt) (sigma2Lo sigma2Hi : Int) (rest : List Char) : List Char :=
  "FW  \t emcalo ".toList ++ (fmtN 3 ic ++ (" pt ".toList ++ (fmtN 7 em.hwPt.toInt ++ (" ptdiff ".toList ++ (fmtN 7 ptdiff.toInt ++
    (" [match window: -".toList ++ (F.fmtF [] 0 (F.sqrt sigma2Lo) ++ (" / +".toList ++ (F.fmtF [] 0 (F.sqrt sigma2Hi) ++ ("] flagged as ".toList ++ rest))))))))))

/-- Lines 111-139 -/
noncomputable def DebugText.emalgo (F : DebugText) (ic : Nat) (em : EmCaloObj) (sumtk : Pt) : List Char :=
  if sumtk.toInt > 0 then
    let ptdiff : Pt := reg 16 (em.hwPt.toInt - sumtk.toInt)
    let sigma2 : Int := em.hwPtErr.toInt * em.hwPtErr.toInt
    let sigma2Lo := 4 * sigma2
    let sigma2Hi := sigma2 + shr sigma2 1
    let ptdiff2 : Int := ptdiff.toInt * ptdiff.toInt
    F.window ic em ptdiff sigma2Lo sigma2Hi
      (if (ptdiff.toInt > 0 ∧ ptdiff2 ≤ sigma2Hi) ∨ (ptdiff.toInt < 0 ∧ ptdiff2 < sigma2Lo) then "electron\n".toList
       else if ptdiff.toInt > 0 then "electron + photon of pt ".toList ++ (fmtN 7 ptdiff.toInt ++ "\n".toList)
       else "pion\n".toList)
  else if em.hwPt.toInt > 0 then
    "FW  \t emcalo ".toList ++ (fmtN 3 ic ++ (" pt ".toList ++ (fmtN 7 em.hwPt.toInt ++ " flagged as photon\n".toList)))
  else []

/-- Line 149 -/
def debug_ele (it : Nat) (tk : TkObj) (isEle : Bool) : List Char :=
  if isEle then "FW  \t track  ".toList ++ (fmtN 3 it ++ (" pt ".toList ++ (fmtN 7 tk.hwPt.toInt ++ " flagged as electron.\n".toList))) else []

/-- Lines 155-159; `-1` is printed for no cluster, and for its pt. -/
def debug_emhad (hadcalo : Arr NC HadCaloObj) (ic : Nat) (em : EmCaloObj) (isEM : Bool) (em2calo : Option (Fin NC)) : List Char :=
  if em.hwPt.toInt > 0 then
    "FW  \t emcalo ".toList ++ (fmtN 3 ic ++ (" pt ".toList ++ (fmtN 7 em.hwPt.toInt ++ (" isEM ".toList ++ (fmtN 0 (b2i isEM) ++
      (" matched to hadcalo ".toList ++ (fmtN 7 (em2calo.elim (-1) fun h => (h.val : Int)) ++
      (" pt ".toList ++ (fmtN 7 (em2calo.elim (-1) fun h => (hadcalo h).hwPt.toInt) ++
      (" emPt ".toList ++ (fmtN 7 (em2calo.elim (-1) fun h => (hadcalo h).hwEmPt.toInt) ++
      (" isEM ".toList ++ (fmtN 0 (em2calo.elim 0 fun h => b2i (hadcalo h).hwIsEM) ++ "\n".toList)))))))))))))
  else []

/-- Lines 171-189 -/
def debug_hadsub (ih : Nat) (had : HadCaloObj) (sub : Pt) (keep : Bool) : List Char :=
  let emdiff : Pt := reg 16 (had.hwEmPt.toInt - sub.toInt)
  let alldiff : Pt := reg 16 (had.hwPt.toInt - sub.toInt)
  if had.hwPt.toInt > 0 then
    "FW  \t calo   ".toList ++ (fmtN 3 ih ++ (" pt ".toList ++ (fmtN 7 had.hwPt.toInt ++ (" has a subtracted pt of ".toList ++ (fmtN 7 alldiff.toInt ++
      (", empt ".toList ++ (fmtN 7 had.hwEmPt.toInt ++ (" -> ".toList ++ (fmtN 7 emdiff.toInt ++ ("   isem ".toList ++ (fmtN 0 (b2i had.hwIsEM) ++
      (" keep ".toList ++ (fmtN 0 (b2i keep) ++ " \n".toList))))))))))))) ++
    (if alldiff.toInt ≤ shr had.hwPt.toInt 4 then
      "FW  \t calo   ".toList ++ (fmtN 3 ih ++ (" pt ".toList ++ (fmtN 7 had.hwPt.toInt ++ " --> discarded (zero pt)\n".toList)))
    else if (had.hwIsEM = true ∧ emdiff.toInt ≤ shr had.hwEmPt.toInt 3) ∧ keep = false then
      "FW  \t calo   ".toList ++ (fmtN 3 ih ++ (" pt ".toList ++ (fmtN 7 had.hwPt.toInt ++ " --> discarded (zero em)\n".toList)))
    else [])
  else []

/-- `pfalgo3_em_ref` — simple_fullpfalgo_ref.cpp:84-191, with what it prints -/
noncomputable def DebugText.pfalgo3_em_ref (F : DebugText) (emcalo : Arr NE EmCaloObj) (hadcalo : Arr NC HadCaloObj) (track : Arr NT TkObj)
    (isMu : Arr NT Bool) (oldpho : Arr NE PFNeutralObj) : Run (EmRefOut NT NC NE × List Char) := do
  let tk2em : Arr NT (Option (Fin NE)) := fun it =>
    if (track it).hwPt.toInt > 0 ∧ isMu it = false then
      best_match_ref_em PFALGO3_DR2MAX_TK_EM emcalo (track it)
    else none
  let t1 := (List.finRange NT).flatMap fun it => debug_tkem emcalo it.val (track it) (tk2em it)
  let calo_sumtk := em_ref_sumtk track tk2em
  let t2 := (List.finRange NE).flatMap fun ic => debug_sumtk ic.val (emcalo ic) (calo_sumtk ic)
  let em ← buildM fun ic => em_ref_algo (emcalo ic) (calo_sumtk ic)
  let t3 := (List.finRange NE).flatMap fun ic => F.emalgo ic.val (emcalo ic) (calo_sumtk ic)
  let isEM : Arr NE Bool := fun ic => (em ic).1
  let outpho : Arr NE PFNeutralObj := fun ic =>
    { oldpho ic with
      hwPt := (em ic).2,
      hwEta := if (em ic).2 ≠ 0 then (emcalo ic).hwEta else 0,
      hwPhi := if (em ic).2 ≠ 0 then (emcalo ic).hwPhi else 0,
      hwId := if (em ic).2 ≠ 0 then PID_Photon else 0 }
  let isEle : Arr NT Bool := fun it =>
    match tk2em it with
    | some ic => isEM ic
    | none => false
  let t4 := (List.finRange NT).flatMap fun it => debug_ele it.val (track it) (isEle it)
  let em2calo : Arr NE (Option (Fin NC)) := fun ic =>
    best_match_ref_had PFALGO3_DR2MAX_EM_CALO hadcalo (emcalo ic)
  let t5 := (List.finRange NE).flatMap fun ic => debug_emhad hadcalo ic.val (emcalo ic) (isEM ic) (em2calo ic)
  let hadcalo_out : Arr NC HadCaloObj := fun ih =>
    let sk := em_ref_subkeep emcalo isEM em2calo ih
    em_ref_hadsub (hadcalo ih) sk.1 sk.2
  let t6 := (List.finRange NC).flatMap fun ih =>
    let sk := em_ref_subkeep emcalo isEM em2calo ih
    debug_hadsub ih.val (hadcalo ih) sk.1 sk.2
  .ok ({ isEle := isEle, outpho := outpho, hadcalo_out := hadcalo_out }, t1 ++ (t2 ++ (t3 ++ (t4 ++ (t5 ++ t6)))))

/-! ## Tracks and calorimeter clusters -/

/-- Line 297 -/
def debug_tkhad (hadcalo_subem : Arr NC HadCaloObj) (it : Nat) (tk : TkObj) (ibest : Fin NC) : List Char :=
  "FW  \t track  ".toList ++ (fmtN 3 it ++ (" pt ".toList ++ (fmtN 7 tk.hwPt.toInt ++ (" matched to calo' ".toList ++
    (fmtN 3 ibest.val ++ (" pt ".toList ++ (fmtN 7 (hadcalo_subem ibest).hwPt.toInt ++ "\n".toList)))))))

/-- The loop of lines 292-303, with the message of line 297 -/
def tkhad_debug (hadcalo_subem : Arr NC HadCaloObj) (track : Arr NT TkObj) (isEle isMu : Arr NT Bool)
    (track_good0 : Arr NT Bool) : Run (TkHadState NT NC × List Char) :=
  loopM (fun it (s : TkHadState NT NC × List Char) =>
      if (track it).hwPt.toInt > 0 ∧ isEle it = false ∧ isMu it = false then do
        let ibest ← best_match_with_pt_ref PFALGO3_DR2MAX_TK_CALO hadcalo_subem (track it)
        match ibest with
        | some ic => do
          let err2 ← cint (s.1.calo_sumtkErr2 ic + (track it).hwPtErr.toInt * (track it).hwPtErr.toInt)
          .ok ({ track_good := s.1.track_good.set it true,
                 calo_sumtk := s.1.calo_sumtk.set ic
                   (reg 16 ((s.1.calo_sumtk ic).toInt + (track it).hwPt.toInt)),
                 calo_sumtkErr2 := s.1.calo_sumtkErr2.set ic err2 }, s.2 ++ debug_tkhad hadcalo_subem it.val (track it) ic)
        | none => .ok s
      else .ok s)
    ({ track_good := track_good0, calo_sumtk := fun _ => 0, calo_sumtkErr2 := fun _ => 0 }, [])

/-- Lines 309-326: a cluster that is left, the sum of its tracks, and the neutral pt -/
noncomputable def DebugText.neutral (F : DebugText) (more : Bool) (ic : Nat) (calo : HadCaloObj) (junk : CaloCluster) (sumtk : Pt) (sumtkErr2 : Int)
    (subpt : Pt) : List Char :=
  if calo.hwPt.toInt > 0 then
    (if more = true ∧ sumtk.toInt > 0 then
      let floatcalo := dpf_had calo junk
      let ptdiff : Pt := reg 16 (calo.hwPt.toInt - sumtk.toInt)
      "FW  \t calo'  ".toList ++ (fmtN 3 ic ++ (" pt ".toList ++ (fmtN 7 calo.hwPt.toInt ++ (" [ ".toList ++ (F.fmtF [] 7 (F.R.floatPt floatcalo.hwPt) ++
        (" ] eta ".toList ++ (fmtP 7 calo.hwEta.toInt ++ (" [ ".toList ++ (F.fmtF ['+'] 5 (F.R.floatEtaPhi floatcalo.hwEta) ++
        (" ] has a sum track pt ".toList ++ (fmtN 7 sumtk.toInt ++ (", difference ".toList ++ (fmtN 7 ptdiff.toInt ++
        (" +- ".toList ++ (F.fmtF [] 0 (F.sqrt sumtkErr2) ++ " \n".toList)))))))))))))))
    else []) ++
    ("FW  \t calo'  ".toList ++ (fmtN 3 ic ++ (" pt ".toList ++ (fmtN 7 calo.hwPt.toInt ++ (" ---> ".toList ++ (fmtN 7 subpt.toInt ++ " \n".toList))))))
  else []

/-- `pfalgo3_full_ref` — simple_fullpfalgo_ref.cpp:193-354, with what it prints -/
noncomputable def DebugText.pfalgo3_full_ref (F : DebugText) (more : Bool) (junk : DebugJunk NT NC NE NM) (inp : PFInputs NT NC NE NM)
    (old : PFOutputs NT NE NS NM) (mem : Arr NC PFNeutralObj) : Run (PFOutputs NT NE NS NM × List Char) := do
  let t0 := if more then F.inputs junk inp else []
  let mures := mu_ref inp.mu inp.track
  let t1 := (List.finRange NM).flatMap fun im => debug_mu inp.track im.val (inp.mu im)
  let outmu := mures.1
  let isMu := mures.2
  let (em, t2) ← F.pfalgo3_em_ref inp.emcalo inp.hadcalo inp.track isMu old.outpho
  let track_good0 : Arr NT Bool := fun it =>
    decide ((inp.track it).hwPt.toInt <
      (if (inp.track it).hwTightQuality then (reg 16 PFALGO3_TK_MAXINVPT_TIGHT : Pt)
        else reg 16 PFALGO3_TK_MAXINVPT_LOOSE).toInt) || em.isEle it || isMu it
  let outne0 : Arr NS PFNeutralObj := fun i =>
    { old.outne i with hwPt := 0, hwEta := 0, hwPhi := 0, hwId := 0 }
  let (s, t3) ← tkhad_debug em.hadcalo_out inp.track em.isEle isMu track_good0
  let calo_subpt ← buildM fun ic =>
    calo_subpt_ref (em.hadcalo_out ic) (s.calo_sumtk ic) (s.calo_sumtkErr2 ic)
  let t4 := (List.finRange NC).flatMap fun ic =>
    F.neutral more ic.val (em.hadcalo_out ic) (junk.sub ic) (s.calo_sumtk ic) (s.calo_sumtkErr2 ic) (calo_subpt ic)
  let outch : Arr NT PFChargedObj := fun it =>
    if s.track_good it then
      { hwPt := (inp.track it).hwPt, hwEta := (inp.track it).hwEta, hwPhi := (inp.track it).hwPhi,
        hwId := if em.isEle it then PID_Electron else if isMu it then PID_Muon else PID_Charged,
        hwZ0 := (inp.track it).hwZ0 }
    else { hwPt := 0, hwEta := 0, hwPhi := 0, hwId := 0, hwZ0 := 0 }
  let outne_all : Arr NC PFNeutralObj := fun ic =>
    if (calo_subpt ic).toInt > 0 then
      { mem ic with hwPt := calo_subpt ic, hwEta := (em.hadcalo_out ic).hwEta,
                    hwPhi := (em.hadcalo_out ic).hwPhi, hwId := PID_Neutral }
    else { mem ic with hwPt := 0, hwEta := 0, hwPhi := 0, hwId := 0 }
  .ok ({ outch := outch, outpho := em.outpho, outne := ptsort_ref outne0 outne_all, outmu := outmu },
    t0 ++ (t1 ++ (t2 ++ (t3 ++ t4))))

end Verif
