import Verif.Proofs.PFTrace3
/-! # Lemmas: debugging changes nothing, and the whole text -/
namespace Verif
open Spec

variable {NT NC NE NM NS : Nat}

/-! ## The results -/

theorem em_debug_same (F : DebugText) (emcalo : Arr NE EmCaloObj) (hadcalo : Arr NC HadCaloObj) (track : Arr NT TkObj) (isMu : Arr NT Bool)
    (oldpho : Arr NE PFNeutralObj) :
    (F.pfalgo3_em_ref emcalo hadcalo track isMu oldpho).map Prod.fst = pfalgo3_em_ref emcalo hadcalo track isMu oldpho := by
  unfold DebugText.pfalgo3_em_ref pfalgo3_em_ref
  simp only []
  rw [Run.map_bind]
  refine Run.bind_congr fun em => ?_
  rfl

theorem tkhad_debug_same (calo : Arr NC HadCaloObj) (track : Arr NT TkObj) (isEle isMu good : Arr NT Bool) :
    (tkhad_debug calo track isEle isMu good).map Prod.fst = tkhad_ref calo track isEle isMu good := by
  unfold tkhad_debug tkhad_ref
  rw [loopM_map Prod.fst]
  intro it s
  by_cases h : (track it).hwPt.toInt > 0 ∧ isEle it = false ∧ isMu it = false
  · rw [if_pos h, if_pos h, Run.map_bind]
    refine Run.bind_congr fun r => ?_
    cases r with
    | none => rfl
    | some ic =>
      show Except.map _ (_ >>= _) = _
      rw [Run.map_bind]
      refine Run.bind_congr fun e => ?_
      rfl
  · rw [if_neg h, if_neg h]
    rfl

theorem full_debug_same (F : DebugText) (more : Bool) (junk : DebugJunk NT NC NE NM) (inp : PFInputs NT NC NE NM) (old : PFOutputs NT NE NS NM)
    (mem : Arr NC PFNeutralObj) : (F.pfalgo3_full_ref more junk inp old mem).map Prod.fst = Verif.pfalgo3_full_ref inp old mem := by
  unfold DebugText.pfalgo3_full_ref Verif.pfalgo3_full_ref
  simp only []
  rw [Run.map_bind, ← em_debug_same F]
  cases F.pfalgo3_em_ref inp.emcalo inp.hadcalo inp.track (mu_ref inp.mu inp.track).2 old.outpho with
  | error e => rfl
  | ok em =>
    obtain ⟨em, t⟩ := em
    have e1 : (Except.ok (em, t) : Run _).map Prod.fst = .ok em := rfl
    rw [e1, Run.ok_bind, Run.ok_bind, Run.map_bind, ← tkhad_debug_same]
    cases tkhad_debug _ _ _ _ _ with
    | error e => rfl
    | ok s =>
      obtain ⟨s, t'⟩ := s
      have e1 : (Except.ok (s, t') : Run _).map Prod.fst = .ok s := rfl
      rw [e1, Run.ok_bind, Run.ok_bind, Run.map_bind]
      refine Run.bind_congr fun sp => ?_
      rfl

/-! ## Tracks and calorimeter clusters -/

/-- A loop that only adds to a text. -/
theorem loopM_log {σ : Type} {n : Nat} {f : Fin n → σ → Run σ} {f' : Fin n → σ × List Char → Run (σ × List Char)} {line : Fin n → List Char}
    (h : ∀ i s t, f' i (s, t) = (f i s).map fun s' => (s', t ++ line i)) (s : σ) (t : List Char) :
    loopM f' (s, t) = (loopM f s).map fun s' => (s', t ++ (List.finRange n).flatMap line) := by
  induction n with
  | zero =>
    rw [loopM_zero, loopM_zero, List.finRange_zero, List.flatMap_nil, List.append_nil]
    rfl
  | succ n ih =>
    rw [loopM_succ, loopM_succ, ih (fun i s t => h i.castSucc s t), finRange_succ_last, List.flatMap_append, List.flatMap_map]
    cases loopM (fun i => f i.castSucc) s with
    | error e => rfl
    | ok s' =>
      show f' (Fin.last n) (s', _) = Except.map _ (f (Fin.last n) s')
      rw [h, List.flatMap_cons, List.flatMap_nil, List.append_nil, List.append_assoc]

theorem tkhad_debug_text {calo : Arr NC HadCaloObj} {track : Arr NT TkObj} {r : Fin NT → Option (Fin NC)}
    (hr : ∀ t, best_match_with_pt_ref PFALGO3_DR2MAX_TK_CALO calo (track t) = .ok (r t)) (isEle isMu good : Arr NT Bool) :
    tkhad_debug calo track isEle isMu good = (tkhad_ref calo track isEle isMu good).map fun s => (s, (List.finRange NT).flatMap fun t =>
      if (track t).hwPt.toInt > 0 ∧ isEle t = false ∧ isMu t = false then (r t).elim [] (debug_tkhad calo t.val (track t)) else []) := by
  unfold tkhad_debug tkhad_ref
  refine loopM_log (fun it s t => ?_) _ _
  by_cases h : (track it).hwPt.toInt > 0 ∧ isEle it = false ∧ isMu it = false
  · simp only [if_pos h]
    rw [hr it, Run.ok_bind, Run.ok_bind]
    cases r it with
    | none =>
      show Except.ok (s, t) = .ok (s, t ++ [])
      rw [List.append_nil]
    | some ic =>
      simp only []
      rw [Run.map_bind]
      refine Run.bind_congr fun e => ?_
      rfl
  · simp only [if_neg h]
    show Except.ok (s, t) = .ok (s, t ++ [])
    rw [List.append_nil]

theorem trace_tkhad {inp : PFInputs NT NC NE NM} {calo : Arr NC HadCaloObj} (hc : ∀ h, (calo h).hwPt.toInt = hadPt inp refVariant h)
    {isEle isMu : Bool} (t : Fin NT) (hele : isEle = true ↔ 0 < (inp.track t).hwPt.toInt ∧ IsEle inp t) (hmu : isMu = true ↔ IsMu inp t)
    {r : Option (Fin NC)} (hr : ∀ h, r = some h ↔ CaloMatch inp refVariant t h) :
    Traces (if (inp.track t).hwPt.toInt > 0 ∧ isEle = false ∧ isMu = false then r.elim [] (debug_tkhad calo t.val (inp.track t)) else []) (tkHadTrace inp t) := by
  unfold tkHadTrace
  by_cases h : (inp.track t).hwPt.toInt > 0 ∧ isEle = false ∧ isMu = false
  · rw [if_pos h]
    have n1 : ¬ IsEle inp t := fun x => by have := hele.mpr ⟨h.1, x⟩; rw [h.2.1] at this; cases this
    have n2 : ¬ IsMu inp t := fun x => by have := hmu.mpr x; rw [h.2.2] at this; cases this
    rw [forAll_unique (fun j => (hr j).trans ⟨fun x => ⟨h.1, x, n1, n2⟩, fun x => x.2.1⟩)]
    cases r with
    | none => exact Traces.nil
    | some ic =>
      simp only [Option.elim_some]
      unfold debug_tkhad
      rw [hc]
      read_line
  · rw [if_neg h, forAll_unique (o := none) (fun j => ⟨fun x => (by cases x), fun x => absurd ?_ h⟩)]
    · exact Traces.nil
    · refine ⟨x.1, ?_, ?_⟩
      · cases isEle with
        | false => rfl
        | true => exact absurd (hele.mp rfl).2 x.2.2.1
      · cases isMu with
        | false => rfl
        | true => exact absurd (hmu.mp rfl) x.2.2.2

theorem trace_neutral {F : DebugText} (A : PrintsCents F) {inp : PFInputs NT NC NE NM} (hv : Valid inp refVariant) (more : Bool) (h : Fin NC) {calo : HadCaloObj}
    (junk : CaloCluster) {sum : Pt} {err : Int} {sub : Pt} (hpt : calo.hwPt.toInt = hadPt inp refVariant h) (heta : calo.hwEta = (inp.hadcalo h).hwEta)
    (hsum : sum.toInt = caloTrackPt inp refVariant h) (herr : err = caloTrackErr2 (noGhosts inp) refVariant h)
    (hsub : sub.toInt = neutralPt (noGhosts inp) refVariant h) : Traces (F.neutral more h.val calo junk sum err sub) (neutralTrace inp more h) := by
  have r0 := hadPt_range hv.toSane h
  have s0 := caloTrackPt_nonneg hv.toSane h
  have s1 := hv.hadSum h
  have e0 := caloTrackErr2_nonneg (inp := noGhosts inp) (v := refVariant) h
  have e1 := (valid_noGhosts hv).hadErr h
  have pr := pt_range calo.hwPt
  have hd : (reg 16 (calo.hwPt.toInt - sum.toInt)).toInt = caloDiff inp refVariant h := by
    rw [reg16_toInt (by omega) (by omega), hpt, hsum]
    rfl
  unfold DebugText.neutral neutralTrace
  simp only [hd]
  have hfp : Cents (F.word [] (F.R.floatPt (dpf_had calo junk).hwPt)) ((hadPt inp refVariant h : ℝ) / 4) 0 := by
    have := pt_cents' A (.inl rfl : ([] : List Char) = [] ∨ _) calo.hwPt
    rw [← hpt]
    exact this
  have hfe : Cents (F.word ['+'] (F.R.floatEtaPhi (dpf_had calo junk).hwEta)) ((inp.hadcalo h).hwEta.toInt * quarterDegree) (1 / 200 + 1 / 10 ^ 6) := by
    have := angle_cents' A (.inr rfl : ['+'] = [] ∨ _) calo.hwEta
    rw [heta] at this
    show Cents (F.word ['+'] (F.R.floatEtaPhi (reg 16 calo.hwEta.toInt))) _ _
    rw [heta]
    exact this
  have hro := root_cents A (n := err) (by omega) (by omega)
  rw [herr] at hro
  rw [hpt, heta, hsum, hsub, herr]
  by_cases hp : 0 < hadPt inp refVariant h
  · rw [if_pos hp, lineIf_pos hp]
    refine Traces.append ?_ (by read_line)
    by_cases hm : more = true ∧ 0 < caloTrackPt inp refVariant h
    · rw [if_pos hm, lineIf_pos ⟨hp, hm⟩]
      read_line
      · exact hfp
      · exact hfe
      · exact hro
    · rw [if_neg hm, lineIf_neg (fun x => hm x.2)]
      exact Traces.nil
  · rw [if_neg hp, lineIf_neg hp, lineIf_neg (fun x => hp x.1)]
    exact Traces.nil

/-! ## The stages -/

theorem em_debug_trace {F : DebugText} (A : PrintsCents F) {inp : PFInputs NT NC NE NM} (hv : Valid inp refVariant) {isMu : Arr NT Bool}
    (hmu : ∀ t, isMu t = true ↔ IsMu inp t) (oldpho : Arr NE PFNeutralObj) :
    ∃ em t, F.pfalgo3_em_ref inp.emcalo inp.hadcalo inp.track isMu oldpho = .ok (em, t) ∧
      Traces t (forAll NT (tkEmTrace inp) ++ (forAll NE (sumTrace inp) ++ (forAll NE (emTrace inp) ++ (forAll NT (eleTrace inp) ++
        (forAll NE (emHadTrace inp) ++ forAll NC (hadTrace inp)))))) := by
  let g : Fin NE → Bool × Pt := fun c => Classical.choose (ref_emalgo hv.toSane c (hv.emErr c))
  have hg := fun c => Classical.choose_spec (ref_emalgo hv.toSane c (hv.emErr c))
  have hem : buildM (fun ic => em_ref_algo (inp.emcalo ic) (em_ref_sumtk inp.track (refTk2em inp isMu) ic)) = .ok g := by
    refine buildM_ok _ (fun c => ?_)
    rw [refSum_eq hmu hv.trackPt c]
    exact (hg c).1
  have hIsEM : ∀ c, (g c).1 = true ↔ IsEM inp c := fun c => (hg c).2.1
  unfold DebugText.pfalgo3_em_ref
  simp only []
  have hrefl : (fun it => if (inp.track it).hwPt.toInt > 0 ∧ isMu it = false then
      best_match_ref_em PFALGO3_DR2MAX_TK_EM inp.emcalo (inp.track it) else none) = refTk2em inp isMu := rfl
  rw [hrefl, hem]
  simp only [Run.ok_bind]
  refine ⟨_, _, rfl, ?_⟩
  refine Traces.append ?_ (Traces.append ?_ (Traces.append ?_ (Traces.append ?_ (Traces.append ?_ ?_))))
  · exact Traces.forAll fun t => trace_tkem inp hmu t
  · refine Traces.forAll fun c => ?_
    rw [refSum_eq hmu hv.trackPt c]
    exact trace_sumtk hv c
  · refine Traces.forAll fun c => ?_
    rw [refSum_eq hmu hv.trackPt c]
    exact trace_emalgo A hv c
  · refine Traces.forAll fun t => trace_ele t ?_
    have h := refTk2em_iff hmu t
    show (match refTk2em inp isMu t with
      | some ic => (g ic).1
      | none => false) = true ↔ _
    constructor
    · intro he
      cases hc : refTk2em inp isMu t with
      | none => rw [hc] at he; cases he
      | some c =>
        rw [hc] at he
        have := (h c).mp hc
        exact ⟨this.1, c, this.2, (hIsEM c).mp he⟩
    · rintro ⟨hp, c, hm, hI⟩
      rw [(h c).mpr ⟨hp, hm⟩]
      exact (hIsEM c).mpr hI
  · exact Traces.forAll fun c => trace_emhad inp c (hIsEM c) (fun h => ref_em2calo_iff c h)
  · refine Traces.forAll fun h => ?_
    have hsk := ref_subkeep hIsEM (em2calo := fun ic => best_match_ref_had PFALGO3_DR2MAX_EM_CALO inp.hadcalo (inp.emcalo ic))
      (fun e h => ref_em2calo_iff e h) h
    rw [hsk.1]
    exact trace_hadsub hv h hsk.2

theorem full_debug_trace {F : DebugText} (A : PrintsCents F) (more : Bool) (junk : DebugJunk NT NC NE NM) {inp : PFInputs NT NC NE NM}
    (hv : Valid inp refVariant) (old : PFOutputs NT NE NS NM) (mem : Arr NC PFNeutralObj) :
    ∃ out text, F.pfalgo3_full_ref more junk inp old mem = .ok (out, text) ∧ TextReads (pfTrace inp more) text := by
  obtain ⟨_, hmu⟩ := mu_ref_spec inp
  obtain ⟨em, hem, hele, _, hcalo⟩ := ref_em_stage hv.toSane hv.emErr rfl hmu old.outpho
  obtain ⟨em', t2, hemd, ht2⟩ := em_debug_trace A hv hmu old.outpho
  have e : em' = em := by
    have := em_debug_same F inp.emcalo inp.hadcalo inp.track (mu_ref inp.mu inp.track).2 old.outpho
    rw [hemd, hem] at this
    exact Except.ok.inj this
  subst e
  let good0 : Arr NT Bool := fun it =>
    decide ((inp.track it).hwPt.toInt <
      (if (inp.track it).hwTightQuality then (reg 16 PFALGO3_TK_MAXINVPT_TIGHT : Pt)
        else reg 16 PFALGO3_TK_MAXINVPT_LOOSE).toInt) || em'.isEle it || (mu_ref inp.mu inp.track).2 it
  have hng := valid_noGhosts hv
  obtain ⟨s, hs, _, hsum⟩ := ref_tkhad hng.toSane (fun h => by have := hng.hadErr h; have := caloTrackErr2_nonneg (inp := noGhosts inp) (v := refVariant) h; omega) rfl (fun t z => by
      have z' : (inp.track t).hwPt.toInt = 0 := z
      rw [noGhosts_err_zero z']; rfl) (calo := em'.hadcalo_out) hcalo (isEle := em'.isEle) hele (isMu := (mu_ref inp.mu inp.track).2) hmu good0
  rw [← tkhad_noGhosts] at hs
  choose r hr hlink using fun t => ref_calo_link hv.toSane rfl hcalo t
  let sp : Fin NC → Pt := fun h => Classical.choose (ref_subpt hng.toSane h (hcalo h).1 (hsum h).1 (hsum h).2 (fun _ => by have := hng.hadErr h; omega))
  have hsp : ∀ h, calo_subpt_ref (em'.hadcalo_out h) (s.calo_sumtk h) (s.calo_sumtkErr2 h) = .ok (sp h) ∧
      (sp h).toInt = neutralPt (noGhosts inp) refVariant h := fun h =>
    Classical.choose_spec (ref_subpt hng.toSane h (hcalo h).1 (hsum h).1 (hsum h).2 (fun _ => by have := hng.hadErr h; omega))
  have hb : buildM (fun ic => calo_subpt_ref (em'.hadcalo_out ic) (s.calo_sumtk ic) (s.calo_sumtkErr2 ic)) = .ok sp := buildM_ok _ (fun h => (hsp h).1)
  have hsd := tkhad_debug_text hr em'.isEle (mu_ref inp.mu inp.track).2 good0
  rw [hs] at hsd
  unfold DebugText.pfalgo3_full_ref
  simp only []
  rw [hemd]
  simp only [Run.ok_bind]
  have hsd' : tkhad_debug em'.hadcalo_out inp.track em'.isEle (mu_ref inp.mu inp.track).2 (fun it =>
    decide ((inp.track it).hwPt.toInt <
      (if (inp.track it).hwTightQuality then (reg 16 PFALGO3_TK_MAXINVPT_TIGHT : Pt)
        else reg 16 PFALGO3_TK_MAXINVPT_LOOSE).toInt) || em'.isEle it || (mu_ref inp.mu inp.track).2 it) = .ok (s, _) := hsd
  rw [hsd']
  simp only [Run.ok_bind]
  rw [hb]
  simp only [Run.ok_bind]
  refine ⟨_, _, rfl, Traces.reads ?_⟩
  unfold pfTrace
  refine Traces.append ?_ (Traces.append ?_ (Traces.append ht2 (Traces.append ?_ ?_)))
  · cases more with
    | true => exact trace_inputs A junk inp
    | false => exact Traces.nil
  · exact Traces.forAll fun m => trace_muons inp m
  · exact Traces.forAll fun t => trace_tkhad (fun h => (hcalo h).1) t (hele t) (hmu t) (hlink t)
  · refine Traces.forAll fun h => trace_neutral A hv more h _ (hcalo h).1 (hcalo h).2.1 ?_ (hsum h).2 (hsp h).2
    rw [(hsum h).1, caloTrackPt_noGhosts hv.toSane]

end Verif
