import Verif.Model.RegionizerTestOutput
import Verif.Spec.RegionizerTestOutput
import Verif.Props.RegionizerTest
import Verif.Proofs.RegionizerFiles
import Verif.Proofs.PFTestCounts
/-! # Lemmas: what the regionizer test bench prints -/
namespace Verif
open Spec
variable {sz : RegSizes} {NC NE NT NM : Nat}

theorem lits_reg :
    tokens " Sectors: ".toList = say "Sectors" ∧ tokens "    max N(Calo), input:     ".toList = say "max N Calo input" ∧
    tokens "    max N(Calo), eta slice: ".toList = say "max N Calo eta slice" ∧ tokens "    max N(EmCalo), input:     ".toList = say "max N EmCalo input" ∧
    tokens "    max N(EmCalo), eta slice: ".toList = say "max N EmCalo eta slice" ∧ tokens "    max N(Track), input:     ".toList = say "max N Track input" ∧
    tokens "    max N(Track), eta slice: ".toList = say "max N Track eta slice" ∧ tokens " Regions: ".toList = say "Regions" ∧ tokens " x ".toList = say "x" ∧
    tokens " )\n".toList = [] ∧ tokens "    max N(Calo): ".toList = say "max N Calo" ∧ tokens "    max N(EmCalo): ".toList = say "max N EmCalo" ∧
    tokens "    max N(Track): ".toList = say "max N Track" ∧ tokens "INPUT SECTOR ".toList = say "INPUT SECTOR" ∧ tokens " (FOUND ".toList = say "FOUND" ∧
    tokens "): \n".toList = [] ∧ tokens "OUTPUT REGION ".toList = say "OUTPUT REGION" ∧ tokens " (ETA ".toList = say "ETA" ∧ tokens " PHI ".toList = say "PHI" ∧
    tokens ") (REF; FOUND ".toList = say "REF; FOUND" ∧ tokens " (TEST): \n".toList = say "TEST" ∧ tokens "ERROR: ".toList = say "ERROR" ∧
    tokens " stream for sector ".toList = say "stream for sector" ∧ tokens " is not empty\n".toList = say "is not empty" ∧
    tokens "ERROR: Mismatching number of input regions: ".toList = say "ERROR Mismatching number of input regions" := by decide +kernel

theorem says_size {what : List Char} {w : List Token} (h1 : isGap (what.getLastD 'x') = true) (h2 : tokens what = w) (h3 : what.count '\n' = 0) (n : Nat) :
    Says (sizeLine what n) [w ++ [.num n]] := by
  unfold sizeLine
  refine Says.line ?_ ?_ ?_
  · simp (discharger := decide) only [List.count_append, count_fmtD, h3]; decide
  · simp only [← List.append_assoc]; exact getLast_lit (by decide)
  · rw [tokens_lit h1, h2]
    simp (discharger := decide) only [tokens_num', lits]

theorem says_config (sz : RegSizes) (NC NE NT : Nat) : Says (configText sz NC NE NT) (configLines sz NC NE NT) := by
  have h0 : Says " --- Configuration --- \n".toList [say "--- Configuration ---"] := Says.line (by decide) (by decide) (by decide +kernel)
  have h1 : Says (" Sectors: ".toList ++ (fmtN 0 N_IN_SECTORS ++ " \n".toList)) [say "Sectors" ++ [.num 12]] := by
    refine Says.line ?_ ?_ ?_
    · simp (discharger := decide) only [List.count_append, count_fmtD]; decide
    · simp only [← List.append_assoc]; exact getLast_lit (by decide)
    · simp (discharger := decide) only [tokens_lit, tokens_num, tokens_num', lits, lits_reg]; rfl
  have h2 : Says (" Regions: ".toList ++ (fmtN 0 N_OUT_REGIONS ++ (" (".toList ++ (fmtN 0 N_OUT_REGIONS_ETA ++ (" x ".toList ++
      (fmtN 0 N_OUT_REGIONS_PHI ++ " )\n".toList)))))) [say "Regions" ++ [.num 18, .num 3] ++ say "x" ++ [.num 6]] := by
    refine Says.line ?_ ?_ ?_
    · simp (discharger := decide) only [List.count_append, count_fmtD]; decide
    · simp only [← List.append_assoc]; exact getLast_lit (by decide)
    · simp (discharger := decide) only [tokens_lit, tokens_num, tokens_num', lits, lits_reg]
      simp [N_OUT_REGIONS, N_OUT_REGIONS_ETA, N_OUT_REGIONS_PHI]
  unfold configText configLines
  have := ((((((((((h0.append h1).append
    (says_size (what := "    max N(Calo), input:     ".toList) (by decide) lits_reg.2.1 (by decide) sz.calo)).append
    (says_size (what := "    max N(Calo), eta slice: ".toList) (by decide) lits_reg.2.2.1 (by decide) sz.caloEta)).append
    (says_size (what := "    max N(EmCalo), input:     ".toList) (by decide) lits_reg.2.2.2.1 (by decide) sz.em)).append
    (says_size (what := "    max N(EmCalo), eta slice: ".toList) (by decide) lits_reg.2.2.2.2.1 (by decide) sz.emEta)).append
    (says_size (what := "    max N(Track), input:     ".toList) (by decide) lits_reg.2.2.2.2.2.1 (by decide) sz.track)).append
    (says_size (what := "    max N(Track), eta slice: ".toList) (by decide) lits_reg.2.2.2.2.2.2.1 (by decide) sz.trackEta)).append h2).append
    (says_size (what := "    max N(Calo): ".toList) (by decide) lits_reg.2.2.2.2.2.2.2.2.2.2.1 (by decide) NC)).append
    (says_size (what := "    max N(EmCalo): ".toList) (by decide) lits_reg.2.2.2.2.2.2.2.2.2.2.2.1 (by decide) NE)).append
    (says_size (what := "    max N(Track): ".toList) (by decide) lits_reg.2.2.2.2.2.2.2.2.2.2.2.2.1 (by decide) NT)
  exact this

theorem says_sectors (n : Nat) : Says (sectorsMessage n) [sectorsLine n] := by
  unfold sectorsMessage sectorsLine
  refine Says.line ?_ ?_ ?_
  · simp (discharger := decide) only [List.count_append, count_fmtD]; decide
  · simp only [← List.append_assoc]; exact getLast_lit (by decide)
  · simp (discharger := decide) only [tokens_lit, tokens_num, tokens_num', lits, lits_reg]

theorem says_stream (name : String) (hn : name.toList.count '\n' = 0) (k : Nat) :
    Says (streamMessage name.toList k) [streamLine name k] := by
  unfold streamLine streamMessage
  refine Says.line ?_ ?_ ?_
  · simp (discharger := decide) only [List.count_append, count_fmtD, hn]; decide
  · simp only [← List.append_assoc]; exact getLast_lit (by decide)
  · have h1 : ∀ rest, tokens (name.toList ++ (" stream for sector ".toList ++ rest)) = say name ++ tokens (" stream for sector ".toList ++ rest) := by
      intro rest
      exact tokens_left _ (.inr ⟨' ', "stream for sector ".toList ++ rest, rfl, by decide⟩)
    rw [tokens_lit (by decide), h1]
    simp (discharger := decide) only [tokens_lit, tokens_num, tokens_num', lits, lits_reg]
    simp

theorem says_passed (test : Nat) : Says ("Passed test ".toList ++ (fmtN 0 test ++ "\n".toList)) [passed test] := by
  unfold passed
  refine Says.line ?_ ?_ ?_
  · simp (discharger := decide) only [List.count_append, count_fmtD]; decide
  · simp only [← List.append_assoc]; exact getLast_lit (by decide)
  · simp (discharger := decide) only [tokens_lit, tokens_num, tokens_num', lits]

/-! ## The comparison -/

theorem compareBreak_eq {T : Type} {N : Nat} (equals : T → T → Bool) (message : Nat → T → T → List Char) (base : Nat) (ref out : Arr N T)
    (st : List Char × Nat) :
    compareBreak equals message base ref out st =
      (st.1 ++ (((List.finRange N).filter fun i => !equals (ref i) (out i)).take 1).flatMap (fun i => message (base + i.val) (ref i) (out i)),
        st.2 + (((List.finRange N).filter fun i => !equals (ref i) (out i)).take 1).length) := by
  unfold compareBreak
  generalize List.finRange N = l
  induction l with
  | nil => simp [loopBreak]
  | cons a l ih =>
    unfold loopBreak
    cases h : equals (ref a) (out a)
    · simp [h]
    · simp only [h, Bool.not_true, Bool.false_eq_true, if_false, ih, List.filter_cons]

theorem says_first {T : Type} {N : Nat} {equals : T → T → Bool} {same : T → T → Prop} (he : ∀ a b, equals a b = true ↔ same a b)
    {message : Nat → T → T → List Char} {what : String} {pairs : T → T → List (String × Int × Int)}
    (hm : ∀ i a b, Says (message i a b) [mismatchLine what i (pairs a b)]) (base : Nat) (ref out : Arr N T) :
    Says ((((List.finRange N).filter fun i => !equals (ref i) (out i)).take 1).flatMap fun i => message (base + i.val) (ref i) (out i))
        (firstMismatch same what pairs base ref out) ∧
      (((List.finRange N).filter fun i => !equals (ref i) (out i)).take 1).length = (firstMismatch same what pairs base ref out).length := by
  have e : firstMismatch same what pairs base ref out =
      (((List.finRange N).filter fun i => !equals (ref i) (out i)).take 1).map fun i => mismatchLine what (base + i.val) (pairs (ref i) (out i)) := by
    unfold firstMismatch
    rw [List.map_take]
    congr 1
    generalize List.finRange N = l
    induction l with
    | nil => rfl
    | cons a l ih =>
      rw [List.filterMap_cons, List.filter_cons]
      by_cases h : same (ref a) (out a)
      · rw [if_pos h, (he _ _).mpr h]
        exact ih
      · rw [if_neg h]
        have : equals (ref a) (out a) = false := by
          cases h' : equals (ref a) (out a) with
          | false => rfl
          | true => exact absurd ((he _ _).mp h') h
        rw [this]
        simp only [Bool.not_false, if_true, List.map_cons]
        rw [ih]
  rw [e]
  refine ⟨?_, by rw [List.length_map]⟩
  rw [List.map_eq_flatMap]
  exact Says.flatMap (fun i => hm _ _ _) _

theorem firstMismatch_nil {T : Type} {N : Nat} {same : T → T → Prop} {what : String} {pairs : T → T → List (String × Int × Int)} {base : Nat} (ref out : Arr N T) :
    firstMismatch same what pairs base ref out = [] ↔ ∀ i, same (ref i) (out i) := by
  unfold firstMismatch
  rw [List.take_eq_nil_iff]
  simp only [Nat.succ_ne_zero, false_or, List.filterMap_eq_nil_iff]
  constructor
  · intro h i
    have := h i (List.mem_finRange i)
    by_contra hc
    rw [if_neg hc] at this
    cases this
  · intro h i _
    rw [if_pos (h i)]

theorem says_foldl {α : Type} {step : List Char × Nat → α → List Char × Nat} {g : α → List (List Token)}
    (h : ∀ a st ls, Says st.1 ls → st.2 = ls.length → Says (step st a).1 (ls ++ g a) ∧ (step st a).2 = (ls ++ g a).length) (l : List α) :
    ∀ (st : List Char × Nat) (ls : List (List Token)), Says st.1 ls → st.2 = ls.length →
      Says (l.foldl step st).1 (ls ++ l.flatMap g) ∧ (l.foldl step st).2 = (ls ++ l.flatMap g).length := by
  induction l with
  | nil => intro st ls hs hl; simpa using ⟨hs, hl⟩
  | cons a l ih =>
    intro st ls hs hl
    rw [List.flatMap_cons, ← List.append_assoc]
    exact ih _ _ (h a st ls hs hl).1 (h a st ls hs hl).2

theorem says_foldl' {α : Type} {step : List Char × Nat → α → List Char × Nat} {g : α → List (List Token)} (l : List α)
    (h : ∀ a st ls, Says st.1 ls → st.2 = ls.length → Says (step st a).1 (ls ++ g a) ∧ (step st a).2 = (ls ++ g a).length) :
    Says (l.foldl step ([], 0)).1 (l.flatMap g) ∧ (l.foldl step ([], 0)).2 = (l.flatMap g).length :=
  says_foldl h l ([], 0) [] Says.nil rfl

theorem says_break {T : Type} {N : Nat} {equals : T → T → Bool} {same : T → T → Prop} (he : ∀ a b, equals a b = true ↔ same a b)
    {message : Nat → T → T → List Char} {what : String} {pairs : T → T → List (String × Int × Int)}
    (hm : ∀ i a b, Says (message i a b) [mismatchLine what i (pairs a b)]) (k : Nat) (ref out : Arr N T) {st : List Char × Nat}
    {ls : List (List Token)} (hs : Says st.1 ls) (hl : st.2 = ls.length) :
    Says (compareBreak equals message (k * 100) ref out st).1 (ls ++ firstMismatch same what pairs (100 * k) ref out) ∧
    (compareBreak equals message (k * 100) ref out st).2 = (ls ++ firstMismatch same what pairs (100 * k) ref out).length := by
  obtain ⟨a1, a2⟩ := says_first he hm (100 * k) ref out
  rw [compareBreak_eq, Nat.mul_comm k 100]
  exact ⟨hs.append a1, by rw [List.length_append, hl, a2]⟩

theorem says_compare (calo caloRef : Arr N_OUT_REGIONS (Arr NC HadCaloObj)) (em emRef : Arr N_OUT_REGIONS (Arr NE EmCaloObj))
    (track trackRef : Arr N_OUT_REGIONS (Arr NT TkObj)) (mu muRef : Arr N_OUT_REGIONS (Arr NM MuObj)) :
    Says (regCompare calo caloRef em emRef track trackRef mu muRef).1 (regMismatches calo caloRef em emRef track trackRef mu muRef) ∧
    (regCompare calo caloRef em emRef track trackRef mu muRef).2 = (regMismatches calo caloRef em emRef track trackRef mu muRef).length := by
  obtain ⟨h1, h2, h3, h4, _⟩ := C47_equals_iff
  unfold regCompare regMismatches loop
  refine says_foldl' (List.finRange N_OUT_REGIONS) ?_
  intro ir st ls hs hl
  obtain ⟨a1, a2⟩ := says_break h1 (says_had "regionized hadcalo" (by decide)) ir.val (caloRef ir) (calo ir) hs hl
  obtain ⟨b1, b2⟩ := says_break h2 (says_em "regionized emcalo" (by decide)) ir.val (emRef ir) (em ir) a1 a2
  obtain ⟨c1, c2⟩ := says_break h3 (says_track "regionized track" (by decide)) ir.val (trackRef ir) (track ir) b1 b2
  have := says_break h4 (says_mu "regionized muon" (by decide)) ir.val (muRef ir) (mu ir) c1 c2
  simp only [List.append_assoc] at this ⊢
  exact this

theorem says_calo {N : Nat} (calo : Arr N HadCaloObj) : Says (hrLines hr_had calo) (caloLines calo) :=
  says_hrLines _ _ _ (fun i o => (hr_had_line i o).1) (fun i o => (hr_had_line i o).2) _

theorem says_verdict (test : Nat) (m : List (List Token)) (calo_in : Arr N_IN_SECTORS (Arr sz.calo HadCaloObj)) (calo caloRef : Arr N_OUT_REGIONS (Arr NC HadCaloObj)) :
    Says (regVerdictText test m.length calo_in calo caloRef) (if m = [] then [passed test] else errorLine test m.length :: errorDump calo_in calo caloRef) := by
  unfold regVerdictText
  by_cases h : m = []
  · rw [if_pos h, if_neg (by rw [h]; simp)]
    exact says_passed test
  · rw [if_neg h, if_pos (by simpa using h)]
    have e1 : Says ("Error in computing test ".toList ++ (fmtN 0 test ++ (" (".toList ++ (fmtN 0 m.length ++ ")\n".toList)))) [errorLine test m.length] := by
      unfold errorLine
      refine Says.line ?_ ?_ ?_
      · simp (discharger := decide) only [List.count_append, count_fmtD]; decide
      · simp only [← List.append_assoc]; exact getLast_lit (by decide)
      · simp (discharger := decide) only [tokens_lit, tokens_num, tokens_num', lits]; simp
    have e2 : ∀ is : Fin N_IN_SECTORS, Says (sectorDump is.val (calo_in is))
        ((say "INPUT SECTOR" ++ [.num is.val] ++ say "FOUND" ++ [.num (nonEmpty HadCaloObj.hwPt (calo_in is))]) :: caloLines (calo_in is)) := by
      intro is
      unfold sectorDump
      refine Says.append (ls := [_]) (Says.line ?_ ?_ ?_) (says_calo _)
      · simp (discharger := decide) only [List.count_append, count_fmtD]; decide
      · simp only [← List.append_assoc]; exact getLast_lit (by decide)
      · rw [C47_count_nonzero]
        simp (discharger := decide) only [tokens_lit, tokens_num, tokens_num', lits_reg]
        simp [nonEmpty, HasPt.pt]
    have e3 : ∀ ir : Fin N_OUT_REGIONS, Says (regionDump ir.val (calo ir) (caloRef ir))
        ((say "OUTPUT REGION" ++ [.num ir.val] ++ say "ETA" ++ [.num (ir.val / 6 : Nat)] ++ say "PHI" ++ [.num (ir.val % 6 : Nat)] ++ say "REF; FOUND" ++
          [.num (nonEmpty HadCaloObj.hwPt (caloRef ir))]) :: caloLines (caloRef ir) ++
          ((say "OUTPUT REGION" ++ [.num ir.val] ++ say "TEST") :: caloLines (calo ir))) := by
      intro ir
      unfold regionDump
      rw [List.append_assoc]
      refine Says.append (Says.append (ls := [_]) (Says.line ?_ ?_ ?_) (says_calo _)) (Says.append (ls := [_]) (Says.line ?_ ?_ ?_) (says_calo _))
      · simp (discharger := decide) only [List.count_append, count_fmtD]; decide
      · simp only [← List.append_assoc]; exact getLast_lit (by decide)
      · rw [C47_count_nonzero]
        simp (discharger := decide) only [tokens_lit, tokens_num, tokens_num', lits_reg]
        simp [nonEmpty, HasPt.pt, N_OUT_REGIONS_PHI]
      · simp (discharger := decide) only [List.count_append, count_fmtD]; decide
      · simp only [← List.append_assoc]; exact getLast_lit (by decide)
      · simp (discharger := decide) only [tokens_lit, tokens_num, tokens_num', lits_reg]
        simp
    have f2 := Says.flatMap e2 (List.finRange N_IN_SECTORS)
    have f3 := Says.flatMap e3 (List.finRange N_OUT_REGIONS)
    have := e1.append (f2.append f3)
    rw [← List.append_assoc] at this
    exact this

/-! ## Erasing the text -/

theorem Run.map_bind {α β γ : Type} (x : Run α) (f : α → Run β) (g : β → γ) : (x >>= f).map g = x >>= fun a => (f a).map g := by
  cases x <;> rfl

theorem Run.bind_congr {α β : Type} {x : Run α} {f g : α → Run β} (h : ∀ a, f a = g a) : x >>= f = x >>= g := by
  rw [funext h]

theorem loopM_map {σ τ : Type} (p : τ → σ) {n : Nat} {b : Fin n → σ → Run σ} {b' : Fin n → τ → Run τ}
    (h : ∀ i t, (b' i t).map p = b i (p t)) (t : τ) : (loopM b' t).map p = loopM b (p t) := by
  induction n with
  | zero => rw [loopM_zero, loopM_zero]; rfl
  | succ n ih =>
    rw [loopM_succ, loopM_succ, ← ih (fun i t => h i.castSucc t), Run.map_bind]
    cases loopM (fun i => b' i.castSucc) t with
    | error e => rfl
    | ok x => exact h _ x

theorem fillSectorSays_ok (is : Fin N_IN_SECTORS) (r : InputRegion) (inp : RegIn sz NM) (f : RegFibers) {x : Option (RegIn sz NM × RegFibers)}
    (h : fillSector is r inp f = .ok x) :
    (x.isSome → fillSectorSays is r inp f = []) ∧
    (x = none → ∃ (name : String) (k : Nat), name ∈ streamNames ∧ k < 24 ∧ fillSectorSays is r inp f = streamMessage name.toList k) := by
  have hi : is.val < 12 := is.isLt
  unfold fillSector at h
  obtain ⟨_, _, h⟩ := Run.bind_eq_ok.mp h
  unfold fillSectorSays
  dsimp only at h ⊢
  have fin : ∀ (name : String) (k : Nat) {t : List Char}, name ∈ streamNames → k < 24 → t = streamMessage name.toList k → Except.ok none = (Except.ok x : Run _) →
      (x.isSome → t = []) ∧ (x = none → ∃ (name : String) (k : Nat), name ∈ streamNames ∧ k < 24 ∧ t = streamMessage name.toList k) := by
    intro name k t hn hk ht hx
    cases hx
    exact ⟨fun h => by simp at h, fun _ => ⟨name, k, hn, hk, ht⟩⟩
  split at h
  · rename_i e; rw [e]; exact fin "calo stream" is.val (by decide) (by omega) rfl h
  rename_i e; rw [e]; dsimp only at h ⊢
  split at h
  · rename_i e; rw [e]; exact fin "calo ref stream" is.val (by decide) (by omega) rfl h
  rename_i e; rw [e]; dsimp only at h ⊢
  split at h
  · rename_i e; rw [e]; exact fin "emcalo stream" is.val (by decide) (by omega) rfl h
  rename_i e; rw [e]; dsimp only at h ⊢
  split at h
  · rename_i e; rw [e]; exact fin "emcalo ref stream" is.val (by decide) (by omega) rfl h
  rename_i e; rw [e]; dsimp only at h ⊢
  split at h
  · rename_i e; rw [e]; exact fin "track stream " (2 * is.val + 0) (by decide) (by omega) rfl h
  rename_i e; rw [e]; dsimp only at h ⊢
  split at h
  · rename_i e; rw [e]; exact fin "track ref stream" (2 * is.val + 0) (by decide) (by omega) rfl h
  rename_i e; rw [e]; dsimp only at h ⊢
  split at h
  · rename_i e; rw [e]; exact fin "track stream " (2 * is.val + 1) (by decide) (by omega) rfl h
  rename_i e; rw [e]; dsimp only at h ⊢
  split at h
  · rename_i e; rw [e]; exact fin "track ref stream" (2 * is.val + 1) (by decide) (by omega) rfl h
  rename_i e; rw [e]; dsimp only at h ⊢
  cases h
  exact ⟨fun _ => rfl, fun h => by cases h⟩

/-- The body of the loop over sectors, with its text. -/
def sectorBody (regions : List InputRegion) (is : Fin N_IN_SECTORS) (st : List Char × Option (RegIn sz NM × RegFibers)) :
    Run (List Char × Option (RegIn sz NM × RegFibers)) :=
  match st with
  | (t, none) => .ok (t, none)
  | (t, some (inp, f)) =>
    match regions[is.val]? with
    | none => .error .oob
    | some r => do
      let st ← fillSector is r inp f
      .ok (t ++ fillSectorSays is r inp f, st)

theorem fillSectorsSays_def (rs : List InputRegion) (inp : RegIn sz NM) (f : RegFibers) :
    fillSectorsSays rs inp f = (loopM (sectorBody rs) ([], some (inp, f))).map Prod.fst := by
  unfold fillSectorsSays
  show (loopM (sectorBody rs) ([], some (inp, f)) >>= _) = _
  cases loopM (sectorBody rs) ([], some (inp, f)) <;> rfl

theorem sectors_erase (rs : List InputRegion) (inp : RegIn sz NM) (f : RegFibers) :
    (loopM (sectorBody rs) ([], some (inp, f))).map Prod.snd = fillSectors rs inp f := by
  unfold fillSectors
  refine loopM_map Prod.snd ?_ _
  rintro is ⟨t, _ | ⟨inp, f⟩⟩
  · rfl
  · unfold sectorBody
    dsimp only
    cases rs[is.val]? with
    | none => rfl
    | some r =>
      dsimp only
      cases fillSector is r inp f <;> rfl

theorem sectors_text (rs : List InputRegion) (inp : RegIn sz NM) (f : RegFibers) {t : List Char} {x : Option (RegIn sz NM × RegFibers)}
    (h : loopM (sectorBody rs) ([], some (inp, f)) = .ok (t, x)) :
    (x.isSome → t = []) ∧ (x = none → ∃ (name : String) (k : Nat), name ∈ streamNames ∧ k < 24 ∧ t = streamMessage name.toList k) := by
  refine loopM_induct_ok (fun _ (st : List Char × Option (RegIn sz NM × RegFibers)) => (st.2.isSome → st.1 = []) ∧
    (st.2 = none → ∃ (name : String) (k : Nat), name ∈ streamNames ∧ k < 24 ∧ st.1 = streamMessage name.toList k)) _ _ _ ?_ ?_ h
  · exact ⟨fun _ => rfl, fun h => by cases h⟩
  · rintro is ⟨t, _ | ⟨inp, f⟩⟩ s' hs hb
    · unfold sectorBody at hb
      cases hb
      exact hs
    · unfold sectorBody at hb
      dsimp only at hb
      split at hb
      · cases hb
      · obtain ⟨y, h1, h2⟩ := Run.bind_eq_ok.mp hb
        cases h2
        have ht : t = [] := hs.1 rfl
        subst ht
        exact fillSectorSays_ok is _ _ _ h1

/-- The text printed while filling the streams, and whether they could be filled. -/
theorem fillSectors_says (rs : List InputRegion) (inp : RegIn sz NM) (f : RegFibers) :
    (∀ e, fillSectors rs inp f = .error e → fillSectorsSays rs inp f = .error e) ∧
    (∀ x, fillSectors rs inp f = .ok (some x) → fillSectorsSays rs inp f = .ok []) ∧
    (fillSectors rs inp f = .ok none → ∃ (name : String) (k : Nat), name ∈ streamNames ∧ k < 24 ∧ fillSectorsSays rs inp f = .ok (streamMessage name.toList k)) := by
  rw [fillSectorsSays_def, ← sectors_erase]
  cases hl : loopM (sectorBody rs) ([], some (inp, f)) with
  | error e => exact ⟨fun e' h => by cases h; rfl, fun _ h => (nomatch h), fun h => (nomatch h)⟩
  | ok y =>
    obtain ⟨t, x⟩ := y
    obtain ⟨h1, h2⟩ := sectors_text rs inp f hl
    refine ⟨fun _ h => (nomatch h), fun z h => ?_, fun h => ?_⟩
    · injection h with h
      exact congrArg Except.ok (h1 (by dsimp only at h; rw [h]; rfl))
    · injection h with h
      obtain ⟨n, k, a, b, c⟩ := h2 h
      exact ⟨n, k, a, b, congrArg Except.ok c⟩

theorem fillMuons_says (mu_in : Arr N_MUON_SECTORS (Arr NM MuObj)) (f : RegFibers) :
    (∀ x, fillMuons mu_in f = some x → fillMuonsSays mu_in f = []) ∧
    (fillMuons mu_in f = none → ∃ (name : String) (k : Nat), name ∈ streamNames ∧ k < 24 ∧ fillMuonsSays mu_in f = streamMessage name.toList k) := by
  have key : ∀ {n : Nat} (b' : Fin n → List Char × Option RegFibers → List Char × Option RegFibers) (b : Fin n → Option RegFibers → Option RegFibers),
      (∀ is st, (b' is st).2 = b is st.2) →
      (∀ is st, ((st.2.isSome → st.1 = []) ∧ (st.2 = none → ∃ (name : String) (k : Nat), name ∈ streamNames ∧ k < 24 ∧ st.1 = streamMessage name.toList k)) →
        (((b' is st).2.isSome → (b' is st).1 = []) ∧
        ((b' is st).2 = none → ∃ (name : String) (k : Nat), name ∈ streamNames ∧ k < 24 ∧ (b' is st).1 = streamMessage name.toList k))) →
      (∀ x, loop b (some f) = some x → (loop b' ([], some f)).1 = []) ∧
      (loop b (some f) = none → ∃ (name : String) (k : Nat), name ∈ streamNames ∧ k < 24 ∧ (loop b' ([], some f)).1 = streamMessage name.toList k) := by
    intro n b' b hb hp
    have e : (loop b' ([], some f)).2 = loop b (some f) := by
      clear hp
      induction n with
      | zero => rfl
      | succ n ih =>
        rw [loop_succ, loop_succ, hb, ih _ _ (fun is st => hb is.castSucc st)]
    have p := loop_induct (fun _ (st : List Char × Option RegFibers) => (st.2.isSome → st.1 = []) ∧
      (st.2 = none → ∃ (name : String) (k : Nat), name ∈ streamNames ∧ k < 24 ∧ st.1 = streamMessage name.toList k)) b' ([], some f)
      ⟨fun _ => rfl, fun h => by cases h⟩ (fun i s h => hp i s h)
    rw [e] at p
    exact ⟨fun x h => p.1 (by rw [h]; rfl), p.2⟩
  unfold fillMuons fillMuonsSays
  refine key _ _ ?_ ?_
  · rintro is ⟨t, _ | f⟩
    · rfl
    · dsimp only
      cases fill_stream f.mu is (mu_in is) 1 0 with
      | none => rfl
      | some s =>
        dsimp only
        cases fill_stream f.muRef is (mu_in is) 1 0 <;> rfl
  · rintro is ⟨t, _ | f⟩ hst
    · exact hst
    · have ht : t = [] := hst.1 rfl
      subst ht
      have hk : is.val < 24 := by have := is.isLt; show is.val < 24; unfold N_MUON_SECTORS at this; omega
      dsimp only
      cases fill_stream f.mu is (mu_in is) 1 0 with
      | none => exact ⟨fun h => by simp at h, fun _ => ⟨"mu stream", is.val, by decide, hk, rfl⟩⟩
      | some s =>
        dsimp only
        cases fill_stream f.muRef is (mu_in is) 1 0 with
        | none => exact ⟨fun h => by simp at h, fun _ => ⟨"mu ref stream", is.val, by decide, hk, rfl⟩⟩
        | some s => exact ⟨fun _ => rfl, fun h => by cases h⟩

theorem firstMismatch_length {T K : Type} {N : Nat} {pt : T → Pt} {fields : T → K} {what : String} {pairs : T → T → List (String × Int × Int)} {base : Nat}
    (ref out : Arr N T) : (firstMismatch (SameObj pt fields) what pairs base ref out).length = wrong pt fields ref out := by
  unfold wrong
  by_cases h : ∃ i, ¬ SameObj pt fields (ref i) (out i)
  · rw [if_pos h]
    have h1 : firstMismatch (SameObj pt fields) what pairs base ref out ≠ [] := by
      rw [Ne, firstMismatch_nil]
      intro k
      obtain ⟨i, hi⟩ := h
      exact hi (k i)
    have h2 : (firstMismatch (SameObj pt fields) what pairs base ref out).length ≤ 1 := by
      unfold firstMismatch
      rw [List.length_take]
      omega
    have h3 := List.length_pos_iff.mpr h1
    omega
  · rw [if_neg h, List.length_eq_zero_iff, firstMismatch_nil]
    intro i
    by_contra hi
    exact h ⟨i, hi⟩

theorem compare_errors (calo caloRef : Arr N_OUT_REGIONS (Arr NC HadCaloObj)) (em emRef : Arr N_OUT_REGIONS (Arr NE EmCaloObj))
    (track trackRef : Arr N_OUT_REGIONS (Arr NT TkObj)) (mu muRef : Arr N_OUT_REGIONS (Arr NM MuObj)) :
    (regMismatches calo caloRef em emRef track trackRef mu muRef).length = regErrors calo caloRef em emRef track trackRef mu muRef := by
  rw [(C58_errors calo caloRef em emRef track trackRef mu muRef).1]
  unfold regMismatches
  rw [List.length_flatMap]
  simp only [List.length_append, firstMismatch_length]

/-- One test. -/
theorem regBenchStep_erase (test : Nat) (mem : Arr N_OUT_REGIONS (Arr NC HadCaloObj)) (rs : List InputRegion) (inp : RegIn sz NM) (f : RegFibers) :
    (regBenchStep (NE := NE) (NT := NT) test mem rs inp f).map (fun x => (x.1, x.2.2)) = regTestStep mem rs inp f := by
  obtain ⟨h1, h2, h3⟩ := fillSectors_says rs inp f
  unfold regBenchStep regTestStep
  cases hs : fillSectors rs inp f with
  | error e => rw [h1 e hs]; rfl
  | ok x =>
    cases x with
    | none =>
      obtain ⟨n, k, _, _, h⟩ := h3 hs
      rw [h]; rfl
    | some x =>
      obtain ⟨inp, f⟩ := x
      rw [h2 _ hs]
      simp only [Run.ok_bind]
      cases fillMuons (merge_muon_in inp.mu) f with
      | none => rfl
      | some f =>
        rw [Run.map_bind]; refine Run.bind_congr ?_; rintro ⟨f1, a1⟩; dsimp only
        rw [Run.map_bind]; refine Run.bind_congr ?_; rintro ⟨f2, a2⟩; dsimp only
        rw [Run.map_bind]; refine Run.bind_congr ?_; rintro ⟨f3, a3⟩; dsimp only
        rw [Run.map_bind]; refine Run.bind_congr ?_; rintro ⟨f4, a4⟩; dsimp only
        rw [Run.map_bind]; refine Run.bind_congr ?_; rintro ⟨f5, a5⟩; dsimp only
        rw [Run.map_bind]; refine Run.bind_congr ?_; rintro ⟨f6, a6⟩; dsimp only
        rw [Run.map_bind]; refine Run.bind_congr ?_; rintro ⟨f7, a7⟩; dsimp only
        rw [Run.map_bind]; refine Run.bind_congr ?_; rintro ⟨f8, a8⟩; dsimp only
        have e := (says_compare a1 a2 a3 a4 a5 a6 a7 a8).2
        rw [compare_errors] at e
        by_cases h0 : regErrors a1 a2 a3 a4 a5 a6 a7 a8 ≠ 0
        · rw [if_pos h0, if_pos (by rw [e]; exact h0)]; rfl
        · rw [if_neg h0, if_neg (by rw [e]; exact h0)]; rfl

/-- What one test prints. -/
theorem regBenchStep_text {test : Nat} {mem : Arr N_OUT_REGIONS (Arr NC HadCaloObj)} {rs : List InputRegion} {inp : RegIn sz NM} {f f' : RegFibers}
    {ret : Option Int} {t : List Char} {d : Option (RegRecord sz NC NE NT NM)} (h : regBenchStep test mem rs inp f = .ok (ret, t, d, f')) :
    (ret = some 3 ∧ d = none ∧ ∃ (name : String) (k : Nat), name ∈ streamNames ∧ k < 24 ∧ Says t [streamLine name k]) ∨
    ∃ (r : RegRecord sz NC NE NT NM) (caloRef : Fin 18 → Arr NC HadCaloObj) (emRef : Fin 18 → Arr NE EmCaloObj) (trackRef : Fin 18 → Arr NT TkObj)
      (muRef : Fin 18 → Arr NM MuObj), d = some r ∧ Says t (regReport test r.inp.calo r.calo caloRef r.em emRef r.track trackRef r.mu muRef) ∧
      ret = if regMismatches r.calo caloRef r.em emRef r.track trackRef r.mu muRef = [] then none else some 1 := by
  have hn : ∀ name ∈ streamNames, name.toList.count '\n' = 0 := by decide
  obtain ⟨h1, h2, h3⟩ := fillSectors_says rs inp f
  unfold regBenchStep at h
  cases hs : fillSectors rs inp f with
  | error e => rw [h1 e hs] at h; cases h
  | ok x =>
    cases x with
    | none =>
      obtain ⟨n, k, hm, hk, e⟩ := h3 hs
      rw [e, hs] at h
      cases h
      exact .inl ⟨rfl, rfl, n, k, hm, hk, says_stream n (hn n hm) k⟩
    | some x =>
      obtain ⟨inp, f⟩ := x
      rw [h2 _ hs, hs] at h
      simp only [Run.ok_bind] at h
      obtain ⟨m1, m2⟩ := fillMuons_says (merge_muon_in inp.mu) f
      cases hm : fillMuons (merge_muon_in inp.mu) f with
      | none =>
        obtain ⟨n, k, hmem, hk, e⟩ := m2 hm
        rw [hm, e] at h
        cases h
        exact .inl ⟨rfl, rfl, n, k, hmem, hk, says_stream n (hn n hmem) k⟩
      | some f =>
        rw [hm, m1 _ hm] at h
        dsimp only at h
        obtain ⟨⟨_, calo⟩, _, h⟩ := Run.bind_eq_ok.mp h
        obtain ⟨⟨_, caloRef⟩, _, h⟩ := Run.bind_eq_ok.mp h
        obtain ⟨⟨_, em⟩, _, h⟩ := Run.bind_eq_ok.mp h
        obtain ⟨⟨_, emRef⟩, _, h⟩ := Run.bind_eq_ok.mp h
        obtain ⟨⟨_, track⟩, _, h⟩ := Run.bind_eq_ok.mp h
        obtain ⟨⟨_, trackRef⟩, _, h⟩ := Run.bind_eq_ok.mp h
        obtain ⟨⟨_, mu⟩, _, h⟩ := Run.bind_eq_ok.mp h
        obtain ⟨⟨_, muRef⟩, _, h⟩ := Run.bind_eq_ok.mp h
        obtain ⟨c1, c2⟩ := says_compare calo caloRef em emRef track trackRef mu muRef
        have v := says_verdict test (regMismatches calo caloRef em emRef track trackRef mu muRef) inp.calo calo caloRef
        rw [← c2] at v
        have all := c1.append v
        dsimp only at h
        by_cases h0 : regMismatches calo caloRef em emRef track trackRef mu muRef = []
        · rw [if_neg (by rw [c2, h0]; simp)] at h
          cases h
          refine .inr ⟨_, caloRef, emRef, trackRef, muRef, rfl, ?_, by rw [if_pos h0]⟩
          unfold regReport
          dsimp only
          rw [if_pos h0]
          rw [if_pos h0, h0] at all
          exact all
        · rw [if_pos (by rw [c2]; simpa using h0)] at h
          cases h
          refine .inr ⟨_, caloRef, emRef, trackRef, muRef, rfl, ?_, by rw [if_neg h0]⟩
          unfold regReport
          dsimp only
          rw [if_neg h0]
          rw [if_neg h0] at all
          rw [c2] at all ⊢
          exact all

/-- The loop. -/
theorem regBenchLoop_erase (fall : Option Bool) (mem : Nat → Arr N_OUT_REGIONS (Arr NC HadCaloObj)) (inp : Nat → RegIn sz NM) :
    ∀ (n test : Nat) (s : DumpReader) (f : RegFibers),
    (regBenchLoop (NE := NE) (NT := NT) fall mem inp n test s f).map (fun x => (x.1, x.2.2)) = regTestLoop fall mem inp n s f
  | 0, _, _, _ => rfl
  | n + 1, test, s, f => by
    unfold regBenchLoop regTestLoop
    rw [Run.map_bind]
    congr 1
    funext ⟨b, s⟩
    dsimp only
    by_cases hb : (!b) = true
    · rw [if_pos hb, if_pos hb]; rfl
    rw [if_neg hb, if_neg hb]
    by_cases hl : s.event.regions.length ≠ N_IN_SECTORS
    · rw [if_pos hl, if_pos hl]; rfl
    rw [if_neg hl, if_neg hl, ← regBenchStep_erase test]
    cases regBenchStep (NE := NE) (NT := NT) test (mem n) s.event.regions (inp n) f with
    | error e => rfl
    | ok x =>
      obtain ⟨ret, t, d, f⟩ := x
      cases ret with
      | some code => rfl
      | none =>
        show Except.map _ (regBenchLoop (NE := NE) (NT := NT) fall mem inp n (test + 1) s f >>= _) = (regTestLoop fall mem inp n s f >>= _)
        rw [← regBenchLoop_erase fall mem inp n (test + 1) s f]
        cases regBenchLoop (NE := NE) (NT := NT) fall mem inp n (test + 1) s f <;> rfl

/-- What the loop prints, from the statuses of its tests: as many tests as there are records pass, except that the last
record is of a failing test when the status is 1. -/
theorem regBenchLoop_text (fall : Option Bool) (mem : Nat → Arr N_OUT_REGIONS (Arr NC HadCaloObj)) (inp : Nat → RegIn sz NM) :
    ∀ (n test : Nat) (s : DumpReader) (f : RegFibers) {code : Int} {t : List Char} {ds : List (RegRecord sz NC NE NT NM)},
    regBenchLoop fall mem inp n test s f = .ok (code, t, ds) →
    (code = 0 ∧ Says t ((List.range ds.length).map fun i => passed (test + i))) ∨
    (code = 2 ∧ ∃ k, k ≠ 12 ∧ Says t (((List.range ds.length).map fun i => passed (test + i)) ++ [sectorsLine k])) ∨
    (code = 3 ∧ ∃ (name : String) (k : Nat), name ∈ streamNames ∧ k < 24 ∧
      Says t (((List.range ds.length).map fun i => passed (test + i)) ++ [streamLine name k])) ∨
    (code = 1 ∧ ∃ (pre : List (RegRecord sz NC NE NT NM)) (r : RegRecord sz NC NE NT NM) (caloRef : Fin 18 → Arr NC HadCaloObj)
      (emRef : Fin 18 → Arr NE EmCaloObj) (trackRef : Fin 18 → Arr NT TkObj) (muRef : Fin 18 → Arr NM MuObj), ds = pre ++ [r] ∧
      regMismatches r.calo caloRef r.em emRef r.track trackRef r.mu muRef ≠ [] ∧
      Says t (((List.range pre.length).map fun i => passed (test + i)) ++
        regReport (test + pre.length) r.inp.calo r.calo caloRef r.em emRef r.track trackRef r.mu muRef))
  | 0, _, _, _, code, t, ds, h => by
    cases h
    exact .inl ⟨rfl, Says.nil⟩
  | n + 1, test, s, f, code, t, ds, h => by
    unfold regBenchLoop at h
    obtain ⟨⟨b, s⟩, _, h⟩ := Run.bind_eq_ok.mp h
    dsimp only at h
    by_cases hb : (!b) = true
    · rw [if_pos hb] at h
      cases h
      exact .inl ⟨rfl, Says.nil⟩
    rw [if_neg hb] at h
    by_cases hl : s.event.regions.length ≠ N_IN_SECTORS
    · rw [if_pos hl] at h
      cases h
      exact .inr (.inl ⟨rfl, _, hl, says_sectors _⟩)
    rw [if_neg hl] at h
    obtain ⟨⟨ret, t1, d, f'⟩, h1, h⟩ := Run.bind_eq_ok.mp h
    rcases regBenchStep_text h1 with ⟨rfl, rfl, name, k, hm, hk, hsay⟩ | ⟨r, caloRef, emRef, trackRef, muRef, rfl, hsay, hret⟩
    · cases h
      exact .inr (.inr (.inl ⟨rfl, name, k, hm, hk, hsay⟩))
    · by_cases h0 : regMismatches r.calo caloRef r.em emRef r.track trackRef r.mu muRef = []
      · rw [if_pos h0] at hret
        subst hret
        dsimp only at h
        obtain ⟨⟨code', t', ds'⟩, h2, h3⟩ := Run.bind_eq_ok.mp h
        cases h3
        have hp : Says t1 [passed test] := by
          unfold regReport at hsay
          dsimp only at hsay
          rw [if_pos h0] at hsay
          exact hsay
        have shift : ∀ m, [passed test] ++ (List.range m).map (fun i => passed (test + 1 + i)) = (List.range (m + 1)).map fun i => passed (test + i) := by
          intro m
          rw [List.range_succ_eq_map, List.map_cons, List.map_map]
          simp only [Function.comp_def, Nat.add_zero, List.singleton_append, Nat.succ_eq_add_one]
          congr 1
          apply List.map_congr_left
          intro i _
          rw [Nat.add_assoc, Nat.add_comm 1 i]
        have hlen : ((some r).toList ++ ds').length = ds'.length + 1 := by simp
        rcases regBenchLoop_text fall mem inp n (test + 1) s f' h2 with ⟨rfl, q⟩ | ⟨rfl, k, hk, q⟩ | ⟨rfl, name, k, hm, hk, q⟩ |
          ⟨rfl, pre, r', c1, c2, c3, c4, rfl, hne, q⟩
        · refine .inl ⟨rfl, ?_⟩
          rw [hlen, ← shift]
          exact hp.append q
        · refine .inr (.inl ⟨rfl, k, hk, ?_⟩)
          rw [hlen, ← shift, List.append_assoc]
          exact hp.append q
        · refine .inr (.inr (.inl ⟨rfl, name, k, hm, hk, ?_⟩))
          rw [hlen, ← shift, List.append_assoc]
          exact hp.append q
        · refine .inr (.inr (.inr ⟨rfl, r :: pre, r', c1, c2, c3, c4, rfl, hne, ?_⟩))
          rw [List.length_cons, ← shift, List.append_assoc, show test + (pre.length + 1) = test + 1 + pre.length by omega]
          exact hp.append q
      · rw [if_neg h0] at hret
        subst hret
        cases h
        exact .inr (.inr (.inr ⟨rfl, [], r, caloRef, emRef, trackRef, muRef, rfl, h0, hsay⟩))

theorem regTestLoop_length (fall : Option Bool) (mem : Nat → Arr N_OUT_REGIONS (Arr NC HadCaloObj)) (inp : Nat → RegIn sz NM) :
    ∀ (n : Nat) (s : DumpReader) (f : RegFibers) {code : Int} {ds : List (RegRecord sz NC NE NT NM)},
    regTestLoop fall mem inp n s f = .ok (code, ds) → ds.length ≤ n
  | 0, _, _, code, ds, h => by cases h; exact Nat.le_refl _
  | n + 1, s, f, code, ds, h => by
    unfold regTestLoop at h
    obtain ⟨⟨b, s⟩, _, h⟩ := Run.bind_eq_ok.mp h
    dsimp only at h
    have hd : ∀ d : Option (RegRecord sz NC NE NT NM), d.toList.length ≤ 1 := by rintro (_ | d) <;> simp
    split at h
    · cases h; exact Nat.zero_le _
    split at h
    · cases h; exact Nat.zero_le _
    obtain ⟨⟨ret, d, f⟩, _, h⟩ := Run.bind_eq_ok.mp h
    have := hd d
    cases ret with
    | some c =>
      cases h
      dsimp only
      omega
    | none =>
      obtain ⟨⟨c, ds'⟩, h1, h⟩ := Run.bind_eq_ok.mp h
      cases h
      have := regTestLoop_length fall mem inp n s f h1
      rw [List.length_append]
      dsimp only
      omega

theorem step_passed {test : Nat} {mem : Arr N_OUT_REGIONS (Arr NC HadCaloObj)} {rs : List InputRegion} {inp : RegIn sz NM} {f f' : RegFibers}
    {d : RegRecord sz NC NE NT NM} (h : regTestStep mem rs inp f = .ok (none, some d, f')) :
    ∃ t, regBenchStep test mem rs inp f = .ok (none, t, some d, f') ∧ Says t [passed test] := by
  have e := regBenchStep_erase (NE := NE) (NT := NT) test mem rs inp f
  rw [h] at e
  cases hb : regBenchStep (NE := NE) (NT := NT) test mem rs inp f with
  | error _ => rw [hb] at e; cases e
  | ok x =>
    obtain ⟨ret, t, d', f''⟩ := x
    rw [hb] at e
    cases e
    refine ⟨t, rfl, ?_⟩
    rcases regBenchStep_text hb with ⟨h1, _⟩ | ⟨r, c1, c2, c3, c4, _, h2, h3⟩
    · cases h1
    · by_cases h0 : regMismatches r.calo c1 r.em c2 r.track c3 r.mu c4 = []
      · unfold regReport at h2
        dsimp only at h2
        rw [if_pos h0] at h2
        exact h2
      · rw [if_neg h0] at h3
        cases h3

/-- Good events: a line each. -/
theorem regBenchLoop_good (hNC : sz.caloEta ≤ NC) (heven : sz.track % 2 = 0) (mem : Nat → Arr N_OUT_REGIONS (Arr NC HadCaloObj))
    (inp : Nat → RegIn sz NM) (n : Nat) (rest : List DumpEvent) :
    ∀ (pre : List DumpEvent) (test : Nat) (s : DumpReader) (junk : Nat → BitVec 32),
    (∀ e ∈ pre, eventFits e ∧ GoodEvent sz e) → s.file = ⟨(pre ++ rest).flatMap eventBytes, false, junk⟩ →
    ∃ (t : List Char) (ds : List (RegRecord sz NC NE NT NM)) (s' : DumpReader) (junk' : Nat → BitVec 32), ds.length = pre.length ∧
      Says t ((List.range pre.length).map fun i => passed (test + i)) ∧ s'.file = ⟨rest.flatMap eventBytes, false, junk'⟩ ∧
      regBenchLoop (some true) mem inp (pre.length + n) test s RegFibers.empty =
        (regBenchLoop (NE := NE) (NT := NT) (some true) mem inp n (test + pre.length) s' RegFibers.empty).map (fun x => (x.1, t ++ x.2.1, ds ++ x.2.2)) := by
  intro pre
  induction pre with
  | nil =>
    intro test s junk _ hs
    refine ⟨[], [], s, junk, rfl, Says.nil, hs, ?_⟩
    rw [List.length_nil, Nat.zero_add]
    cases regBenchLoop (NE := NE) (NT := NT) (some true) mem inp n (test + 0) s RegFibers.empty <;> rfl
  | cons e pre ih =>
    intro test s junk hp hs
    obtain ⟨he, hpre⟩ := List.forall_mem_cons.mp hp
    rw [List.cons_append, List.flatMap_cons] at hs
    obtain ⟨j1, h1⟩ := nextEvent_cons s e he.1 _ junk hs
    obtain ⟨d, h2, _⟩ := regTestStep_record (NE := NE) (NT := NT) hNC heven (mem (pre.length + n)) e he.2 (inp (pre.length + n))
    obtain ⟨t1, h3, hp1⟩ := step_passed (test := test) h2
    obtain ⟨t, ds, s', j', h4, h4', h5, h6⟩ := ih (test + 1) { s with event := storedEvent e, file := ⟨(pre ++ rest).flatMap eventBytes, false, j1⟩ } j1 hpre rfl
    refine ⟨t1 ++ t, d :: ds, s', j', by rw [List.length_cons, List.length_cons, h4], ?_, h5, ?_⟩
    · rw [List.length_cons, List.range_succ_eq_map, List.map_cons, List.map_map]
      have := hp1.append h4'
      simp only [List.singleton_append, Nat.add_assoc, Nat.add_comm 1] at this
      simp only [Nat.add_zero, Function.comp_def, Nat.succ_eq_add_one]
      exact this
    rw [List.length_cons, show pre.length + 1 + n = pre.length + n + 1 by omega]
    conv_lhs => unfold regBenchLoop
    rw [h1, Run.ok_bind]
    dsimp only
    rw [if_neg (by simp), if_neg (by rw [((goodEvent_iff e).mp he.2).1]; decide), h3, Run.ok_bind]
    dsimp only
    rw [h6, show test + 1 + pre.length = test + (pre.length + 1) by omega]
    cases regBenchLoop (NE := NE) (NT := NT) (some true) mem inp n (test + (pre.length + 1)) s' RegFibers.empty with
    | error _ => rfl
    | ok x => simp [Except.map, bind, Except.bind]

theorem fillSectorsSays_full (rs : List InputRegion) (hlen : rs.length = 12) (hgood : ∀ r ∈ rs, goodRegion sz r)
    (inp : RegIn sz NM) (f : RegFibers) (h1 : f.calo = fun _ => []) (h2 : f.caloRef = fun _ => []) (h3 : f.em = fun _ => [])
    (h4 : f.emRef = fun _ => []) (h5 : f.track (fiberIdx (NFPS := 2) 0 0) ≠ []) :
    fillSectorsSays rs inp f = .ok (streamMessage "track stream ".toList 0) := by
  have hs0 : fillSector 0 (rs[0]'(by omega)) inp f = .ok none := by
    unfold fillSector
    simp only [fw_many_eq]
    rw [asserts_region 0 _ inp (hgood _ (List.getElem_mem _)), Run.ok_bind]
    rw [fill_stream_empty (by rw [h1])]
    dsimp only
    rw [fill_stream_empty (by rw [h2])]
    dsimp only
    rw [fill_stream_empty (by rw [h3])]
    dsimp only
    rw [fill_stream_empty (by rw [h4])]
    dsimp only
    rw [fill_stream_full h5]
  have ht0 : fillSectorSays 0 (rs[0]'(by omega)) inp f = streamMessage "track stream ".toList 0 := by
    unfold fillSectorSays
    dsimp only
    rw [fill_stream_empty (by rw [h1])]
    dsimp only
    rw [fill_stream_empty (by rw [h2])]
    dsimp only
    rw [fill_stream_empty (by rw [h3])]
    dsimp only
    rw [fill_stream_empty (by rw [h4])]
    dsimp only
    rw [fill_stream_full h5]
    rfl
  have key := loopM_run (fun m (res : Run (List Char × Option (RegIn sz NM × RegFibers))) =>
      res = .ok (if m = 0 then ([], some (inp, f)) else (streamMessage "track stream ".toList 0, none)))
    (sectorBody rs) ([], some (inp, f)) rfl
    (fun is res h => by
      rw [h, Run.ok_bind, if_neg (Nat.succ_ne_zero _)]
      by_cases hz : is.val = 0
      · obtain rfl : is = 0 := Fin.ext hz
        rw [if_pos hz]
        unfold sectorBody
        dsimp only
        rw [show rs[(0 : Fin N_IN_SECTORS).val]? = some (rs[0]'(by omega)) from List.getElem?_eq_getElem _]
        dsimp only
        rw [hs0, Run.ok_bind, ht0]
        rfl
      · rw [if_neg hz]
        rfl)
  rw [fillSectorsSays_def, key]
  rfl

/-- With an odd number of tracks per sector. -/
theorem regBenchStep_odd (hNC : sz.caloEta ≤ NC) (hodd : sz.track % 2 = 1) (mem mem' : Arr N_OUT_REGIONS (Arr NC HadCaloObj)) (test test' : Nat)
    (e e' : DumpEvent) (he : GoodEvent sz e) (he' : GoodEvent sz e') (inp inp' : RegIn sz NM) :
    ∃ (t : List Char) (d : RegRecord sz NC NE NT NM) (f' : RegFibers), regBenchStep test mem (storedEvent e).regions inp RegFibers.empty =
      .ok (none, t, some d, f') ∧ Says t [passed test] ∧
      regBenchStep (NE := NE) (NT := NT) test' mem' (storedEvent e').regions inp' f' = .ok (some 3, streamMessage "track stream ".toList 0, none, f') := by
  obtain ⟨hl, hg⟩ := (goodEvent_iff e).mp he
  obtain ⟨hl', hg'⟩ := (goodEvent_iff e').mp he'
  obtain ⟨d, f', e1, e2, e3, e4, e5, e6, e7, e8, e9, e10, e11, e12, e13, e14, e15⟩ :=
    regTestStep_good (NE := NE) (NT := NT) hNC mem _ hl hg inp
  obtain ⟨t, h1, h2⟩ := step_passed (test := test) e1
  refine ⟨t, d, f', h1, h2, ?_⟩
  have h5 : f'.track (fiberIdx (NFPS := 2) 0 0) ≠ [] := by
    intro hnil
    have := e12 0 0
    rw [hnil, List.length_nil] at this
    have h0 : (0 : Fin 2).val = 0 := rfl
    rw [h0] at this
    omega
  unfold regBenchStep
  rw [fillSectorsSays_full _ hl' hg' inp' f' e8 e9 e10 e11 h5, Run.ok_bind, fillSectors_full _ hl' hg' inp' f' e8 e9 e10 e11 h5, Run.ok_bind]

/-- The destructors of the MP7 build. -/
theorem says_regDestructors (heven : sz.track % 2 = 0) (hfit : NC + NE + NT + NM ≤ 72) (old : Nat → TransMem sz NM)
    (ds : List (RegRecord sz NC NE NT NM)) (hk : 36 * ds.length < 2 ^ 32) :
    ∃ t, regDestructorsSay old ds = .ok t ∧ Says t (regSaved ds.length) := by
  obtain ⟨fs, h1, h2⟩ := allFrames_ok heven hfit old ds
  have len : ∀ (g : RegFrames → List MP7Event), (∀ d f, FramesOf (sz := sz) (NC := NC) (NE := NE) (NT := NT) (NM := NM) d f → (g f).length = 18) →
      (fs.flatMap g).length = 18 * ds.length := by
    intro g hg
    clear h1 hk
    induction h2 with
    | nil => rfl
    | cons h _ ih => rw [List.flatMap_cons, List.length_append, hg _ _ h, ih, List.length_cons]; omega
  have mux : ∀ (g : RegFrames → List MP7Event), (∀ d f, FramesOf (sz := sz) (NC := NC) (NE := NE) (NT := NT) (NM := NM) d f → (g f).length = 18) →
      mp7_count 2 1 0 (fs.flatMap g) = .ok (BitVec.ofNat 32 (36 * ds.length)) := by
    intro g hg
    rw [mp7_count_eq 1 (by decide) (by decide) _ (by rw [len g hg, show (1 : Int).natAbs + 1 = 2 from rfl]; omega), len g hg,
      show (1 : Int).natAbs + 1 = 2 from rfl, show 18 * ds.length * 2 = 36 * ds.length by omega]
  have nomux : ∀ (g : RegFrames → List MP7Event), (∀ d f, FramesOf (sz := sz) (NC := NC) (NE := NE) (NT := NT) (NM := NM) d f → (g f).length = 18) →
      mp7_count 1 0 0 ((fs.flatMap g).flatMap fun e => [e, e]) = .ok (BitVec.ofNat 32 (36 * ds.length)) := by
    intro g hg
    have l2 : ∀ l : List MP7Event, (l.flatMap fun e => [e, e]).length = 2 * l.length := by
      intro l
      induction l with
      | nil => rfl
      | cons a l ih => rw [List.flatMap_cons, List.length_append, ih, List.length_cons]; simp; omega
    rw [mp7_count_eq 0 (by decide) (by decide) _ (by rw [l2, len g hg, show (0 : Int).natAbs + 1 = 1 from rfl]; omega), l2, len g hg,
      show (0 : Int).natAbs + 1 = 1 from rfl, show 2 * (18 * ds.length) * 1 = 36 * ds.length by omega]
  have hN : (BitVec.ofNat 32 (36 * ds.length)).toNat = 36 * ds.length := by rw [BitVec.toNat_ofNat, Nat.mod_eq_of_lt hk]
  have say : ∀ fname : String, (∀ c ∈ fname.toList ++ ['.'], isGap c = false) → int (fname.toList ++ ['.']) = none →
      Says (savedMessage "MP7".toList (BitVec.ofNat 32 (36 * ds.length)) fname.toList) [savedLine (36 * ds.length) "MP7" fname] := by
    intro fname ha hb
    have := says_saved "MP7" fname (by decide) ha hb (BitVec.ofNat 32 (36 * ds.length))
    rw [hN] at this
    exact this
  refine ⟨_, ?_, ((((((((((say "mp7_output_track_nomux.txt" (by decide) (by decide)).append (say "mp7_output_calo_nomux.txt" (by decide) (by decide))).append
    (say "mp7_output_mu.txt" (by decide) (by decide))).append (say "mp7_output_track.txt" (by decide) (by decide))).append
    (say "mp7_output_calo.txt" (by decide) (by decide))).append (say "mp7_output.txt" (by decide) (by decide))).append
    (say "mp7_input_mu.txt" (by decide) (by decide))).append (say "mp7_input_track.txt" (by decide) (by decide))).append
    (say "mp7_input_calo.txt" (by decide) (by decide))).append (say "mp7_input.txt" (by decide) (by decide)))⟩
  unfold regDestructorsSay
  rw [h1, Run.ok_bind]
  dsimp only
  simp only [nomux (·.outTrack) (fun _ _ h => h.outTrack.1), nomux (·.outCalo) (fun _ _ h => h.outCalo.1), mux (·.outMu) (fun _ _ h => h.outMu.1),
    mux (·.outTrack) (fun _ _ h => h.outTrack.1), mux (·.outCalo) (fun _ _ h => h.outCalo.1), mux (·.outAll) (fun _ _ h => h.outAll.1),
    mux (·.inMu) (fun _ _ h => h.inMu.1), mux (·.inTrack) (fun _ _ h => h.inTrack.1), mux (·.inCalo) (fun _ _ h => h.inCalo.1),
    mux (·.inAll) (fun _ _ h => h.inAll.1), Run.ok_bind]

end Verif
