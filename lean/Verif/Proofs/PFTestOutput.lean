import Verif.Proofs.Tokens
import Verif.Proofs.PFTest
import Verif.Proofs.Serializer
/-! # Lemmas: what the PF test bench prints -/
namespace Verif
open Spec
variable {NT NC NE NM NS : Nat}

section Lines

theorem lits :
    tokens "Beginning of run ".toList = say "Beginning of run" ∧ tokens ", lumi ".toList = say "lumi" ∧ tokens ", event ".toList = say "event" ∧
    tokens " \n".toList = [] ∧ tokens "\n".toList = [] ∧ tokens "   \n".toList = [] ∧ tokens " ".toList = [] ∧ tokens " (".toList = [] ∧ tokens ", ".toList = [] ∧
    tokens ")\n".toList = [] ∧ tokens "Read region ".toList = say "Read region" ∧ tokens " with ".toList = say "with" ∧ tokens " tracks, ".toList = say "tracks" ∧
    tokens " em calo, ".toList = say "em calo" ∧ tokens " had calo, ".toList = say "had calo" ∧ tokens " muons\n".toList = say "muons" ∧
    tokens "Passed test ".toList = say "Passed test" ∧ tokens "Error in computing test ".toList = say "Error in computing test" ∧
    tokens "] ref vs test, hwPt ".toList = say "ref vs test" ++ say "hwPt" ∧ tokens "   hwEta ".toList = say "hwEta" ∧ tokens "   hwPhi ".toList = say "hwPhi" ∧
    tokens "   hwId ".toList = say "hwId" ∧ tokens "      hwZ0 ".toList = say "hwZ0" ∧ tokens "   hwZ0 ".toList = say "hwZ0" ∧ tokens "   hwPtErr ".toList = say "hwPtErr" ∧
    tokens "   hwEmPt ".toList = say "hwEmPt" ∧ tokens "ipattern = ".toList = say "ipattern =" ∧ tokens "Saved ".toList = say "Saved" ∧
    tokens " patterns to ".toList = say "patterns to" := by decide +kernel

theorem lits_hr :
    tokens "   calo  ".toList = say "calo" ∧ tokens "   em    ".toList = say "em" ∧ tokens "   track ".toList = say "track" ∧ tokens "   muon  ".toList = say "muon" ∧
    tokens ", hwPt ".toList = say "hwPt" ∧ tokens "   hwEmPt  ".toList = say "hwEmPt" ∧ tokens "    hwEta ".toList = say "hwEta" ∧
    tokens "   hwIsEM ".toList = say "hwIsEM" ∧ tokens "     hwZ0 ".toList = say "hwZ0" ∧ tokens "   charged pf ".toList = say "charged pf" ∧
    tokens "   muon    pf ".toList = say "muon pf" ∧ tokens "   photon  pf ".toList = say "photon pf" ∧ tokens "   neutral pf ".toList = say "neutral pf" := by decide +kernel

theorem says_begin (e : DumpEvent) : Says (beginMessage e.run e.lumi e.event) [beginLine e] := by
  unfold beginMessage beginLine
  refine Says.line ?_ ?_ ?_
  · simp (discharger := decide) only [List.count_append, count_fmtD]; decide
  · simp only [← List.append_assoc]; exact getLast_lit (by decide)
  · simp (discharger := decide) only [tokens_lit, tokens_num, tokens_num', lits]; simp

theorem says_region (i : Nat) (r : InputRegion) : Says (regionMessage i r) [regionLine i r] := by
  unfold regionMessage regionLine
  refine Says.line ?_ ?_ ?_
  · simp (discharger := decide) only [List.count_append, count_fmtD]; decide
  · simp only [← List.append_assoc]; exact getLast_lit (by decide)
  · simp (discharger := decide) only [tokens_lit, tokens_num, tokens_num', lits]; simp

theorem says_ipattern (ip : BitVec 32) : Says (ipatternMessage ip) [say "ipattern =" ++ [.num ip.toNat]] := by
  unfold ipatternMessage
  refine Says.line ?_ ?_ ?_
  · simp (discharger := decide) only [List.count_append, count_fmtD]; decide
  · simp only [← List.append_assoc]; exact getLast_lit (by decide)
  · simp (discharger := decide) only [tokens_lit, tokens_num, tokens_num', lits]

theorem says_ch (what : String) (hw : what.toList.count '\n' = 0) (i : Nat) (a b : PFChargedObj) :
    Says (ch_message what.toList i a b) [mismatchLine what i (chPairs a b)] := by
  have e : ch_message what.toList i a b = "Mismatch at ".toList ++ (what.toList ++ ("[".toList ++ (fmtN 0 i ++ ("] ref vs test, hwPt ".toList ++
      (fmtS 7 a.hwPt.toInt ++ (" ".toList ++ (fmtS 7 b.hwPt.toInt ++ ("   hwEta ".toList ++ (fmtP 7 a.hwEta.toInt ++ (" ".toList ++ (fmtP 7 b.hwEta.toInt ++
      ("   hwPhi ".toList ++ (fmtP 7 a.hwPhi.toInt ++ (" ".toList ++ (fmtP 7 b.hwPhi.toInt ++ ("   hwId ".toList ++ (fmtN 1 a.hwId.toNat ++ (" ".toList ++
      (fmtN 1 b.hwId.toNat ++ ("      hwZ0 ".toList ++ (fmtP 7 a.hwZ0.toInt ++ (" ".toList ++ (fmtP 7 b.hwZ0.toInt ++ "   \n".toList))))))))))))))))))))))) := by
    unfold ch_message mismatchHead mismatchPair
    simp only [List.append_assoc]
  rw [e]
  unfold mismatchLine chPairs
  refine Says.line ?_ ?_ ?_
  · simp (discharger := decide) only [List.count_append, count_fmtD, hw]; decide
  · simp only [← List.append_assoc]; exact getLast_lit (by decide)
  · have h : ∀ rest, tokens ("Mismatch at ".toList ++ (what.toList ++ ("[".toList ++ rest))) = say "Mismatch at" ++ say what ++ tokens rest := by
      intro rest
      rw [tokens_lit (by decide), show "[".toList ++ rest = '[' :: rest from rfl, tokens_at _ (by decide), ← List.append_assoc]
      congr 1
    rw [h]
    simp (discharger := decide) only [tokens_lit, tokens_num, tokens_num', lits]; simp

theorem says_ne (what : String) (hw : what.toList.count '\n' = 0) (i : Nat) (a b : PFNeutralObj) :
    Says (ne_message what.toList i a b) [mismatchLine what i (nePairs a b)] := by
  have e : ne_message what.toList i a b = "Mismatch at ".toList ++ (what.toList ++ ("[".toList ++ (fmtN 0 i ++ ("] ref vs test, hwPt ".toList ++
      (fmtS 7 a.hwPt.toInt ++ (" ".toList ++ (fmtS 7 b.hwPt.toInt ++ ("   hwEta ".toList ++ (fmtP 7 a.hwEta.toInt ++ (" ".toList ++ (fmtP 7 b.hwEta.toInt ++
      ("   hwPhi ".toList ++ (fmtP 7 a.hwPhi.toInt ++ (" ".toList ++ (fmtP 7 b.hwPhi.toInt ++ ("   hwId ".toList ++ (fmtN 1 a.hwId.toNat ++ (" ".toList ++
      (fmtN 1 b.hwId.toNat ++ " \n".toList))))))))))))))))))) := by
    unfold ne_message mismatchHead mismatchPair
    simp only [List.append_assoc]
  rw [e]
  unfold mismatchLine nePairs
  refine Says.line ?_ ?_ ?_
  · simp (discharger := decide) only [List.count_append, count_fmtD, hw]; decide
  · simp only [← List.append_assoc]; exact getLast_lit (by decide)
  · have h : ∀ rest, tokens ("Mismatch at ".toList ++ (what.toList ++ ("[".toList ++ rest))) = say "Mismatch at" ++ say what ++ tokens rest := by
      intro rest
      rw [tokens_lit (by decide), show "[".toList ++ rest = '[' :: rest from rfl, tokens_at _ (by decide), ← List.append_assoc]
      congr 1
    rw [h]
    simp (discharger := decide) only [tokens_lit, tokens_num, tokens_num', lits]; simp

theorem says_saved (what fname : String) (hw : what.toList.count '\n' = 0) (hf : ∀ c ∈ fname.toList ++ ['.'], isGap c = false)
    (hi : int (fname.toList ++ ['.']) = none) (n : BitVec 32) :
    Says (savedMessage what.toList n fname.toList) [savedLine n.toNat what fname] := by
  have e : savedMessage what.toList n fname.toList = "Saved ".toList ++ (fmtN 0 n.toNat ++ (" ".toList ++ (what.toList ++ (" patterns to ".toList ++
      ((fname.toList ++ ['.']) ++ "\n".toList))))) := by
    unfold savedMessage
    rw [List.append_assoc fname.toList]
    rfl
  have hf' : (fname.toList ++ ['.']).count '\n' = 0 := by
    rw [List.count_eq_zero]
    intro h
    exact absurd (hf _ h) (by decide)
  rw [e]
  unfold savedLine
  refine Says.line ?_ ?_ ?_
  · simp (discharger := decide) only [List.count_append, count_fmtD, hw]
    rw [List.count_append] at hf'
    have : List.count '\n' "Saved ".toList = 0 := by decide
    have : List.count '\n' " ".toList = 0 := by decide
    have : List.count '\n' " patterns to ".toList = 0 := by decide
    have : List.count '\n' "\n".toList = 1 := by decide
    omega
  · simp only [← List.append_assoc]; exact getLast_lit (by decide)
  · have h1 : ∀ rest, tokens (what.toList ++ (" patterns to ".toList ++ rest)) = say what ++ tokens (" patterns to ".toList ++ rest) := by
      intro rest
      exact tokens_left _ (.inr ⟨' ', "patterns to ".toList ++ rest, rfl, by decide⟩)
    have h2 : tokens (fname.toList ++ ['.'] ++ "\n".toList) = [.word (fname.toList ++ ['.'])] := by
      have h3 : tokens (fname.toList ++ ['.'] ++ "\n".toList) = tokens (fname.toList ++ ['.']) ++ tokens "\n".toList :=
        tokens_left _ (.inr ⟨'\n', [], rfl, by decide⟩)
      rw [h3, lits.2.2.2.2.1, List.append_nil, tokens_word hf (by simp)]
      unfold token
      rw [hi]
    simp (discharger := decide) only [tokens_lit, tokens_num, h1, h2, lits]
    simp

theorem says_had (what : String) (hw : what.toList.count '\n' = 0) (i : Nat) (a b : HadCaloObj) :
    Says (had_message what.toList i a b) [mismatchLine what i (hadPairs a b)] := by
  have e : had_message what.toList i a b = "Mismatch at ".toList ++ (what.toList ++ ("[".toList ++ (fmtN 0 i ++ ("] ref vs test, hwPt ".toList ++ (fmtS 7 a.hwPt.toInt ++ (" ".toList ++ (fmtS 7 b.hwPt.toInt ++ ("   hwEmPt ".toList ++ (fmtS 7 (a.hwEmPt.toInt) ++ (" ".toList ++ (fmtS 7 (b.hwEmPt.toInt) ++ ("   hwEta ".toList ++ (fmtP 7 (a.hwEta.toInt) ++ (" ".toList ++ (fmtP 7 (b.hwEta.toInt) ++ ("   hwPhi ".toList ++ (fmtP 7 (a.hwPhi.toInt) ++ (" ".toList ++ (fmtP 7 (b.hwPhi.toInt) ++ ("   hwId ".toList ++ (fmtN 1 (b2i a.hwIsEM) ++ (" ".toList ++ (fmtN 1 (b2i b.hwIsEM) ++ ("\n".toList)))))))))))))))))))))))) := by
    unfold had_message mismatchHead mismatchPair
    simp only [List.append_assoc]
  rw [e]
  unfold mismatchLine hadPairs
  refine Says.line ?_ ?_ ?_
  · simp (discharger := decide) only [List.count_append, count_fmtD, hw]; decide
  · simp only [← List.append_assoc]; exact getLast_lit (by decide)
  · have h : ∀ rest, tokens ("Mismatch at ".toList ++ (what.toList ++ ("[".toList ++ rest))) = say "Mismatch at" ++ say what ++ tokens rest := by
      intro rest
      rw [tokens_lit (by decide), show "[".toList ++ rest = '[' :: rest from rfl, tokens_at _ (by decide), ← List.append_assoc]
      congr 1
    rw [h]
    simp (discharger := decide) only [tokens_lit, tokens_num, tokens_num', lits]; simp [b2i]

theorem says_em (what : String) (hw : what.toList.count '\n' = 0) (i : Nat) (a b : EmCaloObj) :
    Says (em_message what.toList i a b) [mismatchLine what i (emPairs a b)] := by
  have e : em_message what.toList i a b = "Mismatch at ".toList ++ (what.toList ++ ("[".toList ++ (fmtN 0 i ++ ("] ref vs test, hwPt ".toList ++ (fmtS 7 a.hwPt.toInt ++ (" ".toList ++ (fmtS 7 b.hwPt.toInt ++ ("   hwPtErr ".toList ++ (fmtS 7 (a.hwPtErr.toInt) ++ (" ".toList ++ (fmtS 7 (b.hwPtErr.toInt) ++ ("   hwEta ".toList ++ (fmtP 7 (a.hwEta.toInt) ++ (" ".toList ++ (fmtP 7 (b.hwEta.toInt) ++ ("   hwPhi ".toList ++ (fmtP 7 (a.hwPhi.toInt) ++ (" ".toList ++ (fmtP 7 (b.hwPhi.toInt) ++ ("\n".toList)))))))))))))))))))) := by
    unfold em_message mismatchHead mismatchPair
    simp only [List.append_assoc]
  rw [e]
  unfold mismatchLine emPairs
  refine Says.line ?_ ?_ ?_
  · simp (discharger := decide) only [List.count_append, count_fmtD, hw]; decide
  · simp only [← List.append_assoc]; exact getLast_lit (by decide)
  · have h : ∀ rest, tokens ("Mismatch at ".toList ++ (what.toList ++ ("[".toList ++ rest))) = say "Mismatch at" ++ say what ++ tokens rest := by
      intro rest
      rw [tokens_lit (by decide), show "[".toList ++ rest = '[' :: rest from rfl, tokens_at _ (by decide), ← List.append_assoc]
      congr 1
    rw [h]
    simp (discharger := decide) only [tokens_lit, tokens_num, tokens_num', lits]; simp [b2i]

theorem says_track (what : String) (hw : what.toList.count '\n' = 0) (i : Nat) (a b : TkObj) :
    Says (track_message what.toList i a b) [mismatchLine what i (trackPairs a b)] := by
  have e : track_message what.toList i a b = "Mismatch at ".toList ++ (what.toList ++ ("[".toList ++ (fmtN 0 i ++ ("] ref vs test, hwPt ".toList ++ (fmtS 7 a.hwPt.toInt ++ (" ".toList ++ (fmtS 7 b.hwPt.toInt ++ ("   hwPtErr ".toList ++ (fmtS 7 (a.hwPtErr.toInt) ++ (" ".toList ++ (fmtS 7 (b.hwPtErr.toInt) ++ ("   hwEta ".toList ++ (fmtP 7 (a.hwEta.toInt) ++ (" ".toList ++ (fmtP 7 (b.hwEta.toInt) ++ ("   hwPhi ".toList ++ (fmtP 7 (a.hwPhi.toInt) ++ (" ".toList ++ (fmtP 7 (b.hwPhi.toInt) ++ ("   hwZ0 ".toList ++ (fmtP 7 (a.hwZ0.toInt) ++ (" ".toList ++ (fmtP 7 (b.hwZ0.toInt) ++ ("\n".toList)))))))))))))))))))))))) := by
    unfold track_message mismatchHead mismatchPair
    simp only [List.append_assoc]
  rw [e]
  unfold mismatchLine trackPairs
  refine Says.line ?_ ?_ ?_
  · simp (discharger := decide) only [List.count_append, count_fmtD, hw]; decide
  · simp only [← List.append_assoc]; exact getLast_lit (by decide)
  · have h : ∀ rest, tokens ("Mismatch at ".toList ++ (what.toList ++ ("[".toList ++ rest))) = say "Mismatch at" ++ say what ++ tokens rest := by
      intro rest
      rw [tokens_lit (by decide), show "[".toList ++ rest = '[' :: rest from rfl, tokens_at _ (by decide), ← List.append_assoc]
      congr 1
    rw [h]
    simp (discharger := decide) only [tokens_lit, tokens_num, tokens_num', lits]; simp [b2i]

theorem says_mu (what : String) (hw : what.toList.count '\n' = 0) (i : Nat) (a b : MuObj) :
    Says (mu_message what.toList i a b) [mismatchLine what i (muPairs a b)] := by
  have e : mu_message what.toList i a b = "Mismatch at ".toList ++ (what.toList ++ ("[".toList ++ (fmtN 0 i ++ ("] ref vs test, hwPt ".toList ++ (fmtS 7 a.hwPt.toInt ++ (" ".toList ++ (fmtS 7 b.hwPt.toInt ++ ("   hwPtErr ".toList ++ (fmtS 7 (a.hwPtErr.toInt) ++ (" ".toList ++ (fmtS 7 (b.hwPtErr.toInt) ++ ("   hwEta ".toList ++ (fmtP 7 (a.hwEta.toInt) ++ (" ".toList ++ (fmtP 7 (b.hwEta.toInt) ++ ("   hwPhi ".toList ++ (fmtP 7 (a.hwPhi.toInt) ++ (" ".toList ++ (fmtP 7 (b.hwPhi.toInt) ++ ("\n".toList)))))))))))))))))))) := by
    unfold mu_message mismatchHead mismatchPair
    simp only [List.append_assoc]
  rw [e]
  unfold mismatchLine muPairs
  refine Says.line ?_ ?_ ?_
  · simp (discharger := decide) only [List.count_append, count_fmtD, hw]; decide
  · simp only [← List.append_assoc]; exact getLast_lit (by decide)
  · have h : ∀ rest, tokens ("Mismatch at ".toList ++ (what.toList ++ ("[".toList ++ rest))) = say "Mismatch at" ++ say what ++ tokens rest := by
      intro rest
      rw [tokens_lit (by decide), show "[".toList ++ rest = '[' :: rest from rfl, tokens_at _ (by decide), ← List.append_assoc]
      congr 1
    rw [h]
    simp (discharger := decide) only [tokens_lit, tokens_num, tokens_num', lits]; simp [b2i]

/-! ## The dumps of the objects -/

theorem says_hrLines {N : Nat} {T : Type} (line : Nat → T → List Char) (what : String) (fields : T → List (String × Int))
    (h1 : ∀ i o, (line i o).count '\n' = 0)
    (h2 : ∀ (i : Nat) o, tokens (line i o) = say what ++ [.num i] ++ (fields o).flatMap fun f => say f.1 ++ [.num f.2]) (a : Arr N T) :
    Says (hrLines line a) (objectLines what fields a) := by
  unfold hrLines objectLines
  rw [List.map_eq_flatMap]
  refine Says.flatMap (fun i => Says.line ?_ ?_ ?_) _
  · rw [List.count_append, h1]; decide
  · exact getLast_lit (by decide)
  · rw [tokens_at _ (by decide), tokens_nil, List.append_nil, h2]

theorem hr_ne_eq (s : String) (i : Nat) (o : PFNeutralObj) : hr_ne s.toList i o = ("   ".toList ++ s.toList ++ " pf ".toList) ++ (fmtN 3 i ++ (", hwPt ".toList ++ (fmtS 7 o.hwPt.toInt ++
      ("   hwEta ".toList ++ (fmtP 7 o.hwEta.toInt ++ ("   hwPhi ".toList ++ (fmtP 7 o.hwPhi.toInt ++ ("   hwId ".toList ++
      fmtN 1 o.hwId.toNat)))))))) := by
  unfold hr_ne
  simp only [List.append_assoc]

theorem hr_had_line (i : Nat) (o : HadCaloObj) : (hr_had i o).count '\n' = 0 ∧
    tokens (hr_had i o) = say "calo" ++ [.num i] ++ ([("hwPt", o.hwPt.toInt), ("hwEmPt", o.hwEmPt.toInt), ("hwEta", o.hwEta.toInt), ("hwPhi", o.hwPhi.toInt), ("hwIsEM", if o.hwIsEM then 1 else 0)] : List (String × Int)).flatMap fun f => say f.1 ++ [.num f.2] := by
  unfold hr_had
  constructor
  · simp (discharger := decide) only [List.count_append, count_fmtD]; decide
  · simp (discharger := decide) only [List.append_assoc, tokens_lit, tokens_num, tokens_fmtD, lits, lits_hr]
    simp [b2i]

theorem hr_em_line (i : Nat) (o : EmCaloObj) : (hr_em i o).count '\n' = 0 ∧
    tokens (hr_em i o) = say "em" ++ [.num i] ++ ([("hwPt", o.hwPt.toInt), ("hwPtErr", o.hwPtErr.toInt), ("hwEta", o.hwEta.toInt), ("hwPhi", o.hwPhi.toInt)] : List (String × Int)).flatMap fun f => say f.1 ++ [.num f.2] := by
  unfold hr_em
  constructor
  · simp (discharger := decide) only [List.count_append, count_fmtD]; decide
  · simp (discharger := decide) only [List.append_assoc, tokens_lit, tokens_num, tokens_fmtD, lits, lits_hr]
    simp [b2i]

theorem hr_track_line (i : Nat) (o : TkObj) : (hr_track i o).count '\n' = 0 ∧
    tokens (hr_track i o) = say "track" ++ [.num i] ++ ([("hwPt", o.hwPt.toInt), ("hwPtErr", o.hwPtErr.toInt), ("hwEta", o.hwEta.toInt), ("hwPhi", o.hwPhi.toInt), ("hwZ0", o.hwZ0.toInt)] : List (String × Int)).flatMap fun f => say f.1 ++ [.num f.2] := by
  unfold hr_track
  constructor
  · simp (discharger := decide) only [List.count_append, count_fmtD]; decide
  · simp (discharger := decide) only [List.append_assoc, tokens_lit, tokens_num, tokens_fmtD, lits, lits_hr]
    simp [b2i]

theorem hr_mu_line (i : Nat) (o : MuObj) : (hr_mu i o).count '\n' = 0 ∧
    tokens (hr_mu i o) = say "muon" ++ [.num i] ++ ([("hwPt", o.hwPt.toInt), ("hwPtErr", o.hwPtErr.toInt), ("hwEta", o.hwEta.toInt), ("hwPhi", o.hwPhi.toInt)] : List (String × Int)).flatMap fun f => say f.1 ++ [.num f.2] := by
  unfold hr_mu
  constructor
  · simp (discharger := decide) only [List.count_append, count_fmtD]; decide
  · simp (discharger := decide) only [List.append_assoc, tokens_lit, tokens_num, tokens_fmtD, lits, lits_hr]
    simp [b2i]

theorem hr_ch_line (i : Nat) (o : PFChargedObj) : (hr_ch i o).count '\n' = 0 ∧
    tokens (hr_ch i o) = say "charged pf" ++ [.num i] ++ ([("hwPt", o.hwPt.toInt), ("hwEta", o.hwEta.toInt), ("hwPhi", o.hwPhi.toInt), ("hwId", o.hwId.toNat), ("hwZ0", o.hwZ0.toInt)] : List (String × Int)).flatMap fun f => say f.1 ++ [.num f.2] := by
  unfold hr_ch
  constructor
  · simp (discharger := decide) only [List.count_append, count_fmtD]; decide
  · simp (discharger := decide) only [List.append_assoc, tokens_lit, tokens_num, tokens_fmtD, lits, lits_hr]
    simp [b2i]

theorem hr_pho_line (i : Nat) (o : PFNeutralObj) : (hr_ne "photon ".toList i o).count '\n' = 0 ∧
    tokens (hr_ne "photon ".toList i o) = say "photon pf" ++ [.num i] ++ ([("hwPt", o.hwPt.toInt), ("hwEta", o.hwEta.toInt), ("hwPhi", o.hwPhi.toInt), ("hwId", o.hwId.toNat)] : List (String × Int)).flatMap fun f => say f.1 ++ [.num f.2] := by
  rw [hr_ne_eq, show "   ".toList ++ "photon ".toList ++ " pf ".toList = "   photon  pf ".toList by decide]
  constructor
  · simp (discharger := decide) only [List.count_append, count_fmtD]; decide
  · simp (discharger := decide) only [List.append_assoc, tokens_lit, tokens_num, tokens_fmtD, lits, lits_hr]
    simp [b2i]

theorem hr_neu_line (i : Nat) (o : PFNeutralObj) : (hr_ne "neutral".toList i o).count '\n' = 0 ∧
    tokens (hr_ne "neutral".toList i o) = say "neutral pf" ++ [.num i] ++ ([("hwPt", o.hwPt.toInt), ("hwEta", o.hwEta.toInt), ("hwPhi", o.hwPhi.toInt), ("hwId", o.hwId.toNat)] : List (String × Int)).flatMap fun f => say f.1 ++ [.num f.2] := by
  rw [hr_ne_eq, show "   ".toList ++ "neutral".toList ++ " pf ".toList = "   neutral pf ".toList by decide]
  constructor
  · simp (discharger := decide) only [List.count_append, count_fmtD]; decide
  · simp (discharger := decide) only [List.append_assoc, tokens_lit, tokens_num, tokens_fmtD, lits, lits_hr]
    simp [b2i]

theorem hr_pfmu_line (i : Nat) (o : PFChargedObj) : (hr_pfmu i o).count '\n' = 0 ∧
    tokens (hr_pfmu i o) = say "muon pf" ++ [.num i] ++ ([("hwPt", o.hwPt.toInt), ("hwEta", o.hwEta.toInt), ("hwPhi", o.hwPhi.toInt), ("hwId", o.hwId.toNat)] : List (String × Int)).flatMap fun f => say f.1 ++ [.num f.2] := by
  unfold hr_pfmu
  constructor
  · simp (discharger := decide) only [List.count_append, count_fmtD]; decide
  · simp (discharger := decide) only [List.append_assoc, tokens_lit, tokens_num, tokens_fmtD, lits, lits_hr]
    simp [b2i]

theorem says_inputs (inp : PFInputs NT NC NE NM) : Says (hr_inputs inp) (inputLines inp) := by
  unfold hr_inputs inputLines
  exact ((Says.append (says_hrLines _ _ _ (fun i o => (hr_had_line i o).1) (fun i o => (hr_had_line i o).2) _) (says_hrLines _ _ _ (fun i o => (hr_em_line i o).1) (fun i o => (hr_em_line i o).2) _)).append
    (says_hrLines _ _ _ (fun i o => (hr_track_line i o).1) (fun i o => (hr_track_line i o).2) _)).append (says_hrLines _ _ _ (fun i o => (hr_mu_line i o).1) (fun i o => (hr_mu_line i o).2) _)

theorem says_outputs (out : PFOutputs NT NE NS NM) : Says (hr_outputs out) (outputLines out) := by
  unfold hr_outputs outputLines
  exact ((Says.append (says_hrLines _ _ _ (fun i o => (hr_ch_line i o).1) (fun i o => (hr_ch_line i o).2) _) (says_hrLines _ _ _ (fun i o => (hr_pho_line i o).1) (fun i o => (hr_pho_line i o).2) _)).append
    (says_hrLines _ _ _ (fun i o => (hr_neu_line i o).1) (fun i o => (hr_neu_line i o).2) _)).append (says_hrLines _ _ _ (fun i o => (hr_pfmu_line i o).1) (fun i o => (hr_pfmu_line i o).2) _)

/-! ## The comparison -/

theorem compareList_eq {T : Type} {N : Nat} (equals : T → T → Bool) (message : Nat → T → T → List Char) (pt : T → Pt) (ref out : Arr N T)
    (st : List Char × Nat × Nat) :
    compareList equals message pt ref out st =
      ((st.1 ++ ((List.finRange N).filter fun i => !equals (ref i) (out i)).flatMap (fun i => message i.val (ref i) (out i)),
        st.2.1 + ((List.finRange N).filter fun i => !equals (ref i) (out i)).length, st.2.2 + nonEmpty pt ref), nonEmpty pt ref) := by
  have key : ∀ (l : List (Fin N)) (st : List Char × Nat × Nat) (k : Nat), l.foldl (fun (st : (List Char × Nat × Nat) × Nat) i =>
      let st := if !equals (ref i) (out i) then ((st.1.1 ++ message i.val (ref i) (out i), st.1.2.1 + 1, st.1.2.2), st.2) else st
      if (pt (ref i)).toInt > 0 then ((st.1.1, st.1.2.1, st.1.2.2 + 1), st.2 + 1) else st) (st, k) =
      ((st.1 ++ (l.filter fun i => !equals (ref i) (out i)).flatMap (fun i => message i.val (ref i) (out i)),
        st.2.1 + (l.filter fun i => !equals (ref i) (out i)).length, st.2.2 + l.countP fun i => decide (0 < (pt (ref i)).toInt)),
        k + l.countP fun i => decide (0 < (pt (ref i)).toInt)) := by
    intro l
    induction l with
    | nil => intro st k; simp
    | cons a l ih =>
      intro st k
      rw [List.foldl_cons]
      by_cases h1 : equals (ref a) (out a) = true <;> by_cases h2 : (pt (ref a)).toInt > 0
      · have h2' : 0 < (pt (ref a)).toInt := h2
        simp only [h1, Bool.not_true, Bool.false_eq_true, if_false, h2, if_true, ih, List.filter_cons, List.countP_cons, h2', decide_true]
        simp only [Prod.mk.injEq]
        refine ⟨⟨trivial, trivial, ?_⟩, ?_⟩ <;> omega
      · have h2' : ¬ 0 < (pt (ref a)).toInt := h2
        simp only [h1, Bool.not_true, Bool.false_eq_true, if_false, h2, ih, List.filter_cons, List.countP_cons, h2', decide_false, Nat.add_zero]
      · have h2' : 0 < (pt (ref a)).toInt := h2
        rw [Bool.not_eq_true] at h1
        simp only [h1, Bool.not_false, if_true, h2, ih, List.filter_cons, List.countP_cons, h2', decide_true, List.flatMap_cons, List.length_cons,
          List.append_assoc]
        simp only [Prod.mk.injEq]
        refine ⟨⟨trivial, ?_, ?_⟩, ?_⟩ <;> omega
      · have h2' : ¬ 0 < (pt (ref a)).toInt := h2
        rw [Bool.not_eq_true] at h1
        simp only [h1, Bool.not_false, if_true, h2, if_false, ih, List.filter_cons, List.countP_cons, h2', decide_false, List.flatMap_cons, List.length_cons,
          List.append_assoc, Bool.false_eq_true, Nat.add_zero]
        simp only [Prod.mk.injEq]
        refine ⟨⟨trivial, ?_, trivial⟩, trivial⟩
        omega
  unfold compareList loop
  rw [key]
  unfold nonEmpty
  rw [Nat.zero_add]

theorem says_mismatches {T : Type} {N : Nat} {equals : T → T → Bool} {same : T → T → Prop} (he : ∀ a b, equals a b = true ↔ same a b)
    {message : Nat → T → T → List Char} {what : String} {pairs : T → T → List (String × Int × Int)}
    (hm : ∀ i a b, Says (message i a b) [mismatchLine what i (pairs a b)]) (ref out : Arr N T) :
    Says (((List.finRange N).filter fun i => !equals (ref i) (out i)).flatMap fun i => message i.val (ref i) (out i)) (mismatches same what pairs ref out) ∧
      ((List.finRange N).filter fun i => !equals (ref i) (out i)).length = (mismatches same what pairs ref out).length := by
  have e : mismatches same what pairs ref out =
      ((List.finRange N).filter fun i => !equals (ref i) (out i)).map fun i => mismatchLine what i.val (pairs (ref i) (out i)) := by
    unfold mismatches
    generalize List.finRange N = l
    induction l with
    | nil => rfl
    | cons a l ih =>
      rw [List.filterMap_cons, List.filter_cons]
      by_cases h : same (ref a) (out a)
      · rw [if_pos h, (he _ _).mpr h]
        exact ih
      · rw [if_neg h]
        have : equals (ref a) (out a) = false := by
          cases h' : equals (ref a) (out a) with
          | false => rfl
          | true => exact absurd ((he _ _).mp h') h
        rw [this]
        simp only [Bool.not_false, if_true, List.map_cons]
        rw [ih]
  rw [e]
  refine ⟨?_, by rw [List.length_map]⟩
  rw [List.map_eq_flatMap]
  exact Says.flatMap (fun i => hm _ _ _) _

theorem mismatches_nil {T : Type} {N : Nat} {same : T → T → Prop} {what : String} {pairs : T → T → List (String × Int × Int)} (ref out : Arr N T) :
    mismatches same what pairs ref out = [] ↔ ∀ i, same (ref i) (out i) := by
  unfold mismatches
  rw [List.filterMap_eq_nil_iff]
  constructor
  · intro h i
    have := h i (List.mem_finRange i)
    by_contra hc
    rw [if_neg hc] at this
    cases this
  · intro h i _
    rw [if_pos (h i)]

theorem allMismatches_nil (ref out : PFOutputs NT NE NS NM) : allMismatches ref out = [] ↔ Agree ref out := by
  unfold allMismatches
  simp only [List.append_eq_nil_iff, mismatches_nil]
  exact ⟨fun ⟨⟨⟨a, b⟩, c⟩, d⟩ => ⟨a, b, c, d⟩, fun h => ⟨⟨⟨h.charged, h.photon⟩, h.neutral⟩, h.muon⟩⟩

theorem says_validation (test : Nat) (inp : PFInputs NT NC NE NM) (ref out : PFOutputs NT NE NS NM) :
    Says (validation test inp ref out).1 (verdictLines test inp ref out) ∧ ((validation test inp ref out).2 ≠ 0 ↔ ¬ Agree ref out) := by
  obtain ⟨_, _, _, _, hch, hne⟩ := C47_equals_iff
  obtain ⟨a1, a2⟩ := says_mismatches hch (says_ch "PF Charged" (by decide)) ref.outch out.outch
  obtain ⟨b1, b2⟩ := says_mismatches hne (says_ne "Photon" (by decide)) ref.outpho out.outpho
  obtain ⟨c1, c2⟩ := says_mismatches hne (says_ne "PF Neutral" (by decide)) ref.outne out.outne
  obtain ⟨d1, d2⟩ := says_mismatches hch (says_ch "PF Muon" (by decide)) ref.outmu out.outmu
  have hl : (allMismatches ref out).length = 0 ↔ Agree ref out := by rw [List.length_eq_zero_iff, allMismatches_nil]
  have hs := ((a1.append b1).append c1).append d1
  have hlen : (allMismatches ref out).length = (mismatches (SameObj PFChargedObj.hwPt chFields) "PF Charged" chPairs ref.outch out.outch).length +
      (mismatches (SameObj PFNeutralObj.hwPt neFields) "Photon" nePairs ref.outpho out.outpho).length +
      (mismatches (SameObj PFNeutralObj.hwPt neFields) "PF Neutral" nePairs ref.outne out.outne).length +
      (mismatches (SameObj PFChargedObj.hwPt chFields) "PF Muon" chPairs ref.outmu out.outmu).length := by
    unfold allMismatches
    simp only [List.length_append]
  unfold validation
  simp only [compareList_eq, List.nil_append, Nat.zero_add, a2, b2, c2, d2, ← hlen]
  unfold verdictLines
  simp only []
  by_cases h : Agree ref out
  · have h0 := hl.mpr h
    have hn := (allMismatches_nil ref out).mpr h
    rw [if_neg (by omega), if_pos hn]
    refine ⟨?_, by simp [h0, h]⟩
    have := hs
    change Says _ (allMismatches ref out) at this
    rw [hn] at this
    refine Says.append this ?_
    unfold passedLine
    refine Says.line ?_ ?_ ?_
    · simp (discharger := decide) only [List.count_append, count_fmtD]; decide
    · simp only [← List.append_assoc]; exact getLast_lit (by decide)
    · simp (discharger := decide) only [tokens_lit, tokens_num, tokens_num', lits]; simp
  · have h0 : (allMismatches ref out).length ≠ 0 := fun e => h (hl.mp e)
    have hn : allMismatches ref out ≠ [] := fun e => h ((allMismatches_nil ref out).mp e)
    rw [if_pos h0, if_neg hn]
    refine ⟨?_, by simp [h0, h]⟩
    have hline : ∀ s : String, s.toList.count '\n' = 1 → s.toList.getLast? = some '\n' → Says s.toList [tokens s.toList] :=
      fun s h1 h2 => Says.line h1 h2 rfl
    have e1 : Says ("Error in computing test ".toList ++ (fmtN 0 test ++ (" (".toList ++ (fmtN 0 (allMismatches ref out).length ++ ")\n".toList))))
        [errorLine test (allMismatches ref out).length] := by
      unfold errorLine
      refine Says.line ?_ ?_ ?_
      · simp (discharger := decide) only [List.count_append, count_fmtD]; decide
      · simp only [← List.append_assoc]; exact getLast_lit (by decide)
      · simp (discharger := decide) only [tokens_lit, tokens_num, tokens_num', lits]; simp
    have i1 : Says "Inputs: \n".toList [say "Inputs"] := by
      have := hline "Inputs: \n" (by decide) (by decide)
      rwa [show tokens "Inputs: \n".toList = say "Inputs" by decide +kernel] at this
    have i2 : Says "Reference output: \n".toList [say "Reference output"] := by
      have := hline "Reference output: \n" (by decide) (by decide)
      rwa [show tokens "Reference output: \n".toList = say "Reference output" by decide +kernel] at this
    have i3 : Says "Current output: \n".toList [say "Current output"] := by
      have := hline "Current output: \n" (by decide) (by decide)
      rwa [show tokens "Current output: \n".toList = say "Current output" by decide +kernel] at this
    have := (((((((Says.append hs e1).append i1).append (says_inputs inp)).append i2).append (says_outputs ref)).append i3).append (says_outputs out))
    simpa [allMismatches, List.append_assoc] using this

end Lines
end Verif
