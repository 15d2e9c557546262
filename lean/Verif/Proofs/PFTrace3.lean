import Verif.Proofs.PFTrace2
import Verif.Proofs.PFGhosts
/-! # Lemmas: the debugging text says what the specification decides -/
namespace Verif
open Spec

variable {NT NC NE NM NS : Nat}

/-! ## Muons and EM clusters -/

theorem trace_muons (inp : PFInputs NT NC NE NM) (m : Fin NM) : Traces (debug_mu inp.track m.val (inp.mu m)) (muTrace inp m) := by
  unfold debug_mu muTrace
  by_cases hp : 0 < (inp.mu m).hwPt.toInt
  · have hm : ∀ t, mu_ref_best (inp.mu m) inp.track = some t ↔ MuMatch inp m t := fun t =>
      (mu_ref_best_iff _ _ t).trans ⟨fun h => ⟨hp, h⟩, fun h => h.2⟩
    rw [if_pos hp, forAll_unique hm]
    generalize mu_ref_best (inp.mu m) inp.track = o at hm
    cases o with
    | some t =>
      rw [lineIf_neg (fun h => h.2 ⟨t, (hm t).mp rfl⟩)]
      show Traces _ [_]
      read_line
    | none =>
      rw [lineIf_pos ⟨hp, fun ⟨t, ht⟩ => by have := (hm t).mpr ht; cases this⟩]
      show Traces _ [_]
      read_line
  · rw [if_neg hp, forAll_unique (o := none) (fun t => ⟨fun h => (by cases h), fun h => absurd h.1 hp⟩), lineIf_neg (fun h => hp h.1)]
    exact Traces.nil

theorem trace_tkem (inp : PFInputs NT NC NE NM) {isMu : Arr NT Bool} (hmu : ∀ t, isMu t = true ↔ IsMu inp t) (t : Fin NT) :
    Traces (debug_tkem inp.emcalo t.val (inp.track t) (refTk2em inp isMu t)) (tkEmTrace inp t) := by
  unfold debug_tkem tkEmTrace
  rw [forAll_unique (refTk2em_iff hmu t)]
  cases refTk2em inp isMu t with
  | none => exact Traces.nil
  | some c =>
    show Traces _ [_]
    read_line

theorem sum_toInt {inp : PFInputs NT NC NE NM} {v : Variant} (hv : Valid inp v) (c : Fin NE) : (reg 16 (emTrackPt inp c)).toInt = emTrackPt inp c := by
  have h0 := emTrackPt_nonneg inp hv.trackPt c
  have h1 := hv.emSum c
  exact reg16_toInt (by omega) (by omega)

theorem trace_sumtk {inp : PFInputs NT NC NE NM} {v : Variant} (hv : Valid inp v) (c : Fin NE) :
    Traces (debug_sumtk c.val (inp.emcalo c) (reg 16 (emTrackPt inp c))) (sumTrace inp c) := by
  unfold debug_sumtk sumTrace
  rw [sum_toInt hv]
  by_cases hp : 0 < (inp.emcalo c).hwPt.toInt
  · rw [if_pos hp, lineIf_pos hp]
    read_line
  · rw [if_neg hp, lineIf_neg hp]
    exact Traces.nil

/-- A sign in the text before a number. -/
theorem rd_sign {F : DebugText} {lit lit2 rest : List Char} {c : Char} {s : String} {x y tol : ℝ} {ps : List Piece} (h1 : isGap (lit.getLastD 'x') = true)
    (h : tokens lit = say s) (hp : Plain (c :: F.word [] x)) (hc : Cents (c :: F.word [] x) y tol) (h2 : isGap (lit2.headD 'x') = true)
    (hr : LineReads ps (tokens (lit2 ++ rest))) :
    LineReads (.say s :: .dec y tol :: ps) (tokens ((lit ++ [c]) ++ (F.fmtF [] 0 x ++ (lit2 ++ rest)))) := by
  have e : F.fmtF [] 0 x = F.word [] x := by
    show List.replicate (0 - _) ' ' ++ _ = _
    rw [Nat.zero_sub]
    rfl
  refine ⟨_, ?_, c :: F.word [] x, _, rfl, hc, hr⟩
  rw [e, List.append_assoc, tokens_lit h1, h, ← hp.tokens_append (gapHead h2 rest)]
  rfl

theorem window_lits : " [match window: -".toList = " [match window: ".toList ++ ['-'] ∧ " / +".toList = " / ".toList ++ ['+'] := by decide

theorem rd_window {F : DebugText} (A : PrintsCents F) {lo hi : Int} (l0 : 0 ≤ lo) (l1 : lo ≤ 2 ^ 31) (h0 : 0 ≤ hi) (h1 : hi ≤ 2 ^ 31) {rest : List Char}
    {ps : List Piece} (hr : LineReads ps (tokens rest)) :
    LineReads (.say "match window" :: rootPiece (-1) lo :: .say "/" :: rootPiece 1 hi :: .say "flagged as" :: ps)
      (tokens (" [match window: -".toList ++ (F.fmtF [] 0 (F.sqrt lo) ++ (" / +".toList ++ (F.fmtF [] 0 (F.sqrt hi) ++ ("] flagged as ".toList ++ rest)))))) := by
  obtain ⟨a1, a2, _⟩ := root_cents_neg A l0 l1
  obtain ⟨_, _, b3⟩ := root_cents_neg A h0 h1
  rw [window_lits.1, window_lits.2]
  refine rd_sign (by decide) (by decide +kernel) a1 a2 (by decide) ?_
  refine rd_sign (by decide) (by decide +kernel) ?_ ?_ (by decide) ?_
  · rw [b3]; exact F.plain_word (.inr rfl) _
  · rw [b3, one_mul]; exact A.cents (.inr rfl) (root_near A.ieee h0 h1).2
  · exact rd_say (by decide) (by decide +kernel) hr

theorem trace_window {F : DebugText} (A : PrintsCents F) (ic : Nat) (em : EmCaloObj) (ptdiff : Pt) {lo hi : Int} (l0 : 0 ≤ lo) (l1 : lo ≤ 2 ^ 31) (h0 : 0 ≤ hi)
    (h1 : hi ≤ 2 ^ 31) {rest : List Char} {ps : List Piece} (hr : LineReads ps (tokens rest)) (c1 : rest.count '\n' = 1) (c2 : rest.getLast? = some '\n') :
    Traces (F.window ic em ptdiff lo hi rest) [[.say "FW \t emcalo", .int ic, .say "pt", .int em.hwPt.toInt, .say "ptdiff", .int ptdiff.toInt,
      .say "match window", rootPiece (-1) lo, .say "/", rootPiece 1 hi] ++ .say "flagged as" :: ps] := by
  unfold DebugText.window
  refine Traces.line ?_ ?_ ?_
  · simp (discharger := decide) only [List.count_append, count_fmtD, count_fmtF, c1]; decide
  · simp only [← List.append_assoc]; exact getLast_lit c2
  · simp only [List.cons_append, List.nil_append]
    refine rd_say (by decide) (by decide +kernel) ?_
    refine rd_int (by decide) (by decide) _ ?_
    refine rd_say (by decide) (by decide +kernel) ?_
    refine rd_int (by decide) (by decide) _ ?_
    refine rd_say (by decide) (by decide +kernel) ?_
    refine rd_int (by decide) (by decide) _ ?_
    exact rd_window A l0 l1 h0 h1 hr

theorem trace_emalgo {F : DebugText} (A : PrintsCents F) {inp : PFInputs NT NC NE NM} {v : Variant} (hv : Valid inp v) (c : Fin NE) :
    Traces (F.emalgo c.val (inp.emcalo c) (reg 16 (emTrackPt inp c))) (emTrace inp c) := by
  have h0 := emTrackPt_nonneg inp hv.trackPt c
  have h1 := hv.emSum c
  have p0 := hv.emPt c
  have p1 := pt_range (inp.emcalo c).hwPt
  unfold DebugText.emalgo emTrace
  rw [sum_toInt hv]
  by_cases hz : emTrackPt inp c = 0
  · rw [if_neg (by omega), lineIf_neg (fun h => h hz), List.nil_append]
    by_cases hp : 0 < (inp.emcalo c).hwPt.toInt
    · rw [if_pos hp, lineIf_pos ⟨hz, hp⟩]
      read_line
    · rw [if_neg hp, lineIf_neg (fun h => hp h.2)]
      exact Traces.nil
  · rw [if_pos (by omega), lineIf_pos hz, lineIf_neg (fun h => hz h.1), List.append_nil]
    have hd : (reg 16 ((inp.emcalo c).hwPt.toInt - emTrackPt inp c)).toInt = emDiff inp c := by
      rw [reg16_toInt (by omega) (by omega)]; rfl
    have he : (inp.emcalo c).hwPtErr.toInt * (inp.emcalo c).hwPtErr.toInt = emErr2 inp c := by unfold emErr2; ring
    have hshr : shr (emErr2 inp c) 1 = emErr2 inp c / 2 := rfl
    have he0 : 0 ≤ emErr2 inp c := by unfold emErr2; positivity
    have he1 := hv.emErr c hz
    have hhi : emErr2 inp c + emErr2 inp c / 2 = 3 * emErr2 inp c / 2 := by omega
    simp only [he, hshr, hhi]
    have key := fun (rest : List Char) (ps : List Piece) (hr : LineReads ps (tokens rest)) => trace_window A c.val (inp.emcalo c)
      (reg 16 ((inp.emcalo c).hwPt.toInt - emTrackPt inp c)) (lo := 4 * emErr2 inp c) (hi := 3 * emErr2 inp c / 2) (by omega) (by omega) (by omega) (by omega) hr
    simp only [hd] at key ⊢
    have sq : emDiff inp c ^ 2 = emDiff inp c * emDiff inp c := by ring
    have hdec : ∀ d : Int, d = emDiff inp c * emDiff inp c → (d ≤ 3 * emErr2 inp c / 2 ↔ ¬ 3 * emErr2 inp c < 2 * d) := by intro d _; omega
    have hlo := hdec _ rfl
    by_cases hE : IsEM inp c
    · rw [if_neg (show ¬ ¬ IsEM inp c from fun h => h hE)]
      have hE' : 0 < emDiff inp c ∨ (emDiff inp c < 0 ∧ emDiff inp c * emDiff inp c < 4 * emErr2 inp c) := by
        rcases hE with h | h | h
        · exact absurd h hz
        · exact .inl h
        · rw [sq] at h; exact .inr h
      by_cases hs : 0 < emDiff inp c ∧ 3 * emErr2 inp c < 2 * emDiff inp c ^ 2
      · have hpho : photonPt inp c = emDiff inp c := by unfold photonPt; rw [if_neg hz, if_pos hs]
        have n1 : ¬ ((emDiff inp c > 0 ∧ emDiff inp c * emDiff inp c ≤ 3 * emErr2 inp c / 2) ∨
            (emDiff inp c < 0 ∧ emDiff inp c * emDiff inp c < 4 * emErr2 inp c)) := by
          rintro (⟨_, h⟩ | ⟨h, _⟩)
          · rw [sq] at hs; exact hlo.mp h hs.2
          · omega
        rw [hpho, if_neg (by omega : ¬ emDiff inp c = 0), if_neg n1, if_pos hs.1]
        refine key _ _ ?_ ?_ ?_
        · refine rd_say (by decide) (by decide +kernel) ?_
          exact rd_int' (by decide) (by decide) _ (rd_nil (by decide +kernel))
        · simp (discharger := decide) only [List.count_append, count_fmtD]; decide
        · simp only [← List.append_assoc]; exact getLast_lit (by decide)
      · have hpho : photonPt inp c = 0 := by unfold photonPt; rw [if_neg hz, if_neg hs]
        have n1 : (emDiff inp c > 0 ∧ emDiff inp c * emDiff inp c ≤ 3 * emErr2 inp c / 2) ∨
            (emDiff inp c < 0 ∧ emDiff inp c * emDiff inp c < 4 * emErr2 inp c) := by
          rcases hE' with h | h
          · exact .inl ⟨h, hlo.mpr (fun hh => hs ⟨h, by rw [sq]; exact hh⟩)⟩
          · exact .inr h
        rw [hpho, if_pos rfl, if_pos n1]
        exact key _ _ (rd_last (by decide +kernel)) (by decide) (by decide)
    · rw [if_pos (show ¬ IsEM inp c from hE)]
      have hn : ¬ (emDiff inp c > 0) := fun h => hE (.inr (.inl h))
      have n1 : ¬ ((emDiff inp c > 0 ∧ emDiff inp c * emDiff inp c ≤ 3 * emErr2 inp c / 2) ∨
          (emDiff inp c < 0 ∧ emDiff inp c * emDiff inp c < 4 * emErr2 inp c)) := by
        rintro (⟨h, _⟩ | h)
        · exact hn h
        · exact hE (.inr (.inr ⟨h.1, by rw [sq]; exact h.2⟩))
      rw [if_neg n1, if_neg hn]
      exact key _ _ (rd_last (by decide +kernel)) (by decide) (by decide)

theorem flag_iff {b : Bool} {P : Prop} (h : b = true ↔ P) : (b2i b : Int) = flag P := by
  rw [flag_b2i, propext h]

theorem trace_ele {inp : PFInputs NT NC NE NM} (t : Fin NT) {b : Bool} (hb : b = true ↔ 0 < (inp.track t).hwPt.toInt ∧ IsEle inp t) :
    Traces (debug_ele t.val (inp.track t) b) (eleTrace inp t) := by
  unfold debug_ele eleTrace
  cases b with
  | false =>
    rw [lineIf_neg (fun h => by have := hb.mpr h; cases this)]
    exact Traces.nil
  | true =>
    rw [lineIf_pos (hb.mp rfl)]
    show Traces _ [_]
    simp only [if_true]
    read_line

theorem trace_emhad (inp : PFInputs NT NC NE NM) (c : Fin NE) {b : Bool} (hb : b = true ↔ IsEM inp c) {o : Option (Fin NC)}
    (ho : ∀ h, o = some h ↔ HadMatch inp c h) : Traces (debug_emhad inp.hadcalo c.val (inp.emcalo c) b o) (emHadTrace inp c) := by
  unfold debug_emhad emHadTrace
  simp only []
  rw [flag_iff hb]
  by_cases hp : 0 < (inp.emcalo c).hwPt.toInt
  · rw [if_pos hp, forAll_unique (fun h => (ho h).trans ⟨fun x => ⟨hp, x⟩, fun x => x.2⟩)]
    cases o with
    | some h =>
      rw [lineIf_neg (fun x => x.2 ⟨h, (ho h).mp rfl⟩)]
      show Traces _ [_]
      simp only [Option.elim_some, flag_b2i]
      read_line
    | none =>
      rw [lineIf_pos ⟨hp, fun ⟨h, hh⟩ => by have := (ho h).mpr hh; cases this⟩]
      show Traces _ [_]
      simp only [Option.elim_none]
      read_line
  · rw [if_neg hp, forAll_unique (o := none) (fun t => ⟨fun h => (by cases h), fun h => absurd h.1 hp⟩), lineIf_neg (fun h => hp h.1)]
    exact Traces.nil

theorem trace_hadsub {inp : PFInputs NT NC NE NM} (hv : Valid inp refVariant) (h : Fin NC) {keep : Bool} (hk : keep = true ↔ HasHadronicEM inp h) :
    Traces (debug_hadsub h.val (inp.hadcalo h) (reg 16 (emSub inp h)) keep) (hadTrace inp h) := by
  have s0 := emSub_nonneg hv.emPt h
  have s1 := hv.subSum h
  have p0 := hv.hadPt h
  have e0 := hv.hadEmPt h
  have p1 := pt_range (inp.hadcalo h).hwPt
  have e1 := pt_range (inp.hadcalo h).hwEmPt
  unfold debug_hadsub hadTrace
  simp only []
  have hsub : (reg 16 (emSub inp h)).toInt = emSub inp h := reg16_toInt (by omega) (by omega)
  rw [hsub]
  have d1 : (reg 16 ((inp.hadcalo h).hwPt.toInt - emSub inp h)).toInt = (inp.hadcalo h).hwPt.toInt - emSub inp h := reg16_toInt (by omega) (by omega)
  have d2 : (reg 16 ((inp.hadcalo h).hwEmPt.toInt - emSub inp h)).toInt = (inp.hadcalo h).hwEmPt.toInt - emSub inp h := reg16_toInt (by omega) (by omega)
  rw [d1, d2]
  have q1 : shr (inp.hadcalo h).hwPt.toInt 4 = (inp.hadcalo h).hwPt.toInt / 16 := rfl
  have q2 : shr (inp.hadcalo h).hwEmPt.toInt 3 = (inp.hadcalo h).hwEmPt.toInt / 8 := rfl
  rw [q1, q2, flag_iff hk, flag_b2i]
  by_cases hp : 0 < (inp.hadcalo h).hwPt.toInt
  · rw [if_pos hp, lineIf_pos hp]
    refine Traces.append (by read_line) ?_
    by_cases hs : 16 * ((inp.hadcalo h).hwPt.toInt - emSub inp h) ≤ (inp.hadcalo h).hwPt.toInt
    · rw [if_pos (by omega), lineIf_pos ⟨hp, hs⟩, lineIf_neg (fun x => x.2.1 hs), List.append_nil]
      read_line
    · rw [if_neg (by omega), lineIf_neg (fun x => hs x.2), List.nil_append]
      by_cases hr : Removed inp refVariant h
      · rw [lineIf_pos ⟨hp, hs, hr⟩, if_pos]
        · read_line
        · rcases hr with hr | ⟨r1, r2, r3⟩
          · exact absurd hr hs
          · refine ⟨⟨r1, by omega⟩, ?_⟩
            cases keep with
            | false => rfl
            | true => exact absurd ⟨rfl, hk.mp rfl⟩ r3
      · rw [lineIf_neg (fun x => hr x.2.2), if_neg]
        · exact Traces.nil
        · rintro ⟨⟨r1, r2⟩, r3⟩
          refine hr (.inr ⟨r1, by omega, fun x => ?_⟩)
          have := hk.mpr x.2
          rw [r3] at this
          cases this
  · rw [if_neg hp, lineIf_neg hp, lineIf_neg (fun x => hp x.1), lineIf_neg (fun x => hp x.1)]
    exact Traces.nil

end Verif
