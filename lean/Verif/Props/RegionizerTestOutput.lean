import Verif.Proofs.RegionizerTestOutput
/-! # C72: what the regionizer test bench prints

The standard output of `regionizer_test`, read as lines of words and numbers: the configuration, a line per passed test,
the reason of the exit, and in the MP7 build what the destructors say. -/
namespace Verif
open Spec
variable {sz : RegSizes} {NC NE NT NM : Nat}

/-- **C72.** The report on any two results: for each region and class of objects the first slot that differs, with the
fields of both objects; then "Passed" if there is none, else how many there are and all the calorimeter clusters.  The
number is the error count of the exit status. -/
theorem C72_report (test : Nat) (calo_in : Arr N_IN_SECTORS (Arr sz.calo HadCaloObj)) (calo caloRef : Arr N_OUT_REGIONS (Arr NC HadCaloObj))
    (em emRef : Arr N_OUT_REGIONS (Arr NE EmCaloObj)) (track trackRef : Arr N_OUT_REGIONS (Arr NT TkObj)) (mu muRef : Arr N_OUT_REGIONS (Arr NM MuObj)) :
    report ((regCompare calo caloRef em emRef track trackRef mu muRef).1 ++
      regVerdictText test (regCompare calo caloRef em emRef track trackRef mu muRef).2 calo_in calo caloRef) =
      regReport test calo_in calo caloRef em emRef track trackRef mu muRef ∧
    (regCompare calo caloRef em emRef track trackRef mu muRef).2 = regErrors calo caloRef em emRef track trackRef mu muRef ∧
    (regMismatches calo caloRef em emRef track trackRef mu muRef).length = regErrors calo caloRef em emRef track trackRef mu muRef := by
  obtain ⟨c1, c2⟩ := says_compare calo caloRef em emRef track trackRef mu muRef
  refine ⟨?_, by rw [c2, compare_errors], compare_errors _ _ _ _ _ _ _ _⟩
  have v := says_verdict test (regMismatches calo caloRef em emRef track trackRef mu muRef) calo_in calo caloRef
  rw [← c2] at v
  rw [(c1.append v).report, c2]
  unfold regReport
  dsimp only
  by_cases h0 : regMismatches calo caloRef em emRef track trackRef mu muRef = []
  · rw [if_pos h0, if_pos h0, h0]; rfl
  · rw [if_neg h0, if_neg h0]

/-- **C72.** For every file and whatever the memory holds: the program with its printouts ends as without them (C58), and
says: the configuration; "Passed" for the tests it recorded; then nothing with status 0, the number of sectors (not 12)
with status 2, the stream that was not empty with status 3, the report on the last test with status 1; and in the MP7
build the ten files, with 36 rows per recorded test. -/
theorem C72_run (mp7 : Bool) (heven : sz.track % 2 = 0 ∨ mp7 = false) (hfit : NC + NE + NT + NM ≤ 72 ∨ mp7 = false) (fall : Option Bool)
    (genZ0 : BitVec 32) (file : CFile) (mem : Nat → Arr N_OUT_REGIONS (Arr NC HadCaloObj)) (inp : Nat → RegIn sz NM) (old : Nat → TransMem sz NM) :
    (∀ e, regTestMain (NE := NE) (NT := NT) fall genZ0 file mem inp = .error e → regBenchMain mp7 fall genZ0 file mem inp old NE NT = .error e) ∧
    ∀ (code : Int) (ds : List (RegRecord sz NC NE NT NM)), regTestMain fall genZ0 file mem inp = .ok (code, ds) →
      ds.length ≤ 50 ∧ ∃ text, regBenchMain mp7 fall genZ0 file mem inp old NE NT = .ok (code, text) ∧
      ((code = 0 ∧ report text = regOutput mp7 sz NC NE NT ds.length [] ds.length) ∨
      (code = 2 ∧ ∃ k, k ≠ 12 ∧ report text = regOutput mp7 sz NC NE NT ds.length [sectorsLine k] ds.length) ∨
      (code = 3 ∧ ∃ name k, name ∈ streamNames ∧ k < 24 ∧ report text = regOutput mp7 sz NC NE NT ds.length [streamLine name k] ds.length) ∨
      (code = 1 ∧ ∃ (pre : List (RegRecord sz NC NE NT NM)) (r : RegRecord sz NC NE NT NM) (caloRef : Fin 18 → Arr NC HadCaloObj)
        (emRef : Fin 18 → Arr NE EmCaloObj) (trackRef : Fin 18 → Arr NT TkObj) (muRef : Fin 18 → Arr NM MuObj), ds = pre ++ [r] ∧
        regMismatches r.calo caloRef r.em emRef r.track trackRef r.mu muRef ≠ [] ∧
        report text = regOutput mp7 sz NC NE NT pre.length
          (regReport (pre.length + 1) r.inp.calo r.calo caloRef r.em emRef r.track trackRef r.mu muRef) ds.length)) := by
  have er := regBenchLoop_erase (NE := NE) (NT := NT) fall mem inp 50 1 (DumpReader.new genZ0 file) RegFibers.empty
  constructor
  · intro e h
    unfold regTestMain at h
    rw [h] at er
    unfold regBenchMain
    cases hb : regBenchLoop (NE := NE) (NT := NT) fall mem inp 50 1 (DumpReader.new genZ0 file) RegFibers.empty with
    | error e' => rw [hb] at er; cases er; rfl
    | ok x => rw [hb] at er; cases er
  · intro code ds h
    unfold regTestMain at h
    have hlen : ds.length ≤ 50 := regTestLoop_length _ _ _ 50 _ _ h
    refine ⟨hlen, ?_⟩
    rw [h] at er
    cases hb : regBenchLoop (NE := NE) (NT := NT) fall mem inp 50 1 (DumpReader.new genZ0 file) RegFibers.empty with
    | error e' => rw [hb] at er; cases er
    | ok x =>
      obtain ⟨code', t, ds'⟩ := x
      rw [hb] at er
      cases er
      obtain ⟨t2, hd, hsaved⟩ : ∃ t2, (if mp7 then regDestructorsSay old ds' else .ok []) = .ok t2 ∧ Says t2 (if mp7 then regSaved ds'.length else []) := by
        cases mp7 with
        | false => exact ⟨[], rfl, Says.nil⟩
        | true =>
          exact says_regDestructors (heven.resolve_right (by decide)) (hfit.resolve_right (by decide)) old ds' (by dsimp only at hlen; omega)
      refine ⟨configText sz NC NE NT ++ t ++ t2, ?_, ?_⟩
      · unfold regBenchMain
        rw [hb, Run.ok_bind]
        cases mp7 with
        | false => cases hd; rfl
        | true =>
          simp only [if_true] at hd ⊢
          rw [hd, Run.ok_bind]
      · have hc := says_config sz NC NE NT
        have pass : ∀ k, ((List.range k).map fun i => passed (1 + i)) = (List.range k).map fun i => passed (i + 1) := fun k => by
          simp only [Nat.add_comm]
        unfold regOutput
        rcases regBenchLoop_text _ _ _ _ _ _ _ hb with ⟨rfl, q⟩ | ⟨rfl, k, hk, q⟩ | ⟨rfl, name, k, hm, hk, q⟩ | ⟨rfl, pre, r, c1, c2, c3, c4, hds, hne, q⟩
        · refine .inl ⟨rfl, ?_⟩
          rw [((hc.append q).append hsaved).report, pass, List.append_nil]
        · refine .inr (.inl ⟨rfl, k, hk, ?_⟩)
          rw [((hc.append q).append hsaved).report, pass, ← List.append_assoc]
        · refine .inr (.inr (.inl ⟨rfl, name, k, hm, hk, ?_⟩))
          rw [((hc.append q).append hsaved).report, pass, ← List.append_assoc]
        · refine .inr (.inr (.inr ⟨rfl, pre, r, c1, c2, c3, c4, hds, hne, ?_⟩))
          rw [((hc.append q).append hsaved).report, pass, ← List.append_assoc, Nat.add_comm 1]

/-- **C72.** On a dump whose first fifty events are good (as in C58), every test is reported as passed. -/
theorem C72_passes (mp7 : Bool) (hNC : sz.caloEta ≤ NC) (heven : sz.track % 2 = 0) (hfit : NC + NE + NT + NM ≤ 72 ∨ mp7 = false) (evs : List DumpEvent)
    (hev : ∀ e ∈ evs, eventFits e) (hgood : ∀ e ∈ evs.take 50, GoodEvent sz e) (junk : Nat → BitVec 32) (genZ0 : BitVec 32)
    (mem : Nat → Arr N_OUT_REGIONS (Arr NC HadCaloObj)) (inp : Nat → RegIn sz NM) (old : Nat → TransMem sz NM) :
    ∃ text, regBenchMain mp7 (some true) genZ0 ⟨evs.flatMap eventBytes, false, junk⟩ mem inp old NE NT = .ok (0, text) ∧
      report text = regOutput mp7 sz NC NE NT (min 50 evs.length) [] (min 50 evs.length) := by
  obtain ⟨ds, h1, h2⟩ := C58_passes (NE := NE) (NT := NT) hNC heven evs hev hgood junk genZ0 mem inp
  obtain ⟨_, text, h3, h4⟩ := (C72_run (NE := NE) (NT := NT) mp7 (.inl heven) hfit (some true) genZ0 _ mem inp old).2 0 ds h2
  have hl : ds.length = min 50 evs.length := by rw [← h1.length_eq, List.length_take]
  refine ⟨text, h3, ?_⟩
  rcases h4 with ⟨_, h⟩ | ⟨h, _⟩ | ⟨h, _⟩ | ⟨h, _⟩
  · rw [h, hl]
  all_goals exact absurd h (by decide)

/-- **C72.** If the first event that is not good does not have twelve sectors, the bench says how many it has. -/
theorem C72_first_bad (mp7 : Bool) (hNC : sz.caloEta ≤ NC) (heven : sz.track % 2 = 0) (hfit : NC + NE + NT + NM ≤ 72 ∨ mp7 = false)
    (pre : List DumpEvent) (e : DumpEvent) (post : List DumpEvent) (hev : ∀ x ∈ pre ++ [e], eventFits x) (hn : pre.length < 50)
    (hgood : ∀ x ∈ pre, GoodEvent sz x) (hbad : e.regions.length ≠ 12) (junk : Nat → BitVec 32) (genZ0 : BitVec 32)
    (mem : Nat → Arr N_OUT_REGIONS (Arr NC HadCaloObj)) (inp : Nat → RegIn sz NM) (old : Nat → TransMem sz NM) :
    ∃ text, regBenchMain mp7 (some true) genZ0 ⟨(pre ++ e :: post).flatMap eventBytes, false, junk⟩ mem inp old NE NT = .ok (2, text) ∧
      report text = regOutput mp7 sz NC NE NT pre.length [sectorsLine e.regions.length] pre.length := by
  obtain ⟨t, ds, s', j', hlen, hsay, h2, h3⟩ := regBenchLoop_good (NE := NE) (NT := NT) hNC heven mem inp (49 - pre.length + 1) (e :: post)
    pre 1 (DumpReader.new genZ0 ⟨(pre ++ e :: post).flatMap eventBytes, false, junk⟩) junk
    (fun x hx => ⟨hev x (List.mem_append_left _ hx), hgood x hx⟩) rfl
  rw [show pre.length + (49 - pre.length + 1) = 50 by omega] at h3
  rw [List.flatMap_cons] at h2
  obtain ⟨j1, h4⟩ := nextEvent_cons s' e (hev e (List.mem_append_right _ (List.mem_singleton.mpr rfl))) _ j' h2
  have hl : (storedEvent e).regions.length = e.regions.length := List.length_map _
  have h5 : regBenchLoop (NE := NE) (NT := NT) (some true) mem inp (49 - pre.length + 1) (1 + pre.length) s' RegFibers.empty =
      .ok (2, sectorsMessage e.regions.length, []) := by
    unfold regBenchLoop
    rw [h4, Run.ok_bind]
    dsimp only
    rw [if_neg (by simp), if_pos (by rw [hl]; exact hbad), hl]
  rw [h5] at h3
  obtain ⟨t2, hd, hsaved⟩ : ∃ t2, (if mp7 then regDestructorsSay old (ds ++ []) else .ok []) = .ok t2 ∧ Says t2 (if mp7 then regSaved pre.length else []) := by
    cases mp7 with
    | false => exact ⟨[], rfl, Says.nil⟩
    | true =>
      rw [List.append_nil, ← hlen]
      exact says_regDestructors heven (hfit.resolve_right (by decide)) old ds (by omega)
  refine ⟨configText sz NC NE NT ++ (t ++ sectorsMessage e.regions.length) ++ t2, ?_, ?_⟩
  · unfold regBenchMain
    rw [h3]
    simp only [Except.map, Run.ok_bind]
    cases mp7 with
    | false => cases hd; rfl
    | true =>
      simp only [if_true] at hd ⊢
      rw [hd, Run.ok_bind]
  · rw [((says_config sz NC NE NT).append (hsay.append (says_sectors _)) |>.append hsaved).report]
    unfold regOutput
    simp only [← List.append_assoc, Nat.add_comm 1]

/-- **C72.** With an odd number of tracks per sector the second test finds an object in the first track stream. -/
theorem C72_odd_tracks (hNC : sz.caloEta ≤ NC) (hodd : sz.track % 2 = 1) (e e' : DumpEvent) (post : List DumpEvent)
    (hfit : eventFits e ∧ eventFits e') (hgood : GoodEvent sz e ∧ GoodEvent sz e') (junk : Nat → BitVec 32)
    (genZ0 : BitVec 32) (mem : Nat → Arr N_OUT_REGIONS (Arr NC HadCaloObj)) (inp : Nat → RegIn sz NM) (old : Nat → TransMem sz NM) :
    ∃ text, regBenchMain false (some true) genZ0 ⟨(e :: e' :: post).flatMap eventBytes, false, junk⟩ mem inp old NE NT = .ok (3, text) ∧
      report text = regOutput false sz NC NE NT 1 [streamLine "track stream" 0] 1 := by
  rw [List.flatMap_cons, List.flatMap_cons]
  obtain ⟨j1, h1⟩ := nextEvent_cons
    (DumpReader.new genZ0 ⟨eventBytes e ++ (eventBytes e' ++ post.flatMap eventBytes), false, junk⟩) e hfit.1 _ junk rfl
  obtain ⟨j2, h2⟩ := nextEvent_cons { DumpReader.new genZ0 ⟨eventBytes e ++ (eventBytes e' ++ post.flatMap eventBytes), false, junk⟩ with
    event := storedEvent e, file := ⟨eventBytes e' ++ post.flatMap eventBytes, false, j1⟩ } e' hfit.2 _ j1 rfl
  obtain ⟨t, d, f', h3, hsay, h4⟩ := regBenchStep_odd (NE := NE) (NT := NT) hNC hodd (mem 49) (mem 48) 1 2 e e' hgood.1 hgood.2 (inp 49) (inp 48)
  refine ⟨configText sz NC NE NT ++ (t ++ streamMessage "track stream ".toList 0) ++ [], ?_, ?_⟩
  · unfold regBenchMain regBenchLoop
    rw [h1, Run.ok_bind]
    dsimp only
    rw [if_neg (by simp), if_neg (by rw [((goodEvent_iff e).mp hgood.1).1]; decide), h3, Run.ok_bind]
    dsimp only
    unfold regBenchLoop
    rw [h2, Run.ok_bind]
    dsimp only
    rw [if_neg (by simp), if_neg (by rw [((goodEvent_iff e').mp hgood.2).1]; decide), h4]
    rfl
  · rw [((says_config sz NC NE NT).append (hsay.append (says_stream "track stream " (by decide) 0)) |>.append Says.nil).report]
    unfold regOutput
    have e1 : streamLine "track stream " 0 = streamLine "track stream" 0 := by decide +kernel
    rw [e1]
    rfl

/-! ## Concrete cases -/

/-- **C72**, non-vacuity: the sizes of the source fit the MP7 links, the event of C58 is good, and a second test of two
events with an odd number of tracks is possible. -/
example : RegSizes.source.track % 2 = 0 ∧ Config.mp7.NCALO + Config.mp7.NEMCALO + Config.mp7.NTRACK + Config.mp7.NMU ≤ 72 ∧
    RegSizes.source.caloEta ≤ Config.mp7.NCALO ∧ GoodEvent .source (exRegEvent [10, 20, 30, 40, 50, 60, 70, 80, 90, 100, 110, 120]) := by
  refine ⟨rfl, by decide, by decide, rfl, by decide⟩

/-- One slot differs: one line, with the region and the slot, and both objects. -/
example : (regCompare (NC := 1) (NE := 1) (NT := 1) (NM := 0) (fun _ _ => HadCaloObj.clear) (fun ir _ => if ir = 3 then ⟨7, 1, 2, 5, true⟩ else HadCaloObj.clear)
    (fun _ _ => EmCaloObj.clear) (fun _ _ => EmCaloObj.clear) (fun _ _ => TkObj.clear) (fun _ _ => TkObj.clear) (fun _ i => i.elim0) (fun _ i => i.elim0)).2 = 1 := by
  decide +kernel

end Verif
