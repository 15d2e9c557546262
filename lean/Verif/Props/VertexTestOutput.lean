import Verif.Proofs.VertexTestOutput
import Verif.Props.VertexTest
import Verif.Props.Discrete2
/-! # C73: what the vertex test bench prints

The standard output of `bram_hist_vtx_test`, read as lines of words and numbers: a line per test, the summary or the
complaint about the number of sectors, and what the destructors say.  The fractions and resolutions of the summary are
computed in floating point; the theorems are about every rounding to nearest. -/
namespace Verif
open Spec

/-- **C73.** For every file and whatever the memory holds: the program with its printouts ends as without them (C60), and
says: a line for each test it did; then the summary with status 0, or the number of sectors (not 12) with status 2; and the
four pattern files, with 36 rows per test.  The counts of the summary are those of the tests, the three fractions and the
two resolutions are their exact values rounded to three decimals. -/
theorem C73_run {F : FloatText} (A : PrintsNearest F) (fall : Option Bool) (toZ0 : BitVec 32 → Z0) (mem : Nat → BhvMem) (genZ0 : BitVec 32) (file : CFile) :
    (∀ e, bhvMain fall toZ0 mem genZ0 file = .error e → bhvBenchMain F fall toZ0 mem genZ0 file = .error e) ∧
    ∀ (code : Int) (ts : List BhvTest) (st : BhvStats), bhvMain fall toZ0 mem genZ0 file = .ok (code, ts, st) →
      ts.length ≤ 250 ∧ st = statsOf ts ∧ ∃ text, bhvBenchMain F fall toZ0 mem genZ0 file = .ok (code, text) ∧
      ((code = 0 ∧ ∃ ls, Summary ts ls ∧ report text = ts.map vertexLine ++ ls ++ bhvSaved ts.length) ∨
      (code = 2 ∧ ∃ k, k ≠ 12 ∧ report text = ts.map vertexLine ++ [sectorsLine k] ++ bhvSaved ts.length)) := by
  have er := bhvBenchLoop_erase fall toZ0 mem 250 1 (DumpReader.new genZ0 file) BhvStats.zero
  constructor
  · intro e h
    unfold bhvMain at h
    rw [h] at er
    unfold bhvBenchMain
    cases hb : bhvBenchLoop fall toZ0 mem 250 1 (DumpReader.new genZ0 file) BhvStats.zero with
    | error e' => rw [hb] at er; cases er; rfl
    | ok x => rw [hb] at er; cases er
  · intro code ts st h
    unfold bhvMain at h
    rw [h] at er
    cases hb : bhvBenchLoop fall toZ0 mem 250 1 (DumpReader.new genZ0 file) BhvStats.zero with
    | error e' => rw [hb] at er; cases er
    | ok x =>
      obtain ⟨code', text, ts', st'⟩ := x
      rw [hb] at er
      obtain ⟨rfl, rfl, rfl⟩ : code' = code ∧ ts' = ts ∧ st' = st := by simpa [Except.map] using er
      obtain ⟨h1, h2, h3, h4⟩ := bhvBenchLoop_text fall toZ0 mem 250 1 _ _ (by decide) rfl rfl hb
      rw [stats_foldl] at h3
      obtain ⟨d, d1, d2⟩ := says_bhvDestructors ts' (fun t ht => by
        obtain ⟨i, hi, rfl⟩ := List.getElem_of_mem ht
        obtain ⟨e, _, q⟩ := h2 i _ (List.getElem?_eq_getElem hi)
        exact ⟨q.inFrames.1, q.inDebug.1, q.outFrames.1, q.outDebug.1⟩) h1
      refine ⟨h1, h3, ?_⟩
      rcases h4 with ⟨rfl, q⟩ | ⟨rfl, k, hk, q⟩
      · obtain ⟨ls, s1, s2⟩ := says_summary A ts' h1
        refine ⟨text ++ F.summary st' ++ d, ?_, .inl ⟨rfl, ls, s2, ?_⟩⟩
        · unfold bhvBenchMain
          rw [hb, Run.ok_bind]
          dsimp only
          rw [d1, Run.ok_bind, if_pos rfl]
        · rw [h3]
          exact ((q.append s1).append d2).report
      · refine ⟨text ++ [] ++ d, ?_, .inr ⟨rfl, k, hk, ?_⟩⟩
        · unfold bhvBenchMain
          rw [hb, Run.ok_bind]
          dsimp only
          rw [d1, Run.ok_bind, if_neg (by decide)]
        · rw [List.append_nil]
          exact (q.append d2).report

/-- **C73.** On every dump whose first 250 events have twelve sectors, there is a line for each of these events, with the
vertices of `TestOf` (C60), and the summary. -/
theorem C73_passes {F : FloatText} (A : PrintsNearest F) (toZ0 : BitVec 32 → Z0) (mem : Nat → BhvMem) (evs : List DumpEvent)
    (hfit : ∀ e ∈ evs, eventFits e) (hl : ∀ e ∈ evs.take 250, e.regions.length = 12) (junk : Nat → BitVec 32) (genZ0 : BitVec 32) :
    ∃ (ts : List BhvTest) (text : List Char) (ls : List (List Token)), ts.length = (evs.take 250).length ∧
      (∀ i e t, (evs.take 250)[i]? = some e → ts[i]? = some t → TestOf toZ0 (i + 1) e t) ∧
      bhvBenchMain F (some true) toZ0 mem genZ0 ⟨evs.flatMap eventBytes, false, junk⟩ = .ok (0, text) ∧
      Summary ts ls ∧ report text = ts.map vertexLine ++ ls ++ bhvSaved ts.length := by
  obtain ⟨ts, h1, h2, h3⟩ := C60_passes toZ0 mem evs hfit hl junk genZ0
  obtain ⟨_, _, text, h4, h5⟩ := (C73_run A (some true) toZ0 mem genZ0 _).2 0 ts _ h3
  rcases h5 with ⟨_, ls, h6, h7⟩ | ⟨h, _⟩
  · exact ⟨ts, text, ls, h1, h2, h4, h6, h7⟩
  · exact absurd h (by decide)

/-- **C73.** At the first event without twelve sectors the bench says how many it has, after the lines of the events before it;
there is no summary. -/
theorem C73_wrong_sectors {F : FloatText} (A : PrintsNearest F) (toZ0 : BitVec 32 → Z0) (mem : Nat → BhvMem) (pre : List DumpEvent) (e : DumpEvent)
    (post : List DumpEvent) (hfit : ∀ x ∈ pre ++ [e], eventFits x) (hn : pre.length < 250) (hl : ∀ x ∈ pre, x.regions.length = 12)
    (hbad : e.regions.length ≠ 12) (junk : Nat → BitVec 32) (genZ0 : BitVec 32) :
    ∃ (ts : List BhvTest) (text : List Char), ts.length = pre.length ∧
      (∀ i e t, pre[i]? = some e → ts[i]? = some t → TestOf toZ0 (i + 1) e t) ∧
      bhvBenchMain F (some true) toZ0 mem genZ0 ⟨(pre ++ e :: post).flatMap eventBytes, false, junk⟩ = .ok (2, text) ∧
      report text = ts.map vertexLine ++ [sectorsLine e.regions.length] ++ bhvSaved ts.length := by
  have key : ∀ (pre : List DumpEvent) (n test : Nat) (s : DumpReader) (st : BhvStats) (junk : Nat → BitVec 32),
      (∀ x ∈ pre, eventFits x ∧ x.regions.length = 12) → s.file = ⟨(pre ++ e :: post).flatMap eventBytes, false, junk⟩ →
      0 < test → st.test_in_frame = 36 * (test - 1) → st.test_out_frame = 36 * (test - 1) →
      ∃ (ts : List BhvTest) (text : List Char) (st' : BhvStats), ts.length = pre.length ∧
        (∀ i e t, pre[i]? = some e → ts[i]? = some t → TestOf toZ0 (test + i) e t) ∧
        Says text (ts.map vertexLine ++ [sectorsLine e.regions.length]) ∧
        bhvBenchLoop (some true) toZ0 mem (pre.length + n + 1) test s st = .ok (2, text, ts, st') := by
    intro pre
    induction pre with
    | nil =>
      intro n test s st junk _ hs _ _ _
      rw [List.nil_append, List.flatMap_cons] at hs
      obtain ⟨j1, h5⟩ := nextEvent_cons s e (hfit e (List.mem_append_right _ (List.mem_singleton.mpr rfl))) _ junk hs
      refine ⟨[], sectorsMessage e.regions.length, st, rfl, fun i e t h => by simp at h, says_sectors _, ?_⟩
      have hlen : (storedEvent e).regions.length = e.regions.length := List.length_map _
      rw [bhvBenchLoop]
      rw [h5, Run.ok_bind]
      dsimp only
      rw [if_neg (by simp), if_pos (by rw [hlen]; exact hbad), hlen]
    | cons x pre ih =>
      intro n test s st junk hfit hs ht hf1 hf2
      obtain ⟨hx, hpre⟩ := List.forall_mem_cons.mp hfit
      rw [List.cons_append, List.flatMap_cons] at hs
      obtain ⟨j1, h1⟩ := nextEvent_cons s x hx.1 _ junk hs
      obtain ⟨t, h2, h3⟩ := bhvStep_ok toZ0 test x hx.2 (mem test) st hf1 hf2
      obtain ⟨ts, text, st', i1, i2, i3, i4⟩ := ih n (test + 1) { s with event := storedEvent x, file := ⟨(pre ++ e :: post).flatMap eventBytes, false, j1⟩ }
        (st.advance.add t) j1 hpre rfl (by omega) (by rw [(BhvStats.add_frames _ _).1]; show st.test_in_frame + 36 = _; omega)
        (by rw [(BhvStats.add_frames _ _).2]; show st.test_out_frame + 36 = _; omega)
      refine ⟨t :: ts, bhvTestText t ++ text, st', by rw [List.length_cons, List.length_cons, i1], ?_, (says_test t).append i3, ?_⟩
      · intro i x' t' hx' ht'
        cases i with
        | zero => cases hx'; cases ht'; exact h3
        | succ i =>
          have := i2 i x' t' hx' ht'
          rwa [show test + 1 + i = test + (i + 1) by omega] at this
      · rw [List.length_cons, show pre.length + 1 + n + 1 = (pre.length + n + 1) + 1 by omega, bhvBenchLoop]
        rw [h1, Run.ok_bind]
        dsimp only
        rw [if_neg (by simp), if_neg (by
          show ¬ (x.regions.map keepRegion).length ≠ 12
          rw [List.length_map, hx.2]
          decide), h2, Run.ok_bind]
        dsimp only
        rw [i4]
        rfl
  obtain ⟨ts, text, st', h1, h2, h3, h4⟩ := key pre (249 - pre.length) 1 (DumpReader.new genZ0 ⟨(pre ++ e :: post).flatMap eventBytes, false, junk⟩)
    BhvStats.zero junk (fun x hx => ⟨hfit x (List.mem_append_left _ hx), hl x hx⟩) rfl (by decide) rfl rfl
  rw [show pre.length + (249 - pre.length) + 1 = 250 by omega] at h4
  obtain ⟨g1, g2, _, _⟩ := bhvBenchLoop_text (some true) toZ0 mem 250 1 _ _ (by decide) rfl rfl h4
  obtain ⟨d, d1, d2⟩ := says_bhvDestructors ts (fun t ht => by
    obtain ⟨i, hi, rfl⟩ := List.getElem_of_mem ht
    obtain ⟨e, _, q⟩ := g2 i _ (List.getElem?_eq_getElem hi)
    exact ⟨q.inFrames.1, q.inDebug.1, q.outFrames.1, q.outDebug.1⟩) g1
  refine ⟨ts, text ++ [] ++ d, h1, fun i e t he ht => by rw [Nat.add_comm]; exact h2 i e t he ht, ?_, ?_⟩
  · unfold bhvBenchMain
    rw [h4, Run.ok_bind]
    dsimp only
    rw [d1, Run.ok_bind, if_neg (by decide)]
  · rw [List.append_nil]
    exact (h3.append d2).report

/-- **C73.** On a test of an event without tracks of negative pt the line says `MATCH 0`, and both vertices have the same
bin, position and sum. -/
theorem C73_match (toZ0 : BitVec 32 → Z0) {test : Nat} {e : DumpEvent} {t : BhvTest} (hl : e.regions.length = 12) (hp : PtOK e) (h : TestOf toZ0 test e t) :
    ∃ gen cmssw bin : Int, ∃ z sum d : Int, ∃ cbin : Int, vertexLine t =
      say "GEN PV" ++ [.num gen] ++ say "CMSSW PV" ++ [.num cmssw] ++ say "bin" ++ [.num cbin] ++
      say "REF" ++ [.num z] ++ say "bin" ++ [.num bin] ++ say "ptsum" ++ [.num sum] ++ say "diff" ++ [.num d] ++
      say "HW" ++ [.num z] ++ say "bin" ++ [.num bin] ++ say "ptsum" ++ [.num sum] ++ say "diff" ++ [.num d] ++ say "MATCH" ++ [.num 0] := by
  obtain ⟨a1, a2, a3⟩ := C60_agree toZ0 hl hp h
  refine ⟨t.pv_gen.toInt, t.pv_cmssw.toInt, t.pvbin_ref.toNat, t.pv_ref.toInt, t.ptsum_ref, t.pv_ref.toInt - t.pv_gen.toInt,
    ((zBin t.pv_cmssw.toInt).getD 0 : Nat), ?_⟩
  unfold vertexLine
  rw [← a1, ← a2, ← a3, Int.sub_self]

/-- **C73.** A fraction of the summary reads 1.000 only when all the tests are good, and 0.000 only when none is. -/
theorem C73_fraction {w : List Char} {a b : Nat} (hab : a ≤ b) (hb : 0 < b) (hb1 : b ≤ 250) (h : IsRatio w a b) :
    (decimal w = some 1 ↔ a = b) ∧ (decimal w = some 0 ↔ a = 0) := by
  unfold IsRatio at h
  rw [if_neg (by omega)] at h
  obtain ⟨n, h1, h2⟩ := h
  have hbR : (0 : ℝ) < b := by exact_mod_cast hb
  have hb250 : (b : ℝ) ≤ 250 := by exact_mod_cast hb1
  have e : (n : ℝ) / 1000 - a / b = (n * b - 1000 * a) / (1000 * b) := by field_simp
  rw [e, abs_div, abs_of_pos (by positivity : (0 : ℝ) < 1000 * b), div_le_div_iff₀ (by positivity) (by norm_num)] at h2
  have h3 : |(n * b - 1000 * a : ℝ)| * 2 ≤ b := by nlinarith
  have h4 : |(n * b - 1000 * a : ℤ)| * 2 ≤ b := by exact_mod_cast h3
  rw [h1]
  have one : (some (n / 1000 : ℚ) = some 1) ↔ n = 1000 := by
    rw [Option.some.injEq, div_eq_one_iff_eq (by norm_num)]
    norm_cast
  have zero : (some (n / 1000 : ℚ) = some 0) ↔ n = 0 := by
    rw [Option.some.injEq, div_eq_zero_iff]
    simp
  rw [one, zero]
  have h5 := abs_le.mp (show |(n * b - 1000 * a : ℤ)| ≤ b / 2 by omega)
  constructor <;> constructor
  · rintro rfl
    omega
  · rintro rfl
    have : (n : ℤ) * a - 1000 * a = (n - 1000) * a := by ring
    rw [this] at h5
    have h6 : (n : ℤ) - 1000 < 1 := by
      by_contra hc
      have : (1 : ℤ) * a ≤ (n - 1000) * a := mul_le_mul_of_nonneg_right (by omega) (by omega)
      omega
    have h7 : -1 < (n : ℤ) - 1000 := by
      by_contra hc
      have : (n - 1000 : ℤ) * a ≤ (-1) * a := mul_le_mul_of_nonneg_right (by omega) (by omega)
      omega
    omega
  · rintro rfl
    omega
  · rintro rfl
    have h6 : (n : ℤ) < 1 := by
      by_contra hc
      have : (1 : ℤ) * b ≤ n * b := mul_le_mul_of_nonneg_right (by omega) (by omega)
      omega
    omega

/-- **C73.** The resolutions of the summary are at most 5 mm: tests farther off are not counted. -/
theorem C73_resolution {ts : List BhvTest} {v : List Char} {q : ℚ} (hq : decimal v = some q)
    (h : IsResolution v (statsOf ts).resol (statsOf ts).ngood ∨ IsResolution v (statsOf ts).cmssw_resol (statsOf ts).ncmssw_good) :
    0 ≤ q ∧ q ≤ 5 := by
  have key : ∀ (s : Int) (n : Nat), s ≤ 100 * n → IsResolution v s n → 0 ≤ q ∧ q ≤ 5 := by
    intro s n hs h
    unfold IsResolution at h
    split at h
    · rcases h with rfl | rfl
      · rw [show decimal "nan".toList = none by decide +kernel] at hq; cases hq
      · rw [show decimal "-nan".toList = none by decide +kernel] at hq; cases hq
    · rename_i hn
      obtain ⟨k, h1, h2⟩ := h
      rw [h1] at hq
      cases hq
      have hnR : (0 : ℝ) < n := by exact_mod_cast Nat.pos_of_ne_zero hn
      have hr : √((s : ℝ) / n) ≤ 10 := by
        rw [show (10 : ℝ) = √100 by rw [show (100 : ℝ) = 10 ^ 2 by norm_num, Real.sqrt_sq (by norm_num)]]
        refine Real.sqrt_le_sqrt ?_
        rw [div_le_iff₀ hnR]
        exact_mod_cast hs
      have h3 : (k : ℝ) ≤ 5000 + 1 / 2 := by linarith [(abs_le.mp h2).2]
      have h4 : k ≤ 5000 := by
        by_contra hc
        have : (5001 : ℝ) ≤ k := by exact_mod_cast (by omega : 5001 ≤ k)
        linarith
      refine ⟨by positivity, ?_⟩
      rw [div_le_iff₀ (by norm_num)]
      exact_mod_cast (by omega : k ≤ 5 * 1000)
  have hsq : ∀ a b : Z0, near a b = true → (a.toInt - b.toInt) ^ 2 ≤ 100 := by
    intro a b h
    unfold near at h
    rw [decide_eq_true_eq] at h
    nlinarith
  have sums : ∀ (p : BhvTest → Bool) (f : BhvTest → Int), (∀ t, p t = true → f t ≤ 100) → ∀ l : List BhvTest,
      ((l.filter p).map f).sum ≤ 100 * (l.countP p : Int) := by
    intro p f hf l
    induction l with
    | nil => simp
    | cons t l ih =>
      by_cases h : p t = true
      · rw [List.filter_cons_of_pos h, List.countP_cons_of_pos h, List.map_cons, List.sum_cons]
        have := hf t h
        push_cast
        omega
      · rw [List.filter_cons_of_neg h, List.countP_cons_of_neg h]
        exact ih
  rcases h with h | h
  · exact key _ _ (sums _ _ (fun t h => by
      rw [show (t.pv_gen.toInt - t.pv_ref.toInt) ^ 2 = (t.pv_ref.toInt - t.pv_gen.toInt) ^ 2 by ring]
      exact hsq _ _ h) ts) h
  · exact key _ _ (sums _ _ (fun t h => hsq _ _ h) ts) h

/-! ## Concrete cases -/

/-- **C73**, non-vacuity: there is such an arithmetic, and an event of twelve sectors without negative pt. -/
example : ∃ F : FloatText, PrintsNearest F := by
  obtain ⟨R, hR⟩ := C61_rounding_exists
  refine ⟨⟨R, fun x => (round (1000 * x)).toNat, "-nan".toList⟩, hR, fun x hx => ?_, .inr rfl⟩
  have h1 := abs_sub_round (1000 * x)
  have h2 : 0 ≤ round (1000 * x) := by
    rw [round_eq]
    exact Int.floor_nonneg.mpr (by positivity)
  have h3 : (((round (1000 * x)).toNat : Nat) : ℝ) = (round (1000 * x) : ℝ) := by exact_mod_cast Int.toNat_of_nonneg h2
  rw [h3, abs_sub_comm]
  exact h1

example : eventFits (exVtxEvent [4, 6, 0, 0, 0, 0, 0, 0, 0, 0, 0, 0]) ∧ (exVtxEvent [4, 6, 0, 0, 0, 0, 0, 0, 0, 0, 0, 0]).regions.length = 12 ∧
    PtOK (exVtxEvent [4, 6, 0, 0, 0, 0, 0, 0, 0, 0, 0, 0]) :=
  ⟨exVtxEvent_fits _ (by decide), rfl, exVtxEvent_ptOK _ (by decide)⟩

/-- With no event the fractions and resolutions are not numbers. -/
example {ls : List (List Token)} (h : Summary [] ls) : ∃ w1 w2 w3 v1 v2, ls = summaryLines (statsOf []) w1 w2 w3 v1 v2 ∧
    ∀ w ∈ [w1, w2, w3, v1, v2], w = "nan".toList ∨ w = "-nan".toList := by
  obtain ⟨w1, w2, w3, v1, v2, h0, h1, h2, h3, h4, h5⟩ := h
  refine ⟨w1, w2, w3, v1, v2, h0, ?_⟩
  intro w hw
  simp only [List.mem_cons, List.not_mem_nil, or_false] at hw
  rcases hw with rfl | rfl | rfl | rfl | rfl
  · exact h1
  · exact h2
  · exact h3
  · exact h4
  · exact h5

/-- How a fraction looks: 2 of 3 is `0.667`. -/
example : fmtF3 667 = "0.667".toList ∧ decimal "0.667".toList = some (667 / 1000) ∧ decimal "12.5".toList = some (25 / 2) := by decide +kernel

end Verif
