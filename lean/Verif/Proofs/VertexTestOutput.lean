import Verif.Proofs.PrintedDecimals
import Verif.Proofs.RegionizerTestOutput
import Verif.Proofs.VertexTest
/-! # Lemmas: what the vertex test bench prints -/
namespace Verif
open Spec

/-! ## Words that are not integers -/

theorem fold_none {b : Nat} {c : Char} (hc : digitVal c = none) : ∀ (s : List Char) (n : Nat), c ∈ s → s.foldlM (digitStep b) n = none
  | x :: s, n, h => by
    rw [List.foldlM_cons]
    cases hx : digitStep b n x with
    | none => rfl
    | some m =>
      rcases List.mem_cons.mp h with rfl | h
      · unfold digitStep at hx
        rw [hc] at hx
        cases hx
      · exact fold_none hc s m h

theorem number_none {b : Nat} {c : Char} (hc : digitVal c = none) {s : List Char} (h : c ∈ s) : number b s = none := by
  rw [number_eq b (List.ne_nil_of_mem h), fold_none hc s 0 h]

theorem int_none {c : Char} (hc : digitVal c = none) {x : Char} {s : List Char} (h : c ∈ s) : int (x :: s) = none := by
  unfold int
  split
  · rename_i e; cases e; rw [number_none hc h]; rfl
  · rename_i e; cases e; rw [number_none hc h]; rfl
  · rw [number_none hc (List.mem_cons_of_mem _ h)]; rfl

/-- A word that does not read as an integer. -/
structure Plain (w : List Char) : Prop where
  ne : w ≠ []
  gap : ∀ c ∈ w, isGap c = false
  int : int w = none

theorem Plain.tokens {w : List Char} (h : Plain w) : Spec.tokens w = [.word w] := by
  rw [tokens_word h.gap h.ne]
  unfold token
  rw [h.int]

theorem Plain.tokens_append {w : List Char} (h : Plain w) {rest : List Char} (hr : ∃ x t, rest = x :: t ∧ isGap x = true) :
    Spec.tokens (w ++ rest) = .word w :: Spec.tokens rest := by
  rw [tokens_left _ (.inr hr), h.tokens]
  rfl

theorem gapHead {lit : List Char} (h : isGap (lit.headD 'x') = true) (rest : List Char) : ∃ x t, lit ++ rest = x :: t ∧ isGap x = true := by
  cases lit with
  | nil => exact absurd h (by decide)
  | cons c cs => exact ⟨c, cs ++ rest, rfl, h⟩

theorem Plain.count {w : List Char} (h : Plain w) : w.count '\n' = 0 := by
  rw [List.count_eq_zero]
  intro hc
  exact absurd (h.gap _ hc) (by decide)

theorem plain_fmtF3 (n : Nat) : Plain (fmtF3 n) := by
  unfold fmtF3
  refine ⟨by simp, ?_, ?_⟩
  · intro c hc
    rcases List.mem_append.mp hc with h | h
    · exact digits_noGap _ c h
    · rcases List.mem_cons.mp h with rfl | h
      · decide
      · unfold fmtZ at h
        rcases List.mem_append.mp h with h | h
        · rw [(List.mem_replicate.mp h).2]; decide
        · exact digits_noGap _ c h
  · obtain ⟨x, s, e⟩ : ∃ x s, Nat.toDigits 10 (n / 1000) = x :: s := List.exists_cons_of_ne_nil Nat.toDigits_ne_nil
    rw [e, List.cons_append]
    exact int_none (c := '.') (by decide) (by simp)

theorem decimal_fmtF3 (n : Nat) : decimal (fmtF3 n) = some (n / 1000 : ℚ) := by
  have hdot : ∀ m, '.' ∉ Nat.toDigits 10 m := by
    intro m hc
    obtain ⟨d, hd, e⟩ := mem_toDigits (b := 10) (by omega) (by omega) m _ hc
    have : ∀ d : Fin 16, '.' ≠ Nat.digitChar d.val := by decide
    exact this ⟨d, hd⟩ e
  have h1 : ∀ c ∈ Nat.toDigits 10 (n / 1000), (c == '.') = false := fun c hc => by
    rw [beq_eq_false_iff_ne]; rintro rfl; exact hdot _ hc
  have h2 : ∀ c ∈ fmtZ 10 3 (n % 1000), (c == '.') = false := fun c hc => by
    rw [beq_eq_false_iff_ne]
    rintro rfl
    unfold fmtZ at hc
    rcases List.mem_append.mp hc with h | h
    · exact absurd (List.mem_replicate.mp h).2 (by decide)
    · exact hdot _ h
  have h3 : number 10 (Nat.toDigits 10 (n / 1000)) = some (n / 1000) := by
    rw [number_eq 10 Nat.toDigits_ne_nil]; exact fold_toDigits (by omega) (by omega) _
  unfold decimal fmtF3
  rw [split_append h1 (by decide), split_last h2]
  simp only [h3, number_fmtZ (b := 10) (by omega) (by omega), length_fmtZ (b := 10) (w := 3) (by omega) (by omega) (show n % 1000 < 10 ^ 3 by omega),
    Option.bind_eq_bind, Option.bind_some, Option.some.injEq]
  have h4 : ((n / 1000 : Nat) : ℚ) * 1000 + ((n % 1000 : Nat) : ℚ) = n := by exact_mod_cast Nat.div_add_mod' n 1000
  rw [← h4]
  push_cast
  ring

theorem plain_slash (n : Nat) : Plain ((toString n).toList ++ ['/']) := by
  have e : (toString n).toList = Nat.toDigits 10 n := by
    show (Nat.repr n).toList = _
    simp [Nat.repr]
  rw [e]
  refine ⟨by simp, ?_, ?_⟩
  · intro c hc
    rcases List.mem_append.mp hc with h | h
    · exact digits_noGap _ c h
    · rw [List.mem_singleton.mp h]; decide
  · obtain ⟨x, s, e⟩ : ∃ x s, Nat.toDigits 10 n = x :: s := List.exists_cons_of_ne_nil Nat.toDigits_ne_nil
    rw [e, List.cons_append]
    exact int_none (c := '/') (by decide) (by simp)

theorem plain_nan {w : List Char} (h : w = "nan".toList ∨ w = "-nan".toList) : Plain w := by
  rcases h with rfl | rfl
  · exact ⟨by decide, by decide, by decide⟩
  · exact ⟨by decide, by decide, by decide⟩

/-! ## The numbers with decimals -/

theorem ratio_ok {F : FloatText} (A : PrintsNearest F) {a b : Nat} (hab : a ≤ b) (hb : b ≤ 250) :
    Plain (F.ratio a b) ∧ IsRatio (F.ratio a b) a b := by
  unfold FloatText.ratio IsRatio
  by_cases h : b = 0
  · rw [if_pos h, if_pos (by omega), if_pos h]
    exact ⟨plain_nan A.nan, A.nan⟩
  · rw [if_neg h, if_neg h]
    exact ⟨plain_fmtF3 _, _, decimal_fmtF3 _, ratio_close A hab (by omega) hb⟩

theorem resolution_ok {F : FloatText} (A : PrintsNearest F) {s : Int} {n : Nat} (hs : 0 ≤ s) (hsn : s ≤ 100 * n) (hn : n ≤ 250) :
    ∃ k w, F.resolution s n = List.replicate k ' ' ++ w ∧ Plain w ∧ IsResolution w s n := by
  unfold FloatText.resolution IsResolution padText
  by_cases h : n = 0
  · simp only [if_pos h]
    rw [if_pos (by omega)]
    exact ⟨_, _, rfl, plain_nan A.nan, A.nan⟩
  · simp only [if_neg h]
    exact ⟨_, _, rfl, plain_fmtF3 _, _, decimal_fmtF3 _, resolution_close A hs (by omega) hn hsn⟩

/-! ## The lines -/

theorem lits_vtx :
    tokens "GEN PV ".toList = say "GEN PV" ∧ tokens "    CMSSW PV ".toList = say "CMSSW PV" ∧ tokens "  bin ".toList = say "bin" ∧
    tokens " :  REF ".toList = say "REF" ∧ tokens ", ptsum ".toList = say "ptsum" ∧ tokens ", diff ".toList = say "diff" ∧ tokens " :  HW ".toList = say "HW" ∧
    tokens " diff ".toList = say "diff" ∧ tokens "  :  MATCH ".toList = say "MATCH" ∧ tokens "Good matches: CMSSW ".toList = say "Good matches CMSSW" ∧
    tokens "  REF ".toList = say "REF" ∧ tokens "  (REF vs CMSSW: ".toList = say "REF vs CMSSW" ∧ tokens "). ERRORS: ".toList = say ". ERRORS" ∧
    tokens " = ".toList = say "=" ∧ tokens "Resolution: CMSSW: ".toList = say "Resolution CMSSW" ∧ tokens " mm   REF ".toList = say "mm REF" ∧
    tokens " mm\n".toList = say "mm" := by decide +kernel

theorem says_test (t : BhvTest) : Says (bhvTestText t) [vertexLine t] := by
  unfold bhvTestText vertexLine
  refine Says.line ?_ ?_ ?_
  · simp (discharger := decide) only [List.count_append, count_fmtD]; decide
  · simp only [← List.append_assoc]; exact getLast_lit (by decide)
  · simp (discharger := decide) only [tokens_lit, tokens_num, tokens_num', lits, lits_vtx]
    simp [binNo_eq]

/-- `a/b`: the slash sticks to the first number, a space is before the second. -/
theorem tokens_fraction {F : FloatText} (a b : Nat) (hb : b < 1000) (hw : Plain (F.ratio a b)) {rest : List Char} (hr : ∃ x t, rest = x :: t ∧ isGap x = true) :
    tokens (F.fraction a b rest) = fractionWords a b (F.ratio a b) ++ tokens rest := by
  unfold FloatText.fraction fractionWords
  have hlen : (Nat.toDigits 10 b).length ≤ 3 := (Nat.length_toDigits_le_iff (by omega) (by omega)).mpr (by omega)
  obtain ⟨k, hk⟩ : ∃ k, 4 - (Nat.toDigits 10 b).length = k + 1 := ⟨_, (by omega : 4 - (Nat.toDigits 10 b).length = (3 - (Nat.toDigits 10 b).length) + 1)⟩
  have ea : fmtN 4 (a : Int) ++ ("/".toList ++ (fmtN 4 (b : Int) ++ (" = ".toList ++ (F.ratio a b ++ rest)))) =
      List.replicate (4 - (Nat.toDigits 10 a).length) ' ' ++ (((toString a).toList ++ ['/']) ++ (' ' :: (List.replicate k ' ' ++ (Nat.toDigits 10 b ++
        (" = ".toList ++ (F.ratio a b ++ rest)))))) := by
    have e : (toString a).toList = Nat.toDigits 10 a := by
      show (Nat.repr a).toList = _
      simp [Nat.repr]
    rw [e]
    unfold fmtN fmtD
    have h1 : ∀ n : Nat, ¬ ((n : Int) < 0) := fun n => by omega
    simp only [if_neg (h1 _), List.nil_append, Int.natAbs_natCast, hk, List.replicate_succ]
    simp
  rw [ea, tokens_spaces, (plain_slash a).tokens_append ⟨_, _, rfl, by decide⟩, tokens_gap (by decide), tokens_spaces]
  have hb' : tokens (Nat.toDigits 10 b ++ (" = ".toList ++ (F.ratio a b ++ rest))) = .num b :: tokens (" = ".toList ++ (F.ratio a b ++ rest)) := by
    rw [tokens_left _ (.inr (gapHead (by decide) _)), tokens_int (digits_noGap _) Nat.toDigits_ne_nil (int_digits b)]
    rfl
  rw [hb', tokens_lit (by decide), hw.tokens_append hr]
  simp only [lits_vtx]
  simp

theorem count_fraction {F : FloatText} (a b : Nat) (hw : Plain (F.ratio a b)) (rest : List Char) :
    (F.fraction a b rest).count '\n' = rest.count '\n' := by
  unfold FloatText.fraction
  simp (discharger := decide) only [List.count_append, count_fmtD, hw.count]
  have h1 : List.count '\n' "/".toList = 0 := by decide
  have h2 : List.count '\n' " = ".toList = 0 := by decide
  omega

theorem getLast_append {a b : List Char} (h : b.getLast? = some '\n') : (a ++ b).getLast? = some '\n' := getLast_lit h

theorem getLast_fraction {F : FloatText} (a b : Nat) {rest : List Char} (h : rest.getLast? = some '\n') : (F.fraction a b rest).getLast? = some '\n' := by
  unfold FloatText.fraction
  exact getLast_append (getLast_append (getLast_append (getLast_append (getLast_append h))))

theorem says_summary {F : FloatText} (A : PrintsNearest F) (ts : List BhvTest) (hn : ts.length ≤ 250) :
    ∃ ls, Says (F.summary (statsOf ts)) ls ∧ Summary ts ls := by
  have c1 : (statsOf ts).ncmssw_good ≤ ts.length := List.countP_le_length
  have c2 : (statsOf ts).ngood ≤ ts.length := List.countP_le_length
  have c3 : (statsOf ts).nagree ≤ ts.length := List.countP_le_length
  have hsq : ∀ a b : Z0, near a b = true → (0 : Int) ≤ (a.toInt - b.toInt) ^ 2 ∧ (a.toInt - b.toInt) ^ 2 ≤ 100 := by
    intro a b h
    unfold near at h
    rw [decide_eq_true_eq] at h
    constructor
    · positivity
    · nlinarith
  have sums : ∀ (p : BhvTest → Bool) (f : BhvTest → Int), (∀ t, p t = true → 0 ≤ f t ∧ f t ≤ 100) → ∀ l : List BhvTest,
      0 ≤ ((l.filter p).map f).sum ∧ ((l.filter p).map f).sum ≤ 100 * (l.countP p : Int) := by
    intro p f hf l
    induction l with
    | nil => simp
    | cons t l ih =>
      by_cases h : p t = true
      · rw [List.filter_cons_of_pos h, List.countP_cons_of_pos h, List.map_cons, List.sum_cons]
        have := hf t h
        push_cast
        omega
      · rw [List.filter_cons_of_neg h, List.countP_cons_of_neg h]
        exact ih
  have d1 := sums (fun t => near t.pv_gen t.pv_cmssw) (fun t => (t.pv_gen.toInt - t.pv_cmssw.toInt) ^ 2) (fun t h => hsq _ _ h) ts
  have d2 := sums (fun t => near t.pv_ref t.pv_gen) (fun t => (t.pv_gen.toInt - t.pv_ref.toInt) ^ 2) (fun t h => by
    have := hsq _ _ h
    rw [show (t.pv_gen.toInt - t.pv_ref.toInt) ^ 2 = (t.pv_ref.toInt - t.pv_gen.toInt) ^ 2 by ring]
    exact this) ts
  obtain ⟨p1, r1⟩ := ratio_ok A c1 hn
  obtain ⟨p2, r2⟩ := ratio_ok A c2 hn
  obtain ⟨p3, r3⟩ := ratio_ok A c3 hn
  obtain ⟨k1, v1, e1, q1, s1⟩ := resolution_ok A (s := (statsOf ts).cmssw_resol) (n := (statsOf ts).ncmssw_good) d1.1 d1.2 (by omega)
  obtain ⟨k2, v2, e2, q2, s2⟩ := resolution_ok A (s := (statsOf ts).resol) (n := (statsOf ts).ngood) d2.1 d2.2 (by omega)
  refine ⟨summaryLines (statsOf ts) (F.ratio (statsOf ts).ncmssw_good ts.length) (F.ratio (statsOf ts).ngood ts.length)
    (F.ratio (statsOf ts).nagree ts.length) v1 v2, ?_, _, _, _, _, _, rfl, r1, r2, r3, s1, s2⟩
  unfold FloatText.summary summaryLines
  rw [e1, e2]
  have hnt : (statsOf ts).ntot = ts.length := rfl
  rw [hnt]
  generalize (statsOf ts).ncmssw_good = x1 at *
  generalize (statsOf ts).ngood = x2 at *
  generalize (statsOf ts).nagree = x3 at *
  refine Says.append (ls := [_]) (ms := [_]) (Says.line ?_ ?_ ?_) (Says.line ?_ ?_ ?_)
  · rw [List.count_append, count_fraction _ _ p1, List.count_append, count_fraction _ _ p2, List.count_append, count_fraction _ _ p3]
    simp (discharger := decide) only [List.count_append, count_fmtD]; decide
  · refine getLast_append (getLast_fraction _ _ (getLast_append (getLast_fraction _ _ (getLast_append (getLast_fraction _ _ (getLast_append (getLast_append ?_)))))))
    decide
  · rw [tokens_lit (by decide), tokens_fraction _ _ (by omega) p1 (gapHead (by decide) _), tokens_lit (by decide),
      tokens_fraction _ _ (by omega) p2 (gapHead (by decide) _), tokens_lit (by decide), tokens_fraction _ _ (by omega) p3 (gapHead (by decide) _),
      tokens_lit (by decide), tokens_num' (by decide) (by decide)]
    simp only [lits_vtx, lits]
    simp
  · have sp : ∀ k, (List.replicate k ' ').count '\n' = 0 := by intro k; rw [List.count_eq_zero]; simp
    simp only [List.count_append, sp, q1.count, q2.count]; decide
  · simp only [← List.append_assoc]; exact getLast_lit (by decide)
  · rw [tokens_lit (by decide), List.append_assoc, tokens_spaces, q1.tokens_append (gapHead (by decide) _), tokens_lit (by decide),
      List.append_assoc, tokens_spaces, q2.tokens_append ⟨' ', "mm\n".toList, by decide, by decide⟩]
    simp only [lits_vtx]
    simp

/-! ## The loop -/

theorem bhvBenchLoop_erase (fall : Option Bool) (toZ0 : BitVec 32 → Z0) (mem : Nat → BhvMem) : ∀ (n test : Nat) (s : DumpReader) (st : BhvStats),
    (bhvBenchLoop fall toZ0 mem n test s st).map (fun x => (x.1, x.2.2)) = bhvLoop fall toZ0 mem n test s st
  | 0, _, _, _ => rfl
  | n + 1, test, s, st => by
    unfold bhvBenchLoop bhvLoop
    rw [Run.map_bind]
    refine Run.bind_congr ?_
    rintro ⟨b, s⟩
    dsimp only
    split
    · rfl
    · split
      · rfl
      · rw [Run.map_bind]
        refine Run.bind_congr ?_
        rintro ⟨t, st⟩
        dsimp only
        rw [← bhvBenchLoop_erase fall toZ0 mem n (test + 1) s (st.add t), Run.map_bind]
        cases bhvBenchLoop fall toZ0 mem n (test + 1) s (st.add t) <;> rfl

/-- What a run of the loop computes and prints. -/
theorem bhvBenchLoop_text (fall : Option Bool) (toZ0 : BitVec 32 → Z0) (mem : Nat → BhvMem) :
    ∀ (n test : Nat) (s : DumpReader) (st : BhvStats) {code : Int} {text : List Char} {ts : List BhvTest} {st' : BhvStats}, 0 < test →
    st.test_in_frame = 36 * (test - 1) → st.test_out_frame = 36 * (test - 1) →
    bhvBenchLoop fall toZ0 mem n test s st = .ok (code, text, ts, st') →
    ts.length ≤ n ∧ (∀ i t, ts[i]? = some t → ∃ e, e.regions.length = 12 ∧ TestOf toZ0 (test + i) e t) ∧
    st' = ts.foldl (fun st t => st.advance.add t) st ∧
    ((code = 0 ∧ Says text (ts.map vertexLine)) ∨ (code = 2 ∧ ∃ k, k ≠ 12 ∧ Says text (ts.map vertexLine ++ [sectorsLine k])))
  | 0, _, _, _, code, text, ts, st', _, _, _, h => by
    cases h
    exact ⟨Nat.le_refl _, fun i t h => by simp at h, rfl, .inl ⟨rfl, Says.nil⟩⟩
  | n + 1, test, s, st, code, text, ts, st', ht, hf1, hf2, h => by
    unfold bhvBenchLoop at h
    obtain ⟨⟨b, s⟩, _, h⟩ := Run.bind_eq_ok.mp h
    dsimp only at h
    by_cases hb : (!b) = true
    · rw [if_pos hb] at h
      cases h
      exact ⟨Nat.zero_le _, fun i t h => by simp at h, rfl, .inl ⟨rfl, Says.nil⟩⟩
    rw [if_neg hb] at h
    by_cases hl : s.event.regions.length ≠ N_IN_SECTORS
    · rw [if_pos hl] at h
      cases h
      exact ⟨Nat.zero_le _, fun i t h => by simp at h, rfl, .inr ⟨rfl, _, hl, says_sectors _⟩⟩
    rw [if_neg hl] at h
    have hl' : s.event.regions.length = 12 := not_not.mp hl
    obtain ⟨t, h1, h2⟩ := bhvStep_any toZ0 test s.event hl' (mem test) st hf1 hf2
    rw [h1, Run.ok_bind] at h
    dsimp only at h
    obtain ⟨⟨code', text', ts', st''⟩, h3, h4⟩ := Run.bind_eq_ok.mp h
    cases h4
    obtain ⟨i1, i2, i3, i4⟩ := bhvBenchLoop_text fall toZ0 mem n (test + 1) s (st.advance.add t) (by omega)
      (by rw [(BhvStats.add_frames _ _).1]; show st.test_in_frame + 36 = _; omega)
      (by rw [(BhvStats.add_frames _ _).2]; show st.test_out_frame + 36 = _; omega) h3
    refine ⟨Nat.succ_le_succ i1, ?_, by rw [List.foldl_cons]; exact i3, ?_⟩
    · intro i t' hi
      cases i with
      | zero => cases hi; exact ⟨_, hl', h2⟩
      | succ i =>
        have := i2 i t' hi
        rwa [show test + 1 + i = test + (i + 1) by omega] at this
    · rcases i4 with ⟨rfl, q⟩ | ⟨rfl, k, hk, q⟩
      · exact .inl ⟨rfl, (says_test t).append q⟩
      · exact .inr ⟨rfl, k, hk, (says_test t).append q⟩

theorem says_bhvDestructors (ts : List BhvTest) (h : ∀ t ∈ ts, t.inFrames.length = 18 ∧ t.inDebug.length = 36 ∧ t.outFrames.length = 36 ∧ t.outDebug.length = 36)
    (hn : ts.length ≤ 250) : ∃ text, bhvDestructorsSay ts = .ok text ∧ Says text (bhvSaved ts.length) := by
  have len : ∀ (g : BhvTest → List MP7Event) (k : Nat), (∀ t ∈ ts, (g t).length = k) → (ts.flatMap g).length = k * ts.length := by
    intro g k hg
    clear h hn
    induction ts with
    | nil => rfl
    | cons t ts ih =>
      rw [List.flatMap_cons, List.length_append, hg t (by simp), ih fun t' h' => hg t' (by simp [h']), List.length_cons]
      ring
  have hN : (BitVec.ofNat 32 (36 * ts.length)).toNat = 36 * ts.length := by rw [BitVec.toNat_ofNat, Nat.mod_eq_of_lt (by omega)]
  have one : ∀ (g : BhvTest → List MP7Event) (k : Nat), k ≤ 144 → (∀ t ∈ ts, (g t).length = 36) →
      mp7_count 1 0 k (ts.flatMap g) = .ok (BitVec.ofNat 32 (36 * ts.length)) := by
    intro g k hk hg
    rw [mp7_count_links 0 k hk (by decide) (by decide) _ (by rw [len g 36 hg, show (0 : Int).natAbs + 1 = 1 from rfl]; omega), len g 36 hg,
      show (0 : Int).natAbs + 1 = 1 from rfl, Nat.mul_one]
  have two : mp7_count 2 1 0 (ts.flatMap (·.inFrames)) = .ok (BitVec.ofNat 32 (36 * ts.length)) := by
    rw [mp7_count_eq 1 (by decide) (by decide) _ (by rw [len _ 18 fun t ht => (h t ht).1, show (1 : Int).natAbs + 1 = 2 from rfl]; omega),
      len _ 18 fun t ht => (h t ht).1, show (1 : Int).natAbs + 1 = 2 from rfl, show 18 * ts.length * 2 = 36 * ts.length by omega]
  have say : ∀ fname : String, (∀ c ∈ fname.toList ++ ['.'], isGap c = false) → int (fname.toList ++ ['.']) = none →
      Says (savedMessage "MP7".toList (BitVec.ofNat 32 (36 * ts.length)) fname.toList) [savedLine (36 * ts.length) "MP7" fname] := by
    intro fname ha hb
    have := says_saved "MP7" fname (by decide) ha hb (BitVec.ofNat 32 (36 * ts.length))
    rw [hN] at this
    exact this
  refine ⟨_, ?_, ((say "mp7_output_debug.txt" (by decide) (by decide)).append (say "mp7_output.txt" (by decide) (by decide)) |>.append
    (say "mp7_input_debug.txt" (by decide) (by decide))).append (say "mp7_input.txt" (by decide) (by decide))⟩
  unfold bhvDestructorsSay
  rw [one _ 0 (by omega) fun t ht => (h t ht).2.2.2, Run.ok_bind, one _ 3 (by omega) fun t ht => (h t ht).2.2.1, Run.ok_bind,
    one _ 0 (by omega) fun t ht => (h t ht).2.1, Run.ok_bind, two, Run.ok_bind]

end Verif
