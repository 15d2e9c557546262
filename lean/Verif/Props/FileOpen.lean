import Verif.Model.FileOpen
import Verif.Proofs.PFTestCounts
import Verif.Proofs.PFTestReader
import Verif.Proofs.RegionizerTest
/-!
# C105: files that cannot be opened
-/
namespace Verif
variable {NT NC NE NM NS : Nat}

private theorem ok_bind {A B : Type} (a : A) (k : A → Run B) : ((.ok a : Run A) >>= k) = k a := rfl

private theorem mp7_silent {n : Nat} (c : MP7Conf) (events : List MP7Event) (s : MP7State n) :
    events.foldlM (fun s e => mp7_send c .null e s) s = .ok s := by
  induction events generalizing s with
  | nil => rfl
  | cons e l ih =>
    rw [List.foldlM_cons]
    exact ih s

private theorem ctp7_silent (nmux : Nat) (events : List (MP7Event × Nat)) (s : CTP7State) :
    events.foldlM (fun s e => ctp7_send .null nmux e.1 e.2 s) s = .ok s := by
  induction events generalizing s with
  | nil => rfl
  | cons e l ih =>
    rw [List.foldlM_cons]
    exact ih s

/-- An MP7 serializer with an empty name does nothing at all, whatever it is given (even for more links than an event has words);
with a name that can be opened it is the one of C38 and C64, and says what it has saved; with a name that cannot be opened its
constructor already uses a null file. -/
theorem C105_mp7 (can : Writable) (fname : List Char) (nmux : Nat) (nempty : Int) (nlinks : Nat) (events : List MP7Event) :
    (nmux = 0 → mp7_life can fname nmux nempty nlinks events = .error .divByZero) ∧
    (nmux ≠ 0 → fname ≠ [] → can fname = false → mp7_life can fname nmux nempty nlinks events = .error .nullFile) ∧
    (nmux ≠ 0 → fname = [] → 144 % nmux = 0 → mp7_life can fname nmux nempty nlinks events = .ok (none, [])) ∧
    (fname ≠ [] → can fname = true → mp7_life can fname nmux nempty nlinks events = do
      let n ← mp7_count nmux nempty nlinks events
      let rows ← mp7_file nmux nempty nlinks events
      .ok (some rows, savedMessage "MP7".toList n fname)) := by
  refine ⟨?_, ?_, ?_, ?_⟩
  · intro h
    unfold mp7_life mp7_open
    rw [if_pos h]
    rfl
  · intro h hf hc
    unfold mp7_life mp7_open
    rw [if_neg h, if_pos hf]
    unfold fopenW
    rw [hc]
    rfl
  · intro h hf hd
    have hn : ∃ c s, mp7_new nmux nempty nlinks = .ok (c, s) := by
      unfold mp7_new
      rw [if_neg h]
      by_cases h1 : nmux > 1
      · rw [if_pos h1]
        unfold cassert
        rw [hd]
        exact ⟨_, _, rfl⟩
      · rw [if_neg h1]
        exact ⟨_, _, rfl⟩
    obtain ⟨c, s, hn⟩ := hn
    unfold mp7_life mp7_open
    rw [if_neg h, if_neg (by simp [hf]), hn]
    show (events.foldlM (fun s e => mp7_send c .null e s) s >>= fun s => mp7_end c .null fname s) = _
    rw [mp7_silent]
    rfl
  · intro hf hc
    unfold mp7_life mp7_open mp7_count mp7_file
    by_cases h : nmux = 0
    · rw [if_pos h]
      unfold mp7_new
      rw [if_pos h]
      rfl
    · rw [if_neg h, if_pos hf]
      unfold fopenW
      rw [hc]
      cases hn : mp7_new nmux nempty nlinks with
      | error e => rfl
      | ok x =>
        obtain ⟨c, s⟩ := x
        show (events.foldlM (fun s e => mp7_send c .file e s) s >>= fun s => mp7_end c .file fname s) = 
          ((events.foldlM (fun s e => mp7_call c e s) s >>= fun s => .ok s.ipattern) >>= fun n =>
            (events.foldlM (fun s e => mp7_call c e s) s >>= fun s => mp7_close c s) >>= fun rows =>
              .ok (some rows, savedMessage "MP7".toList n fname))
        have hs : (fun (s : MP7State nmux) e => mp7_send c .file e s) = fun s e => mp7_call c e s := by
          funext s e
          rfl
        rw [hs]
        cases hev : events.foldlM (fun s e => mp7_call c e s) s with
        | error e => rfl
        | ok s' => rfl

/-- The same for the CTP7 serializer. -/
theorem C105_ctp7 (can : Writable) (fname : List Char) (nmux : Nat) (events : List (MP7Event × Nat)) :
    (nmux = 0 → ctp7_life can fname nmux events = .error .divByZero) ∧
    (nmux ≠ 0 → fname ≠ [] → can fname = false → ctp7_life can fname nmux events = .error .nullFile) ∧
    (nmux ≠ 0 → fname = [] → ctp7_life can fname nmux events = .ok (none, [])) ∧
    (fname ≠ [] → can fname = true →
      (ctp7_life can fname 1 events = do
        let n ← ctp7_count events
        let rows ← ctp7_file 1 events
        .ok (some rows, savedMessage "CTP7".toList n fname)) ∧
      (1 < nmux → ctp7_life can fname nmux events = .ok (some [], savedMessage "CTP7".toList 0 fname))) := by
  refine ⟨?_, ?_, ?_, ?_⟩
  · intro h
    unfold ctp7_life ctp7_open
    rw [if_pos h]
    rfl
  · intro h hf hc
    unfold ctp7_life ctp7_open
    rw [if_neg h, if_pos hf]
    unfold fopenW
    rw [hc]
    rfl
  · intro h hf
    unfold ctp7_life ctp7_open
    rw [if_neg h, if_neg (by simp [hf])]
    show (events.foldlM (fun s e => ctp7_send .null nmux e.1 e.2 s) _ >>= fun s => .ok (ctp7_end .null fname s)) = _
    rw [ctp7_silent]
    rfl
  · intro hf hc
    constructor
    · unfold ctp7_life ctp7_open ctp7_count ctp7_file
      rw [if_neg (by omega), if_pos hf]
      unfold fopenW
      rw [hc]
      show (events.foldlM (fun s e => ctp7_call 1 e.1 e.2 s) { ipattern := 0, rows := [] } >>= fun s => .ok (ctp7_end .file fname s)) =
        ((events.foldlM (fun s e => ctp7_call 1 e.1 e.2 s) { ipattern := 0, rows := [] } >>= fun s => .ok s.ipattern) >>= fun n =>
          (events.foldlM (fun s e => ctp7_call 1 e.1 e.2 s) { ipattern := 0, rows := [] } >>= fun s => .ok s.rows) >>= fun rows =>
            .ok (some rows, savedMessage "CTP7".toList n fname))
      cases events.foldlM (fun s e => ctp7_call 1 e.1 e.2 s) { ipattern := 0, rows := [] } with
      | error e => rfl
      | ok s => rfl
    · intro h
      unfold ctp7_life ctp7_open
      rw [if_neg (by omega), if_pos hf]
      unfold fopenW
      rw [hc]
      have hs : ∀ (l : List (MP7Event × Nat)), l.foldlM (fun s e => ctp7_call nmux e.1 e.2 s) { ipattern := 0, rows := [] } =
          (.ok { ipattern := 0, rows := [] } : Run CTP7State) := by
        intro l
        induction l with
        | nil => rfl
        | cons e l ih =>
          rw [List.foldlM_cons]
          have : ctp7_call nmux e.1 e.2 { ipattern := 0, rows := [] } = .ok { ipattern := 0, rows := [] } := by
            unfold ctp7_call
            rw [if_neg (by decide), if_neg (by omega)]
          rw [this]
          exact ih
      show (events.foldlM (fun s e => ctp7_call nmux e.1 e.2 s) { ipattern := 0, rows := [] } >>= fun s => .ok (ctp7_end .file fname s)) = _
      rw [hs]
      rfl

private theorem hr_null (events : List (PFInputs NT NC NE NM × PFOutputs NT NE NS NM)) (s : HRState) (h : s.handle = .null) :
    events.foldlM (fun s e => hr_send e.1 e.2 s) s = .ok s := by
  induction events generalizing s with
  | nil => rfl
  | cons e l ih =>
    rw [List.foldlM_cons]
    have : hr_send e.1 e.2 s = .ok s := by
      unfold hr_send
      rw [if_pos h]
    rw [this]
    exact ih s h

private theorem hr_put (e : PFInputs NT NC NE NM × PFOutputs NT NE NS NM) (s : HRState) :
    (s.handle = .stdout → hr_send e.1 e.2 s = .ok ⟨.stdout, s.ipattern + 1, s.text, s.screen ++ hr_event s.ipattern e.1 e.2⟩) ∧
    (s.handle = .file → hr_send e.1 e.2 s = .ok ⟨.file, s.ipattern + 1, s.text ++ hr_event s.ipattern e.1 e.2, s.screen⟩) := by
  constructor <;> intro h
  all_goals
    obtain ⟨h0, ip, tx, sc⟩ := s
    obtain rfl : h0 = _ := h
    unfold hr_send hr_event
    rw [if_neg (by dsimp only; decide)]
    simp only [List.append_assoc]
    unfold HRState.put
    simp only [bind, Except.bind, List.append_assoc]

private theorem hr_fold (events : List (PFInputs NT NC NE NM × PFOutputs NT NE NS NM)) (s : HRState) (k : BitVec 32) (t : List Char) :
    (s.handle = .stdout → s.ipattern = k → s.screen = t → events.foldlM (fun s e => hr_send e.1 e.2 s) s =
      .ok ⟨.stdout, events.foldl (fun k _ => k + 1) k, s.text,
        (events.foldl (fun (st : BitVec 32 × List Char) e => (st.1 + 1, st.2 ++ hr_event st.1 e.1 e.2)) (k, t)).2⟩) ∧
    (s.handle = .file → s.ipattern = k → s.text = t → events.foldlM (fun s e => hr_send e.1 e.2 s) s =
      .ok ⟨.file, events.foldl (fun k _ => k + 1) k,
        (events.foldl (fun (st : BitVec 32 × List Char) e => (st.1 + 1, st.2 ++ hr_event st.1 e.1 e.2)) (k, t)).2, s.screen⟩) := by
  induction events generalizing s k t with
  | nil =>
    obtain ⟨h0, ip, tx, sc⟩ := s
    constructor
    all_goals
      rintro rfl rfl rfl
      rfl
  | cons e l ih =>
    constructor
    · rintro h rfl rfl
      rw [List.foldlM_cons, (hr_put e s).1 h]
      exact (ih _ _ _).1 rfl rfl rfl
    · rintro h rfl rfl
      rw [List.foldlM_cons, (hr_put e s).2 h]
      exact (ih _ _ _).2 rfl rfl rfl

private theorem count_fold {A : Type} (l : List A) : ∀ k : BitVec 32, l.foldl (fun k _ => k + 1) k = (List.range l.length).foldl (fun k _ => k + 1) k := by
  have key : ∀ (B : Type) (l : List B) (k : BitVec 32), l.foldl (fun k _ => k + 1) k = k + BitVec.ofNat 32 l.length := by
    intro B l
    induction l with
    | nil => intro k; simp
    | cons b l ih =>
      intro k
      rw [List.foldl_cons, ih, List.length_cons]
      apply BitVec.eq_of_toNat_eq
      have h1 : (1 : BitVec 32).toNat = 1 := rfl
      simp only [BitVec.toNat_add, BitVec.toNat_ofNat, h1]
      omega
  intro k
  rw [key, key, List.length_range]

/-- The human-readable serializer never fails: to a file that can be opened it writes the text of C65 and says so, under the
name `-` it prints that text and says nothing more, and with an empty name or a file that cannot be opened it silently does nothing. -/
theorem C105_human_readable (can : Writable) (fname : List Char) (events : List (PFInputs NT NC NE NM × PFOutputs NT NE NS NM)) :
    (fname = [] ∨ fname ≠ "-".toList ∧ can fname = false → hr_life can fname events = .ok (none, [])) ∧
    (fname = "-".toList → hr_life can fname events = .ok (none, hr_file events)) ∧
    (fname ≠ [] → fname ≠ "-".toList → can fname = true →
      hr_life can fname events = .ok (some (hr_file events), savedMessage "human readable".toList (hr_count events.length) fname)) := by
  refine ⟨?_, ?_, ?_⟩
  · intro h
    have hn : (hr_open can fname).handle = .null := by
      unfold hr_open fopenW
      rcases h with h | ⟨h, hc⟩
      · simp [h]
      · have h' : fname ≠ ['-'] := h
        simp [h', hc]
    unfold hr_life
    rw [hr_null events _ hn]
    show (.ok (hr_end fname (hr_open can fname)) : Run _) = _
    unfold hr_end
    rw [hn]
    rfl
  · rintro rfl
    unfold hr_life
    rw [(hr_fold events (hr_open can "-".toList) 0 []).1 rfl rfl rfl]
    rfl
  · intro h h' hc
    have hn : (hr_open can fname).handle = .file := by
      unfold hr_open fopenW
      simp only
      rw [if_pos h, if_neg h', hc]
      rfl
    unfold hr_life
    rw [(hr_fold events (hr_open can fname) 0 []).2 hn rfl rfl, count_fold]
    rfl

/-- But `dump_inputs` of such a serializer, called directly, uses the null file (unless there is nothing to print). -/
theorem C105_direct_dump (can : Writable) (fname : List Char) (h : fname = [] ∨ fname ≠ "-".toList ∧ can fname = false)
    (inp : PFInputs NT NC NE NM) (hn : 0 < NC + NE + NT + NM) : hr_dump_inputs inp (hr_open can fname) = .error .nullFile := by
  have hnull : (hr_open can fname).handle = .null := by
    unfold hr_open fopenW
    rcases h with h | ⟨h, hc⟩
    · simp [h]
    · have h' : fname ≠ ['-'] := h
      simp [h', hc]
  unfold hr_dump_inputs HRState.put
  rw [if_neg (by omega), hnull]

/-! ## The bench -/

private theorem destructors_split (b : Build) (evs : List (TestEvent NT NC NE NM NS b.nin b.nout)) :
    b.destructorsSay evs = b.patternsSay evs >>= fun d => .ok (savedMessage "human readable".toList (hr_count evs.length) hrName ++ d) := by
  cases b with
  | plain =>
    show _ = (Except.ok _ : Run _)
    rw [List.append_nil]
    rfl
  | mp7 II v =>
    unfold Build.destructorsSay Build.patternsSay hrName
    simp only [bind, Except.bind]
    repeat (first | rfl | split)
    simp only [List.append_assoc]
  | ctp7 nin nout v =>
    unfold Build.destructorsSay Build.patternsSay hrName
    simp only [bind, Except.bind]
    repeat (first | rfl | split)
    simp only [List.append_assoc]

/-- The files a build of the bench cannot do without. -/
def Build.needs : Build → List (List Char)
  | .plain => []
  | .mp7 _ _ => ["mp7_input_patterns.txt".toList, "mp7_output_patterns.txt".toList, "mp7_input_patterns_magic.txt".toList,
      "mp7_output_patterns_magic.txt".toList, "mp7_input_patterns_nomux.txt".toList, "mp7_output_patterns_nomux.txt".toList]
  | .ctp7 _ _ _ => ["ctp7_input_patterns_nomux.txt".toList, "ctp7_output_patterns_nomux.txt".toList]

/-- The multiplexing of the MP7 build divides the number of channels. -/
def Build.Muxable : Build → Prop
  | .mp7 II _ => II ≠ 0 ∧ 144 % II = 0
  | _ => True

private theorem mp7_opens (can : Writable) (fname : List Char) (hf : fname ≠ []) (nmux : Nat) (nempty : Int) (h : nmux ≠ 0) (hd : 144 % nmux = 0) :
    (do let _ ← mp7_open can fname nmux nempty 0; (.ok () : Run Unit)) = if can fname then .ok () else .error .nullFile := by
  unfold mp7_open fopenW
  rw [if_neg h, if_pos hf]
  cases can fname with
  | false => rfl
  | true =>
    unfold mp7_new cassert
    rw [if_neg h, hd]
    by_cases h1 : nmux > 1
    · rw [if_pos h1]
      rfl
    · rw [if_neg h1]
      rfl

private theorem forM_checks {A : Type} (l : List A) (f : A → Run Unit) (p : A → Bool)
    (h : ∀ x ∈ l, f x = if p x then .ok () else .error .nullFile) :
    l.forM f = if l.all p then .ok () else .error .nullFile := by
  induction l with
  | nil => rfl
  | cons x l ih =>
    show (f x >>= fun _ => l.forM f) = _
    rw [h x (List.mem_cons_self ..), ih (fun y hy => h y (List.mem_cons_of_mem _ hy)), List.all_cons]
    cases p x <;> rfl

private theorem construct_eq (can : Writable) (b : Build) (hb : b.Muxable) :
    b.construct can = if b.needs.all can then .ok () else .error .nullFile := by
  cases b with
  | plain => rfl
  | mp7 II v =>
    obtain ⟨h0, hd⟩ := hb
    have e : (Build.mp7 II v).construct can = (mp7Names II).forM fun x => (do let _ ← mp7_open can x.1 x.2.1 x.2.2 0; (.ok () : Run Unit)) := rfl
    rw [e]
    rw [forM_checks _ _ (fun x => can x.1)]
    · rfl
    · intro x hx
      have hx' : x.1 ≠ [] ∧ (x.2.1 = II ∨ x.2.1 = 1) := by
        unfold mp7Names at hx
        simp only [List.mem_cons, List.not_mem_nil, or_false] at hx
        rcases hx with rfl | rfl | rfl | rfl | rfl | rfl <;> exact ⟨by dsimp only; decide, by simp⟩
      rcases hx'.2 with h1 | h1
      · exact mp7_opens can x.1 hx'.1 x.2.1 x.2.2 (by rw [h1]; exact h0) (by rw [h1]; exact hd)
      · exact mp7_opens can x.1 hx'.1 x.2.1 x.2.2 (by rw [h1]; decide) (by rw [h1])
  | ctp7 nin nout v =>
    have e : (Build.ctp7 nin nout v).construct can = ctp7Names.forM fun x => (do let _ ← ctp7_open can x 1; (.ok () : Run Unit)) := rfl
    rw [e]
    have o : ∀ f : List Char, f ≠ [] → (do let _ ← ctp7_open can f 1; (.ok () : Run Unit)) = if can f then .ok () else .error .nullFile := by
      intro f hf
      unfold ctp7_open fopenW
      rw [if_neg (by decide), if_pos hf]
      cases can f <;> rfl
    rw [forM_checks _ _ can]
    · rfl
    · intro x hx
      refine o x ?_
      unfold ctp7Names at hx
      simp only [List.mem_cons, List.not_mem_nil, or_false] at hx
      rcases hx with rfl | rfl <;> decide

/-- Without the dump file the bench says so and stops at the `assert`. -/
theorem C105_bench_no_dump (can : Writable) (b : Build) (fall : Option Bool) (zpv : BitVec 32 → Z0) (genZ0 : BitVec 32)
    (junk : Nat → TestJunk NT NC NE NM NS) (inp : PFInputs NT NC NE NM) (z : Z0) (out ref : PFOutputs NT NE NS NM) :
    benchRun can b fall zpv genZ0 none junk inp z out ref =
      ("ERROR: cannot read 'regions_TTbar_PU140.dump'\n".toList, .error .assertFail) := by
  have : "ERROR: cannot read '".toList ++ "regions_TTbar_PU140.dump".toList ++ "'\n".toList =
      "ERROR: cannot read 'regions_TTbar_PU140.dump'\n".toList := by decide
  show ("ERROR: cannot read '".toList ++ "regions_TTbar_PU140.dump".toList ++ "'\n".toList, _) = _
  rw [this]
  rfl

/-- With the dump file but without one of its pattern files the bench uses a null file before the first test. -/
theorem C105_bench_null (can : Writable) (b : Build) (hb : b.Muxable) (f : List Char) (hf : f ∈ b.needs) (hc : can f = false)
    (fall : Option Bool) (zpv : BitVec 32 → Z0) (genZ0 : BitVec 32) (file : CFile)
    (junk : Nat → TestJunk NT NC NE NM NS) (inp : PFInputs NT NC NE NM) (z : Z0) (out ref : PFOutputs NT NE NS NM) :
    benchRun can b fall zpv genZ0 (some file) junk inp z out ref = ([], .error .nullFile) := by
  have h : b.construct can = .error .nullFile := by
    rw [construct_eq can b hb, if_neg]
    intro h
    rw [List.all_eq_true.mp h f hf] at hc
    cases hc
  show ([], (b.construct can >>= _ : Run _)) = _
  rw [h]
  rfl

/-- With the dump file and the pattern files the bench is the one of C50 to C67: if the human-readable file can be opened it is
written and all is as before; if it cannot, the exit status is the same, the output lacks exactly the line about it, and nothing else
tells that the file is missing. -/
theorem C105_bench (can : Writable) (b : Build) (hb : b.Muxable) (hc : ∀ f ∈ b.needs, can f = true)
    (fall : Option Bool) (zpv : BitVec 32 → Z0) (genZ0 : BitVec 32) (file : CFile)
    (junk : Nat → TestJunk NT NC NE NM NS) (inp : PFInputs NT NC NE NM) (z : Z0) (out ref : PFOutputs NT NE NS NM) :
    ∃ r, benchRun can b fall zpv genZ0 (some file) junk inp z out ref = ([], r) ∧
      (∀ e, benchMain b fall zpv genZ0 file junk inp z out ref = .error e ↔ r = .error e) ∧
      ∀ st t, benchMain b fall zpv genZ0 file junk inp z out ref = .ok (st, t) → ∃ tests evs rest,
        benchLoop b fall zpv junk NTEST 1 0 (DumpReader.new genZ0 file) inp z out ref = .ok (st, tests, evs) ∧
        t = tests ++ (savedMessage "human readable".toList (hr_count evs.length) hrName ++ rest) ∧
        r = if can hrName then .ok (st, t, some (hrTestFile evs)) else .ok (st, tests ++ rest, none) := by
  have h : b.construct can = .ok () := by
    rw [construct_eq can b hb, if_pos (List.all_eq_true.mpr hc)]
  refine ⟨_, rfl, ?_⟩
  have er : (benchRun can b fall zpv genZ0 (some file) junk inp z out ref).2 =
      (benchLoop b fall zpv junk NTEST 1 0 (DumpReader.new genZ0 file) inp z out ref >>= fun x =>
        hr_life can hrName (x.2.2.map fun e => (e.inp, e.out)) >>= fun y =>
        b.patternsSay x.2.2 >>= fun d => .ok (x.1, x.2.1 ++ (y.2 ++ d), y.1)) := by
    show (b.construct can >>= fun _ => _) = _
    rw [h]
    rfl
  show (∀ e, _ ↔ (benchRun can b fall zpv genZ0 (some file) junk inp z out ref).2 = _) ∧
    ∀ st t, _ → ∃ tests evs rest, _ ∧ _ ∧ (benchRun can b fall zpv genZ0 (some file) junk inp z out ref).2 = _
  rw [er]
  have em : benchMain b fall zpv genZ0 file junk inp z out ref =
      (benchLoop b fall zpv junk NTEST 1 0 (DumpReader.new genZ0 file) inp z out ref >>= fun x =>
        b.destructorsSay x.2.2 >>= fun d => .ok (x.1, x.2.1 ++ d)) := rfl
  rw [em]
  cases hl : benchLoop b fall zpv junk NTEST 1 0 (DumpReader.new genZ0 file) inp z out ref with
  | error e0 => exact ⟨fun e => ⟨fun h => by cases h; rfl, fun h => by cases h; rfl⟩, fun st t h => by cases h⟩
  | ok x =>
    obtain ⟨st, tests, evs⟩ := x
    have hh : hr_life can hrName (evs.map fun e => (e.inp, e.out)) =
        .ok (if can hrName then (some (hrTestFile evs), savedMessage "human readable".toList (hr_count evs.length) hrName) else (none, [])) := by
      have := C105_human_readable can hrName (evs.map fun e => (e.inp, e.out))
      cases hcn : can hrName with
      | false => exact this.1 (Or.inr ⟨by decide, hcn⟩)
      | true =>
        rw [this.2.2 (by decide) (by decide) hcn, List.length_map]
        rfl
    show (∀ e, (b.destructorsSay evs >>= fun d => .ok (st, tests ++ d)) = _ ↔
        (hr_life can hrName (evs.map fun e => (e.inp, e.out)) >>= fun y => b.patternsSay evs >>= fun d => .ok (st, tests ++ (y.2 ++ d), y.1)) = _) ∧
      ∀ st' t, (b.destructorsSay evs >>= fun d => .ok (st, tests ++ d)) = _ → ∃ tests' evs' rest, _ ∧ _ ∧
        (hr_life can hrName (evs.map fun e => (e.inp, e.out)) >>= fun y => b.patternsSay evs >>= fun d => .ok (st, tests ++ (y.2 ++ d), y.1)) = _
    rw [hh, destructors_split]
    cases hd : b.patternsSay evs with
    | error e0 => exact ⟨fun e => ⟨fun h => by cases h; rfl, fun h => by cases h; rfl⟩, fun st t h => by cases h⟩
    | ok d =>
      refine ⟨fun e => ⟨fun h => (nomatch h), fun h => (nomatch h)⟩, ?_⟩
      intro st' t ht
      cases ht
      refine ⟨tests, evs, d, rfl, rfl, ?_⟩
      cases can hrName <;> rfl

/-! ## The regionizer and vertex benches -/

variable {sz : RegSizes}

/-- The pattern files of the MP7 build of the regionizer bench. -/
def regNeeds : List (List Char) :=
  ["mp7_input.txt".toList, "mp7_input_calo.txt".toList, "mp7_input_track.txt".toList, "mp7_input_mu.txt".toList, "mp7_output.txt".toList,
   "mp7_output_calo.txt".toList, "mp7_output_track.txt".toList, "mp7_output_mu.txt".toList, "mp7_output_calo_nomux.txt".toList,
   "mp7_output_track_nomux.txt".toList]
/-- The pattern files of the vertex bench. -/
def bhvNeeds : List (List Char) :=
  ["mp7_input.txt".toList, "mp7_input_debug.txt".toList, "mp7_output.txt".toList, "mp7_output_debug.txt".toList]

private theorem openAll_eq (can : Writable) (names : List (List Char × Nat × Int × Nat))
    (h : ∀ x ∈ names, x.1 ≠ [] ∧ (x.2.1 = 2 ∨ x.2.1 = 1)) :
    openAll can names = if names.all (fun x => can x.1) then .ok () else .error .nullFile := by
  unfold openAll
  rw [forM_checks _ _ (fun x => can x.1)]
  intro x hx
  have h0 : x.2.1 ≠ 0 := by have := (h x hx).2; omega
  have hd : 144 % x.2.1 = 0 := by rcases (h x hx).2 with h | h <;> rw [h]
  unfold mp7_open fopenW
  rw [if_neg h0, if_pos (h x hx).1]
  cases can x.1 with
  | false => rfl
  | true =>
    unfold mp7_new cassert
    rw [if_neg h0, hd]
    by_cases h1 : x.2.1 > 1
    · rw [if_pos h1]
      rfl
    · rw [if_neg h1]
      rfl

private theorem all_names {can : Writable} (names : List (List Char × Nat × Int × Nat)) (h : ∀ f ∈ names.map (·.1), can f = true) :
    names.all (fun x => can x.1) = true := by
  have := List.all_eq_true.mpr h
  rw [List.all_map] at this
  exact this

/-- A test of the regionizer bench that has filled the streams writes to the dumps. -/
private theorem step_records (test : Nat) (mem : Arr N_OUT_REGIONS (Arr NC HadCaloObj)) (regions : List InputRegion) (inp inp' : RegIn sz NM)
    (f f' f'' : RegFibers) (h1 : fillSectors regions inp f = .ok (some (inp', f'))) (h2 : fillMuons (merge_muon_in inp'.mu) f' = some f'')
    {r : Option Int × List Char × Option (RegRecord sz NC NE NT NM) × RegFibers}
    (h : regBenchStep test mem regions inp f = .ok r) : ∃ d, r.2.2.1 = some d := by
  unfold regBenchStep at h
  obtain ⟨t, _, h⟩ := Run.bind_eq_ok.mp h
  rw [h1] at h
  obtain ⟨st, hst, h⟩ := Run.bind_eq_ok.mp h
  cases hst
  simp only at h
  rw [h2] at h
  obtain ⟨_, _, h⟩ := Run.bind_eq_ok.mp h
  obtain ⟨_, _, h⟩ := Run.bind_eq_ok.mp h
  obtain ⟨_, _, h⟩ := Run.bind_eq_ok.mp h
  obtain ⟨_, _, h⟩ := Run.bind_eq_ok.mp h
  obtain ⟨_, _, h⟩ := Run.bind_eq_ok.mp h
  obtain ⟨_, _, h⟩ := Run.bind_eq_ok.mp h
  obtain ⟨_, _, h⟩ := Run.bind_eq_ok.mp h
  obtain ⟨_, _, h⟩ := Run.bind_eq_ok.mp h
  split at h
  · cases h
    exact ⟨_, rfl⟩
  · cases h
    exact ⟨_, rfl⟩

/-- The regionizer bench without its input stops at the `assert`; the MP7 build without one of its pattern files uses a null file
before the first test. -/
theorem C105_regionizer_stops (can : Writable) (mp7 : Bool) (fall : Option Bool) (genZ0 : BitVec 32)
    (mem : Nat → Arr N_OUT_REGIONS (Arr NC HadCaloObj)) (inp : Nat → RegIn sz NM) (old : Nat → TransMem sz NM) :
    regBenchRun can mp7 fall genZ0 none mem inp old NE NT =
      ("ERROR: cannot read 'barrel_sectors_1x12_TTbar_PU140.dump'\n".toList, .error .assertFail) ∧
    ∀ file, mp7 = true → (∃ f ∈ regNeeds, can f = false) →
      regBenchRun can mp7 fall genZ0 (some file) mem inp old NE NT = ([], .error .nullFile) := by
  constructor
  · have : "ERROR: cannot read '".toList ++ "barrel_sectors_1x12_TTbar_PU140.dump".toList ++ "'\n".toList =
        "ERROR: cannot read 'barrel_sectors_1x12_TTbar_PU140.dump'\n".toList := by decide
    show ("ERROR: cannot read '".toList ++ "barrel_sectors_1x12_TTbar_PU140.dump".toList ++ "'\n".toList, _) = _
    rw [this]
    rfl
  · rintro file rfl ⟨f, hf, hc⟩
    have h : openAll can regNames = .error .nullFile := by
      rw [openAll_eq can regNames (by decide), if_neg]
      intro h
      have : (regNames.map (·.1)).all can = true := by rw [List.all_map]; exact h
      rw [List.all_eq_true.mp this f hf] at hc
      cases hc
    show ([], (openAll can regNames >>= _ : Run _)) = _
    rw [h]
    rfl

/-- With them the regionizer bench is the one of C66 if both dumps can be opened; if one cannot, it ends without using a null file
exactly when it ends with exit status 2 or 3 in the first test: never with success, and not even if there is no event. -/
theorem C105_regionizer (can : Writable) (mp7 : Bool) (hc : mp7 = true → ∀ f ∈ regNeeds, can f = true) (fall : Option Bool) (genZ0 : BitVec 32)
    (file : CFile) (mem : Nat → Arr N_OUT_REGIONS (Arr NC HadCaloObj)) (inp : Nat → RegIn sz NM) (old : Nat → TransMem sz NM) :
    ∃ r, regBenchRun can mp7 fall genZ0 (some file) mem inp old NE NT = ([], r) ∧
      (can "dump_in.txt".toList = true → can "dump_out.txt".toList = true → r = regBenchMain mp7 fall genZ0 file mem inp old NE NT) ∧
      (can "dump_in.txt".toList = false ∨ can "dump_out.txt".toList = false → ∀ st t, r = .ok (st, t) ↔
        regBenchMain mp7 fall genZ0 file mem inp old NE NT = .ok (st, t) ∧ st ≠ 0 ∧
          ∃ t', regBenchLoop (NE := NE) (NT := NT) fall mem inp 50 1 (DumpReader.new genZ0 file) RegFibers.empty = .ok (st, t', [])) := by
  have ho : (if mp7 then openAll can regNames else .ok ()) = .ok () := by
    cases mp7 with
    | false => rfl
    | true =>
      show openAll can regNames = _
      rw [openAll_eq can regNames (by decide), if_pos (all_names regNames (hc rfl))]
  refine ⟨_, rfl, ?_⟩
  have er : (regBenchRun can mp7 fall genZ0 (some file) mem inp old NE NT).2 =
      if nullDump can "dump_in.txt".toList "dump_out.txt".toList then regNullRun mp7 fall (DumpReader.new genZ0 file) inp old NC NE NT
      else regBenchMain mp7 fall genZ0 file mem inp old NE NT := by
    cases mp7 with
    | false => rfl
    | true =>
      show (openAll can regNames >>= fun _ => _) = _
      rw [show openAll can regNames = .ok () from ho]
      rfl
  show (_ → _ → (regBenchRun can mp7 fall genZ0 (some file) mem inp old NE NT).2 = _) ∧
    (_ → ∀ st t, (regBenchRun can mp7 fall genZ0 (some file) mem inp old NE NT).2 = _ ↔ _)
  rw [er]
  constructor
  · intro h1 h2
    rw [if_neg]
    unfold nullDump
    rw [h1, h2]
    decide
  · intro hnull st t
    rw [if_pos (by unfold nullDump; rcases hnull with h | h <;> rw [h] <;> simp)]
    obtain ⟨dest, hdest⟩ : ∃ dest : List (RegRecord sz NC NE NT NM) → Run (List Char),
        dest = fun ds => if mp7 then regDestructorsSay old ds else .ok [] := ⟨_, rfl⟩
    have em : regBenchMain mp7 fall genZ0 file mem inp old NE NT =
        (regBenchLoop (NE := NE) (NT := NT) fall mem inp 50 1 (DumpReader.new genZ0 file) RegFibers.empty >>= fun x =>
          dest x.2.2 >>= fun d => .ok (x.1, configText sz NC NE NT ++ x.2.1 ++ d)) := by
      rw [hdest]
      cases mp7 <;> rfl
    have en : regNullRun mp7 fall (DumpReader.new genZ0 file) inp old NC NE NT =
        ((DumpReader.new genZ0 file).nextEvent fall >>= fun x =>
          if !x.1 then .error .nullFile
          else if x.2.event.regions.length ≠ N_IN_SECTORS then
            dest [] >>= fun d => .ok ((2 : Int), configText sz NC NE NT ++ sectorsMessage x.2.event.regions.length ++ d)
          else fillSectorsSays x.2.event.regions (inp 49) RegFibers.empty >>= fun t0 =>
            fillSectors x.2.event.regions (inp 49) RegFibers.empty >>= fun st => dest [] >>= fun d =>
            match st with
            | none => .ok (3, configText sz NC NE NT ++ t0 ++ d)
            | some (inp, f) =>
              match fillMuons (merge_muon_in inp.mu) f with
              | none => .ok (3, configText sz NC NE NT ++ (t0 ++ fillMuonsSays (merge_muon_in inp.mu) f) ++ d)
              | some _ => .error .nullFile) := by
      rw [hdest]
      cases mp7 <;> rfl
    have el : regBenchLoop (NE := NE) (NT := NT) fall mem inp 50 1 (DumpReader.new genZ0 file) RegFibers.empty =
        ((DumpReader.new genZ0 file).nextEvent fall >>= fun x =>
          if !x.1 then .ok (0, [], [])
          else if x.2.event.regions.length ≠ N_IN_SECTORS then .ok (2, sectorsMessage x.2.event.regions.length, [])
          else regBenchStep 1 (mem 49) x.2.event.regions (inp 49) RegFibers.empty >>= fun y =>
            match y.1 with
            | some code => .ok (code, y.2.1, y.2.2.1.toList)
            | none => regBenchLoop fall mem inp 49 2 x.2 y.2.2.2 >>= fun w => .ok (w.1, y.2.1 ++ w.2.1, y.2.2.1.toList ++ w.2.2)) := rfl
    rw [em, en, el]
    clear em en el er hdest ho
    have same : ∀ (code : Int) (t0 : List Char), code ≠ 0 → ((dest [] >>= fun d => .ok (code, configText sz NC NE NT ++ t0 ++ d)) = .ok (st, t) ↔
        (dest [] >>= fun d => .ok (code, configText sz NC NE NT ++ t0 ++ d)) = .ok (st, t) ∧ st ≠ 0 ∧
          ∃ t', (.ok (code, t0, []) : Run (Int × List Char × List (RegRecord sz NC NE NT NM))) = .ok (st, t', [])) := by
      intro code t0 h0
      constructor
      · intro h
        obtain ⟨d, _, h'⟩ := Run.bind_eq_ok.mp h
        cases h'
        exact ⟨h, h0, t0, rfl⟩
      · intro h
        exact h.1
    cases hne : (DumpReader.new genZ0 file).nextEvent fall with
    | error e => exact ⟨fun h => (nomatch h), fun h => (nomatch h.1)⟩
    | ok x =>
      obtain ⟨b, s⟩ := x
      cases b with
      | false =>
        refine ⟨fun h => (nomatch h), fun h => ?_⟩
        obtain ⟨_, h0, t', ht'⟩ := h
        cases ht'
        exact absurd rfl h0
      | true =>
        simp only [ok_bind, Bool.not_true, Bool.false_eq_true, if_false]
        by_cases hlen : s.event.regions.length ≠ N_IN_SECTORS
        · rw [if_pos hlen, if_pos hlen]
          exact same 2 _ (by decide)
        · rw [if_neg hlen, if_neg hlen]
          cases hfs : fillSectorsSays s.event.regions (inp 49) RegFibers.empty with
          | error e =>
            have e2 : regBenchStep (NE := NE) (NT := NT) 1 (mem 49) s.event.regions (inp 49) RegFibers.empty = .error e := by
              unfold regBenchStep
              rw [hfs]
              rfl
            rw [e2]
            exact ⟨fun h => (nomatch h), fun h => (nomatch h.1)⟩
          | ok t0 =>
            cases hf : fillSectors s.event.regions (inp 49) RegFibers.empty with
            | error e =>
              have e2 : regBenchStep (NE := NE) (NT := NT) 1 (mem 49) s.event.regions (inp 49) RegFibers.empty = .error e := by
                unfold regBenchStep
                rw [hfs, hf]
                rfl
              rw [e2]
              exact ⟨fun h => (nomatch h), fun h => (nomatch h.1)⟩
            | ok x =>
              cases x with
              | none =>
                have e2 : regBenchStep (NE := NE) (NT := NT) 1 (mem 49) s.event.regions (inp 49) RegFibers.empty =
                    .ok (some 3, t0, none, RegFibers.empty) := by
                  unfold regBenchStep
                  rw [hfs, hf]
                  rfl
                rw [e2]
                exact same 3 t0 (by decide)
              | some y =>
                obtain ⟨inp', f'⟩ := y
                simp only [ok_bind]
                cases hm : fillMuons (merge_muon_in inp'.mu) f' with
                | none =>
                  have e2 : regBenchStep (NE := NE) (NT := NT) 1 (mem 49) s.event.regions (inp 49) RegFibers.empty =
                      .ok (some 3, t0 ++ fillMuonsSays (merge_muon_in inp'.mu) f', none, f') := by
                    unfold regBenchStep
                    rw [hfs, hf]
                    simp only [ok_bind]
                    rw [hm]
                  rw [e2]
                  exact same 3 _ (by decide)
                | some f'' =>
                  constructor
                  · intro h
                    obtain ⟨d, _, h⟩ := Run.bind_eq_ok.mp h
                    cases h
                  · rintro ⟨_, _, t', h⟩
                    obtain ⟨y, hy, h⟩ := Run.bind_eq_ok.mp h
                    obtain ⟨d, hd⟩ := step_records 1 (mem 49) s.event.regions (inp 49) inp' RegFibers.empty f' f'' hf hm hy
                    rw [hd] at h
                    cases hy1 : y.1 with
                    | some code =>
                      rw [hy1] at h
                      cases h
                    | none =>
                      rw [hy1] at h
                      obtain ⟨w, _, h⟩ := Run.bind_eq_ok.mp h
                      cases h

/-- The same for the vertex bench, which needs its pattern files in every build. -/
theorem C105_vertex_stops (can : Writable) (F : FloatText) (fall : Option Bool) (toZ0 : BitVec 32 → Z0) (mem : Nat → BhvMem) (genZ0 : BitVec 32) :
    bhvBenchRun can F fall toZ0 mem genZ0 none =
      ("ERROR: cannot read 'barrel_alltracks_sectors_1x12_TTbar_PU140.dump'\n".toList, .error .assertFail) ∧
    ∀ file, (∃ f ∈ bhvNeeds,
      can f = false) → bhvBenchRun can F fall toZ0 mem genZ0 (some file) = ([], .error .nullFile) := by
  constructor
  · have : "ERROR: cannot read '".toList ++ "barrel_alltracks_sectors_1x12_TTbar_PU140.dump".toList ++ "'\n".toList =
        "ERROR: cannot read 'barrel_alltracks_sectors_1x12_TTbar_PU140.dump'\n".toList := by decide
    show ("ERROR: cannot read '".toList ++ "barrel_alltracks_sectors_1x12_TTbar_PU140.dump".toList ++ "'\n".toList, _) = _
    rw [this]
    rfl
  · rintro file ⟨f, hf, hc⟩
    have h : openAll can bhvNames = .error .nullFile := by
      rw [openAll_eq can bhvNames (by decide), if_neg]
      intro h
      have : (bhvNames.map (·.1)).all can = true := by rw [List.all_map]; exact h
      rw [List.all_eq_true.mp this f hf] at hc
      cases hc
    show ([], (openAll can bhvNames >>= _ : Run _)) = _
    rw [h]
    rfl

/-- With the pattern files the vertex bench is the one of C67 if both dumps can be opened; if one cannot, it ends without using a
null file exactly when it ends with exit status 2 in the first test. -/
theorem C105_vertex (can : Writable) (hc : ∀ f ∈ bhvNeeds, can f = true) (F : FloatText) (fall : Option Bool) (toZ0 : BitVec 32 → Z0)
    (mem : Nat → BhvMem) (genZ0 : BitVec 32) (file : CFile) :
    ∃ r, bhvBenchRun can F fall toZ0 mem genZ0 (some file) = ([], r) ∧
      (can "bhv_dump_in.txt".toList = true → can "bhv_dump_out.txt".toList = true → r = bhvBenchMain F fall toZ0 mem genZ0 file) ∧
      (can "bhv_dump_in.txt".toList = false ∨ can "bhv_dump_out.txt".toList = false → ∀ st t, r = .ok (st, t) ↔
        bhvBenchMain F fall toZ0 mem genZ0 file = .ok (st, t) ∧ st ≠ 0 ∧
          ∃ t' stats, bhvBenchLoop fall toZ0 mem 250 1 (DumpReader.new genZ0 file) BhvStats.zero = .ok (st, t', [], stats)) := by
  have ho : openAll can bhvNames = .ok () := by
    rw [openAll_eq can bhvNames (by decide), if_pos (all_names bhvNames hc)]
  refine ⟨_, rfl, ?_⟩
  have er : (bhvBenchRun can F fall toZ0 mem genZ0 (some file)).2 =
      if nullDump can "bhv_dump_in.txt".toList "bhv_dump_out.txt".toList then bhvNullRun fall (DumpReader.new genZ0 file)
      else bhvBenchMain F fall toZ0 mem genZ0 file := by
    show (openAll can bhvNames >>= fun _ => _) = _
    rw [ho]
    rfl
  show (_ → _ → (bhvBenchRun can F fall toZ0 mem genZ0 (some file)).2 = _) ∧
    (_ → ∀ st t, (bhvBenchRun can F fall toZ0 mem genZ0 (some file)).2 = _ ↔ _)
  rw [er]
  constructor
  · intro h1 h2
    rw [if_neg]
    unfold nullDump
    rw [h1, h2]
    decide
  · intro hnull st t
    rw [if_pos (by unfold nullDump; rcases hnull with h | h <;> rw [h] <;> simp)]
    have em : bhvBenchMain F fall toZ0 mem genZ0 file =
        (bhvBenchLoop fall toZ0 mem 250 1 (DumpReader.new genZ0 file) BhvStats.zero >>= fun x =>
          bhvDestructorsSay x.2.2.1 >>= fun d => .ok (x.1, x.2.1 ++ (if x.1 = 0 then F.summary x.2.2.2 else []) ++ d)) := rfl
    have el : bhvBenchLoop fall toZ0 mem 250 1 (DumpReader.new genZ0 file) BhvStats.zero =
        ((DumpReader.new genZ0 file).nextEvent fall >>= fun x =>
          if !x.1 then .ok (0, [], [], BhvStats.zero)
          else if x.2.event.regions.length ≠ N_IN_SECTORS then .ok (2, sectorsMessage x.2.event.regions.length, [], BhvStats.zero)
          else bhvStep toZ0 1 x.2.event (mem 1) BhvStats.zero >>= fun y =>
            bhvBenchLoop fall toZ0 mem 249 2 x.2 (y.2.add y.1) >>= fun w => .ok (w.1, bhvTestText y.1 ++ w.2.1, y.1 :: w.2.2.1, w.2.2.2)) := rfl
    have en : bhvNullRun fall (DumpReader.new genZ0 file) =
        ((DumpReader.new genZ0 file).nextEvent fall >>= fun x =>
          if !x.1 then .error .nullFile
          else if x.2.event.regions.length ≠ N_IN_SECTORS then
            bhvDestructorsSay [] >>= fun d => .ok ((2 : Int), sectorsMessage x.2.event.regions.length ++ d)
          else .error .nullFile) := rfl
    rw [em, en, el]
    clear em en el er ho
    cases hne : (DumpReader.new genZ0 file).nextEvent fall with
    | error e => exact ⟨fun h => (nomatch h), fun h => (nomatch h.1)⟩
    | ok x =>
      obtain ⟨b, s⟩ := x
      cases b with
      | false =>
        refine ⟨fun h => (nomatch h), fun h => ?_⟩
        obtain ⟨_, h0, t', stats, ht'⟩ := h
        cases ht'
        exact absurd rfl h0
      | true =>
        simp only [ok_bind, Bool.not_true, Bool.false_eq_true, if_false]
        by_cases hlen : s.event.regions.length ≠ N_IN_SECTORS
        · rw [if_pos hlen, if_pos hlen]
          simp only [ok_bind, show (2 : Int) ≠ 0 by decide, if_false, List.append_nil]
          constructor
          · intro h
            obtain ⟨d, _, h'⟩ := Run.bind_eq_ok.mp h
            cases h'
            exact ⟨h, by decide, _, _, rfl⟩
          · intro h
            exact h.1
        · rw [if_neg hlen, if_neg hlen]
          refine ⟨fun h => (nomatch h), ?_⟩
          rintro ⟨_, _, t', stats, h⟩
          obtain ⟨y, _, h⟩ := Run.bind_eq_ok.mp h
          obtain ⟨w, _, h⟩ := Run.bind_eq_ok.mp h
          cases h

/-- With nothing writable at all the plain build still passes an empty dump file with exit status 0, and prints nothing; the MP7
build does not get that far. -/
theorem C105_example (junk : Nat → TestJunk NT NC NE NM NS) (inp : PFInputs NT NC NE NM) (z : Z0) (out ref : PFOutputs NT NE NS NM) :
    (benchRun (fun _ => false) .plain (some true) (fun _ => 0) 0 (some ⟨[], false, fun _ => 0⟩) junk inp z out ref).2 = .ok (0, [], none) ∧
    (benchRun (fun _ => false) (.mp7 4 true) (some true) (fun _ => 0) 0 (some ⟨[], false, fun _ => 0⟩) junk inp z out ref).2 = .error .nullFile ∧
    mp7_life (fun _ => false) [] 4 3 1000 [fun _ => 7] = .ok (none, []) ∧
    mp7_life (fun _ => true) "x".toList 1 0 145 [fun _ => 7] = .error .oob := by
  refine ⟨?_, ?_, ?_, ?_⟩
  · obtain ⟨s', hr⟩ : ∃ s', (DumpReader.new 0 ⟨[], false, fun _ => 0⟩).refill (some true) = .ok (false, s') := ⟨_, rfl⟩
    have hs := seek_refill_false hr
    have hsay := seekSays_refill_false hr
    have hl : benchLoop .plain (some true) (fun _ => 0) junk NTEST 1 0 (DumpReader.new 0 ⟨[], false, fun _ => 0⟩) inp z out ref = .ok (0, [], []) := by
      unfold NTEST benchLoop
      unfold DumpReader.nextRegionSays DumpReader.nextRegion
      rw [hs, hsay]
      rfl
    show (benchLoop .plain (some true) (fun _ => 0) junk NTEST 1 0 (DumpReader.new 0 ⟨[], false, fun _ => 0⟩) inp z out ref >>= _) = _
    rw [hl]
    rfl
  · rw [C105_bench_null _ (.mp7 4 true) ⟨by decide, by decide⟩ "mp7_input_patterns.txt".toList (by decide) rfl]
  · exact (C105_mp7 _ _ _ _ _ _).2.2.1 (by decide) rfl (by decide)
  · decide +kernel

/-- With nothing writable the plain build of the regionizer bench uses a null file on an empty input, but ends with exit status 2 and
its message on an event of no sectors. -/
theorem C105_example_regionizer (mem : Nat → Arr N_OUT_REGIONS (Arr NC HadCaloObj)) (inp : Nat → RegIn sz NM) (old : Nat → TransMem sz NM) :
    (regBenchRun (fun _ => false) false (some true) 0 (some ⟨[], false, fun _ => 0⟩) mem inp old NE NT).2 = .error .nullFile ∧
    (regBenchRun (fun _ => false) false (some true) 0 (some ⟨Spec.eventBytes ⟨1, 1, 1, 0, 0, 0, 0, 0, 0, []⟩, false, fun _ => 0⟩) mem inp old NE NT).2 =
      .ok (2, configText sz NC NE NT ++ "ERROR: Mismatching number of input regions: 0\n".toList) := by
  constructor
  · rfl
  · have key : ∀ file : CFile, (∃ s', (DumpReader.new 0 file).nextEvent (some true) = .ok (true, s') ∧ s'.event.regions = []) →
        (regBenchRun (fun _ => false) false (some true) 0 (some file) mem inp old NE NT).2 =
          .ok (2, configText sz NC NE NT ++ "ERROR: Mismatching number of input regions: 0\n".toList) := by
      rintro file ⟨s', h, hr⟩
      show ((DumpReader.new 0 file).nextEvent (some true) >>= fun x => if !x.1 then _ else if x.2.event.regions.length ≠ N_IN_SECTORS then _ else _) = _
      rw [h, ok_bind]
      simp only [Bool.not_true, Bool.false_eq_true, if_false, hr]
      rw [if_pos (by decide)]
      show (.ok (2, configText sz NC NE NT ++ "ERROR: Mismatching number of input regions: 0\n".toList ++ []) : Run _) = _
      rw [List.append_nil]
    refine key _ ?_
    obtain ⟨j, h⟩ := nextEvent_cons (DumpReader.new 0 ⟨Spec.eventBytes ⟨1, 1, 1, 0, 0, 0, 0, 0, 0, []⟩, false, fun _ => 0⟩) ⟨1, 1, 1, 0, 0, 0, 0, 0, 0, []⟩
      ⟨by decide, by simp⟩ [] (fun _ => 0) (by rw [List.append_nil]; rfl)
    exact ⟨_, h, rfl⟩

end Verif
