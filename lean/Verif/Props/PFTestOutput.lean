import Verif.Proofs.PFTestCounts
import Verif.Props.PFTestFiles
/-! # The standard output of the PF test bench: property C70 -/
namespace Verif
open Spec
variable {NT NC NE NM NS : Nat}

/-- What can be the result of a test: of the reference, and of the firmware up to the PUPPI pt, which is not compared. -/
def TestResult (inp : PFInputs NT NC NE NM) (p : PFOutputs NT NE NS NM × PFOutputs NT NE NS NM) : Prop :=
  (∃ old mem, pfalgo3_full_ref inp old mem = .ok p.1) ∧
  ∃ (old : PFOutputs NT NE NS NM) (mem : PFScratch NC NS) (o : PFOutputs NT NE NS NM), pfalgo3_full inp old mem = .ok o ∧
    p.2.outch = o.outch ∧ (∀ i, SameButPuppi (p.2.outpho i) (o.outpho i)) ∧ (∀ i, SameButPuppi (p.2.outne i) (o.outne i)) ∧ p.2.outmu = o.outmu

/-- The build is one that can work: the objects fit the channels, and these a pattern file. -/
def Build.Works (NT NC NE NM NS : Nat) (b : Build) : Prop :=
  b.kind.Fits NT NC NE NM NS ∧
  match b with
  | .plain => True
  | .mp7 II _ => 0 < II ∧ 144 % II = 0
  | .ctp7 nin nout _ => nin ≤ 144 ∧ nout ≤ 144

/-- The regions among the items. -/
def regionsOf : List Item → List InputRegion
  | [] => []
  | .event _ :: is => regionsOf is
  | .region _ r :: is => r :: regionsOf is

/-- What the serializers print in each test. -/
def Build.extra : Build → Nat → List (List Token)
  | .ctp7 _ _ _ => ctpLines
  | _ => fun _ => []

/-- The last lines, after `k` tests: the files written, with their numbers of rows. -/
def Build.savedLines (b : Build) (k : Nat) : List (List Token) :=
  savedLine k "human readable" "human_readable_patterns.txt" ::
  match b with
  | .plain => []
  | .mp7 II _ => [savedLine k "MP7" "mp7_output_patterns_nomux.txt", savedLine k "MP7" "mp7_input_patterns_nomux.txt",
      savedLine (k * II) "MP7" "mp7_output_patterns_magic.txt", savedLine (k * II) "MP7" "mp7_input_patterns_magic.txt",
      savedLine (k * II) "MP7" "mp7_output_patterns.txt", savedLine (k * II) "MP7" "mp7_input_patterns.txt"]
  | .ctp7 _ _ _ => [savedLine (min (6 * k) 1024) "CTP7" "ctp7_output_patterns_nomux.txt", savedLine (min (6 * k) 1024) "CTP7" "ctp7_input_patterns_nomux.txt"]

theorem runLines_skips {validate : Bool} {extra : Nat → List (List Token)} {L rest : List Item} {es : List DumpEvent} (h : Skips L es rest)
    (n test : Nat) (rs : List (PFOutputs NT NE NS NM × PFOutputs NT NE NS NM)) :
    runLines NC validate extra (n + 1) test L rs = es.map beginLine ++ runLines NC validate extra (n + 1) test rest rs := by
  induction h with
  | nil => rfl
  | region i r is => rfl
  | event e h ih => rw [runLines, ih]; rfl

theorem regionsOf_skips {L rest : List Item} {es : List DumpEvent} (h : Skips L es rest) : regionsOf L = regionsOf rest := by
  induction h with
  | nil => rfl
  | region i r is => rfl
  | event e h ih => rw [regionsOf, ih]

theorem regionsOf_append (a b : List Item) : regionsOf (a ++ b) = regionsOf a ++ regionsOf b := by
  induction a with
  | nil => rfl
  | cons x a ih => cases x <;> simp only [List.cons_append, regionsOf, ih]

theorem skips_rest {L rest : List Item} {es : List DumpEvent} (h : Skips L es rest) : rest = [] ∨ ∃ i r is, rest = .region i r :: is := by
  induction h with
  | nil => exact Or.inl rfl
  | region i r is => exact Or.inr ⟨i, r, is, rfl⟩
  | event e h ih => exact ih

theorem build_test {b : Build} (hk : b.kind.Fits NT NC NE NM NS) (inp : PFInputs NT NC NE NM) (out : PFOutputs NT NE NS NM) (junk : TestJunk NT NC NE NM NS)
    (e : TestEvent NT NC NE NM NS b.nin b.nout) (h : b.test inp out junk = .ok e) {ref old : PFOutputs NT NE NS NM} {mem : Arr NC PFNeutralObj}
    (hr : pfalgo3_full_ref inp old mem = .ok ref) : TestResult inp (ref, e.out) := by
  refine ⟨⟨old, mem, hr⟩, ?_⟩
  cases b with
  | plain =>
    unfold Build.test at h
    obtain ⟨o, h1, h2⟩ := Run.bind_eq_ok.mp h
    cases h2
    exact ⟨out, junk.mem, o, h1, rfl, fun _ => ⟨rfl, rfl, rfl, rfl⟩, fun _ => ⟨rfl, rfl, rfl, rfl⟩, rfl⟩
  | mp7 II v =>
    obtain ⟨rfl, _, _, h3⟩ := wrappedTest_vector hk.1 hk.2 _ _ _ e h
    exact h3
  | ctp7 nin nout v =>
    obtain ⟨rfl, _, _, h3⟩ := wrappedTest_vector hk.1 hk.2 _ _ _ e h
    exact h3

theorem serializers_step {b : Build} (hb : b.Works NT NC NE NM NS) (e : TestEvent NT NC NE NM NS b.nin b.nout) (k : Nat) :
    ∃ ip, b.serializersStep e (BitVec.ofNat 32 (min (6 * k) 1024)) = .ok ip ∧ ((∃ a c d, b = .ctp7 a c d) → ip = BitVec.ofNat 32 (min (6 * (k + 1)) 1024)) := by
  cases b with
  | plain => exact ⟨_, rfl, by rintro ⟨_, _, _, h⟩; cases h⟩
  | mp7 II v => exact ⟨_, rfl, by rintro ⟨_, _, _, h⟩; cases h⟩
  | ctp7 nin nout v =>
    obtain ⟨s', h1, h2⟩ := ctp7_call_ip k (asEvent e.data_in) hb.2.1 { ipattern := BitVec.ofNat 32 (min (6 * k) 1024), rows := [] } rfl
    refine ⟨s'.ipattern, ?_, fun _ => h2⟩
    exact Run.bind_eq_ok.mpr ⟨s', h1, rfl⟩

theorem serializers_say (b : Build) (test : Nat) (ip : BitVec 32) (h : (∃ a c d, b = .ctp7 a c d) → ip = BitVec.ofNat 32 (min (6 * (test - 1)) 1024)) :
    Says (b.serializersSay ip) (b.extra test) := by
  cases b with
  | plain => exact Says.nil
  | mp7 II v => exact Says.nil
  | ctp7 nin nout v =>
    rw [h ⟨_, _, _, rfl⟩]
    exact ctp_says test

theorem bench_spec {b : Build} (hb : b.Works NT NC NE NM NS) (zpv : BitVec 32 → Z0) (junk : Nat → TestJunk NT NC NE NM NS) :
    ∀ (n test : Nat) (ip : BitVec 32), 1 ≤ test → ((∃ a c d, b = .ctp7 a c d) → ip = BitVec.ofNat 32 (min (6 * (test - 1)) 1024)) →
      ∀ (L : List Item) (s : DumpReader), Finds s L → ∀ (inp : PFInputs NT NC NE NM) (z : Z0) (out ref : PFOutputs NT NE NS NM)
      (st : Int) (t : List Char) (evs : List (TestEvent NT NC NE NM NS b.nin b.nout)),
      benchLoop b (some true) zpv junk n test ip s inp z out ref = .ok (st, t, evs) →
      ∃ results : List (PFOutputs NT NE NS NM × PFOutputs NT NE NS NM),
        Says t (runLines NC b.kind.validates b.extra n test L results) ∧ evs.length = results.length ∧
        results.length ≤ n ∧ List.Forall₂ (fun r p => TestResult (regionInputs NT NC NE NM r) p) ((regionsOf L).take results.length) results ∧
        (st = 0 ∧ results.length = min n (regionsOf L).length ∧ (b.kind.validates = true → ∀ p ∈ results, Agree p.1 p.2) ∨
         st = 1 ∧ b.kind.validates = true ∧ ∃ pre p, results = pre ++ [p] ∧ (∀ q ∈ pre, Agree q.1 q.2) ∧ ¬ Agree p.1 p.2) := by
  intro n
  induction n with
  | zero =>
    intro test ip _ _ L s _ inp z out ref st t evs h
    unfold benchLoop at h
    cases h
    exact ⟨[], by rw [runLines]; exact Says.nil, rfl, le_refl _, by rw [List.length_nil, List.take_zero]; exact List.Forall₂.nil, Or.inl ⟨rfl, by simp, fun _ p hp => by cases hp⟩⟩
  | succ n ih =>
    intro test ip htest hip L s hs inp z out ref st t evs h
    obtain ⟨es, rest, k1, k2⟩ := nextRegion_says zpv hs (initInputs inp) z
    unfold benchLoop at h
    simp only [] at h
    rcases skips_rest k1 with rfl | ⟨i, r, is, rfl⟩
    · obtain ⟨k3, s', k4⟩ := k2
      rw [k4] at h
      cases h
      refine ⟨[], ?_, rfl, Nat.zero_le _, by rw [List.length_nil, List.take_zero]; exact List.Forall₂.nil,
        Or.inl ⟨rfl, by rw [regionsOf_skips k1]; simp [regionsOf], fun _ p hp => by cases hp⟩⟩
      rw [runLines_skips k1, runLines, List.append_nil]
      exact k3
    · obtain ⟨k3, s', z', k4, k5⟩ := k2
      rw [k4, Run.ok_bind] at h
      simp only [Bool.not_true, Bool.false_eq_true, if_false] at h
      obtain ⟨ref', hr, h⟩ := Run.bind_eq_ok.mp h
      obtain ⟨e, he, h⟩ := Run.bind_eq_ok.mp h
      obtain ⟨ip', hst, hip'⟩ : ∃ ip', b.serializersStep e ip = .ok ip' ∧ ((∃ a c d, b = .ctp7 a c d) → ip' = BitVec.ofNat 32 (min (6 * (test + 1 - 1)) 1024)) := by
        by_cases hc : ∃ a c d, b = .ctp7 a c d
        · obtain ⟨ip', g1, g2⟩ := serializers_step hb e (test - 1)
          rw [← hip hc] at g1
          refine ⟨ip', g1, fun _ => ?_⟩
          rw [g2 hc]
          congr 3
          omega
        · refine ⟨ip, ?_, fun k => absurd k hc⟩
          cases b with
          | plain => rfl
          | mp7 _ _ => rfl
          | ctp7 a c d => exact absurd ⟨_, _, _, rfl⟩ hc
      rw [hst, Run.ok_bind] at h
      have hres := build_test hb.1 _ _ _ e he hr
      have hsay := serializers_say b test ip hip
      have hR : regionsOf L = r :: regionsOf is := by rw [regionsOf_skips k1, regionsOf]
      obtain ⟨v1, v2⟩ := says_validation test (regionInputs NT NC NE NM r) ref' e.out
      by_cases hv : b.kind.validates = true
      · rw [if_pos hv] at h
        by_cases ha : Agree ref' e.out
        · rw [if_neg (by rw [v2]; exact fun k => k ha)] at h
          obtain ⟨⟨st', t', l⟩, h1, h2⟩ := Run.bind_eq_ok.mp h
          cases h2
          obtain ⟨results, r1, r2, r3, r4, r5⟩ := ih (test + 1) ip' (by omega) hip' is s' k5 _ _ _ _ _ _ _ h1
          refine ⟨(ref', e.out) :: results, ?_, by simp [r2], by simp [r3], ?_, ?_⟩
          · rw [runLines_skips k1, runLines, if_pos hv, if_pos ha]
            have := ((k3.append hsay).append v1).append r1
            simpa [List.append_assoc] using this
          · rw [hR, List.length_cons, List.take_succ_cons]
            exact List.Forall₂.cons hres r4
          · rcases r5 with ⟨a1, a2, a3⟩ | ⟨a1, a2, pre, p, a3, a4, a5⟩
            · exact Or.inl ⟨a1, by rw [hR, List.length_cons, List.length_cons, a2]; omega, fun hv => List.forall_mem_cons.mpr ⟨ha, a3 hv⟩⟩
            · exact Or.inr ⟨a1, a2, (ref', e.out) :: pre, p, by rw [a3]; rfl, List.forall_mem_cons.mpr ⟨ha, a4⟩, a5⟩
        · rw [if_pos (v2.mpr ha)] at h
          cases h
          refine ⟨[(ref', e.out)], ?_, rfl, by simp, ?_, Or.inr ⟨rfl, hv, [], _, rfl, fun q hq => (by cases hq), ha⟩⟩
          · rw [runLines_skips k1, runLines, if_pos hv, if_neg ha]
            have := (k3.append hsay).append v1
            simpa [List.append_assoc] using this
          · rw [hR, List.length_singleton, List.take_succ_cons, List.take_zero]
            exact List.Forall₂.cons hres List.Forall₂.nil
      · rw [if_neg hv] at h
        obtain ⟨⟨st', t', l⟩, h1, h2⟩ := Run.bind_eq_ok.mp h
        cases h2
        obtain ⟨results, r1, r2, r3, r4, r5⟩ := ih (test + 1) ip' (by omega) hip' is s' k5 _ _ _ _ _ _ _ h1
        refine ⟨(ref', e.out) :: results, ?_, by simp [r2], by simp [r3], ?_, ?_⟩
        · rw [runLines_skips k1, runLines, if_neg hv]
          have := (k3.append hsay).append r1
          simpa [List.append_assoc] using this
        · rw [hR, List.length_cons, List.take_succ_cons]
          exact List.Forall₂.cons hres r4
        · rcases r5 with ⟨a1, a2, a3⟩ | ⟨a1, a2, _⟩
          · exact Or.inl ⟨a1, by rw [hR, List.length_cons, List.length_cons, a2]; omega, fun hv' => absurd hv' hv⟩
          · exact absurd a2 hv

theorem destructors_say {b : Build} (hb : b.Works NT NC NE NM NS) (evs : List (TestEvent NT NC NE NM NS b.nin b.nout)) (hn : evs.length ≤ 500) :
    ∃ d, b.destructorsSay evs = .ok d ∧ Says d (b.savedLines evs.length) := by
  have hr : Says (savedMessage "human readable".toList (hr_count evs.length) "human_readable_patterns.txt".toList)
      [savedLine evs.length "human readable" "human_readable_patterns.txt"] := by
    have := says_saved "human readable" "human_readable_patterns.txt" (by decide) (by decide) (by decide) (hr_count evs.length)
    rwa [hr_count_eq, BitVec.toNat_ofNat, Nat.mod_eq_of_lt (by omega), ← hr_count_eq] at this
  cases b with
  | plain => exact ⟨_, rfl, hr⟩
  | mp7 II v =>
    change List (TestEvent NT NC NE NM NS 144 144) at evs
    change evs.length ≤ 500 at hn
    obtain ⟨_, h0, h1⟩ := hb
    have hII : II ≤ 144 := Nat.le_of_dvd (by omega) (Nat.dvd_of_mod_eq_zero h1)
    have hm : evs.length * II < 2 ^ 32 := lt_of_le_of_lt (Nat.mul_le_mul hn hII) (by omega)
    have c1 : ∀ f : TestEvent NT NC NE NM NS 144 144 → Arr 144 Word, mp7_count 1 0 0 (evs.map f) = .ok (BitVec.ofNat 32 evs.length) := by
      intro f
      have := mp7_count_eq (n := 1) 0 (by omega) (by omega) (evs.map f) (by rw [List.length_map]; simp; omega)
      rwa [List.length_map, Int.natAbs_zero, Nat.zero_add, Nat.mul_one] at this
    have c2 : ∀ f : TestEvent NT NC NE NM NS 144 144 → Arr 144 Word, mp7_count II (-(II : Int) + 1) 0 (evs.map f) = .ok (BitVec.ofNat 32 (evs.length * II)) := by
      intro f
      have e : (-(II : Int) + 1).natAbs + 1 = II := by omega
      have := mp7_count_eq (n := II) (-(II : Int) + 1) h0 h1 (evs.map f) (by rw [List.length_map, e]; omega)
      rwa [List.length_map, e] at this
    have c3 : ∀ f : TestEvent NT NC NE NM NS 144 144 → Arr 144 Word, mp7_count II ((II : Int) - 1) 0 (evs.map f) = .ok (BitVec.ofNat 32 (evs.length * II)) := by
      intro f
      have e : ((II : Int) - 1).natAbs + 1 = II := by omega
      have := mp7_count_eq (n := II) ((II : Int) - 1) h0 h1 (evs.map f) (by rw [List.length_map, e]; omega)
      rwa [List.length_map, e] at this
    have d1 : ∀ fname : String, (∀ c ∈ fname.toList ++ ['.'], isGap c = false) → int (fname.toList ++ ['.']) = none →
        Says (savedMessage "MP7".toList (BitVec.ofNat 32 evs.length) fname.toList) [savedLine evs.length "MP7" fname] := by
      intro fname hf hi
      have := says_saved "MP7" fname (by decide) hf hi (BitVec.ofNat 32 evs.length)
      rwa [BitVec.toNat_ofNat, Nat.mod_eq_of_lt (by omega)] at this
    have d2 : ∀ fname : String, (∀ c ∈ fname.toList ++ ['.'], isGap c = false) → int (fname.toList ++ ['.']) = none →
        Says (savedMessage "MP7".toList (BitVec.ofNat 32 (evs.length * II)) fname.toList) [savedLine (evs.length * II) "MP7" fname] := by
      intro fname hf hi
      have := says_saved "MP7" fname (by decide) hf hi (BitVec.ofNat 32 (evs.length * II))
      rwa [BitVec.toNat_ofNat, Nat.mod_eq_of_lt hm] at this
    refine ⟨_, ?_, (((((hr.append (d1 "mp7_output_patterns_nomux.txt" (by decide) (by decide))).append
        (d1 "mp7_input_patterns_nomux.txt" (by decide) (by decide))).append
        (d2 "mp7_output_patterns_magic.txt" (by decide) (by decide))).append
        (d2 "mp7_input_patterns_magic.txt" (by decide) (by decide))).append
        (d2 "mp7_output_patterns.txt" (by decide) (by decide))).append
        (d2 "mp7_input_patterns.txt" (by decide) (by decide))⟩
    exact Run.bind_eq_ok.mpr ⟨_, c1 _, Run.bind_eq_ok.mpr ⟨_, c1 _, Run.bind_eq_ok.mpr ⟨_, c2 _, Run.bind_eq_ok.mpr ⟨_, c2 _,
      Run.bind_eq_ok.mpr ⟨_, c3 _, Run.bind_eq_ok.mpr ⟨_, c3 _, rfl⟩⟩⟩⟩⟩⟩
  | ctp7 nin nout v =>
    change List (TestEvent NT NC NE NM NS nin nout) at evs
    obtain ⟨_, hi, ho⟩ := hb
    have c : ∀ (n : Nat) (_ : n ≤ 144) (f : TestEvent NT NC NE NM NS nin nout → Arr n Word),
        ctp7_count (evs.map fun e => asEvent (f e)) = .ok (BitVec.ofNat 32 (min (6 * evs.length) 1024)) := by
      intro n hn f
      rw [ctp7_count_eq, List.length_map]
      intro e he
      obtain ⟨x, _, rfl⟩ := List.mem_map.mp he
      exact hn
    have d : ∀ fname : String, (∀ c ∈ fname.toList ++ ['.'], isGap c = false) → int (fname.toList ++ ['.']) = none →
        Says (savedMessage "CTP7".toList (BitVec.ofNat 32 (min (6 * evs.length) 1024)) fname.toList) [savedLine (min (6 * evs.length) 1024) "CTP7" fname] := by
      intro fname hf hi
      have := says_saved "CTP7" fname (by decide) hf hi (BitVec.ofNat 32 (min (6 * evs.length) 1024))
      rwa [BitVec.toNat_ofNat, Nat.mod_eq_of_lt (by omega)] at this
    refine ⟨_, ?_, (hr.append (d "ctp7_output_patterns_nomux.txt" (by decide) (by decide))).append (d "ctp7_input_patterns_nomux.txt" (by decide) (by decide))⟩
    exact Run.bind_eq_ok.mpr ⟨_, c nout ho _, Run.bind_eq_ok.mpr ⟨_, c nin hi _, rfl⟩⟩

theorem serializers_step_ok {b : Build} (hb : b.Works NT NC NE NM NS) (e : TestEvent NT NC NE NM NS b.nin b.nout) (ip : BitVec 32) :
    ∃ ip', b.serializersStep e ip = .ok ip' := by
  cases b with
  | plain => exact ⟨_, rfl⟩
  | mp7 II v => exact ⟨_, rfl⟩
  | ctp7 nin nout v =>
    have hi : nin ≤ 144 := hb.2.1
    change TestEvent NT NC NE NM NS nin nout at e
    have : ∃ s', ctp7_call 1 (asEvent e.data_in).1 nin { ipattern := ip, rows := [] } = .ok s' := by
      unfold ctp7_call ctp7_print
      rw [buildM_ok (fun i : Fin nin => (asEvent e.data_in).1 ⟨i.val, lt_of_lt_of_le i.isLt hi⟩)
        (fun i => Arr.read_ok _ (lt_of_lt_of_le i.isLt hi)), Run.ok_bind]
      split
      · exact ⟨_, rfl⟩
      · exact ⟨_, rfl⟩
    obtain ⟨s', h⟩ := this
    exact ⟨_, Run.bind_eq_ok.mpr ⟨s', h, rfl⟩⟩

theorem build_underTest (b : Build) (inp : PFInputs NT NC NE NM) (out : PFOutputs NT NE NS NM) (junk : TestJunk NT NC NE NM NS) :
    (b.test inp out junk).map (·.out) = underTest b.kind inp out junk := by
  have go : ∀ nin nout v, (wrappedTest nin nout inp out junk).map (·.out) = underTest (.wrapped nin nout v) inp out junk := by
    intro nin nout v
    unfold wrappedTest underTest
    simp only []
    cases mp7wrapped_pack_in inp (fun _ : Fin nin => (0 : Word)) with
    | error e => rfl
    | ok d =>
      rw [Run.ok_bind, Run.ok_bind]
      cases mp7wrapped_pfalgo3_full NT NC NE NM NS d (fun _ : Fin nout => (0 : Word)) junk.pf0 junk.mem with
      | error e => rfl
      | ok w =>
        rw [Run.ok_bind, Run.ok_bind]
        cases mp7wrapped_unpack_out out w with
        | error e => rfl
        | ok o => rfl
  cases b with
  | plain =>
    show (pfalgo3_full inp out junk.mem >>= fun o => _).map _ = pfalgo3_full inp out junk.mem
    cases pfalgo3_full inp out junk.mem <;> rfl
  | mp7 II v => exact go 144 144 v
  | ctp7 nin nout v => exact go nin nout v

theorem bench_status {b : Build} (hb : b.Works NT NC NE NM NS) (fall : Option Bool) (zpv : BitVec 32 → Z0) (junk : Nat → TestJunk NT NC NE NM NS) :
    ∀ (n test : Nat) (ip : BitVec 32) (s : DumpReader) (inp : PFInputs NT NC NE NM) (z : Z0) (out ref : PFOutputs NT NE NS NM),
      (benchLoop b fall zpv junk n test ip s inp z out ref).map Prod.fst = pfTestLoop b.kind fall zpv junk n s inp z out ref ∧
      ∀ x, benchLoop b fall zpv junk n test ip s inp z out ref = .ok x → x.2.2.length ≤ n := by
  intro n
  induction n with
  | zero =>
    intro test ip s inp z out ref
    refine ⟨rfl, fun x hx => ?_⟩
    cases hx
    exact le_refl _
  | succ n ih =>
    intro test ip s inp z out ref
    unfold benchLoop pfTestLoop
    simp only []
    cases s.nextRegion fall zpv (initInputs inp) z with
    | error e => exact ⟨rfl, fun x hx => by cases hx⟩
    | ok x =>
      obtain ⟨m, s', inp', z'⟩ := x
      rw [Run.ok_bind, Run.ok_bind]
      cases m with
      | false => exact ⟨rfl, fun x hx => by cases hx; exact Nat.zero_le _⟩
      | true =>
        simp only [Bool.not_true, Bool.false_eq_true, if_false]
        cases pfalgo3_full_ref inp' ref (junk n).memref with
        | error e => exact ⟨rfl, fun x hx => by cases hx⟩
        | ok ref' =>
          rw [Run.ok_bind, Run.ok_bind, ← build_underTest]
          cases b.test inp' out (junk n) with
          | error e => exact ⟨rfl, fun x hx => by cases hx⟩
          | ok e =>
            obtain ⟨ip', hip⟩ := serializers_step_ok hb e ip
            rw [Run.ok_bind, hip, Run.ok_bind]
            rw [show (Except.map (fun x => x.out) (Except.ok e) : Run (PFOutputs NT NE NS NM)) = .ok e.out from rfl, Run.ok_bind]
            have hrec := ih (test + 1) ip' s' inp' z' e.out ref'
            obtain ⟨_, v2⟩ := says_validation test inp' ref' e.out
            have hce : countErrors ref' e.out ≠ 0 ↔ ¬ Agree ref' e.out := not_congr (countErrors_eq_zero _ _)
            by_cases hv : b.kind.validates = true
            · rw [if_pos hv]
              by_cases ha : Agree ref' e.out
              · rw [if_neg (by rw [v2]; exact fun k => k ha), if_neg (by rw [hv, Bool.true_and, decide_eq_true_eq, hce]; exact fun k => k ha), ← hrec.1]
                cases hl : benchLoop b fall zpv junk n (test + 1) ip' s' inp' z' e.out ref' with
                | error e => exact ⟨rfl, fun x hx => by cases hx⟩
                | ok x =>
                  refine ⟨rfl, fun y hy => ?_⟩
                  cases hy
                  exact Nat.succ_le_succ (hrec.2 x hl)
              · rw [if_pos (v2.mpr ha), if_pos (by rw [hv, Bool.true_and, decide_eq_true_eq, hce]; exact ha)]
                exact ⟨rfl, fun x hx => by cases hx; exact Nat.succ_le_succ (Nat.zero_le _)⟩
            · rw [if_neg hv, if_neg (by rw [Bool.and_eq_true]; exact fun k => hv k.1), ← hrec.1]
              cases hl : benchLoop b fall zpv junk n (test + 1) ip' s' inp' z' e.out ref' with
              | error e => exact ⟨rfl, fun x hx => by cases hx⟩
              | ok x =>
                refine ⟨rfl, fun y hy => ?_⟩
                cases hy
                exact Nat.succ_le_succ (hrec.2 x hl)

/-- **C70.** The run that prints is the run whose exit status C54 describes, on any file. -/
theorem C70_status {b : Build} (hb : b.Works NT NC NE NM NS) (fall : Option Bool) (zpv : BitVec 32 → Z0) (genZ0 : BitVec 32) (file : CFile)
    (junk : Nat → TestJunk NT NC NE NM NS) (inp : PFInputs NT NC NE NM) (z : Z0) (out ref : PFOutputs NT NE NS NM) :
    (benchMain b fall zpv genZ0 file junk inp z out ref).map Prod.fst = pfTestMain b.kind fall zpv genZ0 file junk inp z out ref := by
  obtain ⟨h1, h2⟩ := bench_status hb fall zpv junk NTEST 1 0 (DumpReader.new genZ0 file) inp z out ref
  unfold benchMain pfTestMain
  rw [← h1]
  cases hl : benchLoop b fall zpv junk NTEST 1 0 (DumpReader.new genZ0 file) inp z out ref with
  | error e => rfl
  | ok x =>
    obtain ⟨st, t, evs⟩ := x
    obtain ⟨d, hd, _⟩ := destructors_say hb evs (h2 _ hl)
    rw [Run.ok_bind]
    simp only []
    rw [hd]
    rfl

theorem regionsOf_items (dump : List DumpEvent) : regionsOf (items dump) = (barrel dump).map Prod.fst := by
  induction dump with
  | nil => rfl
  | cons e dump ih =>
    have hr : ∀ (rs : List InputRegion) i, regionsOf (regionItems (rs.map keepRegion) i) = (rs.filter fun r => !farEta r.etaCenter).map keepRegion := by
      intro rs
      induction rs with
      | nil => intro i; rfl
      | cons r rs ih =>
        intro i
        unfold regionItems at ih ⊢
        rw [List.map_cons, List.zipIdx_cons, List.filter_cons, List.filter_cons]
        have : farEta (keepRegion r).etaCenter = farEta r.etaCenter := rfl
        simp only [this]
        cases farEta r.etaCenter
        · simp only [Bool.not_false, if_true, List.map_cons, regionsOf, ih]
        · simp only [Bool.not_true, Bool.false_eq_true, if_false, ih]
    unfold items barrel at ih ⊢
    rw [List.flatMap_cons, List.flatMap_cons, List.cons_append, regionsOf, regionsOf_append, ih, hr, List.map_append, List.map_map]
    rfl

/-- **C70.** What the bench prints, in each of its builds, on every well-formed dump: for every event its run, lumi section and
number; for every barrel region its number and its objects; for every test the slots where the reference and the firmware
differ with both values of every field, and the verdict, with the objects counted or all inputs and outputs; in the CTP7
build the counters of the serializers; at the end the files with their numbers of rows. -/
theorem C70_output {b : Build} (hb : b.Works NT NC NE NM NS) (zpv : BitVec 32 → Z0) (dump : List DumpEvent)
    (hev : ∀ e ∈ dump, eventFits e ∧ e.event ≠ 0 ∧ e.regions ≠ []) (fjunk : Nat → BitVec 32) (genZ0 : BitVec 32)
    (junk : Nat → TestJunk NT NC NE NM NS) (inp : PFInputs NT NC NE NM) (z : Z0) (out ref : PFOutputs NT NE NS NM) (st : Int) (text : List Char)
    (h : benchMain b (some true) zpv genZ0 ⟨dump.flatMap eventBytes, false, fjunk⟩ junk inp z out ref = .ok (st, text)) :
    ∃ results : List (PFOutputs NT NE NS NM × PFOutputs NT NE NS NM),
      report text = runLines NC b.kind.validates b.extra 500 1 (items dump) results ++ b.savedLines results.length ∧ results.length ≤ 500 ∧
      List.Forall₂ (fun r p => TestResult (regionInputs NT NC NE NM r) p) (((barrel dump).map Prod.fst).take results.length) results ∧
      (st = 0 ∧ results.length = min 500 (barrel dump).length ∧ (b.kind.validates = true → ∀ p ∈ results, Agree p.1 p.2) ∨
       st = 1 ∧ b.kind.validates = true ∧ ∃ pre p, results = pre ++ [p] ∧ (∀ q ∈ pre, Agree q.1 q.2) ∧ ¬ Agree p.1 p.2) := by
  have hf : Finds (DumpReader.new genZ0 ⟨dump.flatMap eventBytes, false, fjunk⟩) (items dump) :=
    Or.inl ⟨dump, hev, rfl, rfl, Or.inl ⟨rfl, rfl⟩⟩
  unfold benchMain at h
  obtain ⟨⟨st', t, evs⟩, h1, h2⟩ := Run.bind_eq_ok.mp h
  obtain ⟨d, h4, h3⟩ := Run.bind_eq_ok.mp h2
  cases h3
  obtain ⟨results, r1, r2, r3, r4, r5⟩ := bench_spec hb zpv junk 500 1 0 (le_refl _) (fun _ => rfl) _ _ hf _ _ _ _ _ _ _ h1
  obtain ⟨d', hd, hsay⟩ := destructors_say hb evs (by rw [r2]; exact r3)
  rw [h4] at hd
  cases hd
  refine ⟨results, ?_, r3, by rw [← regionsOf_items]; exact r4, ?_⟩
  · rw [← r2]
    exact (r1.append hsay).report
  · rw [regionsOf_items, List.length_map] at r5
    exact r5

/-- **C70.** The messages of all six comparisons of utils/test_utils.cpp are one line each, which says which list, which slot, and
for every field its name with the reference first and the tested value second. -/
theorem C70_messages (what : String) (hw : what.toList.count '\n' = 0) (i : Nat) :
    (∀ a b, report (had_message what.toList i a b) = [mismatchLine what i (hadPairs a b)]) ∧
    (∀ a b, report (em_message what.toList i a b) = [mismatchLine what i (emPairs a b)]) ∧
    (∀ a b, report (track_message what.toList i a b) = [mismatchLine what i (trackPairs a b)]) ∧
    (∀ a b, report (mu_message what.toList i a b) = [mismatchLine what i (muPairs a b)]) ∧
    (∀ a b, report (ch_message what.toList i a b) = [mismatchLine what i (chPairs a b)]) ∧
    (∀ a b, report (ne_message what.toList i a b) = [mismatchLine what i (nePairs a b)]) :=
  ⟨fun a b => (says_had what hw i a b).report, fun a b => (says_em what hw i a b).report, fun a b => (says_track what hw i a b).report,
   fun a b => (says_mu what hw i a b).report, fun a b => (says_ch what hw i a b).report, fun a b => (says_ne what hw i a b).report⟩

/-! ### The verdict can be read off the output -/

/-- The first word of the line. -/
def starts (w : String) (l : List Token) : Prop := l.head? = some (.word w.toList)

theorem head_lits : (say "Beginning of run").head? = some (.word "Beginning".toList) ∧ (say "Read region").head? = some (.word "Read".toList) ∧
    (say "Mismatch at").head? = some (.word "Mismatch".toList) ∧ (say "ipattern =").head? = some (.word "ipattern".toList) ∧
    (say "Passed test").head? = some (.word "Passed".toList) ∧ (say "Error in computing test").head? = some (.word "Error".toList) ∧
    (say "Inputs").head? = some (.word "Inputs".toList) ∧ (say "Reference output").head? = some (.word "Reference".toList) ∧
    (say "Current output").head? = some (.word "Current".toList) ∧ (say "Saved").head? = some (.word "Saved".toList) ∧
    (say "calo").head? = some (.word "calo".toList) ∧ (say "em").head? = some (.word "em".toList) ∧ (say "track").head? = some (.word "track".toList) ∧
    (say "muon").head? = some (.word "muon".toList) ∧ (say "charged pf").head? = some (.word "charged".toList) ∧
    (say "photon pf").head? = some (.word "photon".toList) ∧ (say "neutral pf").head? = some (.word "neutral".toList) ∧
    (say "muon pf").head? = some (.word "muon".toList) := by decide +kernel

theorem head_say {a l : List Token} {w : Token} (h : a.head? = some w) : (a ++ l).head? = some w := by
  cases a with
  | nil => cases h
  | cons x a => exact h

theorem objectLines_head {N : Nat} {T : Type} {what : String} {fields : T → List (String × Int)} {a : Arr N T} {w : Token}
    (h : (say what).head? = some w) {l : List Token} (hl : l ∈ objectLines what fields a) : l.head? = some w := by
  unfold objectLines at hl
  obtain ⟨i, _, rfl⟩ := List.mem_map.mp hl
  rw [List.append_assoc]
  exact head_say h

theorem inputLines_head {inp : PFInputs NT NC NE NM} {l : List Token} (hl : l ∈ inputLines inp) :
    l.head? ∈ ["calo", "em", "track", "muon"].map fun w => some (Token.word w.toList) := by
  unfold inputLines at hl
  simp only [List.mem_append] at hl
  obtain ⟨_, _, _, _, _, _, _, _, _, _, h1, h2, h3, h4, _⟩ := head_lits
  rcases hl with ((hl | hl) | hl) | hl
  · rw [objectLines_head h1 hl]; decide
  · rw [objectLines_head h2 hl]; decide
  · rw [objectLines_head h3 hl]; decide
  · rw [objectLines_head h4 hl]; decide

theorem outputLines_head {out : PFOutputs NT NE NS NM} {l : List Token} (hl : l ∈ outputLines out) :
    l.head? ∈ ["charged", "photon", "neutral", "muon"].map fun w => some (Token.word w.toList) := by
  unfold outputLines at hl
  simp only [List.mem_append] at hl
  obtain ⟨_, _, _, _, _, _, _, _, _, _, _, _, _, _, h1, h2, h3, h4⟩ := head_lits
  rcases hl with ((hl | hl) | hl) | hl
  · rw [objectLines_head h1 hl]; decide
  · rw [objectLines_head h2 hl]; decide
  · rw [objectLines_head h3 hl]; decide
  · rw [objectLines_head h4 hl]; decide

theorem mismatches_head {N : Nat} {T : Type} {same : T → T → Prop} {what : String} {pairs : T → T → List (String × Int × Int)} {ref out : Arr N T}
    {l : List Token} (hl : l ∈ mismatches same what pairs ref out) : l.head? = some (.word "Mismatch".toList) := by
  unfold mismatches at hl
  obtain ⟨i, _, hi⟩ := List.mem_filterMap.mp hl
  split at hi
  · cases hi
  · cases hi
    unfold mismatchLine
    simp only [List.append_assoc]
    exact head_say head_lits.2.2.1

/-- Which line of a verdict starts with `Error`, and which with `Passed`. -/
theorem verdict_heads (test : Nat) (inp : PFInputs NT NC NE NM) (ref out : PFOutputs NT NE NS NM) (l : List Token) (hl : l ∈ verdictLines test inp ref out) :
    (starts "Error" l → ¬ Agree ref out ∧ l = errorLine test (allMismatches ref out).length) ∧
    (starts "Passed" l → Agree ref out ∧ l = passedLine test ref) := by
  obtain ⟨_, _, _, _, hp, he, hi, hr, hc, _⟩ := head_lits
  unfold verdictLines at hl
  simp only [] at hl
  unfold starts
  have other : ∀ w : List Char, l.head? = some (.word w) → w ≠ "Error".toList → w ≠ "Passed".toList →
      (l.head? = some (.word "Error".toList) → ¬ Agree ref out ∧ l = errorLine test (allMismatches ref out).length) ∧
      (l.head? = some (.word "Passed".toList) → Agree ref out ∧ l = passedLine test ref) := by
    intro w h1 h2 h3
    rw [h1]
    refine ⟨fun h => ?_, fun h => ?_⟩
    · rw [Option.some.injEq, Token.word.injEq] at h; exact absurd h h2
    · rw [Option.some.injEq, Token.word.injEq] at h; exact absurd h h3
  split at hl
  · rename_i h0
    rw [List.mem_singleton] at hl
    have hh : l.head? = some (.word "Passed".toList) := by rw [hl]; unfold passedLine; exact head_say hp
    refine ⟨fun h => ?_, fun _ => ⟨(allMismatches_nil ref out).mp h0, hl⟩⟩
    rw [hh, Option.some.injEq, Token.word.injEq] at h
    exact absurd h (by decide)
  · rename_i h0
    simp only [List.mem_append, List.mem_cons, List.not_mem_nil, or_false] at hl
    rcases hl with ((((((hl | (hl | hl)) | hl) | hl) | hl) | hl) | hl)
    · have : l.head? = some (.word "Mismatch".toList) := by
        unfold allMismatches at hl
        simp only [List.mem_append] at hl
        rcases hl with ((hl | hl) | hl) | hl <;> exact mismatches_head hl
      exact other _ this (by decide) (by decide)
    · have hh : l.head? = some (.word "Error".toList) := by rw [hl]; unfold errorLine; exact head_say he
      refine ⟨fun _ => ⟨fun ha => h0 ((allMismatches_nil ref out).mpr ha), hl⟩, fun h => ?_⟩
      rw [hh, Option.some.injEq, Token.word.injEq] at h
      exact absurd h (by decide)
    · exact other _ (by rw [hl]; exact hi) (by decide) (by decide)
    · have := inputLines_head hl
      simp only [List.map_cons, List.map_nil, List.mem_cons, List.not_mem_nil, or_false] at this
      rcases this with h | h | h | h <;> exact other _ h (by decide) (by decide)
    · exact other _ (by rw [hl]; exact hr) (by decide) (by decide)
    · have := outputLines_head hl
      simp only [List.map_cons, List.map_nil, List.mem_cons, List.not_mem_nil, or_false] at this
      rcases this with h | h | h | h <;> exact other _ h (by decide) (by decide)
    · exact other _ (by rw [hl]; exact hc) (by decide) (by decide)
    · have := outputLines_head hl
      simp only [List.map_cons, List.map_nil, List.mem_cons, List.not_mem_nil, or_false] at this
      rcases this with h | h | h | h <;> exact other _ h (by decide) (by decide)

theorem runLines_lines {extra : Nat → List (List Token)} {l : List Token} : ∀ (n test : Nat) (L : List Item)
    (rs : List (PFOutputs NT NE NS NM × PFOutputs NT NE NS NM)), l ∈ runLines NC true extra n test L rs →
    (∃ e, l = beginLine e) ∨ (∃ i r, l = regionLine i r) ∨ (∃ k, l ∈ extra k) ∨
      ∃ j r p, (regionsOf L)[j]? = some r ∧ rs[j]? = some p ∧ l ∈ verdictLines (test + j) (regionInputs NT NC NE NM r) p.1 p.2 := by
  intro n
  induction n with
  | zero => intro test L rs h; rw [runLines] at h; cases h
  | succ n ihn =>
    intro test L
    induction L with
    | nil => intro rs h; rw [runLines] at h; cases h
    | cons x L ihL =>
      intro rs h
      cases x with
      | event e =>
        rw [runLines, List.mem_cons] at h
        rcases h with h | h
        · exact Or.inl ⟨e, h⟩
        · exact ihL rs h
      | region i r =>
        cases rs with
        | nil => rw [runLines] at h; cases h
        | cons p rs =>
          rw [runLines, if_pos rfl, List.mem_cons, List.mem_append, List.mem_append] at h
          rcases h with h | h | h | h
          · exact Or.inr (Or.inl ⟨i, r, h⟩)
          · exact Or.inr (Or.inr (Or.inl ⟨test, h⟩))
          · exact Or.inr (Or.inr (Or.inr ⟨0, r, p, rfl, rfl, h⟩))
          · split at h
            · rcases ihn (test + 1) L rs h with h | h | h | ⟨j, r', q, h1, h2, h3⟩
              · exact Or.inl h
              · exact Or.inr (Or.inl h)
              · exact Or.inr (Or.inr (Or.inl h))
              · refine Or.inr (Or.inr (Or.inr ⟨j + 1, r', q, ?_, ?_, ?_⟩))
                · rw [regionsOf, List.getElem?_cons_succ]; exact h1
                · rw [List.getElem?_cons_succ]; exact h2
                · rw [show test + (j + 1) = test + 1 + j by omega]; exact h3
            · cases h

theorem runLines_has {extra : Nat → List (List Token)} {l : List Token} : ∀ (j n test : Nat) (L : List Item)
    (rs : List (PFOutputs NT NE NS NM × PFOutputs NT NE NS NM)) (r : InputRegion) (p), j < n → (regionsOf L)[j]? = some r → rs[j]? = some p →
    (∀ q ∈ rs.take j, Agree q.1 q.2) → l ∈ verdictLines (test + j) (regionInputs NT NC NE NM r) p.1 p.2 → l ∈ runLines NC true extra n test L rs := by
  intro j
  induction j with
  | zero =>
    intro n test L
    induction L with
    | nil => intro rs r p _ h; cases h
    | cons x L ihL =>
      intro rs r p hj h1 h2 h3 h4
      obtain ⟨n, rfl⟩ : ∃ m, n = m + 1 := ⟨n - 1, by omega⟩
      cases x with
      | event e => rw [runLines]; exact List.mem_cons_of_mem _ (ihL rs r p hj h1 h2 h3 h4)
      | region i r' =>
        cases rs with
        | nil => cases h2
        | cons q rs =>
          cases h1
          cases h2
          rw [runLines, if_pos rfl]
          exact List.mem_cons_of_mem _ (List.mem_append_right _ (List.mem_append_left _ h4))
  | succ j ihj =>
    intro n test L
    induction L with
    | nil => intro rs r p _ h; cases h
    | cons x L ihL =>
      intro rs r p hj h1 h2 h3 h4
      obtain ⟨n, rfl⟩ : ∃ m, n = m + 1 := ⟨n - 1, by omega⟩
      cases x with
      | event e => rw [runLines]; exact List.mem_cons_of_mem _ (ihL rs r p hj h1 h2 h3 h4)
      | region i r' =>
        cases rs with
        | nil => cases h2
        | cons q rs =>
          rw [List.take_succ_cons] at h3
          rw [runLines, if_pos rfl, if_pos (h3 q List.mem_cons_self)]
          refine List.mem_cons_of_mem _ (List.mem_append_right _ (List.mem_append_right _ ?_))
          refine ihj n (test + 1) L rs r p (by omega) h1 h2 (fun q' hq => h3 q' (List.mem_cons_of_mem _ hq)) ?_
          rw [show test + 1 + j = test + (j + 1) by omega]
          exact h4

theorem extra_head (b : Build) (k : Nat) (l : List Token) (h : l ∈ b.extra k) : l.head? = some (.word "ipattern".toList) := by
  cases b with
  | plain => cases h
  | mp7 _ _ => cases h
  | ctp7 _ _ _ =>
    have h : l ∈ ctpLines k := h
    unfold ctpLines at h
    split at h
    · simp only [List.mem_append, or_self] at h
      obtain ⟨j, _, rfl⟩ := List.mem_map.mp h
      exact head_say head_lits.2.2.2.1
    · cases h

theorem saved_head (b : Build) (k : Nat) (l : List Token) (h : l ∈ b.savedLines k) : l.head? = some (.word "Saved".toList) := by
  have : ∀ n what fname, (savedLine n what fname).head? = some (.word "Saved".toList) := by
    intro n what fname
    unfold savedLine
    simp only [List.append_assoc]
    exact head_say head_lits.2.2.2.2.2.2.2.2.2.1
  unfold Build.savedLines at h
  cases b <;> simp only [List.mem_cons, List.not_mem_nil, or_false] at h
  · rw [h, this]
  · rcases h with h | h | h | h | h | h | h <;> rw [h, this]
  · rcases h with h | h | h <;> rw [h, this]

theorem testResult_differs {inp : PFInputs NT NC NE NM} {p : PFOutputs NT NE NS NM × PFOutputs NT NE NS NM} (h : TestResult inp p) :
    (Agree p.1 p.2 → Passes NS inp) ∧ (¬ Agree p.1 p.2 → Differs NS inp) := by
  obtain ⟨⟨oldr, memr, hr⟩, old, mem, o, ho, h1, h2, h3, h4⟩ := h
  have hs : Agree p.2 o := ⟨fun i => by rw [h1]; exact sameObj_ch.refl _, fun i => (h2 i).obj, fun i => (h3 i).obj, fun i => by rw [h4]; exact sameObj_ch.refl _⟩
  obtain ⟨d1, d2, _⟩ := decides inp old oldr mem memr
  exact ⟨fun ha => d1 ⟨o, p.1, ho, hr, agree_equivalence.trans ha hs⟩,
    fun ha => d2 ⟨o, p.1, ho, hr, fun hb => ha (agree_equivalence.trans hb (agree_equivalence.symm hs))⟩⟩

/-- **C70.** With validation on, the verdict can be read off the output: there is a line `Error …` exactly if the exit status is 1; such
a line gives the number of a barrel region on which firmware and reference differ; every line `Passed …` gives the number of
a region on which they agree. -/
theorem C70_verdict {b : Build} (hb : b.Works NT NC NE NM NS) (hv : b.kind.validates = true) (zpv : BitVec 32 → Z0) (dump : List DumpEvent)
    (hev : ∀ e ∈ dump, eventFits e ∧ e.event ≠ 0 ∧ e.regions ≠ []) (fjunk : Nat → BitVec 32) (genZ0 : BitVec 32)
    (junk : Nat → TestJunk NT NC NE NM NS) (inp : PFInputs NT NC NE NM) (z : Z0) (out ref : PFOutputs NT NE NS NM) (st : Int) (text : List Char)
    (h : benchMain b (some true) zpv genZ0 ⟨dump.flatMap eventBytes, false, fjunk⟩ junk inp z out ref = .ok (st, text)) :
    (st = 1 ↔ ∃ l ∈ report text, starts "Error" l) ∧
    (∀ l ∈ report text, starts "Error" l → ∃ j x errors, l = errorLine (j + 1) errors ∧ 0 < errors ∧ (barrel dump)[j]? = some x ∧
      Differs NS (regionInputs NT NC NE NM x.1)) ∧
    (∀ l ∈ report text, starts "Passed" l → ∃ j x ref, l = passedLine (j + 1) (NT := NT) (NE := NE) (NS := NS) (NM := NM) ref ∧
      (barrel dump)[j]? = some x ∧ Passes NS (regionInputs NT NC NE NM x.1)) := by
  obtain ⟨results, r1, rle, r2, r3⟩ := C70_output hb zpv dump hev fjunk genZ0 junk inp z out ref st text h
  rw [hv] at r1
  have hres : ∀ (j : Nat) r p, (regionsOf (items dump))[j]? = some r → results[j]? = some p →
      ∃ x, (barrel dump)[j]? = some x ∧ r = x.1 ∧ TestResult (regionInputs NT NC NE NM r) p := by
    intro j r p h1 h2
    rw [regionsOf_items, List.getElem?_map, Option.map_eq_some_iff] at h1
    obtain ⟨x, hx, rfl⟩ := h1
    refine ⟨x, hx, rfl, ?_⟩
    obtain ⟨hj, hp⟩ := List.getElem?_eq_some_iff.mp h2
    have hl := r2.length_eq
    have := (List.forall₂_iff_get.mp r2).2 j (by omega) hj
    simp only [List.get_eq_getElem, List.getElem_take, List.getElem_map] at this
    rw [hp] at this
    obtain ⟨hjb, hxb⟩ := List.getElem?_eq_some_iff.mp hx
    rw [hxb] at this
    exact this
  obtain ⟨hB, hR, _⟩ := head_lits
  have key : ∀ l ∈ report text, (starts "Error" l ∨ starts "Passed" l) → ∃ j r p x, (barrel dump)[j]? = some x ∧ r = x.1 ∧
      TestResult (regionInputs NT NC NE NM r) p ∧ l ∈ verdictLines (1 + j) (regionInputs NT NC NE NM r) p.1 p.2 ∧ results[j]? = some p := by
    intro l hl hs
    have other : ∀ w : List Char, l.head? = some (.word w) → w ≠ "Error".toList → w ≠ "Passed".toList → False := by
      intro w h1 h2 h3
      unfold starts at hs
      rw [h1, Option.some.injEq, Token.word.injEq, Option.some.injEq, Token.word.injEq] at hs
      exact hs.elim h2 h3
    rw [r1, List.mem_append] at hl
    rcases hl with hl | hl
    · rcases runLines_lines _ _ _ _ hl with ⟨e, he⟩ | ⟨i, r, he⟩ | ⟨k, he⟩ | ⟨j, r, p, h1, h2, h3⟩
      · refine (other "Beginning".toList ?_ (by decide) (by decide)).elim
        rw [he]
        unfold beginLine
        simp only [List.append_assoc]
        exact head_say hB
      · refine (other "Read".toList ?_ (by decide) (by decide)).elim
        rw [he]
        unfold regionLine
        simp only [List.append_assoc]
        exact head_say hR
      · exact (other _ (extra_head b k l he) (by decide) (by decide)).elim
      · obtain ⟨x, hx, hr, ht⟩ := hres j r p h1 h2
        exact ⟨j, r, p, x, hx, hr, ht, h3, h2⟩
    · exact (other _ (saved_head b _ l hl) (by decide) (by decide)).elim
  refine ⟨⟨fun hst => ?_, fun ⟨l, hl, hs⟩ => ?_⟩, fun l hl hs => ?_, fun l hl hs => ?_⟩
  · rcases r3 with ⟨h0, _⟩ | ⟨_, _, pre, p, k1, k2, k3⟩
    · rw [h0] at hst; cases hst
    · have hlen := r2.length_eq
      rw [List.length_take, List.length_map] at hlen
      have hrl : results.length = pre.length + 1 := by rw [k1]; simp
      have hj : pre.length < (barrel dump).length := by omega
      have h500 : pre.length < 500 := by omega
      refine ⟨errorLine (1 + pre.length) (allMismatches p.1 p.2).length, ?_, ?_⟩
      · rw [r1]
        refine List.mem_append_left _ (runLines_has pre.length 500 1 _ results (barrel dump)[pre.length].1 p h500 ?_ ?_ ?_ ?_)
        · rw [regionsOf_items, List.getElem?_map, List.getElem?_eq_getElem hj]; rfl
        · rw [k1, List.getElem?_append_right (le_refl _), Nat.sub_self]; rfl
        · rw [k1, List.take_left]; exact k2
        · unfold verdictLines
          simp only []
          rw [if_neg (fun h => k3 ((allMismatches_nil _ _).mp h))]
          simp
      · unfold starts errorLine
        exact head_say head_lits.2.2.2.2.2.1
  · obtain ⟨j, r, p, x, hx, hr, ht, hl, hj⟩ := key l hl (Or.inl hs)
    have hn := ((verdict_heads _ _ _ _ l hl).1 hs).1
    rcases r3 with ⟨_, _, ha⟩ | ⟨h1, _⟩
    · exact absurd (ha hv p (List.mem_of_getElem? hj)) hn
    · exact h1
  · obtain ⟨j, r, p, x, hx, hr, ht, hl, hj⟩ := key l hl (Or.inl hs)
    obtain ⟨hn, he⟩ := (verdict_heads _ _ _ _ l hl).1 hs
    refine ⟨j, x, _, by rw [he, Nat.add_comm], ?_, hx, hr ▸ (testResult_differs ht).2 hn⟩
    rw [List.length_pos_iff]
    exact fun h => hn ((allMismatches_nil _ _).mp h)
  · obtain ⟨j, r, p, x, hx, hr, ht, hl, hj⟩ := key l hl (Or.inr hs)
    obtain ⟨hn, he⟩ := (verdict_heads _ _ _ _ l hl).2 hs
    exact ⟨j, x, p.1, by rw [he, Nat.add_comm], hx, hr ▸ (testResult_differs ht).1 hn⟩

/-- **C70.** In the messages the signs of directions and vertices are printed (`%+7d`), those of other values only if negative (`% 7d`); all have
seven characters or more. -/
theorem C70_signs (x : Int) : ('+' ∈ fmtP 7 x ↔ 0 ≤ x) ∧ ('-' ∈ fmtP 7 x ↔ x < 0) ∧ 7 ≤ (fmtP 7 x).length ∧ '+' ∉ fmtS 7 x ∧ ('-' ∈ fmtS 7 x ↔ x < 0) ∧ 7 ≤ (fmtS 7 x).length := by
  have p : '+' ∉ Nat.toDigits 10 x.natAbs := noDigit_toDigits (by decide) (by decide) _ (by unfold NoDigit; decide)
  have m : '-' ∉ Nat.toDigits 10 x.natAbs := noDigit_toDigits (by decide) (by decide) _ (by unfold NoDigit; decide)
  have r : ∀ n, '+' ∉ List.replicate n ' ' ∧ '-' ∉ List.replicate n ' ' := fun n => ⟨fun h => absurd (List.eq_of_mem_replicate h) (by decide), fun h => absurd (List.eq_of_mem_replicate h) (by decide)⟩
  unfold fmtP fmtS fmtD
  by_cases h : x < 0
  · simp [h, p, m, (r _).1, (r _).2]
    omega
  · simp [h, p, m, (r _).1, (r _).2]
    omega

/-- **C70.** The builds of the repository (`HLS_pipeline_II` is 2: run_hls_fullpfalgo_mp7.tcl:7-8). -/
theorem C70_builds :
    (∀ c ∈ [Config.mp7, Config.ctp7, Config.default], Build.plain.Works c.NTRACK c.NCALO c.NEMCALO c.NMU c.NSELCALO) ∧
    (Build.mp7 2 true).Works Config.mp7.NTRACK Config.mp7.NCALO Config.mp7.NEMCALO Config.mp7.NMU Config.mp7.NSELCALO ∧
    (Build.ctp7 CTP7_NCHANN_IN CTP7_NCHANN_OUT true).Works Config.ctp7.NTRACK Config.ctp7.NCALO Config.ctp7.NEMCALO Config.ctp7.NMU Config.ctp7.NSELCALO ∧
    Build.plain.kind.validates = true ∧ (∀ II v, (Build.mp7 II v).kind.validates = v) ∧ ∀ nin nout v, (Build.ctp7 nin nout v).kind.validates = v :=
  ⟨fun _ _ => ⟨trivial, trivial⟩, ⟨C54_builds.2.1, by decide, by decide⟩, ⟨C54_builds.2.2.1, by decide, by decide⟩, rfl, fun _ _ => rfl, fun _ _ _ => rfl⟩

/-- **C70**, non-vacuity: the bench without wrapping on a dump with the failing region of C54 prints the event, the region and
that test 1 fails. -/
example (zpv : BitVec 32 → Z0) (fjunk : Nat → BitVec 32) (genZ0 : BitVec 32) (junk : Nat → TestJunk 1 1 2 0 1)
    (inp : PFInputs 1 1 2 0) (z : Z0) (out ref : PFOutputs 1 2 1 0) :
    ∃ text errors, benchMain .plain (some true) zpv genZ0 ⟨[eventOf [keepRegionDump]].flatMap eventBytes, false, fjunk⟩ junk inp z out ref = .ok (1, text) ∧
      beginLine (eventOf [keepRegionDump]) ∈ report text ∧ regionLine 0 (keepRegion keepRegionDump) ∈ report text ∧
      0 < errors ∧ errorLine 1 errors ∈ report text := by
  have hev : ∀ e ∈ [eventOf [keepRegionDump]], eventFits e ∧ e.event ≠ 0 ∧ e.regions ≠ [] := by
    intro e he
    rw [List.mem_singleton] at he
    subst he
    refine ⟨⟨by decide, fun r hr => ?_⟩, by decide, by decide⟩
    have hr : r ∈ [keepRegionDump] := hr
    rw [List.mem_singleton] at hr
    subst hr
    exact ⟨by decide, by decide, by decide, by decide⟩
  have hb : Build.plain.Works 1 1 2 0 1 := ⟨trivial, trivial⟩
  have h0 := C54_fails zpv fjunk genZ0 junk inp z out ref
  rw [← List.flatMap_singleton eventBytes] at h0
  change pfTestMain Build.plain.kind _ _ _ _ _ _ _ _ _ = _ at h0
  rw [← C70_status hb] at h0
  cases hm : benchMain .plain (some true) zpv genZ0 ⟨[eventOf [keepRegionDump]].flatMap eventBytes, false, fjunk⟩ junk inp z out ref with
  | error e => rw [hm] at h0; cases h0
  | ok x =>
    obtain ⟨st, text⟩ := x
    rw [hm] at h0
    have h0 : (.ok st : Run Int) = .ok 1 := h0
    injection h0 with h0
    subst h0
    obtain ⟨v1, v2, _⟩ := C70_verdict hb rfl zpv _ hev fjunk genZ0 junk inp z out ref 1 text hm
    obtain ⟨l, hl, hs⟩ := v1.mp rfl
    obtain ⟨j, x, errors, h1, h2, h3, _⟩ := v2 l hl hs
    have hbar : barrel [eventOf [keepRegionDump]] = [(keepRegion keepRegionDump, 0)] := rfl
    rw [hbar] at h3
    obtain ⟨results, r1, _, _, r3⟩ := C70_output hb zpv _ hev fjunk genZ0 junk inp z out ref 1 text hm
    rcases r3 with ⟨h, _⟩ | ⟨_, _, pre, p, k1, _, _⟩
    · cases h
    have hne : results ≠ [] := by rw [k1]; simp
    obtain ⟨q, qs, rfl⟩ := List.exists_cons_of_ne_nil hne
    have hit : items [eventOf [keepRegionDump]] = [.event (eventOf [keepRegionDump]), .region 0 (keepRegion keepRegionDump)] := rfl
    rw [hit, runLines, runLines] at r1
    refine ⟨text, errors, rfl, ?_, ?_, h2, ?_⟩
    · rw [r1]; simp
    · rw [r1]; simp
    · match j, h3 with
      | 0, _ => rw [h1] at hl; exact hl
      | j + 1, h3 => simp at h3

/-- **C70**, non-vacuity: the MP7 and the CTP7 build on a dump with the ordinary region exit with 0 and say so. -/
example (zpv : BitVec 32 → Z0) (fjunk : Nat → BitVec 32) (genZ0 : BitVec 32) (junk : Nat → TestJunk 3 2 2 1 2)
    (inp : PFInputs 3 2 2 1) (z : Z0) (out ref : PFOutputs 3 2 2 1) (b : Build) (hb : b = .mp7 4 true ∨ b = .ctp7 67 48 true) :
    ∃ text r, benchMain b (some true) zpv genZ0 ⟨[eventOf [ordinaryRegion]].flatMap eventBytes, false, fjunk⟩ junk inp z out ref = .ok (0, text) ∧
      passedLine (NT := 3) (NE := 2) (NS := 2) (NM := 1) 1 r ∈ report text := by
  have hev : ∀ e ∈ [eventOf [ordinaryRegion]], eventFits e ∧ e.event ≠ 0 ∧ e.regions ≠ [] := by
    intro e he
    rw [List.mem_singleton] at he
    subst he
    refine ⟨⟨by decide, fun r hr => ?_⟩, by decide, by decide⟩
    have hr : r ∈ [ordinaryRegion] := hr
    rw [List.mem_singleton] at hr
    subst hr
    exact ⟨by decide, by decide, by decide, by decide⟩
  have hw : b.Works 3 2 2 1 2 ∧ b.kind.validates = true := by
    rcases hb with rfl | rfl
    · exact ⟨⟨⟨by decide, by decide⟩, by decide, by decide⟩, rfl⟩
    · exact ⟨⟨⟨by decide, by decide⟩, by decide, by decide⟩, rfl⟩
  have h0 := C54_physical_passes (NT := 3) (NC := 2) (NE := 2) (NM := 1) (NS := 2) (kind := b.kind)
    hw.1.1 hw.2 zpv [eventOf [ordinaryRegion]] hev fjunk genZ0 junk inp z out ref (by
      intro x hx
      rw [show barrel [eventOf [ordinaryRegion]] = [(keepRegion ordinaryRegion, 0)] from rfl, List.mem_singleton] at hx
      subst hx
      exact ⟨⟨by decide, by decide, by decide, by decide, by decide, by decide, by decide, by decide, by decide, by decide⟩,
        by decide, by decide, by decide⟩)
  rw [← C70_status hw.1] at h0
  cases hm : benchMain b (some true) zpv genZ0 ⟨[eventOf [ordinaryRegion]].flatMap eventBytes, false, fjunk⟩ junk inp z out ref with
  | error e => rw [hm] at h0; cases h0
  | ok x =>
    obtain ⟨st, text⟩ := x
    rw [hm] at h0
    have h0 : (.ok st : Run Int) = .ok 0 := h0
    injection h0 with h0
    subst h0
    obtain ⟨results, r1, _, _, r3⟩ := C70_output hw.1 zpv _ hev fjunk genZ0 junk inp z out ref 0 text hm
    rcases r3 with ⟨_, r3, r4⟩ | ⟨h, _⟩
    · rw [show barrel [eventOf [ordinaryRegion]] = [(keepRegion ordinaryRegion, 0)] from rfl] at r3
      match results, r1, r3, r4 with
      | [p], r1, _, r4 =>
        refine ⟨text, p.1, rfl, ?_⟩
        rw [r1, hw.2]
        refine List.mem_append_left _ (runLines_has 0 500 1 _ [p] (keepRegion ordinaryRegion) p (by omega) rfl rfl (by simp) ?_)
        unfold verdictLines
        simp only []
        rw [if_pos ((allMismatches_nil _ _).mpr (r4 hw.2 p List.mem_cons_self))]
        simp
    · cases h

end Verif
