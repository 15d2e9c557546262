import Verif.Proofs.PFTest
import Verif.Props.Memory
import Verif.Props.PFAgree
import Verif.Props.Dump
/-! # The PF test bench: property C54 -/
namespace Verif
open Spec
variable {NT NC NE NM NS : Nat}

/-- **C54.** Whether firmware and reference agree on an event, differ, or one of them is undefined does not
depend on the memory; exactly one of the three holds. -/
theorem C54_trichotomy (inp : PFInputs NT NC NE NM) :
    (Passes NS inp ∨ Differs NS inp ∨ Undefined NS inp) ∧ ¬ (Passes NS inp ∧ Differs NS inp) ∧
    ¬ (Passes NS inp ∧ Undefined NS inp) ∧ ¬ (Differs NS inp ∧ Undefined NS inp) := by
  refine ⟨trichotomy (old0 NT NE NS NM) (mem0 NC NS) inp, ?_, ?_, ?_⟩
  · rintro ⟨h, k⟩
    obtain ⟨o, r, h1, h2, h3⟩ := h (old0 NT NE NS NM) (old0 NT NE NS NM) (mem0 NC NS) (mem0 NC NS).outne_all
    obtain ⟨o', r', k1, k2, k3⟩ := k (old0 NT NE NS NM) (old0 NT NE NS NM) (mem0 NC NS) (mem0 NC NS).outne_all
    rw [h1] at k1; rw [h2] at k2
    cases k1; cases k2
    exact k3 h3
  all_goals
    rintro ⟨h, k⟩
    obtain ⟨o, r, h1, h2, h3⟩ := h (old0 NT NE NS NM) (old0 NT NE NS NM) (mem0 NC NS) (mem0 NC NS).outne_all
    rcases k (old0 NT NE NS NM) (old0 NT NE NS NM) (mem0 NC NS) (mem0 NC NS).outne_all with ⟨e, he⟩ | ⟨e, he⟩
    · rw [h1] at he; cases he
    · rw [h2] at he; cases he

theorem first_bad {α : Type} (P : α → Prop) : ∀ L : List α, (∀ x ∈ L, P x) ∨
    ∃ pre x post, L = pre ++ x :: post ∧ (∀ y ∈ pre, P y) ∧ ¬ P x := by
  intro L
  induction L with
  | nil => exact Or.inl (fun x h => by cases h)
  | cons a L ih =>
    by_cases ha : P a
    · rcases ih with h | ⟨pre, x, post, h1, h2, h3⟩
      · exact Or.inl (List.forall_mem_cons.mpr ⟨ha, h⟩)
      · exact Or.inr ⟨a :: pre, x, post, by rw [h1]; rfl, List.forall_mem_cons.mpr ⟨ha, h2⟩, h3⟩
    · exact Or.inr ⟨[], a, L, rfl, fun _ h => (by cases h), ha⟩

section Verdict
variable {kind : TestKind} (hk : kind.Fits NT NC NE NM NS) (hv : kind.validates = true) (zpv : BitVec 32 → Z0)
  (evs : List DumpEvent) (hev : ∀ e ∈ evs, eventFits e ∧ e.event ≠ 0 ∧ e.regions ≠ [])
  (fjunk : Nat → BitVec 32) (genZ0 : BitVec 32) (junk : Nat → TestJunk NT NC NE NM NS)
  (inp : PFInputs NT NC NE NM) (z : Z0) (out ref : PFOutputs NT NE NS NM)
include hk hv hev

theorem verdicts :
    ((∀ x ∈ (barrel evs).take 500, Passes NS (regionInputs NT NC NE NM x.1)) → pfTestMain kind (some true) zpv genZ0 ⟨evs.flatMap eventBytes, false, fjunk⟩ junk inp z out ref = .ok 0) ∧
    (∀ pre x post, (barrel evs).take 500 = pre ++ x :: post → (∀ y ∈ pre, Passes NS (regionInputs NT NC NE NM y.1)) →
      (Differs NS (regionInputs NT NC NE NM x.1) → pfTestMain kind (some true) zpv genZ0 ⟨evs.flatMap eventBytes, false, fjunk⟩ junk inp z out ref = .ok 1) ∧
      (Undefined NS (regionInputs NT NC NE NM x.1) → ∃ e, pfTestMain kind (some true) zpv genZ0 ⟨evs.flatMap eventBytes, false, fjunk⟩ junk inp z out ref = .error e)) := by
  have hp : Pend (DumpReader.new genZ0 ⟨evs.flatMap eventBytes, false, fjunk⟩) (barrel evs) :=
    Or.inl ⟨evs, hev, rfl, rfl, Or.inl ⟨rfl, rfl⟩⟩
  refine ⟨fun h => loop_all_pass hk hv zpv junk 500 _ _ hp h inp z out ref, fun pre x post he hpre => ?_⟩
  have hlen : pre.length < 500 := by
    have h1 : ((barrel evs).take 500).length ≤ 500 := List.length_take_le _ _
    rw [he, List.length_append, List.length_cons] at h1
    omega
  have hL : barrel evs = pre ++ x :: (post ++ (barrel evs).drop 500) := by
    rw [← List.cons_append, ← List.append_assoc, ← he, List.take_append_drop]
  rw [hL] at hp
  obtain ⟨s', inp', z', out', ref', h1, h2⟩ := loop_skip hk hv zpv junk pre (500 - pre.length - 1 + 1) _ _ hp hpre inp z out ref
  have hn : pre.length + (500 - pre.length - 1 + 1) = 500 := by omega
  rw [hn] at h2
  unfold pfTestMain NTEST
  rw [h2]
  exact ⟨fun hd => loop_differ hk hv zpv junk h1 hd _ _ _ _, fun hu => loop_undefined hk zpv junk h1 hu _ _ _ _⟩

/-- **C54.** The test bench, in each of its builds, exits with 0 exactly when firmware and reference agree, with
defined behaviour, on the first 500 barrel regions of the dump. -/
theorem C54_exit_0_iff :
    pfTestMain kind (some true) zpv genZ0 ⟨evs.flatMap eventBytes, false, fjunk⟩ junk inp z out ref = .ok 0 ↔ ∀ x ∈ (barrel evs).take 500, Passes NS (regionInputs NT NC NE NM x.1) := by
  obtain ⟨h0, h1⟩ := verdicts (NS := NS) hk hv zpv evs hev fjunk genZ0 junk inp z out ref
  refine ⟨fun h => ?_, h0⟩
  rcases first_bad (fun x => Passes NS (regionInputs NT NC NE NM x.1)) ((barrel evs).take 500) with k | ⟨pre, x, post, k1, k2, k3⟩
  · exact k
  · exfalso
    rcases (C54_trichotomy (NS := NS) (regionInputs NT NC NE NM x.1)).1 with p | p | p
    · exact k3 p
    · rw [(h1 pre x post k1 k2).1 p] at h
      cases h
    · obtain ⟨e, he⟩ := (h1 pre x post k1 k2).2 p
      rw [he] at h
      cases h

/-- **C54.** It exits with 1 exactly when one of these regions shows a difference and all regions before it pass. -/
theorem C54_exit_1_iff :
    pfTestMain kind (some true) zpv genZ0 ⟨evs.flatMap eventBytes, false, fjunk⟩ junk inp z out ref = .ok 1 ↔ ∃ pre x post, (barrel evs).take 500 = pre ++ x :: post ∧
      (∀ y ∈ pre, Passes NS (regionInputs NT NC NE NM y.1)) ∧ Differs NS (regionInputs NT NC NE NM x.1) := by
  obtain ⟨h0, h1⟩ := verdicts (NS := NS) hk hv zpv evs hev fjunk genZ0 junk inp z out ref
  refine ⟨fun h => ?_, fun ⟨pre, x, post, k1, k2, k3⟩ => (h1 pre x post k1 k2).1 k3⟩
  rcases first_bad (fun x => Passes NS (regionInputs NT NC NE NM x.1)) ((barrel evs).take 500) with k | ⟨pre, x, post, k1, k2, k3⟩
  · rw [h0 k] at h
    cases h
  · rcases (C54_trichotomy (NS := NS) (regionInputs NT NC NE NM x.1)).1 with p | p | p
    · exact absurd p k3
    · exact ⟨pre, x, post, k1, k2, p⟩
    · obtain ⟨e, he⟩ := (h1 pre x post k1 k2).2 p
      rw [he] at h
      cases h

/-- **C54.** No other exit status is possible; undefined behaviour occurs exactly when a region is undefined for one
of the implementations and all before it pass. -/
theorem C54_undefined_iff :
    (∃ e, pfTestMain kind (some true) zpv genZ0 ⟨evs.flatMap eventBytes, false, fjunk⟩ junk inp z out ref = .error e) ↔ ∃ pre x post, (barrel evs).take 500 = pre ++ x :: post ∧
      (∀ y ∈ pre, Passes NS (regionInputs NT NC NE NM y.1)) ∧ Undefined NS (regionInputs NT NC NE NM x.1) := by
  obtain ⟨h0, h1⟩ := verdicts (NS := NS) hk hv zpv evs hev fjunk genZ0 junk inp z out ref
  refine ⟨fun ⟨e, h⟩ => ?_, fun ⟨pre, x, post, k1, k2, k3⟩ => (h1 pre x post k1 k2).2 k3⟩
  rcases first_bad (fun x => Passes NS (regionInputs NT NC NE NM x.1)) ((barrel evs).take 500) with k | ⟨pre, x, post, k1, k2, k3⟩
  · rw [h0 k] at h
    cases h
  · rcases (C54_trichotomy (NS := NS) (regionInputs NT NC NE NM x.1)).1 with p | p | p
    · exact absurd p k3
    · rw [(h1 pre x post k1 k2).1 p] at h
      cases h
    · exact ⟨pre, x, post, k1, k2, p⟩

/-- **C54.** So the test bench passes on any dump whose barrel regions convert to physical inputs with no pt error of
exactly 1 and no calorimeter cluster flagged EM. -/
theorem C54_physical_passes
    (hr : ∀ x ∈ barrel evs, Physical (regionInputs NT NC NE NM x.1) ∧
      (∀ t, ((regionInputs NT NC NE NM x.1).track t).hwPt.toInt = 0 → ((regionInputs NT NC NE NM x.1).track t).hwPtErr.toInt = 0) ∧
      (∀ t, ((regionInputs NT NC NE NM x.1).track t).hwPtErr.toInt ≠ 1) ∧
      (∀ h, ((regionInputs NT NC NE NM x.1).hadcalo h).hwIsEM = false)) :
    pfTestMain kind (some true) zpv genZ0 ⟨evs.flatMap eventBytes, false, fjunk⟩ junk inp z out ref = .ok 0 := by
  rw [C54_exit_0_iff hk hv zpv evs hev]
  intro x hx
  obtain ⟨p1, p2, p3, p4⟩ := hr x (List.mem_of_mem_take hx)
  intro old old' mem mem'
  obtain ⟨o, r, h1, h2, h3, h4, h5, h6⟩ := C02_fw_ref_agree_simple_partial (regionInputs NT NC NE NM x.1) old old' mem mem' p1 p2 p3 p4
  obtain ⟨_, _, _, _, hch, hne⟩ := C47_equals_iff
  exact ⟨o, r, h1, h2, fun i => (hch _ _).mp (h3 i), fun i => (hne _ _).mp (h4 i), fun i => (hne _ _).mp (h5 i),
    fun i => (hch _ _).mp (h6 i)⟩

end Verdict

/-- **C54.** The three builds of the repository: the objects fit the channels, and the comparison is made. -/
theorem C54_builds :
    (∀ c ∈ [Config.mp7, Config.ctp7, Config.default], TestKind.plain.Fits c.NTRACK c.NCALO c.NEMCALO c.NMU c.NSELCALO) ∧
    TestKind.mp7.Fits Config.mp7.NTRACK Config.mp7.NCALO Config.mp7.NEMCALO Config.mp7.NMU Config.mp7.NSELCALO ∧
    TestKind.ctp7.Fits Config.ctp7.NTRACK Config.ctp7.NCALO Config.ctp7.NEMCALO Config.ctp7.NMU Config.ctp7.NSELCALO ∧
    TestKind.plain.validates = true ∧ TestKind.mp7.validates = true ∧ TestKind.ctp7.validates = true :=
  ⟨fun _ _ => trivial, by unfold TestKind.mp7 TestKind.Fits; decide, by unfold TestKind.ctp7 TestKind.Fits; decide, rfl, rfl, rfl⟩

/-- **C54.** By the C++ standard the test bench is undefined on every dump of at least four bytes (C43). -/
theorem C54_standard_undefined (kind : TestKind) (zpv : BitVec 32 → Z0) (genZ0 : BitVec 32) (f : CFile) (h : 4 ≤ f.bytes.length)
    (he : f.eof = false) (junk : Nat → TestJunk NT NC NE NM NS) (inp : PFInputs NT NC NE NM) (z : Z0)
    (out ref : PFOutputs NT NE NS NM) :
    pfTestMain kind none zpv genZ0 f junk inp z out ref = .error .noReturn := by
  unfold pfTestMain NTEST
  rw [pfTestLoop]
  unfold DumpReader.nextRegion
  rw [(C43_undefined genZ0 f h he).2]
  rfl

/-! ### Witnesses -/

/-- A barrel region that converts to `ordinary` (muon pt errors are not stored: they are 0). -/
def ordinaryRegion : InputRegion where
  etaCenter := 0
  etaMin := 0
  etaMax := 0
  phiCenter := 0
  phiHalfWidth := 0
  etaExtra := 0
  phiExtra := 0
  calo := [⟨300, 200, 0, 200, -60, 0, false, false⟩, ⟨90, 22, 0, -100, 85, 0, false, false⟩]
  emcalo := [⟨100, 0, 6, 50, 50, 0, false, false⟩, ⟨80, 0, 5, -100, 20, 0, false, false⟩]
  track := [⟨⟨0, 0, 0, false, 3, 900, 5, 0⟩, 95, 0, 4, 51, 48, false, false, false⟩,
    ⟨⟨0, 0, 0, false, 3, 20, 6, 0⟩, 120, 0, 10, 202, -58, false, false, false⟩,
    ⟨⟨0, 0, 0, false, 2, 20, 4, 0⟩, 60, 0, 3, -200, 300, false, false, false⟩]
  muon := [⟨58, -195, 296, 0, false⟩]

/-- A barrel region that converts to `keepEvent`, on which firmware and reference differ. -/
def keepRegionDump : InputRegion where
  etaCenter := 0
  etaMin := 0
  etaMax := 0
  phiCenter := 0
  phiHalfWidth := 0
  etaExtra := 0
  phiExtra := 0
  calo := [⟨200, 100, 0, 5, 0, 0, true, false⟩]
  emcalo := [⟨20, 0, 1, 0, 0, 0, false, false⟩, ⟨100, 0, 5, 15, 0, 0, false, false⟩]
  track := [⟨⟨0, 0, 0, false, 0, 900, 5, 0⟩, 100, 0, 10, 0, 0, false, false, false⟩]
  muon := []

/-- A dump event with the given regions. -/
def eventOf (rs : List InputRegion) : DumpEvent := ⟨1, 1, 1, 0, 0, 0, 0, 0, 0, rs⟩

theorem keep_inputs : regionInputs 1 1 2 0 (keepRegion keepRegionDump) = keepEvent := by
  have h1 : (regionInputs 1 1 2 0 (keepRegion keepRegionDump)).track = keepEvent.track := by
    funext i; revert i; decide
  have h2 : (regionInputs 1 1 2 0 (keepRegion keepRegionDump)).hadcalo = keepEvent.hadcalo := by
    funext i; revert i; decide
  have h3 : (regionInputs 1 1 2 0 (keepRegion keepRegionDump)).emcalo = keepEvent.emcalo := by
    funext i; revert i; decide
  have h4 : (regionInputs 1 1 2 0 (keepRegion keepRegionDump)).mu = keepEvent.mu := by
    funext i; exact i.elim0
  revert h1 h2 h3 h4
  generalize regionInputs 1 1 2 0 (keepRegion keepRegionDump) = a
  cases a
  intro h1 h2 h3 h4
  dsimp only at h1 h2 h3 h4
  subst h1; subst h2; subst h3; subst h4
  rfl

theorem keep_differs : Differs 1 keepEvent := by
  obtain ⟨_, k1, k2⟩ := C02_false_keep
  obtain ⟨_, h, _⟩ := decides keepEvent (old0 1 2 1 0) (old0 1 2 1 0) (mem0 1 1) (mem0 1 1).outne_all
  apply h
  cases ho : pfalgo3_full keepEvent (old0 1 2 1 0) (mem0 1 1) with
  | error e => rw [ho] at k1; cases k1
  | ok o =>
    cases hr : pfalgo3_full_ref keepEvent (old0 1 2 1 0) (mem0 1 1).outne_all with
    | error e => rw [hr] at k2; cases k2
    | ok r =>
      refine ⟨o, r, rfl, rfl, fun ha => ?_⟩
      rw [ho] at k1
      rw [hr] at k2
      have e1 : (o.outch 0).hwPt = 0 := by injection k1
      have e2 : (r.outch 0).hwPt = 100 := by injection k2
      rcases ha.charged 0 with ⟨h1, _⟩ | ⟨_, h2⟩
      · rw [e2] at h1; exact absurd h1 (by decide)
      · have h3 : (r.outch 0).hwPt = (o.outch 0).hwPt := congrArg Prod.fst h2
        rw [e1, e2] at h3
        exact absurd h3 (by decide)

/-- **C54**, a dump on which the test bench fails (a physical event, C02). -/
theorem C54_fails (zpv : BitVec 32 → Z0) (fjunk : Nat → BitVec 32) (genZ0 : BitVec 32) (junk : Nat → TestJunk 1 1 2 0 1)
    (inp : PFInputs 1 1 2 0) (z : Z0) (out ref : PFOutputs 1 2 1 0) :
    pfTestMain .plain (some true) zpv genZ0 ⟨eventBytes (eventOf [keepRegionDump]), false, fjunk⟩ junk inp z out ref = .ok 1 := by
  have h := C54_exit_1_iff (NS := 1) (kind := .plain) trivial rfl zpv [eventOf [keepRegionDump]] (fun e he => by
    rw [List.mem_singleton] at he
    subst he
    refine ⟨⟨by decide, fun r hr => ?_⟩, by decide, by decide⟩
    have hr : r ∈ [keepRegionDump] := hr
    rw [List.mem_singleton] at hr
    subst hr
    exact ⟨by decide, by decide, by decide, by decide⟩) fjunk genZ0 junk inp z out ref
  rw [List.flatMap_singleton] at h
  refine h.mpr ⟨[], (keepRegion keepRegionDump, 0), [], rfl, fun _ h => (by cases h), ?_⟩
  rw [keep_inputs]
  exact keep_differs

/-- **C54**, non-vacuity of the passing case: the ordinary region meets the conditions of `C54_physical_passes`, with
tracks, clusters and a muon, and gives particles. -/
example : (∀ x ∈ barrel [eventOf [ordinaryRegion]], Physical (regionInputs 3 2 2 1 x.1) ∧
      (∀ t, ((regionInputs 3 2 2 1 x.1).track t).hwPt.toInt = 0 → ((regionInputs 3 2 2 1 x.1).track t).hwPtErr.toInt = 0) ∧
      (∀ t, ((regionInputs 3 2 2 1 x.1).track t).hwPtErr.toInt ≠ 1) ∧
      (∀ h, ((regionInputs 3 2 2 1 x.1).hadcalo h).hwIsEM = false)) ∧
    (pfalgo3_full (regionInputs 3 2 2 1 (keepRegion ordinaryRegion)) (old0 3 2 2 1) (mem0 2 2)).map (fun o =>
      ((o.outch 0).hwId, (o.outch 1).hwId, (o.outch 2).hwId, (o.outpho 1).hwPt, (o.outne 0).hwPt,
       (o.outmu 0).hwPt)) = .ok (3, 0, 4, 80, 180, 60) := by
  refine ⟨fun x hx => ?_, by decide +kernel⟩
  have e : barrel [eventOf [ordinaryRegion]] = [(keepRegion ordinaryRegion, 0)] := rfl
  rw [e, List.mem_singleton] at hx
  subst hx
  exact ⟨⟨by decide, by decide, by decide, by decide, by decide, by decide, by decide, by decide, by decide, by decide⟩,
    by decide, by decide, by decide⟩

end Verif
