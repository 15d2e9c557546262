import Verif.Model.PFTest
import Verif.Spec.PFTest
import Verif.Proofs.Memory
import Verif.Proofs.Dump
import Verif.Props.Compare
import Verif.Props.Encoding
/-! # Lemmas: the PF test bench -/
namespace Verif
open Spec
variable {NT NC NE NM NS : Nat}

theorem count_eq_zero {n : Nat} (p : Fin n → Bool) (e0 : Nat) :
    loop (fun i e => if !p i then e + 1 else e) e0 = 0 ↔ e0 = 0 ∧ ∀ i, p i = true := by
  have gen : ∀ (l : List (Fin n)) (e0 : Nat),
      l.foldl (fun e i => if !p i then e + 1 else e) e0 = 0 ↔ e0 = 0 ∧ ∀ i ∈ l, p i = true := by
    intro l
    induction l with
    | nil => intro e0; simp
    | cons a l ih =>
      intro e0
      rw [List.foldl_cons, ih]
      cases h : p a <;> simp [h]
  unfold loop
  rw [gen]
  simp

theorem countErrors_eq_zero (ref out : PFOutputs NT NE NS NM) : countErrors ref out = 0 ↔ Agree ref out := by
  obtain ⟨_, _, _, _, hch, hne⟩ := C47_equals_iff
  unfold countErrors
  dsimp only
  rw [count_eq_zero (fun i => pf_equals_ch (ref.outmu i) (out.outmu i)),
    count_eq_zero (fun i => pf_equals_ne (ref.outne i) (out.outne i)),
    count_eq_zero (fun i => pf_equals_ne (ref.outpho i) (out.outpho i)),
    count_eq_zero (fun i => pf_equals_ch (ref.outch i) (out.outch i))]
  simp only [hch, hne]
  exact ⟨fun ⟨⟨⟨⟨_, a⟩, b⟩, c⟩, d⟩ => ⟨a, b, c, d⟩, fun ⟨a, b, c, d⟩ => ⟨⟨⟨⟨trivial, a⟩, b⟩, c⟩, d⟩⟩

theorem sameObj_ch : Equivalence (SameObj PFChargedObj.hwPt chFields) :=
  sameObj_equivalence fun _ _ h => congrArg Prod.fst h
theorem sameObj_ne : Equivalence (SameObj PFNeutralObj.hwPt neFields) :=
  sameObj_equivalence fun _ _ h => congrArg Prod.fst h

theorem Spec.SameParticle.obj {a b : PFNeutralObj} (h : SameParticle a b) : SameObj PFNeutralObj.hwPt neFields a b := by
  by_cases h0 : a.hwPt = 0
  · exact Or.inl ⟨h0, h.pt ▸ h0⟩
  · exact Or.inr ⟨h0, by unfold neFields; rw [h.pt, h.eta h0, h.phi h0, h.id h0]⟩

theorem Spec.SameButPuppi.obj {a b : PFNeutralObj} (h : SameButPuppi a b) : SameObj PFNeutralObj.hwPt neFields a b :=
  SameParticle.obj ⟨h.pt, fun _ => h.eta, fun _ => h.phi, fun _ => h.id⟩

theorem agree_of_same {R : PFNeutralObj → PFNeutralObj → Prop} (hR : ∀ a b, R a b → SameObj PFNeutralObj.hwPt neFields a b)
    {a b : PFOutputs NT NE NS NM} (h : SameLists R a b) : Agree a b :=
  ⟨fun i => by rw [h.charged]; exact sameObj_ch.refl _, fun i => (h.photon i).obj, fun i => hR _ _ (h.neutral i),
    fun i => by rw [h.muon]; exact sameObj_ch.refl _⟩

theorem agree_equivalence : Equivalence (Agree (NT := NT) (NE := NE) (NS := NS) (NM := NM)) :=
  ⟨fun _ => ⟨fun _ => sameObj_ch.refl _, fun _ => sameObj_ne.refl _, fun _ => sameObj_ne.refl _, fun _ => sameObj_ch.refl _⟩,
   fun h => ⟨fun i => sameObj_ch.symm (h.charged i), fun i => sameObj_ne.symm (h.photon i),
     fun i => sameObj_ne.symm (h.neutral i), fun i => sameObj_ch.symm (h.muon i)⟩,
   fun h k => ⟨fun i => sameObj_ch.trans (h.charged i) (k.charged i), fun i => sameObj_ne.trans (h.photon i) (k.photon i),
     fun i => sameObj_ne.trans (h.neutral i) (k.neutral i), fun i => sameObj_ch.trans (h.muon i) (k.muon i)⟩⟩

theorem full_agree (inp : PFInputs NT NC NE NM) (old old' : PFOutputs NT NE NS NM) (mem mem' : PFScratch NC NS) :
    SameRun Agree (pfalgo3_full inp old mem) (pfalgo3_full inp old' mem') := by
  have h := full_mem inp old old' mem mem'
  revert h
  cases pfalgo3_full inp old mem <;> cases pfalgo3_full inp old' mem' <;> intro h
  · exact h
  · exact h
  · exact h
  · exact agree_of_same (fun a b h => SameParticle.obj h) h

theorem full_ref_agree (inp : PFInputs NT NC NE NM) (old old' : PFOutputs NT NE NS NM) (mem mem' : Arr NC PFNeutralObj) :
    SameRun Agree (pfalgo3_full_ref inp old mem) (pfalgo3_full_ref inp old' mem') := by
  have h := full_ref_mem inp old old' mem mem'
  revert h
  cases pfalgo3_full_ref inp old mem <;> cases pfalgo3_full_ref inp old' mem' <;> intro h
  · exact h
  · exact h
  · exact h
  · exact agree_of_same (fun a b h => SameButPuppi.obj h) h

theorem Spec.SameRun.error {α β : Type} {R : α → β → Prop} {x : Run α} {y : Run β} (h : SameRun R x y) {e : Fault}
    (hx : x = .error e) : y = .error e := by
  subst hx
  cases y with
  | error e' => exact congrArg _ (Eq.symm h)
  | ok b => exact h.elim

theorem Spec.SameRun.ok {α β : Type} {R : α → β → Prop} {x : Run α} {y : Run β} (h : SameRun R x y) {a : α}
    (hx : x = .ok a) : ∃ b, y = .ok b ∧ R a b := by
  subst hx
  cases y with
  | error e' => exact h.elim
  | ok b => exact ⟨b, rfl, h⟩

/-- One memory content decides. -/
theorem decides (inp : PFInputs NT NC NE NM) (old old' : PFOutputs NT NE NS NM) (mem : PFScratch NC NS)
    (mem' : Arr NC PFNeutralObj) :
    ((∃ out ref, pfalgo3_full inp old mem = .ok out ∧ pfalgo3_full_ref inp old' mem' = .ok ref ∧ Agree ref out) → Passes NS inp) ∧
    ((∃ out ref, pfalgo3_full inp old mem = .ok out ∧ pfalgo3_full_ref inp old' mem' = .ok ref ∧ ¬ Agree ref out) → Differs NS inp) ∧
    (((∃ e, pfalgo3_full inp old mem = .error e) ∨ ∃ e, pfalgo3_full_ref inp old' mem' = .error e) → Undefined NS inp) := by
  refine ⟨?_, ?_, ?_⟩
  · rintro ⟨out, ref, h1, h2, h3⟩ o o' m m'
    obtain ⟨a, ha, ra⟩ := (full_agree inp old o mem m).ok h1
    obtain ⟨b, hb, rb⟩ := (full_ref_agree inp old' o' mem' m').ok h2
    exact ⟨a, b, ha, hb, agree_equivalence.trans (agree_equivalence.symm rb) (agree_equivalence.trans h3 ra)⟩
  · rintro ⟨out, ref, h1, h2, h3⟩ o o' m m'
    obtain ⟨a, ha, ra⟩ := (full_agree inp old o mem m).ok h1
    obtain ⟨b, hb, rb⟩ := (full_ref_agree inp old' o' mem' m').ok h2
    exact ⟨a, b, ha, hb, fun h => h3 (agree_equivalence.trans rb (agree_equivalence.trans h (agree_equivalence.symm ra)))⟩
  · rintro (⟨e, h⟩ | ⟨e, h⟩) o o' m m'
    · exact Or.inl ⟨e, (full_agree inp old o mem m).error h⟩
    · exact Or.inr ⟨e, (full_ref_agree inp old' o' mem' m').error h⟩

theorem trichotomy (old : PFOutputs NT NE NS NM) (mem : PFScratch NC NS) (inp : PFInputs NT NC NE NM) :
    Passes NS inp ∨ Differs NS inp ∨ Undefined NS inp := by
  obtain ⟨h1, h2, h3⟩ := decides inp old old mem mem.outne_all
  cases hf : pfalgo3_full inp old mem with
  | error e => exact Or.inr (Or.inr (h3 (Or.inl ⟨e, hf⟩)))
  | ok out =>
    cases hr : pfalgo3_full_ref inp old mem.outne_all with
    | error e => exact Or.inr (Or.inr (h3 (Or.inr ⟨e, hr⟩)))
    | ok ref =>
      by_cases h : Agree ref out
      · exact Or.inl (h1 ⟨out, ref, hf, hr, h⟩)
      · exact Or.inr (Or.inl (h2 ⟨out, ref, hf, hr, h⟩))

/-- The objects fit the channels of the build. -/
def TestKind.Fits (NT NC NE NM NS : Nat) : TestKind → Prop
  | .plain => True
  | .wrapped nin nout _ => 2 * NE + 2 * NT + 2 * NC + 2 * NM ≤ min nin MP7_NCHANN ∧ 2 * NT + 2 * NE + 2 * NS + 2 * NM ≤ min nout MP7_NCHANN

theorem underTest_agree {kind : TestKind} (hk : kind.Fits NT NC NE NM NS) (inp : PFInputs NT NC NE NM)
    (old old' : PFOutputs NT NE NS NM) (mem' : PFScratch NC NS) (junk : TestJunk NT NC NE NM NS) :
    SameRun Agree (pfalgo3_full inp old' mem') (underTest kind inp old junk) := by
  cases kind with
  | plain => exact full_agree inp old' old mem' junk.mem
  | wrapped nin nout v =>
    have h := C19_wrapped_eq_plain inp (fun _ : Fin nin => (0 : Word)) (fun _ : Fin nout => (0 : Word)) junk.pf0 old junk.mem hk.1 hk.2
    have e : underTest (.wrapped nin nout v) inp old junk = _ := h
    rw [e]
    have hm := full_agree inp old' junk.pf0 mem' junk.mem
    revert hm
    cases pfalgo3_full inp old' mem' <;> cases pfalgo3_full inp junk.pf0 junk.mem <;> intro hm
    · exact hm
    · exact hm
    · exact hm
    · refine agree_equivalence.trans hm ⟨fun _ => sameObj_ch.refl _, fun i => ?_, fun i => ?_, fun _ => sameObj_ch.refl _⟩
      · exact SameButPuppi.obj ⟨rfl, rfl, rfl, rfl⟩
      · exact SameButPuppi.obj ⟨rfl, rfl, rfl, rfl⟩

theorem nextRegion_nil (zpv : BitVec 32 → Z0) {s : DumpReader} (h : Pend s []) (inp : PFInputs NT NC NE NM) (z : Z0) :
    ∃ s', s.nextRegion (some true) zpv inp z = .ok (false, s', inp, z) := by
  obtain ⟨s', h1, h2⟩ := seek_ok h
  refine ⟨s', ?_⟩
  unfold DumpReader.nextRegion
  rw [h1]
  rfl

theorem nextRegion_cons (zpv : BitVec 32 → Z0) {s : DumpReader} {x : InputRegion × BitVec 32} {xs : List (InputRegion × BitVec 32)}
    (h : Pend s (x :: xs)) (inp : PFInputs NT NC NE NM) (z : Z0) :
    ∃ s', s.nextRegion (some true) zpv inp z = .ok (true, s', regionInputs NT NC NE NM x.1, zpv x.2) ∧ Pend s' xs := by
  obtain ⟨s', h1, h2, h3, h4⟩ := seek_ok h
  refine ⟨_, ?_, h4⟩
  unfold DumpReader.nextRegion
  rw [h1]
  simp only [Run.ok_bind, Bool.not_true, Bool.false_eq_true, if_false, h2, fw_many_eq, h3]
  rfl

section Loop
variable {kind : TestKind} (hk : kind.Fits NT NC NE NM NS) (hv : kind.validates = true) (zpv : BitVec 32 → Z0)
  (junk : Nat → TestJunk NT NC NE NM NS)
include hk hv

theorem loop_pass {n : Nat} {s : DumpReader} {x : InputRegion × BitVec 32} {xs : List (InputRegion × BitVec 32)}
    (h : Pend s (x :: xs)) (hp : Passes NS (regionInputs NT NC NE NM x.1)) (inp : PFInputs NT NC NE NM) (z : Z0)
    (out ref : PFOutputs NT NE NS NM) :
    ∃ s' inp' z' out' ref', Pend s' xs ∧ pfTestLoop kind (some true) zpv junk (n + 1) s inp z out ref =
      pfTestLoop kind (some true) zpv junk n s' inp' z' out' ref' := by
  obtain ⟨s', h1, h2⟩ := nextRegion_cons zpv h (initInputs inp) z
  obtain ⟨o, r, ho, hr, ha⟩ := hp out ref (junk n).mem (junk n).memref
  obtain ⟨o', ho', hoo⟩ := (underTest_agree hk _ out out (junk n).mem (junk n)).ok ho
  refine ⟨s', regionInputs NT NC NE NM x.1, zpv x.2, o', r, h2, ?_⟩
  rw [pfTestLoop, h1, Run.ok_bind]
  simp only [Bool.not_true, Bool.false_eq_true, if_false, hr, Run.ok_bind, ho', hv, Bool.true_and]
  rw [if_neg]
  rw [decide_eq_true_iff, not_not, countErrors_eq_zero]
  exact agree_equivalence.trans ha hoo

theorem loop_differ {n : Nat} {s : DumpReader} {x : InputRegion × BitVec 32} {xs : List (InputRegion × BitVec 32)}
    (h : Pend s (x :: xs)) (hp : Differs NS (regionInputs NT NC NE NM x.1)) (inp : PFInputs NT NC NE NM) (z : Z0)
    (out ref : PFOutputs NT NE NS NM) :
    pfTestLoop kind (some true) zpv junk (n + 1) s inp z out ref = .ok 1 := by
  obtain ⟨s', h1, h2⟩ := nextRegion_cons zpv h (initInputs inp) z
  obtain ⟨o, r, ho, hr, ha⟩ := hp out ref (junk n).mem (junk n).memref
  obtain ⟨o', ho', hoo⟩ := (underTest_agree hk _ out out (junk n).mem (junk n)).ok ho
  rw [pfTestLoop, h1, Run.ok_bind]
  simp only [Bool.not_true, Bool.false_eq_true, if_false, hr, Run.ok_bind, ho', hv, Bool.true_and]
  rw [if_pos]
  rw [decide_eq_true_iff, ne_eq, countErrors_eq_zero]
  exact fun h => ha (agree_equivalence.trans h (agree_equivalence.symm hoo))

omit hv in
theorem loop_undefined {n : Nat} {s : DumpReader} {x : InputRegion × BitVec 32} {xs : List (InputRegion × BitVec 32)}
    (h : Pend s (x :: xs)) (hp : Undefined NS (regionInputs NT NC NE NM x.1)) (inp : PFInputs NT NC NE NM) (z : Z0)
    (out ref : PFOutputs NT NE NS NM) :
    ∃ e, pfTestLoop kind (some true) zpv junk (n + 1) s inp z out ref = .error e := by
  obtain ⟨s', h1, h2⟩ := nextRegion_cons zpv h (initInputs inp) z
  rw [pfTestLoop, h1, Run.ok_bind]
  simp only [Bool.not_true, Bool.false_eq_true, if_false]
  cases hr : pfalgo3_full_ref (regionInputs NT NC NE NM x.1) ref (junk n).memref with
  | error e => exact ⟨e, rfl⟩
  | ok r =>
    rcases hp out ref (junk n).mem (junk n).memref with ⟨e, he⟩ | ⟨e, he⟩
    · refine ⟨e, ?_⟩
      rw [Run.ok_bind, (underTest_agree hk _ out out (junk n).mem (junk n)).error he]
      rfl
    · rw [hr] at he; cases he

theorem loop_all_pass : ∀ (n : Nat) (L : List (InputRegion × BitVec 32)) (s : DumpReader), Pend s L →
    (∀ x ∈ L.take n, Passes NS (regionInputs NT NC NE NM x.1)) → ∀ inp z out ref,
    pfTestLoop kind (some true) zpv junk n s inp z out ref = .ok 0 := by
  intro n
  induction n with
  | zero => intros; rfl
  | succ n ih =>
    intro L s hs hL inp z out ref
    cases L with
    | nil =>
      obtain ⟨s', h⟩ := nextRegion_nil zpv hs (initInputs inp) z
      rw [pfTestLoop, h]
      rfl
    | cons x xs =>
      rw [List.take_succ_cons] at hL
      obtain ⟨s', inp', z', out', ref', h1, h2⟩ := loop_pass hk hv zpv junk (n := n) hs (hL x List.mem_cons_self) inp z out ref
      rw [h2]
      exact ih xs s' h1 (fun y hy => hL y (List.mem_cons_of_mem _ hy)) _ _ _ _

/-- Skipping the regions that pass. -/
theorem loop_skip : ∀ (pre : List (InputRegion × BitVec 32)) (n : Nat) (L : List (InputRegion × BitVec 32)) (s : DumpReader),
    Pend s (pre ++ L) → (∀ x ∈ pre, Passes NS (regionInputs NT NC NE NM x.1)) → ∀ inp z out ref,
    ∃ s' inp' z' out' ref', Pend s' L ∧ pfTestLoop kind (some true) zpv junk (pre.length + n) s inp z out ref =
      pfTestLoop kind (some true) zpv junk n s' inp' z' out' ref' := by
  intro pre
  induction pre with
  | nil => intro n L s hs _ inp z out ref; exact ⟨s, inp, z, out, ref, hs, by rw [List.length_nil, Nat.zero_add]⟩
  | cons x pre ih =>
    intro n L s hs hp inp z out ref
    obtain ⟨s', inp', z', out', ref', h1, h2⟩ := loop_pass hk hv zpv junk (n := pre.length + n) hs (hp x List.mem_cons_self) inp z out ref
    rw [List.length_cons, Nat.add_right_comm, h2]
    exact ih n L s' h1 (fun y hy => hp y (List.mem_cons_of_mem _ hy)) _ _ _ _

end Loop
end Verif
