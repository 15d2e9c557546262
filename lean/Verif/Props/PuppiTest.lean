import Verif.Model.PuppiTest
import Verif.Props.Puppi
import Verif.Props.PFTest
/-! # C57 — the PF + PUPPI test bench -/
namespace Verif
open Spec
variable {NT NC NE NM NS NN : Nat}

/-- A failing array fill fails at some element. -/
theorem buildM_error {α : Type} {n : Nat} {f : Fin n → Run α} {e : Fault} (h : buildM f = .error e) :
    ∃ i, f i = .error e := by
  induction n with
  | zero => rw [buildM] at h; cases h
  | succ n ih =>
    rw [buildM] at h
    cases h0 : f 0 with
    | error e' =>
      rw [h0, Run.error_bind] at h
      injection h with h; subst h
      exact ⟨0, h0⟩
    | ok x =>
      rw [h0, Run.ok_bind] at h
      cases h1 : buildM (fun i => f i.succ) with
      | ok t => rw [h1, Run.ok_bind] at h; cases h
      | error e' =>
        rw [h1, Run.error_bind] at h
        injection h with h; subst h
        obtain ⟨i, hi⟩ := ih (f := fun i => f i.succ) h1
        exact ⟨i.succ, hi⟩

/-- **C57.** Calling `simple_vtx_ref` on fewer tracks than `NALLTRACK` reads beyond the array, whatever they are. -/
theorem C57_vtx_out_of_bounds {NALL N : Nat} (h : N < NALL) (track : Arr N TkObj) :
    simple_vtx_ref_ptr NALL track = .error .oob := by
  have hb : buildM (fun it : Fin NALL => track.read it.val) = .error .oob := by
    cases hr : buildM (fun it : Fin NALL => track.read it.val) with
    | ok a =>
      have := buildM_eq_ok.mp hr ⟨N, h⟩
      unfold Arr.read at this
      rw [dif_neg (Nat.lt_irrefl N)] at this
      cases this
    | error e =>
      refine congrArg _ ?_
      by_contra hne
      have : ∀ it : Fin NALL, ∀ e', track.read it.val = .error e' → e' = .oob := by
        intro it e' he
        unfold Arr.read at he
        split at he
        · cases he
        · injection he with he; exact he.symm
      obtain ⟨it, hit⟩ := buildM_error hr
      exact hne (this it e hit)
  unfold simple_vtx_ref_ptr
  rw [hb]
  rfl

/-- In the builds of the repository (`NALLTRACK` is 64). -/
theorem C57_builds : ∀ c ∈ [Config.mp7, Config.ctp7, Config.default], c.NTRACK < 2 ^ 6 := by decide

/-- **C57.** So with the sizes of the repository the test bench is undefined on every dump with a barrel region: it
never completes a test. -/
theorem C57_bench_undefined {NALL : Nat} (hN : NT < NALL) (table : PuppiTable) (zpv : BitVec 32 → Z0) (evs : List DumpEvent)
    (hev : ∀ e ∈ evs, eventFits e ∧ e.event ≠ 0 ∧ e.regions ≠ []) (hne : barrel evs ≠ [])
    (fjunk : Nat → BitVec 32) (genZ0 : BitVec 32) (junk : Nat → Arr NC PFNeutralObj) (inp : PFInputs NT NC NE NM) (z : Z0)
    (ref : PFOutputs NT NE NS NM) :
    ∃ e, puppiTestMain NALL table (some true) zpv genZ0 ⟨evs.flatMap eventBytes, false, fjunk⟩ junk inp z ref = .error e := by
  have hp : Pend (DumpReader.new genZ0 ⟨evs.flatMap eventBytes, false, fjunk⟩) (barrel evs) :=
    Or.inl ⟨evs, hev, rfl, rfl, Or.inl ⟨rfl, rfl⟩⟩
  obtain ⟨x, xs, hx⟩ := List.exists_cons_of_ne_nil hne
  rw [hx] at hp
  obtain ⟨s', h1, -⟩ := nextRegion_cons zpv hp (initInputs inp) z
  unfold puppiTestMain
  rw [puppiTestLoop, h1, Run.ok_bind]
  simp only [Bool.not_true, Bool.false_eq_true, if_false]
  cases pfalgo3_full_ref (regionInputs NT NC NE NM x.1) ref (junk 49) with
  | error e => exact ⟨e, rfl⟩
  | ok r =>
    refine ⟨.oob, ?_⟩
    rw [Run.ok_bind]
    unfold puppiTestStep
    rw [C57_vtx_out_of_bounds hN]
    rfl

/-- **C57.** Without a barrel region it prints nothing. -/
theorem C57_no_region (NALL : Nat) (table : PuppiTable) (zpv : BitVec 32 → Z0) (evs : List DumpEvent)
    (hev : ∀ e ∈ evs, eventFits e ∧ e.event ≠ 0 ∧ e.regions ≠ []) (hne : barrel evs = [])
    (fjunk : Nat → BitVec 32) (genZ0 : BitVec 32) (junk : Nat → Arr NC PFNeutralObj) (inp : PFInputs NT NC NE NM) (z : Z0)
    (ref : PFOutputs NT NE NS NM) :
    puppiTestMain NALL table (some true) zpv genZ0 ⟨evs.flatMap eventBytes, false, fjunk⟩ junk inp z ref = .ok [] := by
  have hp : Pend (DumpReader.new genZ0 ⟨evs.flatMap eventBytes, false, fjunk⟩) (barrel evs) :=
    Or.inl ⟨evs, hev, rfl, rfl, Or.inl ⟨rfl, rfl⟩⟩
  rw [hne] at hp
  obtain ⟨s', h1⟩ := nextRegion_nil zpv hp (initInputs inp) z
  unfold puppiTestMain
  rw [puppiTestLoop, h1]
  rfl

/-- PUPPI of one neutral with no previous PUPPI pt: if both complete they agree. -/
theorem puppi_one_agree (table : PuppiTable) (pfch : Arr NT PFChargedObj) (Z0 : Z0) (ne r : PFNeutralObj) (s : Int)
    (h0 : ne.hwPtPuppi = 0) (hr : puppi_ref_one table pfch Z0 ne = .ok r) (hs : puppi_hw_sum pfch ne Z0 = .ok s) :
    (puppi_hw_weight table s ne).hwPtPuppi = r.hwPtPuppi := by
  by_cases hn : ne.hwPt = 0
  · unfold puppi_ref_one at hr
    rw [if_pos hn] at hr
    injection hr with hr
    subst hr
    rw [h0]
    unfold puppi_hw_weight
    dsimp only
    have hz : (0 : Pt).toInt = 0 := rfl
    split
    · show reg 16 (shr (ne.hwPt.toInt * _) 8) = 0
      rw [hn, hz, Int.zero_mul]; rfl
    · exact hn
  · unfold puppi_ref_one at hr
    rw [if_neg hn, puppi_ref_sum_eq] at hr
    by_cases hf : puppiSum pfch Z0 ne ≤ 2147483647
    · rw [puppi_hw_sum_eq pfch ne Z0 hf] at hs
      injection hs with hs
      subst hs
      have h0' := puppiSum_nonneg pfch Z0 ne
      obtain ⟨w, hw, hw2⟩ := ref_weight_eq table h0' ne.hwPt
      rw [if_pos hf, Run.ok_bind, hw, Run.ok_bind, hw2] at hr
      injection hr with hr
      subst hr
      rw [hw_weight_eq table h0' hf]
    · rw [if_neg hf, Run.error_bind] at hr
      cases hr

/-- One test: equal columns, and the PUPPI pt is between 0 and the pt. -/
theorem step_columns (NALL : Nat) (table : PuppiTable) (track : Arr NT TkObj) (ref : PFOutputs NT NE NS NM)
    {lines : Arr (NE + NS) PuppiLine} (h : puppiTestStep NALL table track ref = .ok lines) (i : Fin (NE + NS)) :
    (lines i).hwPtPuppi = (lines i).hwPtPuppiRef ∧
    (0 ≤ (lines i).hwPt → 0 ≤ (lines i).hwPtPuppi ∧ (lines i).hwPtPuppi ≤ (lines i).hwPt) := by
  unfold puppiTestStep at h
  obtain ⟨vtx, -, h⟩ := Run.bind_eq_ok.mp h
  obtain ⟨r, hr, h⟩ := Run.bind_eq_ok.mp h
  obtain ⟨hw, hh, h⟩ := Run.bind_eq_ok.mp h
  injection h with h
  subst h
  have h0 : (mergeNeutrals ref.outpho ref.outne i).hwPtPuppi = 0 := by
    unfold mergeNeutrals; split <;> rfl
  obtain ⟨c1, -, -, -, c2⟩ := C23_scales_down table _ _ _ _ hh i
  refine ⟨congrArg BitVec.toInt ?_, fun hp => ?_⟩
  · unfold simple_puppi_hw at hh
    obtain ⟨sums, hs, hh⟩ := Run.bind_eq_ok.mp hh
    injection hh with hh
    subst hh
    exact puppi_one_agree table _ _ _ _ _ h0 (buildM_eq_ok.mp hr i) (buildM_eq_ok.mp hs i)
  · have hp : 0 ≤ (hw i).hwPt.toInt := hp
    show 0 ≤ (hw i).hwPtPuppi.toInt ∧ (hw i).hwPtPuppi.toInt ≤ (hw i).hwPt.toInt
    rw [c1] at hp ⊢
    exact c2 hp

/-- **C57.** Whatever the array sizes: if the program completes, the PUPPI pts of firmware and reference are equal in
every line it prints, and no larger than the pt.  An overflow shows as undefined behaviour of the reference, never as a
difference. -/
theorem C57_columns_equal (NALL : Nat) (table : PuppiTable) (fall : Option Bool) (zpv : BitVec 32 → Z0) (genZ0 : BitVec 32)
    (file : CFile) (junk : Nat → Arr NC PFNeutralObj) (inp : PFInputs NT NC NE NM) (z : Z0)
    (ref : PFOutputs NT NE NS NM) {res : List (Arr (NE + NS) PuppiLine)}
    (h : puppiTestMain NALL table fall zpv genZ0 file junk inp z ref = .ok res) :
    res.length ≤ 50 ∧ ∀ lines ∈ res, ∀ i, (lines i).hwPtPuppi = (lines i).hwPtPuppiRef ∧
      (0 ≤ (lines i).hwPt → 0 ≤ (lines i).hwPtPuppi ∧ (lines i).hwPtPuppi ≤ (lines i).hwPt) := by
  unfold puppiTestMain at h
  have gen : ∀ (n : Nat) (s : DumpReader) (inp : PFInputs NT NC NE NM) (z : Z0) (ref : PFOutputs NT NE NS NM)
      (res : List (Arr (NE + NS) PuppiLine)), puppiTestLoop NALL table fall zpv junk n s inp z ref = .ok res →
      res.length ≤ n ∧ ∀ lines ∈ res, ∀ i, (lines i).hwPtPuppi = (lines i).hwPtPuppiRef ∧
      (0 ≤ (lines i).hwPt → 0 ≤ (lines i).hwPtPuppi ∧ (lines i).hwPtPuppi ≤ (lines i).hwPt) := by
    intro n
    induction n with
    | zero =>
      intro s inp z ref res h
      rw [puppiTestLoop] at h
      injection h with h
      subst h
      exact ⟨Nat.le_refl _, fun _ h => by cases h⟩
    | succ n ih =>
      intro s inp z ref res h
      rw [puppiTestLoop] at h
      obtain ⟨⟨b, s', inp', z'⟩, -, h⟩ := Run.bind_eq_ok.mp h
      dsimp only at h
      split at h
      · injection h with h
        subst h
        exact ⟨Nat.zero_le _, fun _ h => by cases h⟩
      · obtain ⟨r, -, h⟩ := Run.bind_eq_ok.mp h
        obtain ⟨lines, hl, h⟩ := Run.bind_eq_ok.mp h
        obtain ⟨rest, hrest, h⟩ := Run.bind_eq_ok.mp h
        injection h with h
        subst h
        obtain ⟨k1, k2⟩ := ih _ _ _ _ _ hrest
        refine ⟨by rw [List.length_cons]; omega, fun l hl' i => ?_⟩
        rcases List.mem_cons.mp hl' with rfl | hm
        · exact step_columns NALL table _ _ hl i
        · exact k2 l hm i
  exact gen 50 _ _ _ _ _ h

/-- The reference's outputs on the event `ordinary`, then one test with `NALLTRACK` = 3. -/
def ordinaryTest : Run (Arr (2 + 2) PuppiLine) := do
  let ref ← pfalgo3_full_ref ordinary (old0 3 2 2 1) (mem0 2 2).outne_all
  puppiTestStep 3 (fun i => if i.val < 22 then 0 else 128) ordinary.track ref

/-- Non-vacuity: with an array as large as `NALLTRACK` a test completes and prints a positive PUPPI pt. -/
example : ordinaryTest.map (fun l => (l 0, l 1, l 2, l 3)) =
    .ok (⟨0, 0, 0⟩, ⟨80, 0, 0⟩, ⟨180, 180, 180⟩, ⟨10, 0, 0⟩) := by decide +kernel

end Verif
