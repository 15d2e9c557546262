import Verif.Proofs.Random
import Verif.Props.SimpleVtx
import Verif.Props.Discrete2
/-! # C62: the random test bench of the 15-bin vertex finder -/
namespace Verif
open Spec Rounding
open scoped BigOperators

private theorem halfDraw_ok (D : Rand) (k : ℕ) {m : ℕ} (hm : 0 < m) :
    ∃ n : ℕ, halfDraw D k m = .ok (n : ℤ) ∧ m / 2 ≤ n ∧ n < m := by
  refine ⟨D.draw k % m / 2 + m / 2, ?_, by omega, ?_⟩
  · unfold halfDraw
    rw [if_neg (by omega)]
    congr 1
  · have := Nat.mod_lt (D.draw k) hm
    omega

variable {R : Rounding} (A : IEEE R) {D : Rand} (h0 : 0 < D.max) (h31 : D.max ≤ 2147483647) (hD : ∀ k, D.draw k ≤ D.max)
include A h0 h31 hD

/-- **C62.** Whatever `rand()` returns and whatever the array held, an event is made without leaving the array, with fewer than
`NALLTRACK - 1` tracks, all within the ranges of the generator (nothing wraps), followed by empty slots.  Unless `rand()` returns
`RAND_MAX` all tracks of the vertex have one and the same `z0`: the spread drawn with a division of `int`s is 0, and what is left of
it is the offset of -0.35 cm. -/
theorem C62_event {N NPV : ℕ} (h1 : 0 < NPV) (hN : NPV < N) (track0 : Arr N TkObj) (k0 : ℕ) :
    ∃ track k zPV npu npv, R.svEvent D NPV track0 k0 = .ok (track, k, zPV) ∧ 0 ≤ zPV ∧ zPV ≤ 8 ∧ IsFloat zPV ∧ npu + npv ≤ N - 2 ∧
      k = k0 + 4 + 5 * (npu + npv) ∧ SvEventOK NPV npu npv track ∧
      ((∀ j, D.draw j < D.max) → ∃ c : Z0, |(c.toInt : ℝ) / 20 - (zPV - 0.35)| ≤ 0.051 ∧
        ∀ i : Fin N, npu ≤ i.val → i.val < npu + npv → (track i).hwZ0 = c) := by
  obtain ⟨npu, e1, a1, a2⟩ := halfDraw_ok D (k0 + 2) (m := N - NPV) (by omega)
  obtain ⟨npv, e2, b1, b2⟩ := halfDraw_ok D (k0 + 3) (m := NPV) h1
  rw [show ((N - NPV : ℕ) : ℤ) = (N : ℤ) - NPV by omega] at e1
  obtain ⟨z1, z2⟩ := gaus_box A h0 h31 hD k0
  unfold Rounding.svEvent
  dsimp only
  rw [e1, Run.ok_bind, e2, Run.ok_bind]
  set zPV := R.f32 (R.f32 (R.unitDraw D k0 + R.unitDraw D (k0 + 1)) * 4) with hzPV
  set tr0 := loop (fun (i : Fin N) (track : Arr N TkObj) => track.set i (svWipe (track i))) track0 with htr0
  have hwipe : ∀ i, SvEmpty (tr0 i) := by
    have := loop_induct (σ := Arr N TkObj) (fun n tr => ∀ i : Fin N, i.val < n → SvEmpty (tr i))
      (fun (i : Fin N) (track : Arr N TkObj) => track.set i (svWipe (track i))) track0 (fun i hi => absurd hi (by omega))
      (fun i tr hi j hj => by
        unfold Arr.set
        split
        · exact ⟨rfl, rfl, rfl, rfl, rfl⟩
        · rename_i hne
          exact hi j (by have : j.val ≠ i.val := fun h => hne (Fin.ext h); omega))
    exact fun i => this i i.isLt
  obtain ⟨⟨tr1, k1⟩, f1, g1, g2, g3⟩ := loopM_induct (σ := Arr N TkObj × ℕ)
    (fun n st => st.2 = k0 + 4 + 5 * n ∧ (∀ i : Fin N, i.val < n → SvPhysical 88 0 160 (st.1 i)) ∧
      (∀ i : Fin N, n ≤ i.val → SvEmpty (st.1 i)))
    (fun (i : Fin (Int.toNat (npu : ℤ))) (st : Arr N TkObj × ℕ) => do
      let t ← st.1.readI (i.val : ℤ)
      let track ← st.1.writeI (i.val : ℤ) (R.svPU D st.2 t)
      .ok (track, st.2 + 5)) (tr0, k0 + 4) ⟨by omega, fun i hi => absurd hi (by omega), fun i _ => hwipe i⟩
    (by
      rintro i ⟨tr, k⟩ ⟨p1, p2, p3⟩
      have hi : i.val < N := by have := i.isLt; omega
      refine ⟨_, by rw [Arr.readI_ok tr hi rfl, Run.ok_bind, Arr.writeI_ok tr _ hi rfl, Run.ok_bind], ?_, fun j hj => ?_, fun j hj => ?_⟩
      · dsimp only at p1 ⊢
        omega
      · dsimp only at p2 ⊢
        unfold Arr.set
        split
        · exact svPU_ok A h0 h31 hD _ _
        · rename_i hne
          exact p2 j (by have : j.val ≠ i.val := fun h => hne (Fin.ext h); omega)
      · dsimp only at p3 ⊢
        rw [Arr.set_ne _ _ (by intro h; rw [h] at hj; dsimp only at hj; omega)]
        exact p3 j (by omega))
  rw [Int.toNat_natCast] at g1 g2 g3
  rw [f1, Run.ok_bind]
  dsimp only at g1 g2 g3 ⊢
  obtain ⟨⟨tr2, k2⟩, f2, q1, q2, q3, q4, q5⟩ := loopM_induct (σ := Arr N TkObj × ℕ)
    (fun n st => st.2 = k0 + 4 + 5 * (npu + n) ∧ (∀ i : Fin N, i.val < npu → SvPhysical 88 0 160 (st.1 i)) ∧
      (∀ i : Fin N, npu ≤ i.val → i.val < npu + n → SvPhysical 408 (-10) 170 (st.1 i)) ∧
      (∀ i : Fin N, npu + n ≤ i.val → SvEmpty (st.1 i)) ∧
      ((∀ j, D.draw j < D.max) → ∀ i : Fin N, npu ≤ i.val → i.val < npu + n →
        (st.1 i).hwZ0 = reg 10 (ctrunc (R.f64 (R.svPZ zPV 0 * 20)))))
    (fun (i : Fin (Int.toNat (npv : ℤ))) (st : Arr N TkObj × ℕ) => do
      let t ← st.1.readI ((npu : ℤ) + i.val)
      let track ← st.1.writeI ((npu : ℤ) + i.val) (R.svPV D zPV st.2 t)
      .ok (track, st.2 + 5)) (tr1, k1) ⟨by dsimp only; omega, g2, fun i h h' => absurd h (by omega), g3, fun _ i h h' => absurd h (by omega)⟩
    (by
      rintro i ⟨tr, k⟩ ⟨p1, p2, p3, p4, p5⟩
      have hi : npu + i.val < N := by have := i.isLt; omega
      refine ⟨_, by rw [Arr.readI_ok tr hi (by push_cast; rfl), Run.ok_bind, Arr.writeI_ok tr _ hi (by push_cast; rfl), Run.ok_bind],
        ?_, fun j hj => ?_, fun j hj hj' => ?_, fun j hj => ?_, fun hlt j hj hj' => ?_⟩
      · dsimp only at p1 ⊢
        omega
      · dsimp only at p2 ⊢
        rw [Arr.set_ne _ _ (by intro h; rw [h] at hj; dsimp only at hj; omega)]
        exact p2 j hj
      · dsimp only at p3 ⊢
        unfold Arr.set
        split
        · exact svPV_ok A h0 h31 hD z1 z2 _ _
        · rename_i hne
          exact p3 j hj (by have : j.val ≠ npu + i.val := fun h => hne (Fin.ext h); omega)
      · dsimp only at p4 ⊢
        rw [Arr.set_ne _ _ (by intro h; rw [h] at hj; dsimp only at hj; omega)]
        exact p4 j (by omega)
      · dsimp only at p5 ⊢
        unfold Arr.set
        split
        · show reg 10 _ = _
          rw [Nat.div_eq_of_lt (hlt _), Nat.div_eq_of_lt (hlt _)]
        · rename_i hne
          exact p5 hlt j hj (by have : j.val ≠ npu + i.val := fun h => hne (Fin.ext h); omega))
  rw [Int.toNat_natCast] at q1 q3 q4 q5
  rw [f2, Run.ok_bind]
  dsimp only at q1 q2 q3 q4 q5 ⊢
  have zf : IsFloat zPV := by
    obtain ⟨u1, u2⟩ := unitDraw_box A h0 h31 (hD k0)
    obtain ⟨v1, v2⟩ := unitDraw_box A h0 h31 (hD (k0 + 1))
    have a := A.box32 (a := 0) (b := 2) (x := R.unitDraw D k0 + R.unitDraw D (k0 + 1)) (by norm_num) (by norm_num)
      (by push_cast; linarith) (by push_cast; linarith)
    push_cast at a
    refine (A.f32 _ ?_).1
    rw [abs_of_nonneg (by linarith)]
    have : (2 : ℝ) ^ 10 ≤ 2 ^ 127 := pow_le_pow_right₀ (by norm_num) (by norm_num)
    linarith
  refine ⟨tr2, k2, zPV, npu, npv, rfl, z1, z2, zf, by omega, q1, ⟨a1, a2, b1, b2, q2, q3, q4⟩, fun hlt => ⟨_, ?_, q5 hlt⟩⟩
  -- the common position
  have c0 : R.f64 (1 / 2 * ((0 : ℕ) : ℝ)) = 0 := by
    have := A.box64 (a := 0) (b := 0) (x := 1 / 2 * ((0 : ℕ) : ℝ)) (by norm_num) (by norm_num) (by norm_num) (by norm_num)
    push_cast at this ⊢
    linarith
  have c1 : R.f32 0 = 0 := by
    have := A.box32 (a := 0) (b := 0) (x := 0) (by norm_num) (by norm_num) (by norm_num) (by norm_num)
    push_cast at this
    linarith
  have c2 : R.f64 (0 - 1 / 2) = -1 / 2 := by
    have := A.box64h (a := -1) (b := -1) (x := 0 - 1 / 2) (by norm_num) (by norm_num) (by norm_num) (by norm_num)
    push_cast at this
    linarith
  have c3 : |R.f32 (7 / 10) - 7 / 10| ≤ 0.0000001 := by
    have := A.rel32 (x := 7 / 10) (by norm_num [abs_of_pos]) (by norm_num [abs_of_pos])
    rw [abs_of_pos (show (0 : ℝ) < 7 / 10 by norm_num)] at this
    refine this.trans (by norm_num)
  have r64 : ∀ x : ℝ, |x| ≤ 1000 → |R.f64 x - x| ≤ 0.00001 := by
    intro x hx
    have p : (2 : ℝ) ^ 10 ≤ 2 ^ 1023 := pow_le_pow_right₀ (by norm_num) (by norm_num)
    refine (A.err64 (le_trans (hx.trans (by norm_num)) p)).trans (max_le ?_ ?_)
    · rw [div_le_iff₀ (by positivity)]
      exact hx.trans (by norm_num)
    · calc (2 : ℝ) ^ (-1075 : ℤ) ≤ 2 ^ (-20 : ℤ) := zpow_le_zpow_right₀ (by norm_num) (by norm_num)
        _ ≤ 0.00001 := by norm_num
  have r32 : ∀ x : ℝ, |x| ≤ 10 → |R.f32 x - x| ≤ 0.00001 := by
    intro x hx
    refine (A.abs32 (hx.trans (by norm_num))).trans ?_
    have := div_le_div_of_nonneg_right hx (show (0 : ℝ) ≤ 2 ^ 24 by positivity)
    norm_num at this ⊢
    linarith
  obtain ⟨s1, s2⟩ := svPZ_box A z1 z2 (q := 0) (by norm_num)
  have hP : |R.svPZ zPV 0 - (zPV - 0.35)| ≤ 0.0001 := by
    unfold Rounding.svPZ
    dsimp only
    rw [c0, c1, c2]
    obtain ⟨u1, u2⟩ := abs_le.mp c3
    have d1 := r64 (-1 / 2 * R.f32 (7 / 10)) (by rw [abs_le]; constructor <;> norm_num at * <;> linarith)
    obtain ⟨v1, v2⟩ := abs_le.mp d1
    have d2 := r64 (R.f64 (-1 / 2 * R.f32 (7 / 10)) + zPV) (by rw [abs_le]; constructor <;> norm_num at * <;> linarith)
    obtain ⟨w1, w2⟩ := abs_le.mp d2
    have d3 := r32 (R.f64 (R.f64 (-1 / 2 * R.f32 (7 / 10)) + zPV)) (by rw [abs_le]; constructor <;> norm_num at * <;> linarith)
    obtain ⟨y1, y2⟩ := abs_le.mp d3
    rw [abs_le]
    norm_num at *
    constructor <;> linarith
  have d4 := r64 (R.svPZ zPV 0 * 20) (by rw [abs_le]; constructor <;> norm_num at * <;> linarith)
  have bb := A.box64 (a := -10) (b := 170) (x := R.svPZ zPV 0 * 20) (by norm_num) (by norm_num)
    (by push_cast; linarith) (by push_cast; linarith)
  have cb := ctrunc_box bb.1 bb.2
  have ct := (ctrunc_spec (R.f64 (R.svPZ zPV 0 * 20))).2.1
  have keep : (reg 10 (ctrunc (R.f64 (R.svPZ zPV 0 * 20)))).toInt = ctrunc (R.f64 (R.svPZ zPV 0 * 20)) := by
    unfold reg
    rw [BitVec.toInt_ofInt]
    apply Int.bmod_eq_of_le <;> omega
  rw [keep]
  obtain ⟨p1, p2⟩ := abs_le.mp hP
  obtain ⟨p3, p4⟩ := abs_le.mp d4
  obtain ⟨p5, p6⟩ := abs_lt.mp ct
  rw [abs_le]
  norm_num at *
  constructor <;> linarith

omit A h0 h31 hD in
private theorem notBad {N NPV npu npv : ℕ} {track : Arr N TkObj} (h : SvEventOK NPV npu npv track) (i : Fin N) :
    -10 ≤ (track i).hwZ0.toInt ∧ (track i).hwZ0.toInt ≤ 170 ∧ 0 ≤ (track i).hwPt.toInt ∧ (i.val < npu → 8 ≤ (track i).hwPt.toInt) := by
  by_cases c1 : i.val < npu
  · have := h.pu i c1
    exact ⟨by have := this.z0; omega, by have := this.z0; omega, by have := this.pt; omega, fun _ => this.pt.1⟩
  · by_cases c2 : i.val < npu + npv
    · have := h.pv i (by omega) c2
      exact ⟨this.z0.1, this.z0.2, by have := this.pt; omega, fun h => absurd h c1⟩
    · obtain ⟨e1, -, -, -, e5⟩ := h.empty i (by omega)
      rw [e1, e5]
      exact ⟨by decide, by decide, by decide, fun h => absurd h c1⟩

/-- What is expected of a line of the bench. -/
structure SvLineOK {N : ℕ} (NPV : ℕ) (l : SvLine N) : Prop where
  /-- the event -/
  event : ∃ npu npv, SvEventOK NPV npu npv l.track
  zPV : 0 ≤ l.zPV ∧ l.zPV ≤ 8 ∧ IsFloat l.zPV
  /-- the two positions printed agree and are the centre of the bin with the highest sum -/
  agree : l.hw.hwZ0 = l.ref.hwZ0 ∧ l.hw.hwSumPt = l.ref.hwSumPt
  best : ∃ b : Fin 15, FirstMax (fun b : Fin 15 => svSum l.track b) b ∧ 0 < svSum l.track b ∧
    l.ref.hwZ0.toInt = 20 * (b.val : ℤ) + 10 ∧ l.ref.hwSumPt.toInt = svSum l.track b

/-- **C62.** The whole bench, for every `rand()`, every number of tests and every leftover memory: with tables that bin as the
reference does it never faults, prints one line per test, and on each line the two positions agree and are the centre of the bin with
the highest sum of capped pts (nothing wraps). -/
theorem C62_bench {NPOW NPV : ℕ} (hP : NPOW ≤ 6) (h1 : 0 < NPV) (hN : NPV + 2 ≤ 2 ^ NPOW) {z0bin : Z0 → BitVec 5} {convertZ0 : Z0 → Z0}
    (ht : SvTables z0bin convertZ0) (NTEST : ℕ) (track0 : Arr (2 ^ NPOW) TkObj) (out0 : VtxObj) :
    ∃ lines, R.svMain D NTEST NPV z0bin convertZ0 track0 out0 = .ok lines ∧ lines.length = NTEST ∧ ∀ l ∈ lines, SvLineOK NPV l := by
  unfold Rounding.svMain
  obtain ⟨s, e, p1, p2⟩ := loopM_induct (σ := SvState (2 ^ NPOW)) (fun n s => s.lines.length = n ∧ ∀ l ∈ s.lines, SvLineOK NPV l)
    (fun (_ : Fin NTEST) s => R.svTest D NPV z0bin convertZ0 s) ⟨track0, 0, out0, []⟩ ⟨rfl, by simp⟩
    (by
      rintro i s ⟨p1, p2⟩
      obtain ⟨track, k, zPV, npu, npv, e1, z1, z2, zf, -, -, ev, -⟩ := C62_event A h0 h31 hD (NPV := NPV) h1 (by omega) s.track s.draws
      have hz : ∀ i, ¬ SvBadZ (track i).hwZ0.toInt := by
        intro i
        obtain ⟨q1, q2, -⟩ := notBad ev i
        unfold SvBadZ
        omega
      have hub : ∀ b : ℕ, 0 ≤ svSum track b ∧ svSum track b ≤ 12800 := by
        intro b
        have hcard : (2 : ℕ) ^ NPOW ≤ 64 := by
          calc 2 ^ NPOW ≤ 2 ^ 6 := Nat.pow_le_pow_right (by norm_num) hP
            _ = 64 := by norm_num
        constructor
        · unfold svSum
          apply Finset.sum_nonneg
          intro i _
          obtain ⟨-, -, q3, -⟩ := notBad ev i
          split <;> omega
        · have : svSum track b ≤ ∑ _i : Fin (2 ^ NPOW), (200 : ℤ) := by
            unfold svSum
            apply Finset.sum_le_sum
            intro i _
            split <;> omega
          rw [Finset.sum_const, Finset.card_univ, Fintype.card_fin, nsmul_eq_mul] at this
          have hc : ((2 ^ NPOW : ℕ) : ℤ) ≤ 64 := by exact_mod_cast hcard
          omega
      have hreg : ∀ b : ℕ, (reg 16 (svSum track b)).toInt = svSum track b := by
        intro b
        obtain ⟨q1, q2⟩ := hub b
        unfold reg
        rw [BitVec.toInt_ofInt]
        apply Int.bmod_eq_of_le <;> omega
      have hpos : ∃ b : Fin 15, 0 < (reg 16 (svSum track b)).toInt := by
        have hnpu : 0 < npu := by have := ev.npu_ge; omega
        have hpow : 0 < 2 ^ NPOW := Nat.two_pow_pos _
        set i0 : Fin (2 ^ NPOW) := ⟨0, hpow⟩ with hi0
        have hb : svBin (track i0).hwZ0.toInt < 15 := (svBin_oob _).mpr (hz i0)
        refine ⟨⟨svBin (track i0).hwZ0.toInt, hb⟩, ?_⟩
        rw [hreg]
        unfold svSum
        apply Finset.sum_pos'
        · intro i _
          obtain ⟨-, -, q3, -⟩ := notBad ev i
          split <;> omega
        · refine ⟨i0, Finset.mem_univ _, ?_⟩
          rw [if_pos rfl]
          obtain ⟨-, -, -, q4⟩ := notBad ev i0
          have := q4 hnpu
          omega
      obtain ⟨o, o', b, r1, r2, r3, r4, -, -, r7, -⟩ := C49_firmware_eq_ref hP ht track s.outvtx hz hpos
      obtain ⟨o2, t1, t2⟩ := C30_result track hz
      rw [r2] at t1
      injection t1 with t1
      subst t1
      refine ⟨_, by unfold Rounding.svTest; rw [e1, Run.ok_bind]; dsimp only; rw [r1, Run.ok_bind, r2, Run.ok_bind], ?_, ?_⟩
      · dsimp only
        rw [List.length_append, p1]
        rfl
      · intro l hl
        rcases List.mem_append.mp hl with hl | hl
        · exact p2 l hl
        · rw [List.mem_singleton] at hl
          subst hl
          refine ⟨⟨npu, npv, ev⟩, ⟨z1, z2, zf⟩, ⟨r4, r3⟩, ?_⟩
          rcases t2 with ⟨b', u1, u2, u3, u4, -⟩ | ⟨u1, -⟩
          · simp only [hreg] at u1 u2
            refine ⟨b', u2, u1, u4, ?_⟩
            dsimp only
            rw [u3, hreg]
          · obtain ⟨b', hb'⟩ := hpos
            exact absurd hb' (by have := u1 b'; omega))
  rw [e, Run.ok_bind]
  exact ⟨s.lines, rfl, p1, p2⟩

omit A h0 h31 hD in
/-- The bench as it is built: 50 tests of 64 slots, 15 of them for the vertex; there is such a `rand()`, and such tables. -/
example (track0 : Arr 64 TkObj) (out0 : VtxObj) : ∃ (R : Rounding) (D : Rand) (lines : List (SvLine (2 ^ 6))), IEEE R ∧
    R.svMain (NPOW := 6) D 50 15 vtx_ref_bin (fun z => reg 10 (20 * z.toInt + 10)) track0 out0 = .ok lines ∧ lines.length = 50 := by
  obtain ⟨R, hR⟩ := C61_rounding_exists
  have ht : SvTables vtx_ref_bin (fun z => reg 10 (20 * z.toInt + 10)) := by
    refine ⟨fun z _ => (ref_bin_spec z).1, fun b hb => ?_⟩
    rw [reg10_toInt (x := (b : Int)) (by omega) (by omega), reg10_toInt (by omega) (by omega)]
  obtain ⟨lines, e, hl, -⟩ := C62_bench (D := ⟨2147483647, fun k => 1103515245 * k % 2147483648⟩) hR (by norm_num) (by norm_num)
    (fun k => by have := Nat.mod_lt (1103515245 * k) (show 0 < 2147483648 by norm_num); dsimp only; omega) (NPOW := 6) (NPV := 15)
    (by norm_num) (by norm_num) (by norm_num) ht 50 track0 out0
  exact ⟨R, _, lines, hR, e, hl⟩

end Verif
