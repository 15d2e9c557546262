import Verif.Proofs.SimpleVtx
/-! # C30, C31, C49, C50 — the 15-bin vertex finder -/
namespace Verif
open Spec
open scoped BigOperators

/-- `z0` values whose bin does not exist. -/
def SvBadZ (z : Int) : Prop := (300 ≤ z ∧ z ≤ 319) ∨ (-359 ≤ z ∧ z ≤ -340)

/-- **C30.** `simple_vtx_ref` writes outside its histogram exactly when some track has such a `z0`;
otherwise it does not fault at all. -/
theorem C30_oob_iff {N : Nat} (track : Arr N TkObj) :
    (simple_vtx_ref track = .error .oob ↔ ∃ i, SvBadZ (track i).hwZ0.toInt) ∧
    ((¬ ∃ i, SvBadZ (track i).hwZ0.toInt) → ∃ o, simple_vtx_ref track = .ok o) := by
  have hok : (¬ ∃ i, SvBadZ (track i).hwZ0.toInt) → ∃ o, simple_vtx_ref track = .ok o := by
    intro h
    unfold simple_vtx_ref
    rw [ref_hist track (fun i => (svBin_oob _).mpr (fun hb => h ⟨i, hb⟩)), Run.ok_bind]
    exact ⟨_, rfl⟩
  refine ⟨⟨fun h => ?_, ?_⟩, hok⟩
  · by_contra hn
    obtain ⟨o, ho⟩ := hok hn
    rw [ho] at h
    cases h
  · rintro ⟨i, hi⟩
    unfold simple_vtx_ref
    rw [ref_hist_oob track i (fun hb => (svBin_oob _).mp hb hi)]
    rfl

def svTrack (pt z0 : Int) : TkObj := { TkObj.clear with hwPt := reg 16 pt, hwZ0 := reg 10 z0 }

/-- One track at z0 = 300 is enough. -/
theorem C30_oob_witness : simple_vtx_ref (fun _ : Fin 64 => svTrack 8 300) = .error .oob :=
  ((C30_oob_iff _).1).mpr ⟨0, Or.inl (by decide)⟩

/-- **C30.** What the reference returns: the first maximum of the pt sums (as 16-bit registers), its
multiplicity (as a 5-bit register) and the centre of the bin; zeros if no sum is positive. -/
theorem C30_result {N : Nat} (track : Arr N TkObj) (hz : ∀ i, ¬ SvBadZ (track i).hwZ0.toInt) :
    ∃ o, simple_vtx_ref track = .ok o ∧
      ((∃ b : Fin 15, 0 < (reg 16 (svSum track b)).toInt ∧
          FirstMax (fun b : Fin 15 => (reg 16 (svSum track b)).toInt) b ∧
          o.hwSumPt = reg 16 (svSum track b) ∧ o.hwZ0.toInt = 20 * (b.val : Int) + 10 ∧
          o.mult = reg 5 (svCount track b) ∧ o.hwId = (if (reg 5 (svCount track b)).toInt > 3 then 1 else 0)) ∨
       ((∀ b : Fin 15, (reg 16 (svSum track b)).toInt ≤ 0) ∧ o = ⟨0, 0, 0, 0⟩)) := by
  unfold simple_vtx_ref
  rw [ref_hist track (fun i => (svBin_oob _).mpr (hz i)), Run.ok_bind]
  refine ⟨_, rfl, ?_⟩
  rcases vtx_scan (fun b : Fin NVTXBINS => (reg 5 (svCount track b), reg 16 (svSum track b)))
    (fun n => reg 10 (20 * (n : Int) + 10)) { hwSumPt := 0, hwZ0 := 0, mult := 0, hwId := 0 } with
    ⟨b, h1, h2, h3⟩ | ⟨h1, h2⟩
  · refine Or.inl ⟨b, h1, h2, ?_⟩
    simp only [] at h3
    simp only [h3]
    have hb : b.val < 15 := b.isLt
    exact ⟨trivial, reg10_toInt (by omega) (by omega), trivial, trivial⟩
  · refine Or.inr ⟨h1, ?_⟩
    simp only [] at h2
    simp only [h2]
    rfl

/-- **C31.** The reduction puts in row 0 the sums over all rows (as registers), for up to 64 rows. -/
theorem C31_tree_sums {P : Nat} (hP : P ≤ 6) (rows : Arr (2 ^ P) VtxHist) :
    ∃ rows', vtx_tree rows = .ok rows' ∧ ∀ j : Fin 15,
      (rows' ⟨0, Nat.two_pow_pos P⟩ j).1 = reg 5 (∑ i, (rows i j).1.toInt) ∧
      (rows' ⟨0, Nat.two_pow_pos P⟩ j).2 = reg 16 (∑ i, (rows i j).2.toInt) := by
  obtain ⟨rows', h1, h2⟩ := tree_ok hP rows
    (fun n j => if h : n < 2 ^ P then (rows ⟨n, h⟩ j).1.toInt else 0)
    (fun n j => if h : n < 2 ^ P then (rows ⟨n, h⟩ j).2.toInt else 0)
    (fun i j => by
      simp only [dif_pos i.isLt]
      unfold reg
      rw [BitVec.ofInt_toInt, BitVec.ofInt_toInt])
  refine ⟨rows', h1, fun j => ?_⟩
  rw [h2 j]
  simp only [Fin.is_lt, dif_pos]
  exact ⟨trivial, trivial⟩

/-- **C31.** From 128 rows on the 7-bit `pow` wraps to -64 and the reduction reads before the array. -/
theorem C31_tree_limit {P : Nat} (hP : 7 ≤ P) (rows : Arr (2 ^ P) VtxHist) : vtx_tree rows = .error .oob :=
  tree_oob hP rows

/-- Eight rows holding 0..7 in bin 3. -/
example : (vtx_tree (NPOW := 3) (fun i j => if j = 3 then (reg 5 1, reg 16 (i.val : Int)) else (0, 0))).map
    (fun r => ((r 0 3).1.toInt, (r 0 3).2.toInt, (r 0 4).2.toInt)) = .ok (8, 28, 0) := by decide +kernel

/-- `z0bin` and `convertZ0` agree with the binning of the reference. -/
structure SvTables (z0bin : Z0 → BitVec 5) (convertZ0 : Z0 → Z0) : Prop where
  bin : ∀ z : Z0, ¬ SvBadZ z.toInt → (z0bin z).toInt = svBin z.toInt
  center : ∀ b : Nat, b < 15 → (convertZ0 (reg 10 b)).toInt = 20 * (b : Int) + 10

/-- Such tables exist. -/
example : SvTables vtx_ref_bin (fun z => reg 10 (20 * z.toInt + 10)) := by
  refine ⟨fun z _ => (ref_bin_spec z).1, fun b hb => ?_⟩
  rw [reg10_toInt (x := (b : Int)) (by omega) (by omega), reg10_toInt (by omega) (by omega)]

/-- **C49.** With the binning of the reference, firmware and reference find the same vertex and pt sum as
soon as one sum is positive; the multiplicities count tracks of positive pt and all tracks respectively. -/
theorem C49_firmware_eq_ref {P : Nat} (hP : P ≤ 6) {z0bin : Z0 → BitVec 5} {convertZ0 : Z0 → Z0}
    (ht : SvTables z0bin convertZ0) (track : Arr (2 ^ P) TkObj) (out0 : VtxObj)
    (hz : ∀ i, ¬ SvBadZ (track i).hwZ0.toInt) (hpos : ∃ b : Fin 15, 0 < (reg 16 (svSum track b)).toInt) :
    ∃ o o', ∃ b : Fin 15, simple_vtx_hwopt z0bin convertZ0 track out0 = .ok o ∧ simple_vtx_ref track = .ok o' ∧
      o.hwSumPt = o'.hwSumPt ∧ o.hwZ0 = o'.hwZ0 ∧
      o.mult = reg 5 (svCountPos track b) ∧ o'.mult = reg 5 (svCount track b) ∧
      FirstMax (fun b : Fin 15 => (reg 16 (svSum track b)).toInt) b ∧
      ((∀ i, 0 < (track i).hwPt.toInt) → o = o') := by
  obtain ⟨o', r1, r2⟩ := C30_result track hz
  obtain ⟨bp, hbp⟩ := hpos
  rcases r2 with ⟨b, a1, a2, a3, a4, a5, a6⟩ | ⟨a1, _⟩
  swap
  · exact absurd hbp (by have := a1 bp; omega)
  obtain ⟨rows, rows', f1, f2, f3⟩ := hw_hist hP z0bin track (fun i => (svBin_oob _).mpr (hz i))
    (fun i => ht.bin _ (hz i))
  unfold simple_vtx_hwopt
  rw [f1, Run.ok_bind, f2, Run.ok_bind]
  have hh : rows' ⟨0, Nat.two_pow_pos P⟩ =
      fun b : Fin NVTXBINS => (reg 5 (svCountPos track b), reg 16 (svSum track b)) := funext f3
  simp only [hh]
  rcases vtx_scan (fun b : Fin NVTXBINS => (reg 5 (svCountPos track b), reg 16 (svSum track b)))
    (fun n => reg 10 (n : Int)) out0 with ⟨b2, h1, h2, h3⟩ | ⟨h1, h2⟩
  swap
  · exact absurd hbp (not_lt.mpr (h1 bp))
  have hb : b2 = b := firstMax_unique h2 a2
  subst hb
  simp only [] at h3
  simp only [h3]
  have hzz : convertZ0 (reg 10 ((b2.val : Nat) : Int)) = o'.hwZ0 :=
    BitVec.eq_of_toInt_eq (by rw [ht.center b2.val b2.isLt, a4])
  refine ⟨_, o', b2, rfl, r1, a3.symm, hzz, rfl, a5, h2, fun hp => ?_⟩
  have hc : svCountPos track b2 = svCount track b2 := by
    unfold svCountPos svCount
    exact Finset.sum_congr rfl (fun i _ => by simp only [hp i, and_true])
  have : o' = ⟨o'.hwSumPt, o'.hwZ0, o'.mult, o'.hwId⟩ := rfl
  rw [this, a3, a5, a6, ← hzz, hc]

/-- Two tracks of 10 GeV at z0 = 100: bin 5, centre 110. -/
example : (simple_vtx_hwopt (NPOW := 1) vtx_ref_bin (fun z => reg 10 (20 * z.toInt + 10))
      (fun _ => svTrack 40 100) ⟨7, 7, 7, 7⟩).map (fun o => (o.hwSumPt.toInt, o.hwZ0.toInt, o.mult.toInt)) =
      .ok (80, 110, 2) ∧
    (simple_vtx_ref (fun _ : Fin 2 => svTrack 40 100)).map (fun o => (o.hwSumPt.toInt, o.hwZ0.toInt, o.mult.toInt)) =
      .ok (80, 110, 2) := by decide +kernel

/-- With empty (pt 0, z0 0) padding the multiplicities differ: one track at z0 = 5 and three empty slots. -/
theorem C49_padding_differs :
    (simple_vtx_hwopt (NPOW := 2) vtx_ref_bin (fun z => reg 10 (20 * z.toInt + 10))
      (fun i => if i = 0 then svTrack 40 5 else TkObj.clear) ⟨0, 0, 0, 0⟩).map
        (fun o => (o.mult.toInt, o.hwId.toNat)) = .ok (1, 0) ∧
    (simple_vtx_ref (fun i : Fin 4 => if i = 0 then svTrack 40 5 else TkObj.clear)).map
        (fun o => (o.mult.toInt, o.hwId.toNat)) = .ok (4, 1) := by decide +kernel

/-- With no track the firmware returns what `*outvtx` held before; the reference returns zeros. -/
theorem C49_empty_differs :
    (simple_vtx_hwopt (NPOW := 2) vtx_ref_bin (fun z => reg 10 (20 * z.toInt + 10))
      (fun _ => TkObj.clear) ⟨0, 3, 9, 0⟩).map (fun o => (o.hwZ0.toInt, o.mult.toInt, o.hwId.toNat)) = .ok (70, 9, 1) ∧
    (simple_vtx_ref (fun _ : Fin 4 => TkObj.clear)).map
      (fun o => (o.hwZ0.toInt, o.mult.toInt, o.hwId.toNat)) = .ok (0, 0, 0) := by decide +kernel

/-- **C50.** The vertex is flagged (`hwId = 1`) for a multiplicity above 3 as long as it stays below 16. -/
theorem C50_flag_partial {N : Nat} (track : Arr N TkObj) (hz : ∀ i, ¬ SvBadZ (track i).hwZ0.toInt)
    (hN : ∀ b : Fin 15, svCount track b ≤ 15) {o : VtxObj} (ho : simple_vtx_ref track = .ok o) (hs : 0 < o.hwSumPt.toInt) :
    ∃ b : Fin 15, o.hwZ0.toInt = 20 * (b.val : Int) + 10 ∧ o.mult.toInt = svCount track b ∧
      (o.hwId = 1 ↔ 3 < svCount track b) := by
  obtain ⟨o', h1, h2⟩ := C30_result track hz
  rw [ho] at h1
  cases h1
  rcases h2 with ⟨b, _, _, h3, h4, h5, h6⟩ | ⟨_, h⟩
  · have hc0 : 0 ≤ svCount track b := by
      unfold svCount
      exact Finset.sum_nonneg (fun i _ => by split <;> omega)
    have hm : (reg 5 (svCount track b)).toInt = svCount track b := by
      rw [reg_toInt]
      have := hN b
      exact Int.bmod_eq_of_le (by omega) (by omega)
    refine ⟨b, h4, by rw [h5, hm], ?_⟩
    rw [h6, hm]
    by_cases h3 : svCount track b > 3
    · rw [if_pos h3]; exact ⟨fun _ => h3, fun _ => rfl⟩
    · rw [if_neg h3]; exact ⟨fun h => absurd h (by decide), fun h => absurd h h3⟩
  · rw [h] at hs
    exact absurd hs (by decide)

/-- **C50.** It fails from 16 on: 16 tracks in one bin give multiplicity -16 and no flag. -/
theorem C50_flag_counterexample :
    (simple_vtx_ref (fun _ : Fin 16 => svTrack 8 100)).map
      (fun o => (o.hwZ0.toInt, o.mult.toInt, o.hwId.toNat)) = .ok (110, -16, 0) := by decide +kernel

/-- **C50.** Exactly: the flag is set when the number of tracks in the vertex bin, modulo 32, is between 4 and 15. -/
theorem C50_flag {N : Nat} (track : Arr N TkObj) (hz : ∀ i, ¬ SvBadZ (track i).hwZ0.toInt)
    {o : VtxObj} (ho : simple_vtx_ref track = .ok o) (hs : 0 < o.hwSumPt.toInt) :
    ∃ b : Fin 15, FirstMax (fun b : Fin 15 => (reg 16 (svSum track b)).toInt) b ∧ o.hwZ0.toInt = 20 * (b.val : Int) + 10 ∧
      (o.hwId = 1 ↔ 4 ≤ svCount track b % 32 ∧ svCount track b % 32 ≤ 15) ∧ (o.hwId = 1 ∨ o.hwId = 0) := by
  obtain ⟨o', h1, h2⟩ := C30_result track hz
  rw [ho] at h1
  cases h1
  rcases h2 with ⟨b, _, hf, h3, h4, h5, h6⟩ | ⟨_, h⟩
  · refine ⟨b, hf, h4, ?_, ?_⟩
    · have hk : (reg 5 (svCount track b)).toInt > 3 ↔ 4 ≤ svCount track b % 32 ∧ svCount track b % 32 ≤ 15 := by
        rw [reg_toInt, Int.bmod_def]
        norm_num
        split <;> omega
      rw [h6, ← hk]
      by_cases hc : (reg 5 (svCount track b)).toInt > 3
      · rw [if_pos hc]
        exact ⟨fun _ => hc, fun _ => rfl⟩
      · rw [if_neg hc]
        exact ⟨fun h => absurd h (by decide), fun h => absurd h hc⟩
    · rw [h6]
      split
      · exact Or.inl rfl
      · exact Or.inr rfl
  · rw [h] at hs
    exact absurd hs (by decide)

end Verif
