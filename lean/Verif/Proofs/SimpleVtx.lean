import Verif.Model.SimpleVtx
import Verif.Proofs.BramHist
import Mathlib.Tactic.IntervalCases
import Mathlib.Tactic.Ring
/-! # The 15-bin vertex finder -/
namespace Verif
open Spec
open scoped BigOperators

theorem ref_bin_spec (z : Z0) : (vtx_ref_bin z).toInt = (svBin z.toInt : Int) ∧
    (0 ≤ (vtx_ref_bin z).toInt ∧ (vtx_ref_bin z).toInt ≤ 15) := by
  revert z; decide +kernel

theorem svBin_oob (z : Z0) : svBin z.toInt < 15 ↔
    ¬ ((300 ≤ z.toInt ∧ z.toInt ≤ 319) ∨ (-359 ≤ z.toInt ∧ z.toInt ≤ -340)) := by
  revert z; decide +kernel

theorem Arr.readI_ok {n : Nat} {α : Type} (a : Arr n α) {k : Int} {j : Nat} (h : j < n) (e : k = j) :
    a.readI k = .ok (a ⟨j, h⟩) := by
  subst e
  unfold Arr.readI
  rw [if_neg (by omega)]
  exact Arr.read_ok a h

theorem Arr.writeI_ok {n : Nat} {α : Type} (a : Arr n α) (x : α) {k : Int} {j : Nat} (h : j < n)
    (e : k = j) : a.writeI k x = .ok (a.set ⟨j, h⟩ x) := by
  subst e
  unfold Arr.writeI
  rw [if_neg (by omega)]
  exact Arr.write_ok a x h

theorem Arr.readI_oob {n : Nat} {α : Type} (a : Arr n α) {k : Int} (h : k < 0 ∨ (n : Int) ≤ k) :
    a.readI k = .error .oob := by
  unfold Arr.readI
  split
  · rfl
  · unfold Arr.read
    rw [dif_neg (by omega)]

theorem vtxCap_toInt (p : Pt) : (vtxCap p).toInt = min 200 p.toInt := by
  unfold vtxCap VTXPTMAX
  split
  · rw [reg16_toInt (by decide) (by decide)]; omega
  · omega

/-- The reference histogram. -/
theorem ref_hist {N : Nat} (track : Arr N TkObj) (hz : ∀ i, svBin (track i).hwZ0.toInt < 15) :
    loopM (fun it h => vtx_ref_add (track it) h) (fun _ => ((0 : VtxT), (0 : Pt))) =
      .ok (fun b : Fin NVTXBINS => (reg 5 (svCount track b), reg 16 (svSum track b))) := by
  have key : ∀ (l : List (Fin N)) (c s : Nat → Int),
      l.foldlM (m := Run) (fun (h : VtxHist) it => vtx_ref_add (track it) h)
        (fun b : Fin NVTXBINS => (reg 5 (c b), reg 16 (s b))) =
      .ok (fun b : Fin NVTXBINS =>
        (reg 5 (c b + (l.map fun i => if svBin (track i).hwZ0.toInt = b.val then (1 : Int) else 0).sum),
         reg 16 (s b + (l.map fun i => if svBin (track i).hwZ0.toInt = b.val then
            min 200 (track i).hwPt.toInt else 0).sum))) := by
    intro l
    induction l with
    | nil => intro c s; simp; rfl
    | cons i l ih =>
      intro c s
      have hb := hz i
      have e := (ref_bin_spec (track i).hwZ0).1
      have step : vtx_ref_add (track i) (fun b : Fin NVTXBINS => (reg 5 (c b), reg 16 (s b))) =
          .ok (fun b : Fin NVTXBINS =>
            (reg 5 (c b + if svBin (track i).hwZ0.toInt = b.val then (1 : Int) else 0),
             reg 16 (s b + if svBin (track i).hwZ0.toInt = b.val then min 200 (track i).hwPt.toInt else 0))) := by
        unfold vtx_ref_add
        simp only []
        rw [Arr.readI_ok _ hb e, Run.ok_bind, Arr.writeI_ok _ _ hb e]
        congr 1
        funext b
        by_cases h : b = ⟨svBin (track i).hwZ0.toInt, hb⟩
        · subst h
          rw [Arr.set_same, reg_add_reg, reg_add_reg, vtxCap_toInt, if_pos rfl, if_pos rfl]
        · rw [Arr.set_ne _ _ h, if_neg (fun h' => h (Fin.ext h'.symm)), if_neg (fun h' => h (Fin.ext h'.symm)),
            Int.add_zero, Int.add_zero]
      rw [List.foldlM_cons, step, Run.ok_bind, ih
        (fun b => c b + if svBin (track i).hwZ0.toInt = b then (1 : Int) else 0)
        (fun b => s b + if svBin (track i).hwZ0.toInt = b then min 200 (track i).hwPt.toInt else 0)]
      simp only [List.map_cons, List.sum_cons, Int.add_assoc]
  have := key (List.finRange N) (fun _ => 0) (fun _ => 0)
  simp only [Int.zero_add] at this
  unfold svCount svSum
  simp only [Fin.sum_univ_def]
  exact this

/-- A track outside the bins faults, after any tracks. -/
theorem ref_hist_oob {N : Nat} (track : Arr N TkObj) (i : Fin N) (hi : ¬ svBin (track i).hwZ0.toInt < 15) :
    loopM (fun it h => vtx_ref_add (track it) h) (fun _ => ((0 : VtxT), (0 : Pt))) = .error .oob := by
  have one : ∀ (j : Fin N) h, vtx_ref_add (track j) h = .error .oob ∨ ∃ h', vtx_ref_add (track j) h = .ok h' := by
    intro j h
    have e := (ref_bin_spec (track j).hwZ0).1
    unfold vtx_ref_add
    simp only []
    by_cases hb : svBin (track j).hwZ0.toInt < 15
    · right
      rw [Arr.readI_ok _ hb e, Run.ok_bind, Arr.writeI_ok _ _ hb e]
      exact ⟨_, rfl⟩
    · left
      rw [Arr.readI_oob _ (Or.inr (by rw [e]; show (15 : Int) ≤ _; omega))]
      rfl
  have bad : ∀ h, vtx_ref_add (track i) h = .error .oob := by
    intro h
    have e := (ref_bin_spec (track i).hwZ0).1
    unfold vtx_ref_add
    simp only []
    rw [Arr.readI_oob _ (Or.inr (by rw [e]; show (15 : Int) ≤ _; omega))]
    rfl
  have key : ∀ (l : List (Fin N)) h, i ∈ l →
      l.foldlM (m := Run) (fun (h : VtxHist) it => vtx_ref_add (track it) h) h = .error .oob := by
    intro l
    induction l with
    | nil => intro h hm; simp at hm
    | cons j l ih =>
      intro h hm
      rw [List.foldlM_cons]
      rcases List.mem_cons.mp hm with e | e
      · rw [← e, bad]; rfl
      · rcases one j h with e' | ⟨h', e'⟩
        · rw [e']; rfl
        · rw [e', Run.ok_bind]; exact ih h' e
  exact key _ _ (List.mem_finRange i)

/-- The scan over bins. -/
theorem vtx_scan (h : VtxHist) (z : Nat → Z0) (o0 : VtxObj) :
    let out := loop (fun (it : Fin NVTXBINS) (o : VtxObj) =>
      if (h it).2.toInt > o.hwSumPt.toInt then
        { o with hwSumPt := (h it).2, mult := (h it).1, hwZ0 := z it.val }
      else o) { o0 with hwSumPt := 0 }
    (∃ b : Fin NVTXBINS, 0 < (h b).2.toInt ∧ FirstMax (fun b : Fin NVTXBINS => (h b).2.toInt) b ∧
      out = { o0 with hwSumPt := (h b).2, mult := (h b).1, hwZ0 := z b.val }) ∨
    ((∀ b : Fin NVTXBINS, (h b).2.toInt ≤ 0) ∧ out = { o0 with hwSumPt := 0 }) := by
  intro out
  have inv := loop_induct (n := NVTXBINS)
    (fun m (o : VtxObj) => 
      (∃ b : Fin NVTXBINS, b.val < m ∧ 0 < (h b).2.toInt ∧
        (∀ b' : Fin NVTXBINS, b'.val < m → (h b').2.toInt ≤ (h b).2.toInt ∧ (b' < b → (h b').2.toInt < (h b).2.toInt)) ∧
        o = { o0 with hwSumPt := (h b).2, mult := (h b).1, hwZ0 := z b.val }) ∨
      ((∀ b : Fin NVTXBINS, b.val < m → (h b).2.toInt ≤ 0) ∧ o = { o0 with hwSumPt := 0 }))
    (fun (it : Fin NVTXBINS) (o : VtxObj) =>
      if (h it).2.toInt > o.hwSumPt.toInt then
        { o with hwSumPt := (h it).2, mult := (h it).1, hwZ0 := z it.val }
      else o) { o0 with hwSumPt := 0 }
    (Or.inr ⟨fun b hb => absurd hb (by omega), rfl⟩)
    (by
      rintro i o (⟨b, h1, h2, h3, rfl⟩ | ⟨h1, rfl⟩)
      · simp only []
        by_cases hgt : (h i).2.toInt > (h b).2.toInt
        · rw [if_pos hgt]
          refine Or.inl ⟨i, by omega, by omega, fun b' hb' => ?_, rfl⟩
          by_cases e : b' = i
          · subst e; exact ⟨le_refl _, fun hh => absurd hh (lt_irrefl _)⟩
          · have := (h3 b' (by have : b'.val ≠ i.val := fun x => e (Fin.ext x); omega)).1
            exact ⟨by omega, fun _ => by omega⟩
        · rw [if_neg hgt]
          refine Or.inl ⟨b, by omega, h2, fun b' hb' => ?_, rfl⟩
          by_cases e : b' = i
          · subst e; exact ⟨by omega, fun hh => absurd hh (by rw [Fin.lt_def]; omega)⟩
          · exact h3 b' (by have : b'.val ≠ i.val := fun x => e (Fin.ext x); omega)
      · have z0 : (0 : Pt).toInt = 0 := rfl
        simp only [z0]
        by_cases hgt : (h i).2.toInt > 0
        · rw [if_pos hgt]
          refine Or.inl ⟨i, by omega, by omega, fun b' hb' => ?_, rfl⟩
          by_cases e : b' = i
          · subst e; exact ⟨le_refl _, fun hh => absurd hh (lt_irrefl _)⟩
          · have := h1 b' (by have : b'.val ≠ i.val := fun x => e (Fin.ext x); omega)
            exact ⟨by omega, fun _ => by omega⟩
        · rw [if_neg hgt]
          refine Or.inr ⟨fun b' hb' => ?_, rfl⟩
          by_cases e : b' = i
          · subst e; omega
          · exact h1 b' (by have : b'.val ≠ i.val := fun x => e (Fin.ext x); omega))
  rcases inv with ⟨b, _, h2, h3, h4⟩ | ⟨h1, h2⟩
  · exact Or.inl ⟨b, h2, fun b' => h3 b' b'.isLt, h4⟩
  · exact Or.inr ⟨fun b => h1 b b.isLt, h2⟩

/-! ### The reduction tree -/

/-- The rows hold registers of the given integers. -/
def RowsAre {N : Nat} (rows : Arr N VtxHist) (c s : Nat → Fin NVTXBINS → Int) (P : Nat → Prop) : Prop :=
  ∀ i : Fin N, P i.val → ∀ j, rows i j = (reg 5 (c i j), reg 16 (s i j))

theorem reg_add_regs {w : Nat} (a b : Int) : reg w ((reg w a).toInt + (reg w b).toInt) = reg w (a + b) := by
  rw [reg_add_reg, Int.add_comm, reg_add_reg, Int.add_comm]

theorem add_row_ok {N : Nat} (rows : Arr N VtxHist) {i pow : Nat} (h : i + pow < N) :
    vtx_add_row rows (i : Int) (pow : Int) = .ok (rows.set ⟨i, by omega⟩ (fun j =>
      (reg 5 ((rows ⟨i, by omega⟩ j).1.toInt + (rows ⟨i + pow, h⟩ j).1.toInt),
       reg 16 ((rows ⟨i, by omega⟩ j).2.toInt + (rows ⟨i + pow, h⟩ j).2.toInt)))) := by
  unfold vtx_add_row
  rw [Arr.readI_ok rows (j := i) (by omega) rfl, Run.ok_bind, Arr.readI_ok rows h (by push_cast; rfl), Run.ok_bind,
    Arr.writeI_ok rows _ (by omega) rfl]

/-- Sum of a block of rows. -/
def block (c : Nat → Fin NVTXBINS → Int) (k i : Nat) (j : Fin NVTXBINS) : Int :=
  ∑ d ∈ Finset.range (2 ^ k), c (i + d) j

theorem block_succ (c : Nat → Fin NVTXBINS → Int) (k i : Nat) (j : Fin NVTXBINS) :
    block c (k + 1) i j = block c k i j + block c k (i + 2 ^ k) j := by
  unfold block
  rw [pow_succ, Nat.mul_two, Finset.sum_range_add]
  simp only [Nat.add_assoc]

theorem level_ok {N k P : Nat} (hN : N = 2 ^ P) (hkP : k < P) (hk : k ≤ 5) (rows : Arr N VtxHist)
    (c s : Nat → Fin NVTXBINS → Int)
    (h : RowsAre rows (block c k) (block s k) (fun i => 2 ^ k ∣ i)) :
    ∃ rows', vtx_level k rows = .ok rows' ∧
      RowsAre rows' (block c (k + 1)) (block s (k + 1)) (fun i => 2 ^ (k + 1) ∣ i) := by
  have hp : (reg 7 ((2 ^ k : Nat) : Int)).toInt = ((2 ^ k : Nat) : Int) := by
    have : k < 6 := by omega
    interval_cases k <;> rfl
  have hc : cint ((2 ^ k : Nat) : Int) = .ok ((2 ^ k : Nat) : Int) := by
    have : k < 6 := by omega
    interval_cases k <;> rfl
  have h1 : 0 < 2 ^ k := Nat.two_pow_pos k
  have hdvd : 2 ^ (k + 1) ∣ N := by rw [hN]; exact Nat.pow_dvd_pow 2 (by omega)
  obtain ⟨q, hq⟩ := hdvd
  have hpk : 2 ^ (k + 1) = 2 ^ k * 2 := pow_succ 2 k
  obtain ⟨rows', e1, e2, _⟩ := loopM_induct (n := N)
    (fun m (r : Arr N VtxHist) =>
      (∀ i : Fin N, ∀ t, i.val = 2 ^ (k + 1) * t → t < m →
        ∀ j, r i j = (reg 5 (block c (k + 1) i j), reg 16 (block s (k + 1) i j))) ∧
      (∀ i : Fin N, 2 ^ k ∣ i.val → (∀ t, i.val = 2 ^ (k + 1) * t → m ≤ t) → r i = rows i))
    (fun (m : Fin N) r =>
      if (m.val : Int) * ((reg 7 ((2 ^ k : Nat) : Int)).toInt * 2) < N then
        vtx_add_row r ((m.val : Int) * ((reg 7 ((2 ^ k : Nat) : Int)).toInt * 2)) (reg 7 ((2 ^ k : Nat) : Int)).toInt
      else .ok r) rows
    ⟨fun _ t _ ht => absurd ht (by omega), fun _ _ _ => rfl⟩
    (by
      rintro m r ⟨g1, g2⟩
      rw [hp]
      have hidx : (m.val : Int) * (((2 ^ k : Nat) : Int) * 2) = ((2 ^ (k + 1) * m.val : Nat) : Int) := by
        rw [hpk]; push_cast; ring
      rw [hidx]
      by_cases hlt : ((2 ^ (k + 1) * m.val : Nat) : Int) < N
      · rw [if_pos hlt]
        have hlt' : 2 ^ (k + 1) * m.val < N := by exact_mod_cast hlt
        have hmq : m.val < q := by
          exact Nat.lt_of_mul_lt_mul_left (lt_of_lt_of_eq hlt' hq)
        have hin : 2 ^ (k + 1) * m.val + 2 ^ k < N := by
          have : 2 ^ (k + 1) * (m.val + 1) ≤ 2 ^ (k + 1) * q := Nat.mul_le_mul_left _ hmq
          rw [← hq, Nat.mul_add, hpk] at this
          rw [hpk]
          omega
        rw [add_row_ok r hin]
        refine ⟨_, rfl, ?_, ?_⟩
        · intro i t hit htm j
          by_cases e : i = ⟨2 ^ (k + 1) * m.val, by omega⟩
          · subst e
            rw [Arr.set_same]
            have a1 : r ⟨2 ^ (k + 1) * m.val, by omega⟩ = rows ⟨2 ^ (k + 1) * m.val, by omega⟩ :=
              g2 _ (Dvd.dvd.mul_right (Nat.pow_dvd_pow 2 (by omega)) _)
                (fun t' ht' => by
                  have : m.val = t' := Nat.eq_of_mul_eq_mul_left (Nat.two_pow_pos _) ht'
                  omega)
            have a2 : r ⟨2 ^ (k + 1) * m.val + 2 ^ k, hin⟩ = rows ⟨2 ^ (k + 1) * m.val + 2 ^ k, hin⟩ :=
              g2 _ (Dvd.dvd.add (Dvd.dvd.mul_right (Nat.pow_dvd_pow 2 (by omega)) _) (dvd_refl _))
                (fun t' ht' => by
                  exfalso
                  simp only [hpk] at ht'
                  have : 2 ^ k * (2 * m.val + 1) = 2 ^ k * (2 * t') := by
                    rw [Nat.mul_add, ← Nat.mul_assoc, Nat.mul_one, ← Nat.mul_assoc]; exact ht'
                  have := Nat.eq_of_mul_eq_mul_left h1 this
                  omega)
            have b1 := h ⟨2 ^ (k + 1) * m.val, by omega⟩ (Dvd.dvd.mul_right (Nat.pow_dvd_pow 2 (by omega)) _) j
            have b2 := h ⟨2 ^ (k + 1) * m.val + 2 ^ k, hin⟩
              (Dvd.dvd.add (Dvd.dvd.mul_right (Nat.pow_dvd_pow 2 (by omega)) _) (dvd_refl _)) j
            rw [a1, a2, b1, b2, reg_add_regs, reg_add_regs, block_succ, block_succ]
          · rw [Arr.set_ne _ _ e]
            have : t ≠ m.val := fun ht => e (Fin.ext (by rw [hit, ht]))
            exact g1 i t hit (by omega) j
        · intro i hi ht
          have e : i ≠ ⟨2 ^ (k + 1) * m.val, by omega⟩ := by
            intro e
            have := ht m.val (by rw [e])
            omega
          rw [Arr.set_ne _ _ e]
          exact g2 i hi (fun t' ht' => by have := ht t' ht'; omega)
      · rw [if_neg hlt]
        have hge : N ≤ 2 ^ (k + 1) * m.val := by
          by_contra hcon
          exact hlt (by exact_mod_cast Nat.lt_of_not_le hcon)
        refine ⟨r, rfl, ?_, ?_⟩
        · intro i t hit htm j
          have : t ≠ m.val := by
            intro e
            have := i.isLt
            rw [hit, e] at this
            omega
          exact g1 i t hit (by omega) j
        · intro i hi ht
          exact g2 i hi (fun t' ht' => by have := ht t' ht'; omega))
  refine ⟨rows', ?_, ?_⟩
  · unfold vtx_level
    rw [hc, Run.ok_bind]
    exact e1
  · rintro i ⟨t, ht⟩ j
    refine e2 i t ht ?_ j
    have h2 : t ≤ 2 ^ (k + 1) * t := Nat.le_mul_of_pos_left _ (Nat.two_pow_pos _)
    have := i.isLt
    omega

/-- The reduction puts in row 0 the sums over all rows. -/
theorem tree_ok {P : Nat} (hP : P ≤ 6) (rows : Arr (2 ^ P) VtxHist) (c s : Nat → Fin NVTXBINS → Int)
    (h : ∀ i : Fin (2 ^ P), ∀ j, rows i j = (reg 5 (c i j), reg 16 (s i j))) :
    ∃ rows', vtx_tree rows = .ok rows' ∧ ∀ j, rows' ⟨0, Nat.two_pow_pos P⟩ j =
      (reg 5 (∑ i : Fin (2 ^ P), c i j), reg 16 (∑ i : Fin (2 ^ P), s i j)) := by
  obtain ⟨rows', e1, e2⟩ := loopM_induct (n := P)
    (fun m (r : Arr (2 ^ P) VtxHist) => RowsAre r (block c m) (block s m) (fun i => 2 ^ m ∣ i))
    (fun (k : Fin P) rows => vtx_level k.val rows) rows
    (fun i _ j => by
      rw [h i j]
      unfold block
      simp)
    (fun k r hr => level_ok rfl k.isLt (by omega) r c s hr)
  refine ⟨rows', e1, fun j => ?_⟩
  rw [e2 ⟨0, Nat.two_pow_pos P⟩ (dvd_zero _) j]
  unfold block
  simp only [Nat.zero_add]
  rw [Finset.sum_range (fun d => c d j), Finset.sum_range (fun d => s d j)]

/-- With more than 64 rows the step of the seventh level is negative. -/
theorem tree_oob {P : Nat} (hP : 7 ≤ P) (rows : Arr (2 ^ P) VtxHist) : vtx_tree rows = .error .oob := by
  have hsplit : List.finRange P = (List.finRange 6).map (Fin.castLE (by omega)) ++
      (⟨6, by omega⟩ : Fin P) :: ((List.finRange P).drop 7) := by
    apply List.ext_getElem
    · simp; omega
    · intro n h1 h2
      simp only [List.length_finRange] at h1
      rw [List.getElem_append]
      split
      · simp
      · rename_i hn
        simp only [List.length_map, List.length_finRange] at hn
        simp only [List.getElem_finRange, List.length_map, List.length_finRange]
        rw [List.getElem_cons]
        split
        · rename_i h6; apply Fin.ext; simp; omega
        · apply Fin.ext; simp; omega
  have runs : ∀ (k : Nat), k < 6 → ∀ r : Arr (2 ^ P) VtxHist, ∃ r', vtx_level k r = .ok r' := by
    intro k hk r
    let c : Nat → Fin NVTXBINS → Int := fun i j =>
      if h : i < 2 ^ P ∧ 2 ^ k ∣ i then (r ⟨i, h.1⟩ j).1.toInt else 0
    let s : Nat → Fin NVTXBINS → Int := fun i j =>
      if h : i < 2 ^ P ∧ 2 ^ k ∣ i then (r ⟨i, h.1⟩ j).2.toInt else 0
    have nd : ∀ i d, 2 ^ k ∣ i → d ∈ Finset.range (2 ^ k) → d ≠ 0 → ¬ 2 ^ k ∣ i + d := by
      intro i d hi hd h0 hdv
      have := (Nat.dvd_add_right hi).mp hdv
      have := Nat.le_of_dvd (Nat.pos_of_ne_zero h0) this
      have := Finset.mem_range.mp hd
      omega
    obtain ⟨r', e, _⟩ := level_ok (k := k) (P := P) rfl (by omega) (by omega) r c s (by
      intro i hi j
      have b1 : block c k i j = c i j := by
        unfold block
        rw [Finset.sum_eq_single 0]
        · rfl
        · intro d hd h0
          simp only [c]
          rw [dif_neg (fun h => nd i d hi hd h0 h.2)]
        · intro h; exact absurd (Finset.mem_range.mpr (Nat.two_pow_pos k)) h
      have b2 : block s k i j = s i j := by
        unfold block
        rw [Finset.sum_eq_single 0]
        · rfl
        · intro d hd h0
          simp only [s]
          rw [dif_neg (fun h => nd i d hi hd h0 h.2)]
        · intro h; exact absurd (Finset.mem_range.mpr (Nat.two_pow_pos k)) h
      rw [b1, b2]
      simp only [c, s]
      rw [dif_pos ⟨i.isLt, hi⟩, dif_pos ⟨i.isLt, hi⟩]
      unfold reg
      rw [BitVec.ofInt_toInt, BitVec.ofInt_toInt])
    exact ⟨r', e⟩
  have first : ∀ (l : List (Fin 6)) (r : Arr (2 ^ P) VtxHist),
      (∃ r', (l.map (Fin.castLE (by omega : 6 ≤ P))).foldlM (m := Run)
        (fun rows (k : Fin P) => vtx_level k.val rows) r = .ok r') := by
    intro l
    induction l with
    | nil => intro r; exact ⟨r, rfl⟩
    | cons k l ih =>
      intro r
      obtain ⟨r', e⟩ := runs k.val k.isLt r
      rw [List.map_cons, List.foldlM_cons, Fin.val_castLE, e, Run.ok_bind]
      exact ih r'
  have bad : ∀ r : Arr (2 ^ P) VtxHist, vtx_level 6 r = .error .oob := by
    intro r
    have hc : cint ((2 ^ 6 : Nat) : Int) = .ok 64 := by decide
    have hpos : 0 < 2 ^ P := Nat.two_pow_pos P
    unfold vtx_level
    rw [hc, Run.ok_bind]
    have hp : (reg 7 64).toInt = -64 := by decide
    simp only [hp]
    unfold loopM
    have : List.finRange (2 ^ P) = ⟨0, hpos⟩ :: (List.finRange (2 ^ P)).drop 1 := by
      apply List.ext_getElem
      · simp; omega
      · intro n h1 h2
        simp only [List.length_finRange] at h1
        rw [List.getElem_cons]
        split
        · rename_i h0; apply Fin.ext; simp [h0]
        · apply Fin.ext; simp; omega
    rw [this, List.foldlM_cons]
    simp only [Nat.cast_zero, Int.zero_mul]
    rw [if_pos (by exact_mod_cast hpos)]
    have e : vtx_add_row r 0 (-64) = .error .oob := by
      unfold vtx_add_row
      rw [Arr.readI_ok r (k := 0) hpos rfl, Run.ok_bind, Arr.readI_oob r (Or.inl (by decide))]
      rfl
    rw [e]; rfl
  obtain ⟨r', e⟩ := first (List.finRange 6) rows
  unfold vtx_tree loopM
  rw [hsplit, List.foldlM_append, e, Run.ok_bind, List.foldlM_cons]
  show (do let init ← vtx_level 6 r'; _) = _
  rw [bad]
  rfl

/-- Filling one row of the firmware. -/
theorem fillVtx_ok (z0bin : Z0 → BitVec 5) (t : TkObj) (hb : svBin t.hwZ0.toInt < 15)
    (hz : (z0bin t.hwZ0).toInt = svBin t.hwZ0.toInt) :
    fillVtx z0bin t (fun _ => (0, 0)) = .ok (fun b : Fin NVTXBINS =>
      (reg 5 (if svBin t.hwZ0.toInt = b.val ∧ 0 < t.hwPt.toInt then (1 : Int) else 0),
       reg 16 (if svBin t.hwZ0.toInt = b.val then min 200 t.hwPt.toInt else 0))) := by
  unfold fillVtx
  simp only []
  rw [Arr.readI_ok _ hb hz, Run.ok_bind, Arr.writeI_ok _ _ hb hz]
  congr 1
  funext b
  by_cases h : b = ⟨svBin t.hwZ0.toInt, hb⟩
  · subst h
    rw [Arr.set_same, vtxCap_toInt, if_pos rfl]
    have e5 : (0 : VtxT).toInt = 0 := rfl
    have e16 : (0 : Pt).toInt = 0 := rfl
    simp only [e5, e16, Int.zero_add]
    by_cases hp : 0 < t.hwPt.toInt
    · rw [if_pos (by omega), if_pos ⟨trivial, hp⟩]
    · rw [if_neg (by omega), if_neg (fun x => hp x.2)]
  · rw [Arr.set_ne _ _ h, if_neg (fun h' => h (Fin.ext h'.1.symm)), if_neg (fun h' => h (Fin.ext h'.symm))]
    rfl

/-- The firmware histogram. -/
theorem hw_hist {P : Nat} (hP : P ≤ 6) (z0bin : Z0 → BitVec 5) (track : Arr (2 ^ P) TkObj)
    (hb : ∀ i, svBin (track i).hwZ0.toInt < 15)
    (hz : ∀ i, (z0bin (track i).hwZ0).toInt = svBin (track i).hwZ0.toInt) :
    ∃ rows rows', buildM (fun i => fillVtx z0bin (track i) (fun _ => (0, 0))) = .ok rows ∧
      vtx_tree rows = .ok rows' ∧
      ∀ b : Fin NVTXBINS, rows' ⟨0, Nat.two_pow_pos P⟩ b =
        (reg 5 (svCountPos track b), reg 16 (svSum track b)) := by
  have h1 := (buildM_eq_ok (f := fun i => fillVtx z0bin (track i) (fun _ => (0, 0)))).mpr
    (fun i => fillVtx_ok z0bin (track i) (hb i) (hz i))
  let c : Nat → Fin NVTXBINS → Int := fun n b => if h : n < 2 ^ P then
    (if svBin (track ⟨n, h⟩).hwZ0.toInt = b.val ∧ 0 < (track ⟨n, h⟩).hwPt.toInt then (1 : Int) else 0) else 0
  let s : Nat → Fin NVTXBINS → Int := fun n b => if h : n < 2 ^ P then
    (if svBin (track ⟨n, h⟩).hwZ0.toInt = b.val then min 200 (track ⟨n, h⟩).hwPt.toInt else 0) else 0
  obtain ⟨rows', e1, e2⟩ := tree_ok hP (fun (i : Fin (2 ^ P)) (b : Fin NVTXBINS) =>
      (reg 5 (if svBin (track i).hwZ0.toInt = b.val ∧ 0 < (track i).hwPt.toInt then (1 : Int) else 0),
       reg 16 (if svBin (track i).hwZ0.toInt = b.val then min 200 (track i).hwPt.toInt else 0))) c s
    (fun i j => by simp only [c, s, dif_pos i.isLt])
  refine ⟨_, rows', h1, e1, fun b => ?_⟩
  rw [e2 b]
  unfold svCountPos svSum
  simp only [c, s, Fin.is_lt, dif_pos]

end Verif
