import Verif.Props.Columns
import Verif.Props.PFTrace
import Verif.Model.PFTestOutput
import Verif.Model.RegionizerTestOutput
import Verif.Model.VertexTestOutput
/-!
# C107: the columns of messages
-/
namespace Verif
open Spec

/-- `%d` of a flag takes one character. -/
theorem table0 (b : Bool) : fmtN 0 (b2i b) = fmtN 1 (b2i b) := by cases b <;> decide

theorem length_fmtF2 {n d : Nat} (hd : 0 < d) (h : n < 100 * 10 ^ d) : 4 ≤ (fmtF2 n).length ∧ (fmtF2 n).length ≤ d + 3 := by
  have h1 := (digits_le (n := n / 100) hd).mpr (by omega)
  have h2 := length_fmtZ (b := 10) (w := 2) (n := n % 100) (by omega) (by omega) (by omega)
  have h3 : 0 < (Nat.toDigits 10 (n / 100)).length := List.length_pos_iff.mpr Nat.toDigits_ne_nil
  unfold fmtF2
  rw [List.length_append, List.length_cons, h2]
  omega

/-- `%7.2f` of a pt takes seven characters. -/
theorem length_pt {F : DebugText} (A : PrintsCents F) {w : BitVec 16} (h : 0 ≤ w.toInt) : (F.fmtF [] 7 (F.R.floatPt w)).length = 7 := by
  have hw : w.toInt < 32768 := by have := BitVec.toInt_lt (x := w); omega
  have e := (C61_pt_roundtrip A.ieee w).1
  have hx : (0 : ℝ) ≤ F.R.floatPt w := by rw [e]; have : (0 : ℝ) ≤ (w.toInt : ℝ) := by exact_mod_cast h
                                          positivity
  have n1 := A.nearest _ hx
  have hn : (F.hundredths (F.R.floatPt w)) < 100 * 10 ^ 4 := by
    rw [e] at n1 ⊢
    have := (abs_le.mp n1).2
    have h2 : (w.toInt : ℝ) ≤ 32767 := by exact_mod_cast (by omega : w.toInt ≤ 32767)
    have : (F.hundredths ((w.toInt : ℝ) / 4) : ℝ) < 1000000 := by linarith
    exact_mod_cast this
  have := length_fmtF2 (by omega) hn
  unfold DebugText.fmtF padText
  rw [if_neg (not_lt.mpr hx), abs_of_nonneg hx]
  simp only [List.nil_append, List.length_append, List.length_replicate]
  omega

/-- `%+5.2f` of an angle takes five. -/
theorem length_angle {F : DebugText} (A : PrintsCents F) {w : BitVec 16} (h : |w.toInt| ≤ 512) : (F.fmtF ['+'] 5 (F.R.floatEtaPhi w)).length = 5 := by
  have r := reads_etaphi A.ieee w
  unfold Reads at r
  have p1 := Real.pi_gt_d4
  have p2 := Real.pi_lt_d4
  have hq : 0 < quarterDegree ∧ quarterDegree < 0.00437 := by unfold quarterDegree; constructor <;> [positivity; linarith]
  have hw : |(w.toInt : ℝ)| ≤ 512 := by exact_mod_cast h
  have hv : |(w.toInt : ℝ) * quarterDegree| ≤ 2.24 := by
    rw [abs_mul, abs_of_pos hq.1]
    nlinarith [abs_nonneg (w.toInt : ℝ), hq.1, hq.2]
  have hx : |F.R.floatEtaPhi w| ≤ 2.25 := by
    have := abs_sub_abs_le_abs_sub (F.R.floatEtaPhi w) (w.toInt * quarterDegree)
    have : |(w.toInt : ℝ) * quarterDegree| / 2 ^ 22 ≤ 0.001 := by
      rw [div_le_iff₀ (by positivity)]; linarith
    linarith
  have n1 := A.nearest _ (abs_nonneg (F.R.floatEtaPhi w))
  have hn : F.hundredths |F.R.floatEtaPhi w| < 100 * 10 ^ 1 := by
    have := (abs_le.mp n1).2
    have : (F.hundredths |F.R.floatEtaPhi w| : ℝ) < 1000 := by linarith
    exact_mod_cast this
  have := length_fmtF2 (by omega) hn
  unfold DebugText.fmtF padText
  simp only [List.length_append, List.length_replicate]
  split <;> simp only [List.length_cons, List.length_nil] <;> omega

/-- **C107.** What the comparisons print after the name and number of an object has fixed columns. -/
theorem C107_mismatches (what : List Char) (idx : Nat) :
    (∀ ref out : HadCaloObj, ∃ rest, had_message what idx ref out = "Mismatch at ".toList ++ what ++ "[".toList ++ Nat.toDigits 10 idx ++ rest ∧
      Table rest 120 [(20, 7, ref.hwPt.toInt), (28, 7, out.hwPt.toInt), (45, 7, ref.hwEmPt.toInt), (53, 7, out.hwEmPt.toInt), (69, 7, ref.hwEta.toInt), (77, 7, out.hwEta.toInt), (93, 7, ref.hwPhi.toInt), (101, 7, out.hwPhi.toInt), (116, 1, if ref.hwIsEM then 1 else 0), (118, 1, if out.hwIsEM then 1 else 0)]) ∧
    (∀ ref out : EmCaloObj, ∃ rest, em_message what idx ref out = "Mismatch at ".toList ++ what ++ "[".toList ++ Nat.toDigits 10 idx ++ rest ∧
      Table rest 110 [(20, 7, ref.hwPt.toInt), (28, 7, out.hwPt.toInt), (46, 7, ref.hwPtErr.toInt), (54, 7, out.hwPtErr.toInt), (70, 7, ref.hwEta.toInt), (78, 7, out.hwEta.toInt), (94, 7, ref.hwPhi.toInt), (102, 7, out.hwPhi.toInt)]) ∧
    (∀ ref out : TkObj, ∃ rest, track_message what idx ref out = "Mismatch at ".toList ++ what ++ "[".toList ++ Nat.toDigits 10 idx ++ rest ∧
      Table rest 133 [(20, 7, ref.hwPt.toInt), (28, 7, out.hwPt.toInt), (46, 7, ref.hwPtErr.toInt), (54, 7, out.hwPtErr.toInt), (70, 7, ref.hwEta.toInt), (78, 7, out.hwEta.toInt), (94, 7, ref.hwPhi.toInt), (102, 7, out.hwPhi.toInt), (117, 7, ref.hwZ0.toInt), (125, 7, out.hwZ0.toInt)]) ∧
    (∀ ref out : MuObj, ∃ rest, mu_message what idx ref out = "Mismatch at ".toList ++ what ++ "[".toList ++ Nat.toDigits 10 idx ++ rest ∧
      Table rest 110 [(20, 7, ref.hwPt.toInt), (28, 7, out.hwPt.toInt), (46, 7, ref.hwPtErr.toInt), (54, 7, out.hwPtErr.toInt), (70, 7, ref.hwEta.toInt), (78, 7, out.hwEta.toInt), (94, 7, ref.hwPhi.toInt), (102, 7, out.hwPhi.toInt)]) ∧
    (∀ ref out : PFChargedObj, ∃ rest, ch_message what idx ref out = "Mismatch at ".toList ++ what ++ "[".toList ++ Nat.toDigits 10 idx ++ rest ∧
      Table rest 124 [(20, 7, ref.hwPt.toInt), (28, 7, out.hwPt.toInt), (44, 7, ref.hwEta.toInt), (52, 7, out.hwEta.toInt), (68, 7, ref.hwPhi.toInt), (76, 7, out.hwPhi.toInt), (91, 1, (ref.hwId.toNat : Int)), (93, 1, (out.hwId.toNat : Int)), (105, 7, ref.hwZ0.toInt), (113, 7, out.hwZ0.toInt)]) ∧
    (∀ ref out : PFNeutralObj, ∃ rest, ne_message what idx ref out = "Mismatch at ".toList ++ what ++ "[".toList ++ Nat.toDigits 10 idx ++ rest ∧
      Table rest 96 [(20, 7, ref.hwPt.toInt), (28, 7, out.hwPt.toInt), (44, 7, ref.hwEta.toInt), (52, 7, out.hwEta.toInt), (68, 7, ref.hwPhi.toInt), (76, 7, out.hwPhi.toInt), (91, 1, (ref.hwId.toNat : Int)), (93, 1, (out.hwId.toNat : Int))]) := by
  have hd : fmtN 0 (idx : Int) = Nat.toDigits 10 idx := by simp [fmtD]
  refine ⟨fun ref out => ?_, fun ref out => ?_, fun ref out => ?_, fun ref out => ?_, fun ref out => ?_, fun ref out => ?_⟩
  · unfold had_message mismatchHead mismatchPair
    simp only [hd, List.append_assoc]
    refine ⟨_, rfl, ?_⟩
    table
  · unfold em_message mismatchHead mismatchPair
    simp only [hd, List.append_assoc]
    refine ⟨_, rfl, ?_⟩
    table
  · unfold track_message mismatchHead mismatchPair
    simp only [hd, List.append_assoc]
    refine ⟨_, rfl, ?_⟩
    table
  · unfold mu_message mismatchHead mismatchPair
    simp only [hd, List.append_assoc]
    refine ⟨_, rfl, ?_⟩
    table
  · unfold ch_message mismatchHead mismatchPair
    simp only [hd, List.append_assoc]
    refine ⟨_, rfl, ?_⟩
    table
  · unfold ne_message mismatchHead mismatchPair
    simp only [hd, List.append_assoc]
    refine ⟨_, rfl, ?_⟩
    table

/-- **C107.** The messages of the reference about links have fixed columns. -/
theorem C107_links {NE NC : Nat} :
    (∀ (emcalo : Arr NE EmCaloObj) (it : Nat) (tk : TkObj) (c : Fin NE), it < 1000 → c.val < 1000 → 
      Table (debug_tkem emcalo it tk (some c)) 62 [(13, 3, (it : Int)), (20, 7, tk.hwPt.toInt), (47, 3, (c.val : Int)), (54, 7, (emcalo c).hwPt.toInt)]) ∧
    (∀ (ic : Nat) (em : EmCaloObj) (sumtk : Pt), ic < 1000 → 0 < em.hwPt.toInt → 
      Table (debug_sumtk ic em sumtk) 46 [(13, 3, (ic : Int)), (20, 7, em.hwPt.toInt), (38, 7, sumtk.toInt)]) ∧
    (∀ (it : Nat) (tk : TkObj), it < 1000 → 
      Table (debug_ele it tk true) 49 [(13, 3, (it : Int)), (20, 7, tk.hwPt.toInt)]) ∧
    (∀ (hadcalo : Arr NC HadCaloObj) (ic : Nat) (em : EmCaloObj) (isEM : Bool) (h : Fin NC), ic < 1000 → h.val < 1000 → 0 < em.hwPt.toInt → 
      Table (debug_emhad hadcalo ic em isEM (some h)) 93 [(13, 3, (ic : Int)), (20, 7, em.hwPt.toInt), (33, 1, if isEM then 1 else 0), (54, 7, (h.val : Int)), (65, 7, (hadcalo h).hwPt.toInt), (78, 7, (hadcalo h).hwEmPt.toInt), (91, 1, if (hadcalo h).hwIsEM then 1 else 0)]) ∧
    (∀ (hadcalo : Arr NC HadCaloObj) (it : Nat) (tk : TkObj) (h : Fin NC), it < 1000 → h.val < 1000 → 
      Table (debug_tkhad hadcalo it tk h) 60 [(13, 3, (it : Int)), (20, 7, tk.hwPt.toInt), (45, 3, (h.val : Int)), (52, 7, (hadcalo h).hwPt.toInt)]) := by
  refine ⟨?_, ?_, ?_, ?_, ?_⟩
  · intro emcalo it tk c h0 h1
    unfold debug_tkem
    simp only []
    table
  · intro ic em sumtk h0 hc
    unfold debug_sumtk
    rw [if_pos hc]
    table
  · intro it tk h0
    unfold debug_ele
    rw [if_pos rfl]
    table
  · intro hadcalo ic em isEM h h0 h1 hc
    unfold debug_emhad
    rw [if_pos hc]
    simp only [Option.elim, table0]
    have h2 : Fits [] 7 (h.val : Int) := fits_N (by omega) (by omega) (by omega)
    table
  · intro hadcalo it tk h h0 h1
    unfold debug_tkhad
    table

/-- **C107.** So do those about calorimeter clusters. -/
theorem C107_clusters (ih : Nat) (hi : ih < 1000) (had : HadCaloObj) (sub : Pt) (keep : Bool) (hp : 0 < had.hwPt.toInt) :
    ∃ l rest, debug_hadsub ih had sub keep = l ++ rest ∧
      Table l 101 [(13, 3, (ih : Int)), (20, 7, had.hwPt.toInt), (51, 7, (reg 16 (had.hwPt.toInt - sub.toInt) : Pt).toInt), (65, 7, had.hwEmPt.toInt), (76, 7, (reg 16 (had.hwEmPt.toInt - sub.toInt) : Pt).toInt), (91, 1, if had.hwIsEM then 1 else 0), (98, 1, if keep then 1 else 0)] ∧
      (rest = [] ∨ Table rest 52 [(13, 3, (ih : Int)), (20, 7, had.hwPt.toInt)]) := by
  unfold debug_hadsub
  dsimp only
  rw [if_pos hp]
  refine ⟨_, _, rfl, ?_, ?_⟩
  · simp only [table0]
    table
  · split
    · right; table
    · split
      · right; table
      · left; rfl

/-- **C107.** And the list of the inputs, if no pt is negative. -/
theorem C107_inputs {F : DebugText} (A : PrintsCents F) (i : Nat) (hi : i < 1000) :
    (∀ (o : TkObj) (j : PropagatedTrack), 0 ≤ o.hwPt.toInt → 0 ≤ o.hwPtErr.toInt → Table (F.track i (dpf_track o j)) 129 [(12, 3, (i : Int)), (20, 8, o.hwPt.toInt), (51, 7, o.hwEta.toInt), (79, 7, o.hwPhi.toInt), (109, 6, o.hwPtErr.toInt)]) ∧
    (∀ (o : EmCaloObj) (j : CaloCluster), 0 ≤ o.hwPt.toInt → 0 ≤ o.hwPtErr.toInt → Table (F.em i (dpf_em o j)) 129 [(12, 3, (i : Int)), (20, 8, o.hwPt.toInt), (51, 7, o.hwEta.toInt), (79, 7, o.hwPhi.toInt), (109, 6, o.hwPtErr.toInt)]) ∧
    (∀ (o : HadCaloObj) (j : CaloCluster), 0 ≤ o.hwPt.toInt → 0 ≤ o.hwEmPt.toInt → Table (F.had i (dpf_had o j)) 138 [(12, 3, (i : Int)), (20, 8, o.hwPt.toInt), (51, 7, o.hwEta.toInt), (79, 7, o.hwPhi.toInt), (108, 7, o.hwEmPt.toInt), (135, 1, if o.hwIsEM then 1 else 0)]) ∧
    (∀ (o : MuObj) (j : Muon), 0 ≤ o.hwPt.toInt → Table (F.mu i (dpf_mu o j)) 100 [(12, 3, (i : Int)), (20, 8, o.hwPt.toInt), (51, 7, o.hwEta.toInt), (79, 7, o.hwPhi.toInt)]) := by
  have lp : ∀ x : BitVec 16, 0 ≤ x.toInt → (F.fmtF [] 7 (F.R.floatPt (reg 16 x.toInt))).length = 7 := fun x h => length_pt A (by rw [conv16]; exact h)
  have la : ∀ x : BitVec 10, (F.fmtF ['+'] 5 (F.R.floatEtaPhi (reg 16 x.toInt))).length = 5 := fun x => length_angle A (conv10 x).2
  have f8 : ∀ x : BitVec 16, Fits [] 8 x.toInt := fun x => fits_N (by omega) (by have := BitVec.le_toInt x; omega) (by have := BitVec.toInt_lt (x := x); omega)
  have f6 : ∀ x : BitVec 16, Fits [] 6 x.toInt := fun x => fits_N (by omega) (by have := BitVec.le_toInt x; omega) (by have := BitVec.toInt_lt (x := x); omega)
  have fP : ∀ x : BitVec 10, Fits ['+'] 7 x.toInt := fits_10s
  refine ⟨fun o j h h' => ?_, fun o j h h' => ?_, fun o j h h' => ?_, fun o j h => ?_⟩
  · unfold DebugText.track dpf_track
    simp only [conv16, (conv10 _).1]
    have e1 := lp _ h
    have e2 := la o.hwEta
    have e3 := la o.hwPhi
    have e4 := lp _ h'
    generalize F.fmtF [] 7 (F.R.floatPt (reg 16 o.hwPt.toInt)) = t1 at *
    generalize F.fmtF ['+'] 5 (F.R.floatEtaPhi (reg 16 o.hwEta.toInt)) = t2 at *
    generalize F.fmtF ['+'] 5 (F.R.floatEtaPhi (reg 16 o.hwPhi.toInt)) = t3 at *
    generalize F.fmtF [] 7 (F.R.floatPt (reg 16 o.hwPtErr.toInt)) = t4 at *
    clear lp la
    apply Table.congr
    case h => repeat' (first | (with_reducible apply f8) | (with_reducible apply f6) | pieces)
    all_goals simp [shift, b2i, e1, e2, e3, e4]
  · unfold DebugText.em dpf_em
    simp only [conv16, (conv10 _).1]
    have e1 := lp _ h
    have e2 := la o.hwEta
    have e3 := la o.hwPhi
    have e4 := lp _ h'
    generalize F.fmtF [] 7 (F.R.floatPt (reg 16 o.hwPt.toInt)) = t1 at *
    generalize F.fmtF ['+'] 5 (F.R.floatEtaPhi (reg 16 o.hwEta.toInt)) = t2 at *
    generalize F.fmtF ['+'] 5 (F.R.floatEtaPhi (reg 16 o.hwPhi.toInt)) = t3 at *
    generalize F.fmtF [] 7 (F.R.floatPt (reg 16 o.hwPtErr.toInt)) = t4 at *
    clear lp la
    apply Table.congr
    case h => repeat' (first | (with_reducible apply f8) | (with_reducible apply f6) | pieces)
    all_goals simp [shift, b2i, e1, e2, e3, e4]
  · unfold DebugText.had dpf_had
    simp only [conv16, (conv10 _).1, table0]
    have e1 := lp _ h
    have e2 := la o.hwEta
    have e3 := la o.hwPhi
    have e4 := lp _ h'
    generalize F.fmtF [] 7 (F.R.floatPt (reg 16 o.hwPt.toInt)) = t1 at *
    generalize F.fmtF ['+'] 5 (F.R.floatEtaPhi (reg 16 o.hwEta.toInt)) = t2 at *
    generalize F.fmtF ['+'] 5 (F.R.floatEtaPhi (reg 16 o.hwPhi.toInt)) = t3 at *
    generalize F.fmtF [] 7 (F.R.floatPt (reg 16 o.hwEmPt.toInt)) = t4 at *
    clear lp la
    apply Table.congr
    case h => repeat' (first | (with_reducible apply f8) | (with_reducible apply f6) | pieces)
    all_goals simp [shift, b2i, e1, e2, e3, e4]
  · unfold DebugText.mu dpf_mu
    simp only [conv16, (conv10 _).1]
    have e1 := lp _ h
    have e2 := la o.hwEta
    have e3 := la o.hwPhi
    generalize F.fmtF [] 7 (F.R.floatPt (reg 16 o.hwPt.toInt)) = t1 at *
    generalize F.fmtF ['+'] 5 (F.R.floatEtaPhi (reg 16 o.hwEta.toInt)) = t2 at *
    generalize F.fmtF ['+'] 5 (F.R.floatEtaPhi (reg 16 o.hwPhi.toInt)) = t3 at *
    clear lp la
    apply Table.congr
    case h => repeat' (first | (with_reducible apply f8) | (with_reducible apply f6) | pieces)
    all_goals simp [shift, b2i, e1, e2, e3]

/-- **C107.** The list of sizes of the regionizer bench is aligned up to 99. -/
theorem C107_sizes (what : List Char) (n : Nat) (h : n < 100) : Table (sizeLine what n) (what.length + 4) [(what.length, 2, (n : Int))] := by
  have hf : Fits [] 2 (n : Int) := fits_N (by omega) (by omega) (by omega)
  unfold sizeLine
  refine Table.congr ((Table.lit _).append ((Table.numN hf).append (Table.lit _))) ?_ ?_ <;> simp [shift]

/-- **C107.** The lines of the report of the vertex bench are aligned if firmware and reference agree (C60) on a vertex within 999 units of the generated one. -/
theorem C107_vertex_report (t : BhvTest) (he : t.pv_hw = t.pv_ref) (h1 : HasRoom 8 t.ptsum_ref) (h2 : |t.pv_ref.toInt - t.pv_gen.toInt| < 1000)
    (h3 : t.pvbin_ref.toNat < 1000) (h4 : t.pvbin_hw.toNat < 1000) :
    Table (bhvTestText t) 145 [(7, 4, t.pv_gen.toInt), (24, 4, t.pv_cmssw.toInt), (34, 3, ((fetch_bin_ref t.pv_cmssw).bin.toNat : Int)), (45, 4, t.pv_ref.toInt),
      (55, 3, (t.pvbin_ref.toNat : Int)), (66, 8, t.ptsum_ref), (81, 4, t.pv_ref.toInt - t.pv_gen.toInt), (92, 4, t.pv_ref.toInt), (102, 3, (t.pvbin_hw.toNat : Int)),
      (113, 8, t.ptsum_hw.toInt), (127, 4, t.pv_ref.toInt - t.pv_gen.toInt), (142, 2, 0)] := by
  have q1 : Fits ['+'] 4 (t.pv_ref.toInt - t.pv_gen.toInt) := fits_1 rfl (by omega) (by have := abs_lt.mp h2; omega) (by have := abs_lt.mp h2; omega)
  have q2 : (fetch_bin_ref t.pv_cmssw).bin.toNat < 1000 := by
    have : ∀ z : BitVec 10, (fetch_bin_ref z).bin.toNat < 1000 := by decide +kernel
    exact this _
  have q3 : ∀ x : BitVec 10, Fits ['+'] 4 x.toInt := fun x => fits_10_4 rfl x
  have q4 : Fits [] 8 t.ptsum_hw.toInt := fits_N (by omega) (by have := BitVec.le_toInt t.ptsum_hw; omega) (by have := BitVec.toInt_lt (x := t.ptsum_hw); omega)
  have q5 : Table (fmtP 1 0) 2 [(0, 2, 0)] := ⟨by decide, by decide⟩
  replace h1 := h1.fits (by omega)
  have r1 := q3 t.pv_gen
  have r2 := q3 t.pv_cmssw
  have r3 := q3 t.pv_ref
  clear q3
  unfold bhvTestText
  rw [he, Int.sub_self]
  generalize fmtP 1 0 = u at *
  generalize (fetch_bin_ref t.pv_cmssw).bin.toNat = b at *
  table

end Verif
