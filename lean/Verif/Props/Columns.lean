import Verif.Props.Text
import Verif.Spec.Columns
import Verif.Model.PFRefDebug
/-!
# C107: the tables have fixed columns
-/
namespace Verif
open Spec

theorem length_fmtD (plus : List Char) (w : Nat) (x : Int) :
    (fmtD plus w x).length = max w ((if x < 0 then 1 else plus.length) + (Nat.toDigits 10 x.natAbs).length) := by
  unfold fmtD
  simp only [List.length_append, List.length_replicate]
  split
  · simp only [List.length_cons, List.length_nil]; omega
  · omega

/-- A number of `d` digits is below `10 ^ d`. -/
theorem digits_le {n d : Nat} (hd : 0 < d) : (Nat.toDigits 10 n).length ≤ d ↔ n < 10 ^ d := Nat.length_toDigits_le_iff (by omega) hd

/-- The number needs no more room than there is. -/
def Fits (plus : List Char) (w : Nat) (x : Int) : Prop := (fmtD plus w x).length = w

theorem Spec.Table.lit (s : List Char) : Table s s.length [] := ⟨rfl, by simp⟩

theorem Spec.Table.num {plus : List Char} (hp : plus = [] ∨ plus = [' '] ∨ plus = ['+']) {w : Nat} {x : Int} (h : Fits plus w x) :
    Table (fmtD plus w x) w [(0, w, x)] := by
  refine ⟨h, fun c hc => ?_⟩
  simp only [List.mem_singleton] at hc
  subst hc
  refine ⟨by simp, ?_⟩
  simp only [List.drop_zero]
  rw [List.take_of_length_le (by rw [h])]
  exact ints_fmtD hp w x

theorem Spec.Table.zero {w n : Nat} (hw : 0 < w) (h : n < 10 ^ w) : Table (fmtZ 10 w n) w [(0, w, (n : Int))] := by
  have hl := length_fmtZ (b := 10) (by omega) hw h
  refine ⟨hl, fun c hc => ?_⟩
  simp only [List.mem_singleton] at hc
  subst hc
  refine ⟨by simp, ?_⟩
  simp only [List.drop_zero]
  rw [List.take_of_length_le (by rw [hl]), ints_fmtZ]

theorem Spec.Table.append {t u : List Char} {l m : Nat} {c d : List Column} (h : Table t l c) (g : Table u m d) : Table (t ++ u) (l + m) (c ++ shift l d) := by
  refine ⟨by rw [List.length_append, h.1, g.1], fun x hx => ?_⟩
  rcases List.mem_append.mp hx with hx | hx
  · obtain ⟨a, b⟩ := h.2 x hx
    refine ⟨by omega, ?_⟩
    rw [List.drop_append_of_le_length (by rw [h.1]; omega), List.take_append_of_le_length (by rw [List.length_drop, h.1]; omega)]
    exact b
  · simp only [shift, List.mem_map] at hx
    obtain ⟨y, hy, rfl⟩ := hx
    obtain ⟨a, b⟩ := g.2 y hy
    refine ⟨by simp only []; omega, ?_⟩
    simp only []
    rw [← h.1, List.drop_append]
    simp only [List.drop_eq_nil_of_le (Nat.le_add_right _ _), List.nil_append, Nat.add_sub_cancel_left]
    exact b

theorem Spec.Table.congr {t : List Char} {l m : Nat} {c d : List Column} (h : Table t l c) (hl : l = m) (hc : c = d) : Table t m d := by subst hl hc; exact h

theorem fits_N {w : Nat} {x : Int} (hw : 2 ≤ w) (h : -(10 ^ (w - 1) : Nat) < x) (h' : x < (10 ^ w : Nat)) : Fits [] w x := by
  unfold Fits
  rw [length_fmtD]
  by_cases hx : x < 0
  · have := (digits_le (n := x.natAbs) (d := w - 1) (by omega)).mpr (by omega)
    rw [if_pos hx]; omega
  · have := (digits_le (n := x.natAbs) (d := w) (by omega)).mpr (by omega)
    rw [if_neg hx]; simp only [List.length_nil]; omega

theorem fits_1 {plus : List Char} {w : Nat} {x : Int} (hp : plus.length = 1) (hw : 2 ≤ w) (h : -(10 ^ (w - 1) : Nat) < x) (h' : x < (10 ^ (w - 1) : Nat)) :
    Fits plus w x := by
  unfold Fits
  have := (digits_le (n := x.natAbs) (d := w - 1) (by omega)).mpr (by omega)
  rw [length_fmtD]
  split <;> omega

theorem fits_digit {x : Int} (h : 0 ≤ x) (h' : x < 10) : Fits [] 1 x := by
  unfold Fits
  have := (digits_le (n := x.natAbs) (d := 1) (by omega)).mpr (by omega)
  rw [length_fmtD, if_neg (by omega)]
  simp only [List.length_nil]
  omega

theorem fits_16 (x : BitVec 16) : Fits [] 7 x.toInt := fits_N (by omega) (by have := BitVec.le_toInt x; omega) (by have := BitVec.toInt_lt (x := x); omega)
theorem fits_16' {plus : List Char} (h : plus.length = 1) (x : BitVec 16) : Fits plus 7 x.toInt :=
  fits_1 h (by omega) (by have := BitVec.le_toInt x; omega) (by have := BitVec.toInt_lt (x := x); omega)
theorem fits_10' {plus : List Char} (h : plus.length = 1) (x : BitVec 10) : Fits plus 7 x.toInt :=
  fits_1 h (by omega) (by have := BitVec.le_toInt x; omega) (by have := BitVec.toInt_lt (x := x); omega)
theorem fits_10_4 {plus : List Char} (h : plus.length = 1) (x : BitVec 10) : Fits plus 4 x.toInt :=
  fits_1 h (by omega) (by have := BitVec.le_toInt x; omega) (by have := BitVec.toInt_lt (x := x); omega)
theorem fits_10_4' (x : BitVec 10) : Fits [] 4 x.toInt :=
  fits_N (by omega) (by have := BitVec.le_toInt x; omega) (by have := BitVec.toInt_lt (x := x); omega)
theorem fits_index {i : Nat} (h : i < 1000) : Fits [] 3 (i : Int) := fits_N (by omega) (by omega) (by omega)
theorem fits_bool (b : Bool) : Fits [] 1 (b2i b) := fits_digit (by cases b <;> decide) (by cases b <;> decide)
theorem fits_id (x : BitVec 3) : Fits [] 1 (x.toNat : Int) := fits_digit (by omega) (by omega)

theorem Spec.HasRoom.fits {w : Nat} {x : Int} (h : HasRoom w x) (hw : 2 ≤ w) : Fits [] w x := fits_N hw h.1 h.2
theorem fits_16s (x : BitVec 16) : Fits [' '] 7 x.toInt := fits_16' rfl x
theorem fits_10s (x : BitVec 10) : Fits ['+'] 7 x.toInt := fits_10' rfl x
theorem fits_10_4s (x : BitVec 10) : Fits [' '] 4 x.toInt := fits_10_4 rfl x

theorem Spec.Table.numN {w : Nat} {x : Int} (h : Fits [] w x) : Table (fmtD [] w x) w [(0, w, x)] := Table.num (.inl rfl) h
theorem Spec.Table.numS {w : Nat} {x : Int} (h : Fits [' '] w x) : Table (fmtD [' '] w x) w [(0, w, x)] := Table.num (.inr (.inl rfl)) h
theorem Spec.Table.numP {w : Nat} {x : Int} (h : Fits ['+'] w x) : Table (fmtD ['+'] w x) w [(0, w, x)] := Table.num (.inr (.inr rfl)) h

/-- Takes a text apart. -/
macro "pieces" : tactic => `(tactic| (
  repeat' with_reducible first
    | apply fits_16 | apply fits_16s | apply fits_10s | apply fits_10_4s | apply fits_10_4' | apply fits_index
    | apply fits_bool | apply fits_id | assumption
    | apply Table.numN | apply Table.numS | apply Table.numP | apply Table.zero | apply Table.append | apply Table.lit))

/-- Proves that a text is a table, piece by piece. -/
macro "table" : tactic => `(tactic| (
  apply Table.congr
  case h => pieces
  all_goals simp [shift, b2i]))

/-- **C107.** The lines of the human-readable patterns have fixed columns, whatever is in the objects. -/
theorem C107_patterns (i : Nat) (hi : i < 1000) :
    (∀ o : HadCaloObj, Table (hr_had i o) 88 [(9, 3, (i : Int)), (19, 7, o.hwPt.toInt), (37, 7, o.hwEmPt.toInt), (54, 7, o.hwEta.toInt), (70, 7, o.hwPhi.toInt), (87, 1, if o.hwIsEM then 1 else 0)]) ∧
    (∀ o : EmCaloObj, Table (hr_em i o) 77 [(9, 3, (i : Int)), (19, 7, o.hwPt.toInt), (37, 7, o.hwPtErr.toInt), (54, 7, o.hwEta.toInt), (70, 7, o.hwPhi.toInt)]) ∧
    (∀ o : TkObj, Table (hr_track i o) 94 [(9, 3, (i : Int)), (19, 7, o.hwPt.toInt), (37, 7, o.hwPtErr.toInt), (54, 7, o.hwEta.toInt), (70, 7, o.hwPhi.toInt), (87, 7, o.hwZ0.toInt)]) ∧
    (∀ o : MuObj, Table (hr_mu i o) 77 [(9, 3, (i : Int)), (19, 7, o.hwPt.toInt), (37, 7, o.hwPtErr.toInt), (54, 7, o.hwEta.toInt), (70, 7, o.hwPhi.toInt)]) ∧
    (∀ o : PFChargedObj, Table (hr_ch i o) 90 [(14, 3, (i : Int)), (24, 7, o.hwPt.toInt), (40, 7, o.hwEta.toInt), (56, 7, o.hwPhi.toInt), (71, 1, (o.hwId.toNat : Int)), (83, 7, o.hwZ0.toInt)]) ∧
    (∀ o : PFNeutralObj, Table (hr_ne "photon ".toList i o) 72 [(14, 3, (i : Int)), (24, 7, o.hwPt.toInt), (40, 7, o.hwEta.toInt), (56, 7, o.hwPhi.toInt), (71, 1, (o.hwId.toNat : Int))]) ∧
    (∀ o : PFNeutralObj, Table (hr_ne "neutral".toList i o) 72 [(14, 3, (i : Int)), (24, 7, o.hwPt.toInt), (40, 7, o.hwEta.toInt), (56, 7, o.hwPhi.toInt), (71, 1, (o.hwId.toNat : Int))]) ∧
    (∀ o : PFChargedObj, Table (hr_pfmu i o) 72 [(14, 3, (i : Int)), (24, 7, o.hwPt.toInt), (40, 7, o.hwEta.toInt), (56, 7, o.hwPhi.toInt), (71, 1, (o.hwId.toNat : Int))]) := by
  refine ⟨fun o => ?_, fun o => ?_, fun o => ?_, fun o => ?_, fun o => ?_, fun o => ?_, fun o => ?_, fun o => ?_⟩
  · unfold hr_had; table
  · unfold hr_em; table
  · unfold hr_track; table
  · unfold hr_mu; table
  · unfold hr_ch; table
  · unfold hr_ne; table
  · unfold hr_ne; table
  · unfold hr_pfmu; table

theorem hadText_table {o : HadCaloObj} (h : hadRoom o) : Table (hadText o) 27 (hadColumns o) := by
  obtain ⟨h1, h2⟩ := h
  replace h1 := h1.fits (by omega)
  replace h2 := h2.fits (by omega)
  unfold hadText hadColumns
  table

theorem emText_table {o : EmCaloObj} (h : emRoom o) : Table (emText o) 25 (emColumns o) := by
  obtain ⟨h1, h2⟩ := h
  replace h1 := h1.fits (by omega)
  replace h2 := h2.fits (by omega)
  unfold emText emColumns
  table

theorem tkText_table {o : TkObj} (h : tkRoom o) : Table (tkText o) 31 (tkColumns o) := by
  obtain ⟨h1, h2⟩ := h
  replace h1 := h1.fits (by omega)
  replace h2 := h2.fits (by omega)
  unfold tkText tkColumns
  table

theorem muText_table {o : MuObj} (h : muRoom o) : Table (muText o) 26 (muColumns o) := by
  obtain ⟨h1, h2⟩ := h
  replace h1 := h1.fits (by omega)
  replace h2 := h2.fits (by omega)
  unfold muText muColumns
  table

/-- Pieces of the same length. -/
theorem Spec.Table.flatMap {n : Nat} {g : Fin n → List Char} {len : Nat} {c : Fin n → List Column} (h : ∀ i, Table (g i) len (c i)) :
    Table ((List.finRange n).flatMap g) (n * len) (slotCols len c) := by
  induction n with
  | zero => exact ⟨by simp, by simp [slotCols]⟩
  | succ n ih =>
    have := (ih (g := fun i => g i.castSucc) (c := fun i => c i.castSucc) (fun i => h _)).append (h (Fin.last n))
    unfold slotCols at this ⊢
    rw [List.finRange_succ_last, List.flatMap_append, List.flatMap_append, List.flatMap_map, List.flatMap_map]
    refine Table.congr ?_ (Nat.succ_mul n len).symm rfl
    simpa using this

variable {sz : RegSizes} {NC NE NT NM : Nat}

/-- **C107.** The lines of `dump_out.txt` have fixed columns if the numbers have room. -/
theorem C107_dump_out (frame : Nat) (hf : frame < 10000) (d : RegRecord sz NC NE NT NM) (ic : Fin N_CLOCKS) (ir : Fin N_OUT_REGIONS) (hir : ir.val = ic.val / 2)
    (h1 : ∀ i, hadRoom (d.calo ir i)) (h2 : ∀ i, emRoom (d.em ir i)) (h3 : ∀ i, tkRoom (d.track ir i)) (h4 : ∀ i, muRoom (d.mu ir i)) :
    ∃ l, dumpOutText frame d ic = .ok (l ++ ['\n']) ∧ Table l (12 + NC * 27 + NE * 25 + NT * 31 + NM * 26 + 8)
      ([(6, 4, (frame : Int))] ++ shift 12 (slotCols 27 fun i => hadColumns (d.calo ir i)) ++ shift (12 + NC * 27) (slotCols 25 fun i => emColumns (d.em ir i)) ++
        shift (12 + NC * 27 + NE * 25) (slotCols 31 fun i => tkColumns (d.track ir i)) ++
        shift (12 + NC * 27 + NE * 25 + NT * 31) (slotCols 26 fun i => muColumns (d.mu ir i)) ++ [(12 + NC * 27 + NE * 25 + NT * 31 + NM * 26 + 7, 1, 1)]) := by
  have e : (⟨ic.val / 2, by have := ic.isLt; unfold N_CLOCKS at this; unfold N_OUT_REGIONS; omega⟩ : Fin N_OUT_REGIONS) = ir := Fin.ext hir.symm
  unfold dumpOutText
  rw [printLoop_ok (dumpSlot_ok _ _ _ ic), Run.ok_bind, printLoop_ok (dumpSlot_ok _ _ _ ic), Run.ok_bind,
    printLoop_ok (dumpSlot_ok _ _ _ ic), Run.ok_bind, printLoop_ok (dumpSlot_ok _ _ _ ic), Run.ok_bind]
  rw [e]
  refine ⟨_, rfl, ?_⟩
  have hl : Table ("Frame ".toList ++ fmtZ 10 4 frame ++ " :".toList) 12 [(6, 4, (frame : Int))] := by
    apply Table.congr ((Table.lit _).append (Table.zero (by omega) hf) |>.append (Table.lit _)) <;> simp [shift]
  have he : Table (fmtN 0 1) 1 [(0, 1, 1)] := ⟨by decide, by decide⟩
  have := (((((hl.append (Table.flatMap fun i => hadText_table (h1 i))).append (Table.flatMap fun i => emText_table (h2 i))).append
    (Table.flatMap fun i => tkText_table (h3 i))).append (Table.flatMap fun i => muText_table (h4 i))).append (Table.lit "       ".toList)).append he
  refine this.congr ?_ ?_
  · simp
  · simp [shift]

/-- **C107.** The lines of `dump_in.txt` have fixed columns if the numbers have room. -/
theorem C107_dump_in (frame test : Nat) (hf : frame < 10000) (ht : test < 100) (d : RegRecord sz NC NE NT NM) (ic : Fin N_CLOCKS)
    (h1 : ∀ is i, hadRoom (d.inp.calo is i)) (h2 : ∀ is i, emRoom (d.inp.em is i)) (h3 : ∀ is i, tkRoom (d.inp.track is i)) (h4 : ∀ is i, muRoom (d.mu_in is i)) :
    ∃ l, dumpInText frame test d ic = .ok (l ++ ['\n']) ∧
      Table l (18 + N_IN_SECTORS * 27 + N_IN_SECTORS * 25 + N_IN_SECTORS * 62 + N_MUON_SECTORS * 26)
      ([(6, 4, (frame : Int)), (13, 2, (test : Int)), (16, 2, ((ic.val / 2 : Nat) : Int))] ++
        shift 18 (slotCols 27 fun is : Fin N_IN_SECTORS => hadColumns (if ic.val % 2 = 0 then pick (d.inp.calo is) HadCaloObj.clear (ic / 2) else HadCaloObj.clear)) ++
        shift (18 + N_IN_SECTORS * 27) (slotCols 25 fun is : Fin N_IN_SECTORS =>
          emColumns (if ic.val % 2 = 0 then pick (d.inp.em is) EmCaloObj.clear (ic / 2) else EmCaloObj.clear)) ++
        shift (18 + N_IN_SECTORS * 27 + N_IN_SECTORS * 25) (slotCols 62 fun is : Fin N_IN_SECTORS =>
          tkColumns (if ic.val % 2 = 0 ∧ ic.val < sz.track / 2 then pick (d.inp.track is) TkObj.clear ic else TkObj.clear) ++
          shift 31 (tkColumns (if ic.val % 2 = 0 ∧ ic.val + 1 < sz.track / 2 then pick (d.inp.track is) TkObj.clear (ic + 1) else TkObj.clear))) ++
        shift (18 + N_IN_SECTORS * 27 + N_IN_SECTORS * 25 + N_IN_SECTORS * 62) (slotCols 26 fun is : Fin N_MUON_SECTORS =>
          muColumns (if ic.val % 2 = 0 then pick (d.mu_in is) MuObj.clear (ic / 2) else MuObj.clear))) := by
  have sel : ∀ {N : Nat} {T : Type} (f : T → List Char) (z : T) (a : Arr N T) (i limit : Nat) (hl : limit ≤ N),
      dumpObj f z a i limit (ic.val % 2 == 0) = .ok (f (if ic.val % 2 = 0 ∧ i < limit then pick a z i else z)) := by
    intro N T f z a i limit hl
    rw [dumpObj_ok _ _ _ _ _ _ hl]
    unfold pick
    by_cases c : i < limit ∧ ic.val % 2 = 0
    · rw [dif_pos (by simpa using c), if_pos ⟨c.2, c.1⟩, dif_pos (by omega)]
    · rw [dif_neg (by simpa using c), if_neg (fun x => c ⟨x.2, x.1⟩)]
  have sel' : ∀ {N : Nat} {T : Type} (f : T → List Char) (z : T) (a : Arr N T) (i : Nat),
      dumpObj f z a i N (ic.val % 2 == 0) = .ok (f (if ic.val % 2 = 0 then pick a z i else z)) := by
    intro N T f z a i
    rw [sel f z a i N (Nat.le_refl _)]
    unfold pick
    by_cases c : i < N <;> by_cases c' : ic.val % 2 = 0 <;> simp [c, c']
  have pk : ∀ {N : Nat} {T : Type} (P : T → Prop) (z : T) (a : Arr N T) (i : Nat) (c : Prop) [Decidable c], P z → (∀ i, P (a i)) → P (if c then pick a z i else z) := by
    intro N T P z a i c _ hz ha
    unfold pick
    split
    · split
      · exact ha _
      · exact hz
    · exact hz
  unfold dumpInText
  dsimp only
  rw [printLoop_ok fun is => sel' _ _ _ _, Run.ok_bind, printLoop_ok fun is => sel' _ _ _ _, Run.ok_bind,
    printLoop_ok (fun is => by
      rw [sel _ _ _ _ _ (Nat.div_le_self _ _), Run.ok_bind, sel _ _ _ _ _ (Nat.div_le_self _ _), Run.ok_bind]), Run.ok_bind,
    printLoop_ok fun is => sel' _ _ _ _, Run.ok_bind]
  refine ⟨_, rfl, ?_⟩
  have hic : ic.val / 2 < 100 := by have := ic.isLt; unfold N_CLOCKS at this; omega
  have hl : Table ("Frame ".toList ++ fmtZ 10 4 frame ++ " : ".toList ++ fmtN 2 test ++ " ".toList ++ fmtN 2 (ic.val / 2 : Nat)) 18
      [(6, 4, (frame : Int)), (13, 2, (test : Int)), (16, 2, ((ic.val / 2 : Nat) : Int))] := by
    apply Table.congr ((Table.lit _).append (Table.zero (by omega) hf) |>.append (Table.lit _) |>.append (Table.numN (fits_N (by omega) (by omega) (by omega)))
      |>.append (Table.lit _) |>.append (Table.numN (fits_N (by omega) (by omega) (by omega)))) <;> simp [shift]
  have r0 : hadRoom HadCaloObj.clear ∧ emRoom EmCaloObj.clear ∧ tkRoom TkObj.clear ∧ muRoom MuObj.clear := by
    unfold hadRoom emRoom tkRoom muRoom HasRoom; decide
  have := (((hl.append (Table.flatMap fun is => hadText_table (pk hadRoom _ (d.inp.calo is) (ic / 2) (ic.val % 2 = 0) r0.1 (h1 is)))).append
    (Table.flatMap fun is => emText_table (pk emRoom _ (d.inp.em is) (ic / 2) (ic.val % 2 = 0) r0.2.1 (h2 is)))).append
    (Table.flatMap fun is => (tkText_table (pk tkRoom _ (d.inp.track is) (ic + 0) (ic.val % 2 = 0 ∧ ic.val + 0 < sz.track / 2) r0.2.2.1 (h3 is))).append
      (tkText_table (pk tkRoom _ (d.inp.track is) (ic + 1) (ic.val % 2 = 0 ∧ ic.val + 1 < sz.track / 2) r0.2.2.1 (h3 is))))).append
    (Table.flatMap fun is => muText_table (pk muRoom _ (d.mu_in is) (ic / 2) (ic.val % 2 = 0) r0.2.2.2 (h4 is)))
  exact this

/-- **C107.** If they do not, the columns after them move: an object of the dumps has its length exactly if its numbers have room. -/
theorem C107_room :
    (∀ o : HadCaloObj, (hadText o).length = 27 ↔ hadRoom o) ∧ (∀ o : EmCaloObj, (emText o).length = 25 ↔ emRoom o) ∧
    (∀ o : TkObj, (tkText o).length = 31 ↔ tkRoom o) ∧ (∀ o : MuObj, (muText o).length = 26 ↔ muRoom o) := by
  have key : ∀ (w : Nat) (x : Int), 2 ≤ w → w ≤ (fmtN w x).length ∧ ((fmtN w x).length = w ↔ HasRoom w x) := by
    intro w x hw
    refine ⟨by rw [length_fmtD]; omega, fun h => ?_, fun h => h.fits hw⟩
    unfold HasRoom
    rw [length_fmtD] at h
    by_cases hx : x < 0
    · have := (digits_le (n := x.natAbs) (d := w - 1) (by omega)).mp (by rw [if_pos hx] at h; omega)
      have : (0 : Int) < ((10 ^ w : Nat) : Int) := by exact_mod_cast Nat.pow_pos (by omega)
      omega
    · have := (digits_le (n := x.natAbs) (d := w) (by omega)).mp (by rw [if_neg hx] at h; omega)
      have : (0 : Int) < ((10 ^ (w - 1) : Nat) : Int) := by exact_mod_cast Nat.pow_pos (by omega)
      omega
  have eta : ∀ x : BitVec 10, (fmtS 4 x.toInt).length = 4 := fun x => fits_10_4s x
  have z0 : ∀ x : BitVec 10, (fmtN 4 x.toInt).length = 4 := fun x => fits_10_4' x
  have bit : ∀ b : Bool, (fmtN 1 (b2i b)).length = 1 := fun b => fits_bool b
  refine ⟨fun o => ?_, fun o => ?_, fun o => ?_, fun o => ?_⟩
  · have h1 := key 4 o.hwPt.toInt (by omega)
    have h2 := key 3 o.hwEmPt.toInt (by omega)
    unfold hadText hadRoom
    rw [← h1.2, ← h2.2]
    simp only [List.length_append, eta, bit, String.length_toList]
    rw [show "       ".length = 7 from rfl, show " ".length = 1 from rfl]
    omega
  · have h1 := key 4 o.hwPt.toInt (by omega)
    have h2 := key 3 o.hwPtErr.toInt (by omega)
    unfold emText emRoom
    rw [← h1.2, ← h2.2]
    simp only [List.length_append, eta, String.length_toList]
    rw [show "       ".length = 7 from rfl, show " ".length = 1 from rfl]
    omega
  · have h1 := key 4 o.hwPt.toInt (by omega)
    have h2 := key 4 o.hwPtErr.toInt (by omega)
    unfold tkText tkRoom
    rw [← h1.2, ← h2.2]
    simp only [List.length_append, eta, z0, String.length_toList]
    rw [show "       ".length = 7 from rfl, show " ".length = 1 from rfl]
    omega
  · have h1 := key 4 o.hwPt.toInt (by omega)
    have h2 := key 4 o.hwPtErr.toInt (by omega)
    unfold muText muRoom
    rw [← h1.2, ← h2.2]
    simp only [List.length_append, eta, String.length_toList]
    rw [show "       ".length = 7 from rfl, show " ".length = 1 from rfl]
    omega

/-- **C107**, a case: a calorimeter cluster of 300 GeV in the electromagnetic part does not have room. -/
example : ¬ hadRoom ⟨1600, 10, -20, 1200, true⟩ ∧ hadRoom ⟨1600, 10, -20, 999, true⟩ := by unfold hadRoom HasRoom; decide

/-- **C107.** The lines of the vertex bench, if the numbers have room. -/
theorem C107_vertex :
    (∀ frame go bin pt : Int, HasRoom 4 frame → 0 ≤ go → go < 10 → HasRoom 3 bin → HasRoom 6 pt →
      Table (bhvInText frame go bin pt) 28 [(6, 4, frame), (13, 1, go), (16, 3, bin), (21, 6, pt)]) ∧
    (∀ frame b x y : Int, HasRoom 4 frame → HasRoom 3 b → HasRoom 6 x → HasRoom 6 y →
      Table (bhvOutText frame b x y) 35 [(6, 4, frame), (13, 3, b), (19, 6, x), (28, 6, y)]) := by
  constructor
  · intro frame go bin pt h1 h2 h2' h3 h4
    have h2 := fits_digit h2 h2'
    replace h1 := h1.fits (by omega)
    replace h3 := h3.fits (by omega)
    replace h4 := h4.fits (by omega)
    unfold bhvInText
    table
  · intro frame b x y h1 h2 h3 h4
    replace h1 := h1.fits (by omega)
    replace h2 := h2.fits (by omega)
    replace h3 := h3.fits (by omega)
    replace h4 := h4.fits (by omega)
    unfold bhvOutText
    table

end Verif
