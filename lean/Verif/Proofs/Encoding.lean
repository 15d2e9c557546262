import Verif.Model.Encoding
import Verif.Proofs.Basic
set_option linter.unusedSimpArgs false
namespace Verif

/-! ## Words -/

theorem setBit_getLsbD (w : Word) (k : Nat) (b : Bool) (i : Nat) (hk : k < 32) (hi : i < 32) :
    (setBit w k b).getLsbD i = if i = k then b else w.getLsbD i := by
  unfold setBit
  by_cases h : i = k
  · subst h
    cases b <;> simp [hi]
  · have h1 : i < k ∨ ¬ (i - k = 0) := by omega
    rcases h1 with h1 | h1
    · cases b <;> simp [h, hi, h1]
    · cases b <;> simp [h, hi, h1]

theorem lsb_16_16 (a b : BitVec 16) (i : Nat) :
    (a ++ b : BitVec 32).getLsbD i = if i < 16 then b.getLsbD i else a.getLsbD (i - 16) :=
  BitVec.getLsbD_append.trans (by simp)

theorem lsb_10_10 (a b : BitVec 10) (i : Nat) :
    (a ++ b : BitVec 20).getLsbD i = if i < 10 then b.getLsbD i else a.getLsbD (i - 10) :=
  BitVec.getLsbD_append.trans (by simp)

theorem lsb_1_10 (a : BitVec 1) (b : BitVec 10) (i : Nat) :
    (a ++ b).getLsbD i = if i < 10 then b.getLsbD i else a.getLsbD (i - 10) :=
  BitVec.getLsbD_append.trans (by simp)

theorem lsb_10_10' (a b : BitVec 10) (i : Nat) :
    (a ++ b).getLsbD i = if i < 10 then b.getLsbD i else a.getLsbD (i - 10) :=
  BitVec.getLsbD_append.trans (by simp)

theorem lsb_1_10_10 (c : BitVec 1) (a b : BitVec 10) (i : Nat) :
    (c ++ a ++ b : BitVec 21).getLsbD i =
      if i < 10 then b.getLsbD i else if i - 10 < 10 then a.getLsbD (i - 10)
      else c.getLsbD (i - 10 - 10) :=
  BitVec.getLsbD_append.trans (by rw [lsb_1_10])

theorem lsb_10_10_10 (c a b : BitVec 10) (i : Nat) :
    (c ++ a ++ b : BitVec 30).getLsbD i =
      if i < 10 then b.getLsbD i else if i - 10 < 10 then a.getLsbD (i - 10)
      else c.getLsbD (i - 10 - 10) :=
  BitVec.getLsbD_append.trans (by rw [lsb_10_10'])

theorem lsb_3_16 (a : BitVec 3) (b : BitVec 16) (i : Nat) :
    (a ++ b : BitVec 19).getLsbD i = if i < 16 then b.getLsbD i else a.getLsbD (i - 16) :=
  BitVec.getLsbD_append.trans (by simp)

theorem ext15_0_append (a b : BitVec 16) :
    (a ++ b : BitVec 32).extractLsb 15 0 = b := by
  apply BitVec.eq_of_getLsbD_eq
  intro i hi
  have h32 : 0 + i < 32 := by omega
  simp only [BitVec.getLsbD_extract, BitVec.getLsbD_setWidth, lsb_16_16, h32, hi]
  have hle : i ≤ 15 := by omega
  simp (disch := omega) [if_neg, if_pos, hle]

theorem ext31_16_append (a b : BitVec 16) :
    (a ++ b : BitVec 32).extractLsb 31 16 = a := by
  apply BitVec.eq_of_getLsbD_eq
  intro i hi
  have h32 : 16 + i < 32 := by omega
  simp only [BitVec.getLsbD_extract, BitVec.getLsbD_setWidth, lsb_16_16, h32, hi]
  have hle : i ≤ 15 := by omega
  simp (disch := omega) [if_neg, if_pos, hle]

theorem ext9_0_append (a b : BitVec 10) :
    ((a ++ b : BitVec 20).setWidth 32).extractLsb 9 0 = b := by
  apply BitVec.eq_of_getLsbD_eq
  intro i hi
  have h32 : 0 + i < 32 := by omega
  simp only [BitVec.getLsbD_extract, BitVec.getLsbD_setWidth, lsb_10_10, h32, hi]
  have hle : i ≤ 9 := by omega
  simp (disch := omega) [if_neg, if_pos, hle]

theorem ext19_10_append (a b : BitVec 10) :
    ((a ++ b : BitVec 20).setWidth 32).extractLsb 19 10 = a := by
  apply BitVec.eq_of_getLsbD_eq
  intro i hi
  have h32 : 10 + i < 32 := by omega
  simp only [BitVec.getLsbD_extract, BitVec.getLsbD_setWidth, lsb_10_10, h32, hi]
  have hle : i ≤ 9 := by omega
  simp (disch := omega) [if_neg, if_pos, hle]

theorem ext9_0_had (c : BitVec 1) (a b : BitVec 10) :
    ((c ++ a ++ b : BitVec 21).setWidth 32).extractLsb 9 0 = b := by
  apply BitVec.eq_of_getLsbD_eq
  intro i hi
  have h32 : 0 + i < 32 := by omega
  simp only [BitVec.getLsbD_extract, BitVec.getLsbD_setWidth, lsb_1_10_10, h32, hi]
  have hle : i ≤ 9 := by omega
  simp (disch := omega) [if_neg, if_pos, hle]

theorem ext19_10_had (c : BitVec 1) (a b : BitVec 10) :
    ((c ++ a ++ b : BitVec 21).setWidth 32).extractLsb 19 10 = a := by
  apply BitVec.eq_of_getLsbD_eq
  intro i hi
  have h32 : 10 + i < 32 := by omega
  simp only [BitVec.getLsbD_extract, BitVec.getLsbD_setWidth, lsb_1_10_10, h32, hi]
  have hle : i ≤ 9 := by omega
  simp (disch := omega) [if_neg, if_pos, hle]

theorem ext9_0_3 (c a b : BitVec 10) :
    ((c ++ a ++ b : BitVec 30).setWidth 32).extractLsb 9 0 = b := by
  apply BitVec.eq_of_getLsbD_eq
  intro i hi
  have h32 : 0 + i < 32 := by omega
  simp only [BitVec.getLsbD_extract, BitVec.getLsbD_setWidth, lsb_10_10_10, h32, hi]
  have hle : i ≤ 9 := by omega
  simp (disch := omega) [if_neg, if_pos, hle]

theorem ext19_10_3 (c a b : BitVec 10) :
    ((c ++ a ++ b : BitVec 30).setWidth 32).extractLsb 19 10 = a := by
  apply BitVec.eq_of_getLsbD_eq
  intro i hi
  have h32 : 10 + i < 32 := by omega
  simp only [BitVec.getLsbD_extract, BitVec.getLsbD_setWidth, lsb_10_10_10, h32, hi]
  have hle : i ≤ 9 := by omega
  simp (disch := omega) [if_neg, if_pos, hle]

theorem ext29_20_3 (c a b : BitVec 10) :
    ((c ++ a ++ b : BitVec 30).setWidth 32).extractLsb 29 20 = c := by
  apply BitVec.eq_of_getLsbD_eq
  intro i hi
  have h32 : 20 + i < 32 := by omega
  simp only [BitVec.getLsbD_extract, BitVec.getLsbD_setWidth, lsb_10_10_10, h32, hi]
  have hle : i ≤ 9 := by omega
  simp (disch := omega) [if_neg, if_pos, hle]
  congr 1
  omega

theorem bit20_had (c : Bool) (a b : BitVec 10) :
    ((BitVec.ofBool c ++ a ++ b : BitVec 21).setWidth 32).getLsbD 20 = c := by
  simp only [BitVec.getLsbD_setWidth, lsb_1_10_10]
  simp

/-- Setting bit 30 does not change the bits below it. -/
theorem setBit30_extract (w : Word) (b : Bool) (hi lo : Nat) (h : hi < 30) (hlo : lo ≤ hi) :
    (setBit w 30 b).extractLsb hi lo = w.extractLsb hi lo := by
  apply BitVec.eq_of_getLsbD_eq
  intro i h'
  have h1 : lo + i < 32 := by omega
  have h2 : lo + i ≠ 30 := by omega
  simp only [BitVec.getLsbD_extract]
  rw [setBit_getLsbD _ _ _ _ (by decide) h1, if_neg h2]

theorem setBit30_bit (w : Word) (b : Bool) : (setBit w 30 b).getLsbD 30 = b := by
  rw [setBit_getLsbD _ _ _ _ (by decide) (by decide), if_pos rfl]

theorem ext15_0_id (a : BitVec 3) (b : BitVec 16) :
    ((a ++ b : BitVec 19).setWidth 32).extractLsb 15 0 = b := by
  apply BitVec.eq_of_getLsbD_eq
  intro i hi
  have h32 : 0 + i < 32 := by omega
  simp only [BitVec.getLsbD_extract, BitVec.getLsbD_setWidth, lsb_3_16, h32, hi]
  have hle : i ≤ 15 := by omega
  simp (disch := omega) [if_neg, if_pos, hle]

theorem ext18_16_id (a : BitVec 3) (b : BitVec 16) :
    ((a ++ b : BitVec 19).setWidth 32).extractLsb 18 16 = a := by
  apply BitVec.eq_of_getLsbD_eq
  intro i hi
  have h32 : 16 + i < 32 := by omega
  simp only [BitVec.getLsbD_extract, BitVec.getLsbD_setWidth, lsb_3_16, h32, hi]
  have hle : i ≤ 2 := by omega
  simp (disch := omega) [if_neg, if_pos, hle]

/-! ## Write loops -/

variable {N : Nat}

/-- The array after writing `w0 i`, `w1 i` at `OFFS + 2i`, `OFFS + 2i + 1` for `i < m`. -/
def packed {n : Nat} (OFFS m : Nat) (w0 w1 : Fin n → Word) (data : Arr N Word) : Arr N Word :=
  fun k =>
    if h : OFFS ≤ k.val ∧ k.val < OFFS + 2 * m ∧ m ≤ n then
      if (k.val - OFFS) % 2 = 0 then w0 ⟨(k.val - OFFS) / 2, by omega⟩
      else w1 ⟨(k.val - OFFS) / 2, by omega⟩
    else data k

theorem packed_zero {n : Nat} (OFFS : Nat) (w0 w1 : Fin n → Word) (data : Arr N Word) :
    packed OFFS 0 w0 w1 data = data := by
  funext k
  unfold packed
  rw [dif_neg]
  omega

theorem packed_succ {n : Nat} (OFFS : Nat) (w0 w1 : Fin n → Word) (data : Arr N Word) (i : Fin n)
    (h0 : 2 * i.val + 0 + OFFS < N) (h1 : 2 * i.val + 1 + OFFS < N) :
    ((packed OFFS i w0 w1 data).set ⟨_, h0⟩ (w0 i)).set ⟨_, h1⟩ (w1 i) =
      packed OFFS (i.val + 1) w0 w1 data := by
  funext k
  unfold Arr.set packed
  have hin := i.isLt
  by_cases hk1 : k.val = 2 * i.val + 1 + OFFS
  · rw [if_pos (Fin.ext hk1), dif_pos (by omega), if_neg (by omega)]
    congr 1; apply Fin.ext; simp only []; omega
  · rw [if_neg (fun e => hk1 (congrArg Fin.val e))]
    by_cases hk0 : k.val = 2 * i.val + 0 + OFFS
    · rw [if_pos (Fin.ext hk0), dif_pos (by omega), if_pos (by omega)]
      congr 1; apply Fin.ext; simp only []; omega
    · rw [if_neg (fun e => hk0 (congrArg Fin.val e))]
      by_cases hc : OFFS ≤ k.val ∧ k.val < OFFS + 2 * i.val ∧ i.val ≤ n
      · rw [dif_pos hc, dif_pos (by omega)]
      · rw [dif_neg hc, dif_neg (by omega)]

theorem pack2_ok {n : Nat} (OFFS : Nat) (w0 w1 : Fin n → Word) (data : Arr N Word)
    (h : OFFS + 2 * n ≤ N) : pack2 OFFS w0 w1 data = .ok (packed OFFS n w0 w1 data) := by
  unfold pack2
  obtain ⟨s, hs, rfl⟩ := loopM_induct (fun m s => s = packed OFFS m w0 w1 data)
    (fun (i : Fin n) (d : Arr N Word) => do
      let d ← d.write (2 * i.val + 0 + OFFS) (w0 i)
      d.write (2 * i.val + 1 + OFFS) (w1 i)) data (packed_zero ..).symm (by
      rintro i _ rfl
      have hi := i.isLt
      refine ⟨_, ?_, rfl⟩
      rw [Arr.write_ok _ _ (by omega), Run.ok_bind, Arr.write_ok _ _ (by omega), packed_succ])
  exact hs

/-- The first word that does not fit makes the loop fault. -/
theorem pack2_oob {n : Nat} (OFFS : Nat) (w0 w1 : Fin n → Word) (data : Arr N Word)
    (hn : 0 < n) (h : N < OFFS + 2 * n) : ∃ e, pack2 OFFS w0 w1 data = .error e := by
  obtain ⟨m, rfl⟩ : ∃ m, n = m + 1 := ⟨n - 1, by omega⟩
  unfold pack2
  rw [loopM_succ]
  cases loopM (fun (i : Fin m) (d : Arr N Word) => do
      let d ← d.write (2 * i.castSucc.val + 0 + OFFS) (w0 i.castSucc)
      d.write (2 * i.castSucc.val + 1 + OFFS) (w1 i.castSucc)) data with
  | error e => exact ⟨e, rfl⟩
  | ok s =>
    simp only [Run.ok_bind, Fin.val_last]
    by_cases h0 : 2 * m + 0 + OFFS < N
    · rw [Arr.write_ok _ _ h0, Run.ok_bind]
      refine ⟨.oob, ?_⟩
      unfold Arr.write
      rw [dif_neg (by omega)]
    · refine ⟨.oob, ?_⟩
      unfold Arr.write
      rw [dif_neg h0]
      rfl

/-- The track packer is the two-word loop with bit 30 merged in the second word. -/
theorem mp7_pack_tk_ok {NT : Nat} (OFFS : Nat) (track : Arr NT TkObj) (data : Arr N Word)
    (h : OFFS + 2 * NT ≤ N) :
    mp7_pack_tk OFFS track data = .ok (packed OFFS NT
      (fun i => (track i).hwPtErr ++ (track i).hwPt)
      (fun i => setBit (((track i).hwZ0 ++ (track i).hwPhi ++ (track i).hwEta).setWidth 32) 30
        (track i).hwTightQuality) data) := by
  unfold mp7_pack_tk
  obtain ⟨s, hs, rfl⟩ := loopM_induct (fun m s => s = packed OFFS m
      (fun i => (track i).hwPtErr ++ (track i).hwPt)
      (fun i => setBit (((track i).hwZ0 ++ (track i).hwPhi ++ (track i).hwEta).setWidth 32) 30
        (track i).hwTightQuality) data)
    (fun (i : Fin NT) (d : Arr N Word) => do
      let d ← d.write (2 * i.val + 0 + OFFS) ((track i).hwPtErr ++ (track i).hwPt)
      let d ← d.write (2 * i.val + 1 + OFFS)
        (((track i).hwZ0 ++ (track i).hwPhi ++ (track i).hwEta).setWidth 32)
      let w ← d.read (2 * i.val + 1 + OFFS)
      d.write (2 * i.val + 1 + OFFS) (setBit w 30 (track i).hwTightQuality)) data
    (packed_zero ..).symm (by
      rintro i _ rfl
      have hi := i.isLt
      refine ⟨_, ?_, rfl⟩
      rw [Arr.write_ok _ _ (by omega), Run.ok_bind, Arr.write_ok _ _ (by omega), Run.ok_bind,
        Arr.read_ok _ (by omega), Run.ok_bind, Arr.write_ok _ _ (by omega), Arr.set_same]
      rw [← packed_succ (h0 := by omega) (h1 := by omega)]
      congr 1
      funext k
      unfold Arr.set
      split <;> rfl)
  exact hs

/-! ## Reading back -/

theorem packed_word0 {n : Nat} (OFFS : Nat) (w0 w1 : Fin n → Word) (data : Arr N Word) (i : Fin n)
    (h : 2 * i.val + 0 + OFFS < N) : packed OFFS n w0 w1 data ⟨_, h⟩ = w0 i := by
  have := i.isLt
  unfold packed
  rw [dif_pos (by simp only []; omega), if_pos (by simp only []; omega)]
  congr 1; apply Fin.ext; simp only []; omega

theorem packed_word1 {n : Nat} (OFFS : Nat) (w0 w1 : Fin n → Word) (data : Arr N Word) (i : Fin n)
    (h : 2 * i.val + 1 + OFFS < N) : packed OFFS n w0 w1 data ⟨_, h⟩ = w1 i := by
  have := i.isLt
  unfold packed
  rw [dif_pos (by simp only []; omega), if_neg (by simp only []; omega)]
  congr 1; apply Fin.ext; simp only []; omega

theorem packed_other {n : Nat} (OFFS : Nat) (w0 w1 : Fin n → Word) (data : Arr N Word) (k : Fin N)
    (h : k.val < OFFS ∨ OFFS + 2 * n ≤ k.val) : packed OFFS n w0 w1 data k = data k := by
  unfold packed
  rw [dif_neg (by omega)]

end Verif

namespace Verif
variable {NT NC NE NM NS N : Nat}

theorem mp7_pack_em_ok (OFFS : Nat) (e : Arr NE EmCaloObj) (data : Arr N Word)
    (h : OFFS + 2 * NE ≤ N) : mp7_pack_em OFFS e data = .ok (packed OFFS NE
      (fun i => (e i).hwPtErr ++ (e i).hwPt)
      (fun i => ((e i).hwPhi ++ (e i).hwEta).setWidth 32) data) := pack2_ok _ _ _ _ h

theorem mp7_pack_had_ok (OFFS : Nat) (e : Arr NC HadCaloObj) (data : Arr N Word)
    (h : OFFS + 2 * NC ≤ N) : mp7_pack_had OFFS e data = .ok (packed OFFS NC
      (fun i => (e i).hwEmPt ++ (e i).hwPt)
      (fun i => (BitVec.ofBool (e i).hwIsEM ++ (e i).hwPhi ++ (e i).hwEta).setWidth 32) data) :=
  pack2_ok _ _ _ _ h

theorem mp7_pack_mu_ok (OFFS : Nat) (e : Arr NM MuObj) (data : Arr N Word)
    (h : OFFS + 2 * NM ≤ N) : mp7_pack_mu OFFS e data = .ok (packed OFFS NM
      (fun i => (e i).hwPtErr ++ (e i).hwPt)
      (fun i => ((e i).hwPhi ++ (e i).hwEta).setWidth 32) data) := pack2_ok _ _ _ _ h

theorem pack_charged_ok {n : Nat} (OFFS : Nat) (e : Arr n PFChargedObj) (data : Arr N Word)
    (h : OFFS + 2 * n ≤ N) : pack_charged OFFS e data = .ok (packed OFFS n
      (fun i => ((e i).hwId ++ (e i).hwPt).setWidth 32)
      (fun i => ((e i).hwZ0 ++ (e i).hwPhi ++ (e i).hwEta).setWidth 32) data) := pack2_ok _ _ _ _ h

theorem pack_neutral_ok {n : Nat} (OFFS : Nat) (e : Arr n PFNeutralObj) (data : Arr N Word)
    (h : OFFS + 2 * n ≤ N) : pack_neutral OFFS e data = .ok (packed OFFS n
      (fun i => ((e i).hwId ++ (e i).hwPt).setWidth 32)
      (fun i => ((e i).hwPhi ++ (e i).hwEta).setWidth 32) data) := pack2_ok _ _ _ _ h

theorem cassert_true {c : Bool} (h : c = true) : cassert c = .ok () := by simp [cassert, h]
theorem cassert_false {c : Bool} (h : c = false) : cassert c = .error .assertFail := by
  simp [cassert, h]

/-- Channel content after `mp7wrapped_pack_in`. -/
def packedIn (inp : PFInputs NT NC NE NM) (data : Arr N Word) : Arr N Word :=
  packed (2 * NT + 2 * NC + 2 * NE) NM
    (fun i => (inp.mu i).hwPtErr ++ (inp.mu i).hwPt)
    (fun i => ((inp.mu i).hwPhi ++ (inp.mu i).hwEta).setWidth 32) <|
  packed (2 * NC + 2 * NE) NT
    (fun i => (inp.track i).hwPtErr ++ (inp.track i).hwPt)
    (fun i => setBit (((inp.track i).hwZ0 ++ (inp.track i).hwPhi ++
      (inp.track i).hwEta).setWidth 32) 30 (inp.track i).hwTightQuality) <|
  packed (2 * NE) NC
    (fun i => (inp.hadcalo i).hwEmPt ++ (inp.hadcalo i).hwPt)
    (fun i => (BitVec.ofBool (inp.hadcalo i).hwIsEM ++ (inp.hadcalo i).hwPhi ++
      (inp.hadcalo i).hwEta).setWidth 32) <|
  packed 0 NE
    (fun i => (inp.emcalo i).hwPtErr ++ (inp.emcalo i).hwPt)
    (fun i => ((inp.emcalo i).hwPhi ++ (inp.emcalo i).hwEta).setWidth 32) data

theorem pack_in_eq (inp : PFInputs NT NC NE NM) (data : Arr N Word)
    (h : 2 * NE + 2 * NT + 2 * NC + 2 * NM ≤ min N MP7_NCHANN) :
    mp7wrapped_pack_in inp data = .ok (packedIn inp data) := by
  unfold mp7wrapped_pack_in packedIn
  have ha := Nat.le_trans h (Nat.min_le_right _ _)
  replace h := Nat.le_trans h (Nat.min_le_left _ _)
  rw [cassert_true (decide_eq_true ha), Run.ok_bind, mp7_pack_em_ok _ _ _ (by omega), Run.ok_bind,
    mp7_pack_had_ok _ _ _ (by omega), Run.ok_bind, mp7_pack_tk_ok _ _ _ (by omega), Run.ok_bind,
    mp7_pack_mu_ok _ _ _ (by omega)]

/-- Channel content after `mp7wrapped_pack_out`. -/
def packedOut (o : PFOutputs NT NE NS NM) (data : Arr N Word) : Arr N Word :=
  packed (2 * NS + 2 * NE + 2 * NT) NM
    (fun i => ((o.outmu i).hwId ++ (o.outmu i).hwPt).setWidth 32)
    (fun i => ((o.outmu i).hwZ0 ++ (o.outmu i).hwPhi ++ (o.outmu i).hwEta).setWidth 32) <|
  packed (2 * NE + 2 * NT) NS
    (fun i => ((o.outne i).hwId ++ (o.outne i).hwPt).setWidth 32)
    (fun i => ((o.outne i).hwPhi ++ (o.outne i).hwEta).setWidth 32) <|
  packed (2 * NT) NE
    (fun i => ((o.outpho i).hwId ++ (o.outpho i).hwPt).setWidth 32)
    (fun i => ((o.outpho i).hwPhi ++ (o.outpho i).hwEta).setWidth 32) <|
  packed 0 NT
    (fun i => ((o.outch i).hwId ++ (o.outch i).hwPt).setWidth 32)
    (fun i => ((o.outch i).hwZ0 ++ (o.outch i).hwPhi ++ (o.outch i).hwEta).setWidth 32) data

theorem pack_out_eq (o : PFOutputs NT NE NS NM) (data : Arr N Word)
    (h : 2 * NT + 2 * NE + 2 * NS + 2 * NM ≤ min N MP7_NCHANN) :
    mp7wrapped_pack_out o data = .ok (packedOut o data) := by
  unfold mp7wrapped_pack_out packedOut
  have ha := Nat.le_trans h (Nat.min_le_right _ _)
  replace h := Nat.le_trans h (Nat.min_le_left _ _)
  rw [cassert_true (decide_eq_true ha), Run.ok_bind, pack_charged_ok _ _ _ (by omega), Run.ok_bind,
    pack_neutral_ok _ _ _ (by omega), Run.ok_bind, pack_neutral_ok _ _ _ (by omega), Run.ok_bind,
    pack_charged_ok _ _ _ (by omega)]

/-! ### The words of each object -/

section words
variable (inp : PFInputs NT NC NE NM) (data : Arr N Word)
  (h : 2 * NE + 2 * NT + 2 * NC + 2 * NM ≤ N)
include h

theorem packedIn_em (i : Fin NE) :
    (packedIn inp data ⟨2 * i.val + 0 + 0, by omega⟩ = (inp.emcalo i).hwPtErr ++ (inp.emcalo i).hwPt) ∧
    (packedIn inp data ⟨2 * i.val + 1 + 0, by omega⟩ =
      ((inp.emcalo i).hwPhi ++ (inp.emcalo i).hwEta).setWidth 32) := by
  have := i.isLt
  constructor <;>
  · unfold packedIn
    rw [packed_other _ _ _ _ _ (by simp only []; omega), packed_other _ _ _ _ _ (by simp only []; omega),
      packed_other _ _ _ _ _ (by simp only []; omega)]
    first | rw [packed_word0] | rw [packed_word1]

theorem packedIn_had (i : Fin NC) :
    (packedIn inp data ⟨2 * i.val + 0 + 2 * NE, by omega⟩ =
      (inp.hadcalo i).hwEmPt ++ (inp.hadcalo i).hwPt) ∧
    (packedIn inp data ⟨2 * i.val + 1 + 2 * NE, by omega⟩ =
      (BitVec.ofBool (inp.hadcalo i).hwIsEM ++ (inp.hadcalo i).hwPhi ++
        (inp.hadcalo i).hwEta).setWidth 32) := by
  have := i.isLt
  constructor <;>
  · unfold packedIn
    rw [packed_other _ _ _ _ _ (by simp only []; omega), packed_other _ _ _ _ _ (by simp only []; omega)]
    first | rw [packed_word0] | rw [packed_word1]

theorem packedIn_tk (i : Fin NT) :
    (packedIn inp data ⟨2 * i.val + 0 + (2 * NC + 2 * NE), by omega⟩ =
      (inp.track i).hwPtErr ++ (inp.track i).hwPt) ∧
    (packedIn inp data ⟨2 * i.val + 1 + (2 * NC + 2 * NE), by omega⟩ =
      setBit (((inp.track i).hwZ0 ++ (inp.track i).hwPhi ++
      (inp.track i).hwEta).setWidth 32) 30 (inp.track i).hwTightQuality) := by
  have := i.isLt
  constructor <;>
  · unfold packedIn
    rw [packed_other _ _ _ _ _ (by simp only []; omega)]
    first | rw [packed_word0] | rw [packed_word1]

theorem packedIn_mu (i : Fin NM) :
    (packedIn inp data ⟨2 * i.val + 0 + (2 * NT + 2 * NC + 2 * NE), by omega⟩ =
      (inp.mu i).hwPtErr ++ (inp.mu i).hwPt) ∧
    (packedIn inp data ⟨2 * i.val + 1 + (2 * NT + 2 * NC + 2 * NE), by omega⟩ =
      ((inp.mu i).hwPhi ++ (inp.mu i).hwEta).setWidth 32) := by
  constructor <;>
  · unfold packedIn
    first | rw [packed_word0] | rw [packed_word1]

omit h in
theorem packedIn_other (k : Fin N) (hk : 2 * NE + 2 * NT + 2 * NC + 2 * NM ≤ k.val) :
    packedIn inp data k = data k := by
  unfold packedIn
  rw [packed_other _ _ _ _ _ (by omega), packed_other _ _ _ _ _ (by omega),
      packed_other _ _ _ _ _ (by omega), packed_other _ _ _ _ _ (by omega)]

end words

section words_out
variable (o : PFOutputs NT NE NS NM) (data : Arr N Word)
  (h : 2 * NT + 2 * NE + 2 * NS + 2 * NM ≤ N)
include h

theorem packedOut_ch (i : Fin NT) :
    (packedOut o data ⟨2 * i.val + 0 + 0, by omega⟩ =
      ((o.outch i).hwId ++ (o.outch i).hwPt).setWidth 32) ∧
    (packedOut o data ⟨2 * i.val + 1 + 0, by omega⟩ =
      ((o.outch i).hwZ0 ++ (o.outch i).hwPhi ++ (o.outch i).hwEta).setWidth 32) := by
  have := i.isLt
  constructor <;>
  · unfold packedOut
    rw [packed_other _ _ _ _ _ (by simp only []; omega), packed_other _ _ _ _ _ (by simp only []; omega),
      packed_other _ _ _ _ _ (by simp only []; omega)]
    first | rw [packed_word0] | rw [packed_word1]

theorem packedOut_pho (i : Fin NE) :
    (packedOut o data ⟨2 * i.val + 0 + 2 * NT, by omega⟩ =
      ((o.outpho i).hwId ++ (o.outpho i).hwPt).setWidth 32) ∧
    (packedOut o data ⟨2 * i.val + 1 + 2 * NT, by omega⟩ =
      ((o.outpho i).hwPhi ++ (o.outpho i).hwEta).setWidth 32) := by
  have := i.isLt
  constructor <;>
  · unfold packedOut
    rw [packed_other _ _ _ _ _ (by simp only []; omega), packed_other _ _ _ _ _ (by simp only []; omega)]
    first | rw [packed_word0] | rw [packed_word1]

theorem packedOut_ne (i : Fin NS) :
    (packedOut o data ⟨2 * i.val + 0 + (2 * NE + 2 * NT), by omega⟩ =
      ((o.outne i).hwId ++ (o.outne i).hwPt).setWidth 32) ∧
    (packedOut o data ⟨2 * i.val + 1 + (2 * NE + 2 * NT), by omega⟩ =
      ((o.outne i).hwPhi ++ (o.outne i).hwEta).setWidth 32) := by
  have := i.isLt
  constructor <;>
  · unfold packedOut
    rw [packed_other _ _ _ _ _ (by simp only []; omega)]
    first | rw [packed_word0] | rw [packed_word1]

theorem packedOut_mu (i : Fin NM) :
    (packedOut o data ⟨2 * i.val + 0 + (2 * NS + 2 * NE + 2 * NT), by omega⟩ =
      ((o.outmu i).hwId ++ (o.outmu i).hwPt).setWidth 32) ∧
    (packedOut o data ⟨2 * i.val + 1 + (2 * NS + 2 * NE + 2 * NT), by omega⟩ =
      ((o.outmu i).hwZ0 ++ (o.outmu i).hwPhi ++ (o.outmu i).hwEta).setWidth 32) := by
  constructor <;>
  · unfold packedOut
    first | rw [packed_word0] | rw [packed_word1]

omit h in
theorem packedOut_other (k : Fin N) (hk : 2 * NT + 2 * NE + 2 * NS + 2 * NM ≤ k.val) :
    packedOut o data k = data k := by
  unfold packedOut
  rw [packed_other _ _ _ _ _ (by omega), packed_other _ _ _ _ _ (by omega),
      packed_other _ _ _ _ _ (by omega), packed_other _ _ _ _ _ (by omega)]

end words_out

theorem unpack_in_packedIn (inp : PFInputs NT NC NE NM) (data : Arr N Word)
    (h : 2 * NE + 2 * NT + 2 * NC + 2 * NM ≤ min N MP7_NCHANN) :
    mp7wrapped_unpack_in (packedIn inp data) = .ok inp := by
  unfold mp7wrapped_unpack_in
  have ha := Nat.le_trans h (Nat.min_le_right _ _)
  replace h := Nat.le_trans h (Nat.min_le_left _ _)
  rw [cassert_true (decide_eq_true ha), Run.ok_bind]
  have e1 : mp7_unpack_em 0 (packedIn inp data) = .ok inp.emcalo := by
    apply buildM_ok
    intro i
    have := packedIn_em inp data h i
    rw [Arr.read_ok _ (by omega), Run.ok_bind, Arr.read_ok _ (by omega), Run.ok_bind, this.1, this.2,
      ext15_0_append, ext31_16_append, ext9_0_append, ext19_10_append]
  have e2 : mp7_unpack_had (2 * NE) (packedIn inp data) = .ok inp.hadcalo := by
    apply buildM_ok
    intro i
    have := packedIn_had inp data h i
    rw [Arr.read_ok _ (by omega), Run.ok_bind, Arr.read_ok _ (by omega), Run.ok_bind, this.1, this.2,
      ext15_0_append, ext31_16_append, ext9_0_had, ext19_10_had, bit20_had]
  have e3 : mp7_unpack_tk (2 * NC + 2 * NE) (packedIn inp data) = .ok inp.track := by
    apply buildM_ok
    intro i
    have := packedIn_tk inp data h i
    rw [Arr.read_ok _ (by omega), Run.ok_bind, Arr.read_ok _ (by omega), Run.ok_bind, this.1, this.2,
      ext15_0_append, ext31_16_append, setBit30_bit, setBit30_extract _ _ _ _ (by decide) (by decide),
      setBit30_extract _ _ _ _ (by decide) (by decide),
      setBit30_extract _ _ _ _ (by decide) (by decide), ext9_0_3, ext19_10_3, ext29_20_3]
  have e4 : mp7_unpack_mu (2 * NT + 2 * NC + 2 * NE) (packedIn inp data) = .ok inp.mu := by
    apply buildM_ok
    intro i
    have := packedIn_mu inp data h i
    rw [Arr.read_ok _ (by omega), Run.ok_bind, Arr.read_ok _ (by omega), Run.ok_bind, this.1, this.2,
      ext15_0_append, ext31_16_append, ext9_0_append, ext19_10_append]
  rw [e1, Run.ok_bind, e2, Run.ok_bind, e3, Run.ok_bind, e4, Run.ok_bind]

theorem unpack_out_packedOut (old o : PFOutputs NT NE NS NM) (data : Arr N Word)
    (h : 2 * NT + 2 * NE + 2 * NS + 2 * NM ≤ min N MP7_NCHANN) :
    mp7wrapped_unpack_out old (packedOut o data) = .ok
      { outch := o.outch,
        outpho := fun i => { o.outpho i with hwPtPuppi := (old.outpho i).hwPtPuppi },
        outne := fun i => { o.outne i with hwPtPuppi := (old.outne i).hwPtPuppi },
        outmu := o.outmu } := by
  unfold mp7wrapped_unpack_out
  have ha := Nat.le_trans h (Nat.min_le_right _ _)
  replace h := Nat.le_trans h (Nat.min_le_left _ _)
  rw [cassert_true (decide_eq_true ha), Run.ok_bind]
  have e1 : unpack_charged 0 (packedOut o data) = .ok o.outch := by
    apply buildM_ok
    intro i
    have := packedOut_ch o data h i
    rw [Arr.read_ok _ (by omega), Run.ok_bind, Arr.read_ok _ (by omega), Run.ok_bind, this.1, this.2,
      ext15_0_id, ext18_16_id, ext9_0_3, ext19_10_3, ext29_20_3]
  have e2 : unpack_neutral (2 * NT) old.outpho (packedOut o data) =
      .ok (fun i => { o.outpho i with hwPtPuppi := (old.outpho i).hwPtPuppi }) := by
    apply buildM_ok
    intro i
    have := packedOut_pho o data h i
    rw [Arr.read_ok _ (by omega), Run.ok_bind, Arr.read_ok _ (by omega), Run.ok_bind, this.1, this.2,
      ext15_0_id, ext18_16_id, ext9_0_append, ext19_10_append]
  have e3 : unpack_neutral (2 * NE + 2 * NT) old.outne (packedOut o data) =
      .ok (fun i => { o.outne i with hwPtPuppi := (old.outne i).hwPtPuppi }) := by
    apply buildM_ok
    intro i
    have := packedOut_ne o data h i
    rw [Arr.read_ok _ (by omega), Run.ok_bind, Arr.read_ok _ (by omega), Run.ok_bind, this.1, this.2,
      ext15_0_id, ext18_16_id, ext9_0_append, ext19_10_append]
  have e4 : unpack_charged (2 * NS + 2 * NE + 2 * NT) (packedOut o data) = .ok o.outmu := by
    apply buildM_ok
    intro i
    have := packedOut_mu o data h i
    rw [Arr.read_ok _ (by omega), Run.ok_bind, Arr.read_ok _ (by omega), Run.ok_bind, this.1, this.2,
      ext15_0_id, ext18_16_id, ext9_0_3, ext19_10_3, ext29_20_3]
  rw [e1, Run.ok_bind, e2, Run.ok_bind, e3, Run.ok_bind, e4, Run.ok_bind]

/-! ### When the words do not fit -/

theorem loopM_last {σ : Type} {m : Nat} {body : Fin (m + 1) → σ → Run σ} {s s' : σ} (h : loopM body s = .ok s') :
    ∃ s1, body (Fin.last m) s1 = .ok s' := by
  rw [loopM_succ] at h
  cases h1 : loopM (fun i => body i.castSucc) s with
  | error e => rw [h1] at h; cases h
  | ok s1 => rw [h1] at h; exact ⟨s1, h⟩

theorem loopM_faults {σ : Type} {X : Fault} {n : Nat} {body : Fin n → σ → Run σ} (h : ∀ i s e, body i s = .error e → e = X) {s : σ} {e : Fault}
    (he : loopM body s = .error e) : e = X := by
  induction n generalizing s e with
  | zero => rw [loopM_zero] at he; cases he
  | succ n ih =>
    rw [loopM_succ] at he
    cases h1 : loopM (fun i => body i.castSucc) s with
    | error e' => rw [h1] at he; cases he; exact ih (fun i s e => h i.castSucc s e) h1
    | ok s1 => rw [h1] at he; exact h _ _ _ he

theorem Arr.write_fault {n : Nat} {α : Type} {a : Arr n α} {k : Nat} {x : α} {e : Fault} (h : a.write k x = .error e) : e = .oob := by
  unfold Arr.write at h
  by_cases hk : k < n
  · rw [dif_pos hk] at h; cases h
  · rw [dif_neg hk] at h; cases h; rfl

theorem Arr.read_fault {n : Nat} {α : Type} {a : Arr n α} {k : Nat} {e : Fault} (h : a.read k = .error e) : e = .oob := by
  unfold Arr.read at h
  by_cases hk : k < n
  · rw [dif_pos hk] at h; cases h
  · rw [dif_neg hk] at h; cases h; rfl

theorem Arr.write_lt {n : Nat} {α : Type} {a b : Arr n α} {k : Nat} {x : α} (h : a.write k x = .ok b) : k < n := by
  unfold Arr.write at h
  by_cases hk : k < n
  · exact hk
  · rw [dif_neg hk] at h; cases h

theorem Run.bind_fault {α β : Type} {X : Fault} {m : Run α} {k : α → Run β} (hm : ∀ e, m = .error e → e = X)
    (hk : ∀ a e, k a = .error e → e = X) {e : Fault} (h : (m >>= k) = .error e) : e = X := by
  cases m with
  | error e' => cases h; exact hm _ rfl
  | ok a => exact hk a e h

theorem Run.bind_ok {α β : Type} {m : Run α} {k : α → Run β} {b : β} (h : (m >>= k) = .ok b) : ∃ a, m = .ok a ∧ k a = .ok b := by
  cases m with
  | error e => cases h
  | ok a => exact ⟨a, rfl, h⟩

theorem pack2_fits {n : Nat} {OFFS : Nat} {w0 w1 : Fin n → Word} {data d : Arr N Word} (h : pack2 OFFS w0 w1 data = .ok d) :
    n = 0 ∨ 2 * n + OFFS ≤ N := by
  cases n with
  | zero => exact Or.inl rfl
  | succ m =>
    obtain ⟨s1, h1⟩ := loopM_last h
    obtain ⟨s2, _, h3⟩ := Run.bind_ok h1
    have := Arr.write_lt h3
    simp only [Fin.val_last] at this
    omega

theorem pack2_fault {n : Nat} {OFFS : Nat} {w0 w1 : Fin n → Word} {data : Arr N Word} {e : Fault} (h : pack2 OFFS w0 w1 data = .error e) :
    e = .oob :=
  loopM_faults (fun _ _ _ => Run.bind_fault (fun _ => Arr.write_fault) fun _ _ => Arr.write_fault) h

theorem pack_tk_fits {OFFS : Nat} {track : Arr NT TkObj} {data d : Arr N Word} (h : mp7_pack_tk OFFS track data = .ok d) :
    NT = 0 ∨ 2 * NT + OFFS ≤ N := by
  cases NT with
  | zero => exact Or.inl rfl
  | succ m =>
    obtain ⟨s1, h1⟩ := loopM_last h
    obtain ⟨s2, _, h3⟩ := Run.bind_ok h1
    obtain ⟨s4, h4, _⟩ := Run.bind_ok h3
    have := Arr.write_lt h4
    simp only [Fin.val_last] at this
    omega

theorem pack_tk_fault {OFFS : Nat} {track : Arr NT TkObj} {data : Arr N Word} {e : Fault} (h : mp7_pack_tk OFFS track data = .error e) :
    e = .oob :=
  loopM_faults (fun _ _ _ => Run.bind_fault (fun _ => Arr.write_fault) fun _ _ => Run.bind_fault (fun _ => Arr.write_fault) fun _ _ =>
    Run.bind_fault (fun _ => Arr.read_fault) fun _ _ => Arr.write_fault) h

/-- Too many words for the array, but not for the assertion: a write past the end. -/
theorem pack_in_oob (inp : PFInputs NT NC NE NM) (data : Arr N Word) (h : 2 * NE + 2 * NT + 2 * NC + 2 * NM ≤ MP7_NCHANN)
    (hn : N < 2 * NE + 2 * NT + 2 * NC + 2 * NM) : mp7wrapped_pack_in inp data = .error .oob := by
  unfold mp7wrapped_pack_in
  rw [cassert_true (decide_eq_true h), Run.ok_bind]
  cases hr : (do
    let d ← mp7_pack_em 0 inp.emcalo data
    let d ← mp7_pack_had (2 * NE) inp.hadcalo d
    let d ← mp7_pack_tk (2 * NC + 2 * NE) inp.track d
    mp7_pack_mu (2 * NT + 2 * NC + 2 * NE) inp.mu d : Run (Arr N Word)) with
  | error e =>
    rw [Run.bind_fault (fun _ => pack2_fault) (fun _ _ => Run.bind_fault (fun _ => pack2_fault) fun _ _ =>
      Run.bind_fault (fun _ => pack_tk_fault) fun _ _ => pack2_fault) hr]
  | ok d =>
    exfalso
    obtain ⟨d1, h1, hr⟩ := Run.bind_ok hr
    obtain ⟨d2, h2, hr⟩ := Run.bind_ok hr
    obtain ⟨d3, h3, h4⟩ := Run.bind_ok hr
    have f1 := pack2_fits h1
    have f2 := pack2_fits h2
    have f3 := pack_tk_fits h3
    have f4 := pack2_fits h4
    omega

@[inherit_doc pack_in_oob] theorem pack_out_oob (o : PFOutputs NT NE NS NM) (data : Arr N Word)
    (h : 2 * NT + 2 * NE + 2 * NS + 2 * NM ≤ MP7_NCHANN) (hn : N < 2 * NT + 2 * NE + 2 * NS + 2 * NM) :
    mp7wrapped_pack_out o data = .error .oob := by
  unfold mp7wrapped_pack_out
  rw [cassert_true (decide_eq_true h), Run.ok_bind]
  cases hr : (do
    let d ← pack_charged 0 o.outch data
    let d ← pack_neutral (2 * NT) o.outpho d
    let d ← pack_neutral (2 * NE + 2 * NT) o.outne d
    pack_charged (2 * NS + 2 * NE + 2 * NT) o.outmu d : Run (Arr N Word)) with
  | error e =>
    rw [Run.bind_fault (fun _ => pack2_fault) (fun _ _ => Run.bind_fault (fun _ => pack2_fault) fun _ _ =>
      Run.bind_fault (fun _ => pack2_fault) fun _ _ => pack2_fault) hr]
  | ok d =>
    exfalso
    obtain ⟨d1, h1, hr⟩ := Run.bind_ok hr
    obtain ⟨d2, h2, hr⟩ := Run.bind_ok hr
    obtain ⟨d3, h3, h4⟩ := Run.bind_ok hr
    have f1 := pack2_fits h1
    have f2 := pack2_fits h2
    have f3 := pack2_fits h3
    have f4 := pack2_fits h4
    omega

end Verif
