import Verif.Model.BramHist
import Verif.Spec.Vertex
import Verif.Proofs.Sums
import Mathlib.Tactic.Linarith
import Mathlib.Data.List.FinRange
/-! # The histogram vertex finder -/
namespace Verif
open Spec

variable {NS NTK : Nat}

theorem z0_range (z : Z0) : -512 ≤ z.toInt ∧ z.toInt < 512 := ep_range z

theorem fetch_bin_spec (z : Z0) :
    (fetch_bin_ref z).bin.toNat < BHV_NBINS ∧
    (if (fetch_bin_ref z).valid then some (fetch_bin_ref z).bin.toNat else none) = zBin z.toInt := by
  have h := z0_range z
  unfold fetch_bin_ref zBin
  have e : shr z.toInt 3 = z.toInt / 8 := rfl
  have n1 : ((BHV_NHALFBINS : Nat) : Int) = 36 := rfl
  have n2 : ((BHV_NBINS : Nat) : Int) - 1 = 71 := rfl
  simp only [e, n1, n2]
  by_cases h1 : -288 ≤ z.toInt
  · by_cases h2 : z.toInt < 288
    · have hb : ((reg 10 (z.toInt / 8 + 36)).toNat : Int) = z.toInt / 8 + 36 := by
        rw [reg_toNat_of_lt] <;> norm_num <;> omega
      have i1 : ¬ (z.toInt / 8 + 36 < 0) := by omega
      have i2 : ¬ (z.toInt / 8 + 36 > 71) := by omega
      have i3 : -288 ≤ z.toInt ∧ z.toInt < 288 := ⟨h1, h2⟩
      simp only [if_neg i1, if_neg i2, if_pos i3]
      refine ⟨?_, ?_⟩
      · show (reg 10 (z.toInt / 8 + 36)).toNat < 72
        omega
      · simp only [if_true]
        congr 1
        omega
    · have i1 : ¬ (z.toInt / 8 + 36 < 0) := by omega
      have i2 : z.toInt / 8 + 36 > 71 := by omega
      have i3 : ¬ (-288 ≤ z.toInt ∧ z.toInt < 288) := fun h => h2 h.2
      simp only [if_neg i1, if_pos i2, if_neg i3]
      exact ⟨by decide, rfl⟩
  · have i1 : z.toInt / 8 + 36 < 0 := by omega
    have i2 : ¬ ((0 : Int) > 71) := by omega
    have i3 : ¬ (-288 ≤ z.toInt ∧ z.toInt < 288) := fun h => h1 h.1
    simp only [if_pos i1, if_neg i2, if_neg i3]
    exact ⟨by decide, rfl⟩

theorem bit9_iff {s : Int} (h0 : 0 ≤ s) (h : s < 1024) : bit9 s = true ↔ 512 ≤ s := by
  unfold bit9
  rw [decide_eq_true_eq]
  omega

theorem halfpt (p : Pt) (h : 0 ≤ p.toInt) :
    (if (reg 16 (shr p.toInt 1)).toInt > BHV_MAXPT then reg 16 BHV_MAXPT else reg 16 (shr p.toInt 1)).toInt =
      vtxPt p.toInt ∧ 0 ≤ vtxPt p.toInt ∧ vtxPt p.toInt ≤ 100 := by
  have hr := pt_range p
  have e : shr p.toInt 1 = p.toInt / 2 := rfl
  unfold vtxPt BHV_MAXPT
  rw [e, reg16_toInt (by omega) (by omega)]
  refine ⟨?_, by omega, by omega⟩
  split
  · rw [reg16_toInt (by decide) (by decide)]; omega
  · rw [reg16_toInt (by omega) (by omega)]; omega

/-- The new contents of a bin. -/
theorem newsum_eq (old : PtSum) {x : Int} (h0 : 0 ≤ x) (h : x ≤ 100) :
    (if bit9 ((old.toNat : Int) + x) then reg 9 BHV_MAXBIN else reg 9 ((old.toNat : Int) + x)) =
      reg 9 (min 511 ((old.toNat : Int) + x)) := by
  have ho := old.isLt
  by_cases hb : 512 ≤ (old.toNat : Int) + x
  · rw [if_pos ((bit9_iff (by omega) (by omega)).mpr hb), min_eq_left (by omega)]
  · rw [if_neg (fun hh => hb ((bit9_iff (by omega) (by omega)).mp hh)), min_eq_right (by omega)]

theorem add_track_valid (zb : ZBinV) (p : Pt) (hist : Arr BHV_NBINS PtSum) (hv : zb.valid = true)
    (hb : zb.bin.toNat < BHV_NBINS) (hp : 0 ≤ p.toInt) :
    bhv_add_track zb p hist = .ok (hist.set ⟨zb.bin.toNat, hb⟩
      (reg 9 (min 511 (((hist ⟨zb.bin.toNat, hb⟩).toNat : Int) + vtxPt p.toInt)))) := by
  obtain ⟨h1, h2, h3⟩ := halfpt p hp
  unfold bhv_add_track
  rw [if_pos hv]
  simp only []
  rw [Arr.read_ok hist hb, Run.ok_bind, Arr.write_ok _ _ hb, h1, newsum_eq _ h2 h3]

theorem add_track_invalid (zb : ZBinV) (p : Pt) (hist : Arr BHV_NBINS PtSum) (hv : zb.valid = false) :
    bhv_add_track zb p hist = .ok hist := by
  unfold bhv_add_track
  rw [hv]; rfl

/-- A call as an entry of the specification. -/
def asEntry (c : ZBinV × Pt) : Option Nat × Int :=
  (if c.1.valid then some c.1.bin.toNat else none, c.2.toInt)

theorem fill_calls (calls : List (ZBinV × Pt))
    (hb : ∀ c ∈ calls, c.1.valid = true → c.1.bin.toNat < BHV_NBINS)
    (hp : ∀ c ∈ calls, 0 ≤ c.2.toInt) :
    ∃ hist, calls.foldlM (fun h c => bhv_add_track c.1 c.2 h) (fun _ => (0 : PtSum)) = .ok hist ∧
      ∀ b : Fin BHV_NBINS, ((hist b).toNat : Int) = binContent (calls.map asEntry) b := by
  have nn : ∀ (l : List (ZBinV × Pt)) (b : Nat), (∀ c ∈ l, 0 ≤ c.2.toInt) →
      0 ≤ ((l.map asEntry).map fun e => if e.1 = some b then vtxPt e.2 else 0).sum := by
    intro l b hl
    apply List.sum_nonneg
    intro y hy
    obtain ⟨e, he, rfl⟩ := List.mem_map.mp hy
    obtain ⟨c, hc, rfl⟩ := List.mem_map.mp he
    split
    · exact (halfpt c.2 (hl c hc)).2.1
    · exact le_refl _
  have key : ∀ (l : List (ZBinV × Pt)) (h0 : Arr BHV_NBINS PtSum),
      (∀ c ∈ l, c.1.valid = true → c.1.bin.toNat < BHV_NBINS) → (∀ c ∈ l, 0 ≤ c.2.toInt) →
      ∃ hist, l.foldlM (fun h c => bhv_add_track c.1 c.2 h) h0 = .ok hist ∧
      ∀ b : Fin BHV_NBINS, ((hist b).toNat : Int) = min 511 (((h0 b).toNat : Int) +
        ((l.map asEntry).map fun e => if e.1 = some b.val then vtxPt e.2 else 0).sum) := by
    intro l
    induction l with
    | nil =>
      intro h0 _ _
      refine ⟨h0, rfl, fun b => ?_⟩
      have := (h0 b).isLt
      simp only [List.map_nil, List.sum_nil]
      omega
    | cons c l ih =>
      intro h0 h1 h2
      have h2c := h2 c (by simp)
      have nnl := fun b => nn l b (fun x hx => h2 x (by simp [hx]))
      cases hv : c.1.valid with
      | false =>
        obtain ⟨hist, e1, e2⟩ := ih h0 (fun x hx => h1 x (by simp [hx])) (fun x hx => h2 x (by simp [hx]))
        refine ⟨hist, ?_, fun b => ?_⟩
        · rw [List.foldlM_cons, add_track_invalid _ _ _ hv, Run.ok_bind]
          exact e1
        · rw [e2 b, List.map_cons, List.map_cons, List.sum_cons]
          have : (asEntry c).1 = none := by unfold asEntry; rw [hv]; rfl
          rw [this, if_neg (by simp), Int.zero_add]
      | true =>
        have hbc := h1 c (by simp) hv
        have hx := (halfpt c.2 h2c).2
        obtain ⟨hist, e1, e2⟩ := ih (h0.set ⟨c.1.bin.toNat, hbc⟩
          (reg 9 (min 511 (((h0 ⟨c.1.bin.toNat, hbc⟩).toNat : Int) + vtxPt c.2.toInt))))
          (fun x hx => h1 x (by simp [hx])) (fun x hx => h2 x (by simp [hx]))
        refine ⟨hist, ?_, fun b => ?_⟩
        · rw [List.foldlM_cons, add_track_valid _ _ _ hv hbc h2c, Run.ok_bind]
          exact e1
        · rw [e2 b, List.map_cons, List.map_cons, List.sum_cons]
          have he : (asEntry c).1 = some c.1.bin.toNat := by unfold asEntry; rw [hv]; rfl
          have he2 : (asEntry c).2 = c.2.toInt := rfl
          rw [he, he2]
          have ho := (h0 b).isLt
          have hnn := nnl b.val
          by_cases hbb : b = ⟨c.1.bin.toNat, hbc⟩
          · subst hbb
            rw [Arr.set_same, if_pos rfl, reg_toNat_of_lt (by omega) (by norm_num)]
            simp only at hnn ⊢
            omega
          · rw [Arr.set_ne _ _ hbb, if_neg (fun e => hbb (by
              apply Fin.ext
              injection e with e
              exact e.symm)), Int.zero_add]
  obtain ⟨hist, e1, e2⟩ := key calls (fun _ => 0) hb hp
  refine ⟨hist, e1, fun b => ?_⟩
  rw [e2 b]
  unfold binContent
  have : (((0 : PtSum).toNat : Nat) : Int) = 0 := rfl
  rw [this, Int.zero_add]

theorem arr_set_self {n : Nat} {α : Type} (a : Arr n α) (i : Fin n) : a.set i (a i) = a := by
  funext j
  unfold Arr.set
  split
  · rename_i h; rw [h]
  · rfl

/-- One track of the reference is one call of the firmware, for non-negative pt. -/
theorem ref_add_eq (t : TkObj) (hp : 0 ≤ t.hwPt.toInt) (hist : Arr BHV_NBINS PtSum) :
    bhv_ref_add t hist = bhv_add_track (fetch_bin_ref t.hwZ0) t.hwPt hist := by
  obtain ⟨hb, _⟩ := fetch_bin_spec t.hwZ0
  obtain ⟨h1, h2, h3⟩ := halfpt t.hwPt hp
  have hr := pt_range t.hwPt
  have e : shr t.hwPt.toInt 1 = t.hwPt.toInt / 2 := rfl
  cases hv : (fetch_bin_ref t.hwZ0).valid with
  | false =>
    rw [add_track_invalid _ _ _ hv]
    unfold bhv_ref_add
    simp only [hv]
    split
    · unfold cassert
      rw [if_pos (by simpa using hb)]
      rfl
    · rfl
  | true =>
    rw [add_track_valid _ _ _ hv hb hp]
    have ho := (hist ⟨(fetch_bin_ref t.hwZ0).bin.toNat, hb⟩).isLt
    unfold bhv_ref_add
    simp only [hv]
    split
    · unfold cassert
      rw [if_pos (by simpa using hb), Run.ok_bind, if_pos trivial, Arr.read_ok hist hb, Run.ok_bind,
        Arr.write_ok _ _ hb, h1]
      congr 3
      unfold BHV_MAXBIN
      split <;> omega
    · rename_i hz
      rw [e, reg16_toInt (by omega) (by omega)] at hz
      have : vtxPt t.hwPt.toInt = 0 := by unfold vtxPt; omega
      rw [this, Int.add_zero, min_eq_right (by omega)]
      have hself : reg 9 ((hist ⟨(fetch_bin_ref t.hwZ0).bin.toNat, hb⟩).toNat : Int) =
          hist ⟨(fetch_bin_ref t.hwZ0).bin.toNat, hb⟩ := by
        apply BitVec.eq_of_toNat_eq
        have := reg_toNat_of_lt (w := 9) (x := ((hist ⟨(fetch_bin_ref t.hwZ0).bin.toNat, hb⟩).toNat : Int))
          (by omega) (by norm_num; omega)
        omega
      rw [hself, arr_set_self]

/-! ### First maximum -/

/-- One comparison of the scan. -/
def scanStep (v : Nat → Int) (b : Nat) (s : Nat × Int) : Nat × Int :=
  if v b > s.2 then (b, v b) else s

/-- State of the scan after `m` bins. -/
def ScanInv (v : Nat → Int) (m : Nat) (s : Nat × Int) : Prop :=
  0 ≤ s.2 ∧ (∀ b, b < m → v b ≤ s.2) ∧
  ((s.1 = 0 ∧ s.2 = 0) ∨ (s.1 < m ∧ v s.1 = s.2 ∧ ∀ b, b < s.1 → v b < s.2))

theorem scanInv_step {v : Nat → Int} {m : Nat} {s : Nat × Int} (h : ScanInv v m s) :
    ScanInv v (m + 1) (scanStep v m s) := by
  obtain ⟨h0, h1, h2⟩ := h
  unfold scanStep
  split
  · rename_i hgt
    refine ⟨by show 0 ≤ v m; omega, fun b hb => ?_, Or.inr ⟨by show m < m + 1; omega, rfl, fun b hb => ?_⟩⟩
    · show v b ≤ v m
      by_cases e : b = m
      · rw [e]
      · have := h1 b (by omega); omega
    · show v b < v m
      have := h1 b (by show b < m; exact hb); omega
  · rename_i hgt
    refine ⟨h0, fun b hb => ?_, ?_⟩
    · by_cases e : b = m
      · rw [e]; omega
      · exact h1 b (by omega)
    · rcases h2 with h2 | ⟨a, b, c⟩
      · exact Or.inl h2
      · exact Or.inr ⟨by omega, b, c⟩

/-- The pairwise comparison of the firmware is two steps of the scan. -/
theorem pair_step (v : Nat → Int) (b : Nat) (s : Nat × Int) :
    (if v (b + 1) > v b then if v (b + 1) > s.2 then (b + 1, v (b + 1)) else s
      else if v b > s.2 then (b, v b) else s) = scanStep v (b + 1) (scanStep v b s) := by
  unfold scanStep
  by_cases h1 : v (b + 1) > v b
  · rw [if_pos h1]
    by_cases h2 : v b > s.2
    · rw [if_pos h2, if_pos (by omega), if_pos h1]
    · rw [if_neg h2]
  · rw [if_neg h1]
    by_cases h2 : v b > s.2
    · rw [if_pos h2, if_neg h1]
    · rw [if_neg h2, if_neg (by omega)]

theorem scanInv_final {n : Nat} {v : Nat → Int} {s : Nat × Int} (hn : 0 < n) (hv : ∀ b, 0 ≤ v b)
    (h : ScanInv v n s) : ∃ hb : s.1 < n, FirstMax (fun b : Fin n => v b) ⟨s.1, hb⟩ ∧ s.2 = v s.1 := by
  obtain ⟨h0, h1, h2⟩ := h
  rcases h2 with ⟨e1, e2⟩ | ⟨a, b, c⟩
  · have hz : v 0 = 0 := le_antisymm (by rw [← e2]; exact h1 0 hn) (hv 0)
    refine ⟨by omega, fun b' => ⟨?_, fun hlt => ?_⟩, ?_⟩
    · show v b' ≤ v s.1
      rw [e1, hz, ← e2]; exact h1 b' b'.isLt
    · have : b'.val < s.1 := hlt
      omega
    · rw [e1, e2, hz]
  · refine ⟨a, fun b' => ⟨?_, fun hlt => ?_⟩, b.symm⟩
    · show v b' ≤ v s.1
      rw [b]; exact h1 b' b'.isLt
    · show v b' < v s.1
      rw [b]; exact c b' hlt

theorem firstMax_unique {n : Nat} {v : Fin n → Int} {a b : Fin n} (ha : FirstMax v a) (hb : FirstMax v b) :
    a = b := by
  rcases lt_trichotomy a b with h | h | h
  · have := (hb a).2 h; have := (ha b).1; omega
  · exact h
  · have := (ha b).2 h; have := (hb a).1; omega

/-! ### Sums over sectors -/

theorem packedBin_range (w : Arr BHV_NHALFBINS TwoPtSums) (b : Nat) :
    0 ≤ packedBin w b ∧ packedBin w b ≤ 511 := by
  unfold packedBin
  split
  · rename_i h
    have := (w ⟨b / 2, h⟩).isLt
    split <;> omega
  · omega

theorem packedTotal_range (hist : Arr NS (Arr BHV_NHALFBINS TwoPtSums)) (b : Nat) :
    0 ≤ packedTotal hist b ∧ packedTotal hist b ≤ NS * 511 := by
  unfold packedTotal
  constructor
  · exact Finset.sum_nonneg (fun i _ => (packedBin_range _ _).1)
  · have := Finset.sum_le_sum (s := Finset.univ) (fun (i : Fin NS) _ => (packedBin_range (hist i) b).2)
    simpa using this

theorem pair_sums_eq (hist : Arr NS (Arr BHV_NHALFBINS TwoPtSums)) (i : Fin BHV_NHALFBINS)
    (hcap : NS * 511 ≤ 2147483647) :
    bhv_pair_sums hist i = .ok (packedTotal hist (2 * i.val + 1), packedTotal hist (2 * i.val)) := by
  have e1 : ∀ is, (((hist is i).extractLsb' 0 9).toNat : Int) = packedBin (hist is) (2 * i.val + 1) := by
    intro is
    unfold packedBin
    rw [dif_pos (by rw [show (2 * i.val + 1) / 2 = i.val by omega]; exact i.isLt), if_neg (by omega)]
    have : (⟨(2 * i.val + 1) / 2, by rw [show (2 * i.val + 1) / 2 = i.val by omega]; exact i.isLt⟩ :
      Fin BHV_NHALFBINS) = i := Fin.ext (by show (2 * i.val + 1) / 2 = i.val; omega)
    rw [this]
    simp [BitVec.extractLsb'_toNat]
  have e2 : ∀ is, (((hist is i).extractLsb' 9 9).toNat : Int) = packedBin (hist is) (2 * i.val) := by
    intro is
    unfold packedBin
    rw [dif_pos (by rw [show (2 * i.val) / 2 = i.val by omega]; exact i.isLt), if_pos (by omega)]
    have : (⟨(2 * i.val) / 2, by rw [show (2 * i.val) / 2 = i.val by omega]; exact i.isLt⟩ :
      Fin BHV_NHALFBINS) = i := Fin.ext (by show (2 * i.val) / 2 = i.val; omega)
    rw [this]
    have := (hist is i).isLt
    simp only [BitVec.extractLsb'_toNat, Nat.shiftRight_eq_div_pow]
    omega
  have key : ∀ (l : List (Fin NS)) (a b : Int), 0 ≤ a → 0 ≤ b →
      a + l.length * 511 ≤ 2147483647 → b + l.length * 511 ≤ 2147483647 →
      l.foldlM (fun (s : Int × Int) is => (do
        let sum1 ← cint (s.1 + packedBin (hist is) (2 * i.val + 1))
        let sum2 ← cint (s.2 + packedBin (hist is) (2 * i.val))
        .ok (sum1, sum2) : Run (Int × Int))) (a, b) =
      .ok (a + (l.map fun is => packedBin (hist is) (2 * i.val + 1)).sum,
           b + (l.map fun is => packedBin (hist is) (2 * i.val)).sum) := by
    intro l
    induction l with
    | nil => intro a b _ _ _ _; simp; rfl
    | cons is l ih =>
      intro a b ha hb h1 h2
      have r1 := packedBin_range (hist is) (2 * i.val + 1)
      have r2 := packedBin_range (hist is) (2 * i.val)
      simp only [List.length_cons, Nat.cast_add, Nat.cast_one] at h1 h2
      rw [List.foldlM_cons, cint_ok (by omega) (by nlinarith), Run.ok_bind,
        cint_ok (by omega) (by nlinarith), Run.ok_bind, Run.ok_bind,
        ih _ _ (by omega) (by omega) (by nlinarith) (by nlinarith)]
      simp only [List.map_cons, List.sum_cons, Int.add_assoc]
  have hlen : (List.finRange NS).length = NS := List.length_finRange
  have := key (List.finRange NS) 0 0 (le_refl _) (le_refl _) (by rw [hlen]; omega)
    (by rw [hlen]; omega)
  rw [Int.zero_add, Int.zero_add] at this
  unfold bhv_pair_sums loopM packedTotal
  rw [Fin.sum_univ_def, Fin.sum_univ_def, ← this]
  simp only [e1, e2]

/-- The firmware scan returns the first maximum and its total. -/
theorem find_pv_spec (hist : Arr NS (Arr BHV_NHALFBINS TwoPtSums)) (hcap : NS * 511 ≤ 32767) :
    ∃ bin sum, bhv_find_pv hist = .ok (bin, sum) ∧ ∃ hb : bin.toNat < BHV_NBINS,
      FirstMax (fun b : Fin BHV_NBINS => packedTotal hist b) ⟨bin.toNat, hb⟩ ∧
      sum.toInt = packedTotal hist bin.toNat := by
  obtain ⟨s, h1, h2⟩ := loopM_induct (n := BHV_NHALFBINS)
    (fun m (s : ZBin × Int) => m ≤ BHV_NHALFBINS ∧
      ∃ r : Nat × Int, ScanInv (packedTotal hist) (2 * m) r ∧ s = (reg 10 (r.1 : Int), r.2) ∧ r.1 < 72)
    (fun i (s : ZBin × Int) => (do
      let (sum1, sum2) ← bhv_pair_sums hist i
      .ok (if sum1 > sum2 then
            if sum1 > s.2 then (reg 10 (2 * (i.val : Int) + 1), sum1) else s
          else if sum2 > s.2 then (reg 10 (2 * (i.val : Int)), sum2) else s) : Run (ZBin × Int)))
    ((0 : ZBin), (0 : Int))
    ⟨by decide, (0, 0), ⟨le_refl _, fun b hb => absurd hb (by omega), Or.inl ⟨rfl, rfl⟩⟩, rfl, by decide⟩
    (by
      rintro i s ⟨_, r, hr, rfl, hlt⟩
      have hi : i.val < 36 := i.isLt
      rw [pair_sums_eq hist i (by omega), Run.ok_bind]
      refine ⟨_, rfl, by show i.val + 1 ≤ 36; omega,
        scanStep (packedTotal hist) (2 * i.val + 1) (scanStep (packedTotal hist) (2 * i.val) r), ?_, ?_, ?_⟩
      · have := scanInv_step (scanInv_step hr)
        exact this
      · rw [← pair_step]
        simp only []
        split
        · split
          · push_cast; rfl
          · rfl
        · split
          · push_cast; rfl
          · rfl
      · have a1 : ∀ (v : Nat → Int) (b : Nat) (r : Nat × Int), b < 72 → r.1 < 72 → (scanStep v b r).1 < 72 := by
          intro v b r h1 h2
          unfold scanStep
          split
          · exact h1
          · exact h2
        exact a1 _ _ _ (by omega) (a1 _ _ _ (by omega) hlt))
  obtain ⟨_, r, hr, rfl, hlt⟩ := h2
  obtain ⟨hb, hmax, hsum⟩ := scanInv_final (n := BHV_NBINS) (by decide)
    (fun b => (packedTotal_range hist b).1) hr
  have hbin : (reg 10 (r.1 : Int)).toNat = r.1 := by
    have := reg_toNat_of_lt (w := 10) (x := (r.1 : Int)) (by omega) (by norm_num; omega)
    omega
  refine ⟨reg 10 (r.1 : Int), reg 16 r.2, ?_, ?_⟩
  · unfold bhv_find_pv
    rw [h1]; rfl
  · refine ⟨by rw [hbin]; exact hb, ?_, ?_⟩
    · have : (⟨(reg 10 (r.1 : Int)).toNat, by rw [hbin]; exact hb⟩ : Fin BHV_NBINS) = ⟨r.1, hb⟩ := Fin.ext hbin
      rw [this]; exact hmax
    · rw [hbin, ← hsum]
      have := packedTotal_range hist r.1
      rw [reg16_toInt (by omega) (by rw [hsum]; push_cast at *; omega)]

theorem packedBin_pack (h : Arr BHV_NBINS PtSum) (b : Fin BHV_NBINS) :
    packedBin (bhv_pack h) b = (h b).toNat := by
  have hb : b.val < 72 := b.isLt
  unfold packedBin
  rw [dif_pos (show b.val / 2 < 36 by omega)]
  have hw : ∀ (x y : BitVec 9), ((x ++ y : BitVec (9 + 9)).toNat) = x.toNat * 512 + y.toNat := by
    intro x y
    rw [BitVec.toNat_append, ← Nat.shiftLeft_add_eq_or_of_lt y.isLt, Nat.shiftLeft_eq]
  unfold bhv_pack
  simp only [hw]
  have hx := fun b => (h b).isLt
  by_cases he : b.val % 2 = 0
  · rw [if_pos he]
    have : (⟨2 * (b.val / 2), by show 2 * (b.val / 2) < 72; omega⟩ : Fin BHV_NBINS) = b :=
      Fin.ext (by show 2 * (b.val / 2) = b.val; omega)
    rw [this]
    have := hx ⟨2 * (b.val / 2) + 1, by show 2 * (b.val / 2) + 1 < 72; omega⟩
    omega
  · rw [if_neg he]
    have : (⟨2 * (b.val / 2) + 1, by show 2 * (b.val / 2) + 1 < 72; omega⟩ : Fin BHV_NBINS) = b :=
      Fin.ext (by show 2 * (b.val / 2) + 1 = b.val; omega)
    rw [this]
    have := hx b
    omega

/-- The reference scan returns the first maximum and its total. -/
theorem ref_scan_spec (histos : Arr NS (Arr BHV_NBINS PtSum)) (hcap : NS * 511 ≤ 2147483647) :
    ∃ b : Fin BHV_NBINS, loopM (fun (b : Fin BHV_NBINS) (s : Int × Int) => (do
        let sum ← loopM (fun is sum => cint (sum + ((histos is b).toNat : Int))) 0
        .ok (if sum > s.2 then ((b.val : Int), sum) else s) : Run (Int × Int))) ((0 : Int), (0 : Int)) =
      .ok ((b.val : Int), ∑ is, ((histos is b).toNat : Int)) ∧
      FirstMax (fun b : Fin BHV_NBINS => ∑ is, ((histos is b).toNat : Int)) b := by
  let v : Nat → Int := fun b => if h : b < BHV_NBINS then ∑ is, ((histos is ⟨b, h⟩).toNat : Int) else 0
  have hvb : ∀ b : Fin BHV_NBINS, v b = ∑ is, ((histos is b).toNat : Int) := by
    intro b
    simp only [v, dif_pos b.isLt]
  have hv0 : ∀ b, 0 ≤ v b := by
    intro b
    simp only [v]
    split
    · exact Finset.sum_nonneg (fun i _ => by omega)
    · exact le_refl _
  have hsum : ∀ b : Fin BHV_NBINS, loopM (fun is sum => cint (sum + ((histos is b).toNat : Int))) 0 =
      .ok (v b) := by
    intro b
    have key : ∀ (l : List (Fin NS)) (a : Int), 0 ≤ a → a + l.length * 511 ≤ 2147483647 →
        l.foldlM (fun (s : Int) is => cint (s + ((histos is b).toNat : Int))) a =
        .ok (a + (l.map fun is => ((histos is b).toNat : Int)).sum) := by
      intro l
      induction l with
      | nil => intro a _ _; simp; rfl
      | cons is l ih =>
        intro a ha h1
        have r1 := (histos is b).isLt
        simp only [List.length_cons, Nat.cast_add, Nat.cast_one] at h1
        have r2 : ((histos is b).toNat : Int) ≤ 511 := by omega
        rw [List.foldlM_cons, cint_ok (by omega) (by nlinarith), Run.ok_bind,
          ih _ (by omega) (by nlinarith)]
        simp only [List.map_cons, List.sum_cons, Int.add_assoc]
    have hlen : (List.finRange NS).length = NS := List.length_finRange
    have := key (List.finRange NS) 0 (le_refl _) (by rw [hlen]; omega)
    rw [Int.zero_add] at this
    rw [hvb, Fin.sum_univ_def]
    exact this
  obtain ⟨s, h1, r, hr, rfl⟩ := loopM_induct (n := BHV_NBINS)
    (fun m (s : Int × Int) => ∃ r : Nat × Int, ScanInv v m r ∧ s = ((r.1 : Int), r.2))
    (fun (b : Fin BHV_NBINS) (s : Int × Int) => (do
        let sum ← loopM (fun is sum => cint (sum + ((histos is b).toNat : Int))) 0
        .ok (if sum > s.2 then ((b.val : Int), sum) else s) : Run (Int × Int)))
    ((0 : Int), (0 : Int)) ⟨(0, 0), ⟨le_refl _, fun b hb => absurd hb (by omega), Or.inl ⟨rfl, rfl⟩⟩, rfl⟩
    (by
      rintro b s ⟨r, hr, rfl⟩
      rw [hsum b, Run.ok_bind]
      refine ⟨_, rfl, scanStep v b r, scanInv_step hr, ?_⟩
      unfold scanStep
      split <;> rfl)
  obtain ⟨hb, hmax, hs⟩ := scanInv_final (n := BHV_NBINS) (by decide) hv0 hr
  refine ⟨⟨r.1, hb⟩, ?_, ?_⟩
  · rw [h1, hs, ← hvb ⟨r.1, hb⟩]
  · have : (fun b : Fin BHV_NBINS => ∑ is, ((histos is b).toNat : Int)) = fun b : Fin BHV_NBINS => v b.val := by
      funext b; exact (hvb b).symm
    rw [this]; exact hmax

theorem fill_spec (tracks : Arr NTK TkObj) (hp : ∀ t, 0 ≤ (tracks t).hwPt.toInt) :
    ∃ hist, bhv_fill tracks = .ok hist ∧
      ∀ b : Fin BHV_NBINS, ((hist b).toNat : Int) = binContent (trackEntries tracks) b := by
  obtain ⟨hist, h1, h2⟩ := fill_calls
    ((List.finRange NTK).map fun it => (fetch_bin_ref (tracks it).hwZ0, (tracks it).hwPt))
    (by
      intro c hc _
      obtain ⟨t, _, rfl⟩ := List.mem_map.mp hc
      exact (fetch_bin_spec _).1)
    (by
      intro c hc
      obtain ⟨t, _, rfl⟩ := List.mem_map.mp hc
      exact hp t)
  refine ⟨hist, ?_, fun b => ?_⟩
  · unfold bhv_fill loopM
    rw [List.foldlM_map] at h1
    exact h1
  · rw [h2 b, List.map_map]
    unfold trackEntries
    congr 2
    funext t
    show asEntry (fetch_bin_ref (tracks t).hwZ0, (tracks t).hwPt) = _
    unfold asEntry
    rw [(fetch_bin_spec _).2]

theorem ref_fill_eq (tracks : Arr NTK TkObj) (hp : ∀ t, 0 ≤ (tracks t).hwPt.toInt) :
    loopM (fun it h => bhv_ref_add (tracks it) h) (fun _ => 0) = bhv_fill tracks := by
  unfold bhv_fill
  congr 1
  funext it h
  exact ref_add_eq _ (hp it) h

end Verif
