import Verif.Proofs.BramHist
/-! # C26–C29 — the histogram vertex finder -/
namespace Verif
open Spec
open scoped BigOperators

variable {NS NTK : Nat}

/-- Both programs, against the specification: the vertex bin is the first maximum of the totals over
the sectors of the saturated bins. -/
theorem bhv_both (tracks : Arr NS (Arr NTK TkObj)) (hp : ∀ s t, 0 ≤ (tracks s t).hwPt.toInt)
    (hcap : NS * 511 ≤ 32767) :
    ∃ b : Fin BHV_NBINS,
      FirstMax (fun b : Fin BHV_NBINS => ∑ s, binContent (trackEntries (tracks s)) b) b ∧
      (∃ sum : Pt, bhv_chain tracks = .ok (reg 10 (b.val : Int), bin_center_ref (reg 10 (b.val : Int)), sum) ∧
        sum.toInt = ∑ s, binContent (trackEntries (tracks s)) b) ∧
      bhv_find_pv_ref tracks = .ok (reg 10 (b.val : Int), bin_center_ref (reg 10 (b.val : Int)),
        ∑ s, binContent (trackEntries (tracks s)) b) := by
  have hf := fun s => fill_spec (tracks s) (hp s)
  let histos : Arr NS (Arr BHV_NBINS PtSum) := fun s => Classical.choose (hf s)
  have h1 : ∀ s, bhv_fill (tracks s) = .ok (histos s) := fun s => (Classical.choose_spec (hf s)).1
  have h2 : ∀ s (b : Fin BHV_NBINS), ((histos s b).toNat : Int) = binContent (trackEntries (tracks s)) b :=
    fun s => (Classical.choose_spec (hf s)).2
  have htot : ∀ b : Fin BHV_NBINS, ∑ s, ((histos s b).toNat : Int) =
      ∑ s, binContent (trackEntries (tracks s)) b :=
    fun b => Finset.sum_congr rfl (fun s _ => h2 s b)
  obtain ⟨b, hb, hmax⟩ := ref_scan_spec histos (by omega)
  refine ⟨b, ?_, ?_, ?_⟩
  · have : (fun b : Fin BHV_NBINS => ∑ s, ((histos s b).toNat : Int)) =
        fun b : Fin BHV_NBINS => ∑ s, binContent (trackEntries (tracks s)) b := funext htot
    rw [← this]; exact hmax
  · obtain ⟨bin, sum, f1, fb, f2, f3⟩ := find_pv_spec (fun s => bhv_pack (histos s)) hcap
    have hpk : ∀ b : Fin BHV_NBINS, packedTotal (fun s => bhv_pack (histos s)) b =
        ∑ s, ((histos s b).toNat : Int) := by
      intro b
      unfold packedTotal
      exact Finset.sum_congr rfl (fun s _ => packedBin_pack (histos s) b)
    have hfun : (fun b : Fin BHV_NBINS => packedTotal (fun s => bhv_pack (histos s)) b) =
        fun b : Fin BHV_NBINS => ∑ s, ((histos s b).toNat : Int) := funext hpk
    rw [hfun] at f2
    have hbb := firstMax_unique f2 hmax
    have hbin : bin = reg 10 (b.val : Int) := by
      apply BitVec.eq_of_toNat_eq
      have h72 : b.val < 72 := b.isLt
      have := reg_toNat_of_lt (w := 10) (x := (b.val : Int)) (by omega) (by norm_num; omega)
      have h3 := congrArg Fin.val hbb
      simp only at h3
      omega
    refine ⟨sum, ?_, ?_⟩
    · unfold bhv_chain
      rw [(buildM_eq_ok (a := fun s => bhv_pack (histos s))).mpr (fun s => by rw [h1 s]; rfl), Run.ok_bind,
        f1, Run.ok_bind, hbin]
    · rw [f3, ← htot, ← hbb]
      exact hpk ⟨bin.toNat, fb⟩
  · unfold bhv_find_pv_ref bhv_ref_histos
    rw [(buildM_eq_ok (a := histos)).mpr (fun s => by rw [ref_fill_eq (tracks s) (hp s)]; exact h1 s), Run.ok_bind,
      hb, Run.ok_bind, htot]

/-- **C26.** The firmware chain and the reference return the same bin, vertex and sum; neither faults,
and the result is the one of the specification. -/
theorem C26_firmware_eq_ref (tracks : Arr NS (Arr NTK TkObj)) (hp : ∀ s t, 0 ≤ (tracks s t).hwPt.toInt)
    (hcap : NS * 511 ≤ 32767) :
    ∃ (bin : ZBin) (z : Z0) (sum : Pt),
      bhv_chain tracks = .ok (bin, z, sum) ∧ bhv_find_pv_ref tracks = .ok (bin, z, sum.toInt) ∧
      ∃ b : Fin 72, bin.toNat = b.val ∧ z.toInt = 8 * (b.val : Int) - 284 ∧
        FirstMax (fun b : Fin 72 => ∑ s, binContent (trackEntries (tracks s)) b) b ∧
        sum.toInt = ∑ s, binContent (trackEntries (tracks s)) b := by
  obtain ⟨b, h1, ⟨sum, h2, h3⟩, h4⟩ := bhv_both tracks hp hcap
  have h72 : b.val < 72 := b.isLt
  have hbn := reg_toNat_of_lt (w := 10) (x := (b.val : Int)) (by omega) (by norm_num; omega)
  refine ⟨_, _, sum, h2, by rw [h4, h3], b, by omega, ?_, h1, h3⟩
  unfold bin_center_ref
  simp only [hbn]
  rw [reg10_toInt]
  · show ((b.val : Int) - 36) * 8 + 4 = _; omega
  · show -512 ≤ ((b.val : Int) - 36) * 8 + 4; omega
  · show ((b.val : Int) - 36) * 8 + 4 < 512; omega

/-- The sector count of the source, `2*N_IN_SECTORS = 24`, is within the capacity. -/
example : 24 * 511 ≤ 32767 := by decide

def oneTrack (pt z0 : Int) : Arr 1 (Arr 1 TkObj) := fun _ _ => { TkObj.clear with hwPt := reg 16 pt, hwZ0 := reg 10 z0 }

/-- A track of 10 GeV at z0 = 100 puts the vertex in bin 48. -/
example : (bhv_chain (oneTrack 40 100)).map (fun r => (r.1.toNat, r.2.1.toInt, r.2.2.toInt)) = .ok (48, 100, 20) ∧
    (bhv_find_pv_ref (oneTrack 40 100)).map (fun r => (r.1.toNat, r.2.1.toInt, r.2.2)) = .ok (48, 100, 20) := by
  decide +kernel

/-- Without `0 ≤ pt` they differ: a negative pt fills the firmware bin to 511, the reference skips it. -/
theorem C26_negative_pt_differs :
    (bhv_chain (oneTrack (-2) 100)).map (fun r => (r.1.toNat, r.2.2.toInt)) = .ok (48, 511) ∧
    (bhv_find_pv_ref (oneTrack (-2) 100)).map (fun r => (r.1.toNat, r.2.2)) = .ok (0, 0) := by
  decide +kernel

/-- **C27.** After any sequence of calls on a cleared histogram every bin holds the saturated sum. -/
theorem C27_bins_saturate (calls : List (ZBinV × Pt))
    (hb : ∀ c ∈ calls, c.1.valid = true → c.1.bin.toNat < 72) (hp : ∀ c ∈ calls, 0 ≤ c.2.toInt) :
    ∃ hist, calls.foldlM (fun h c => bhv_add_track c.1 c.2 h) (fun _ => (0 : PtSum)) = .ok hist ∧
      ∀ b : Fin 72, ((hist b).toNat : Int) =
        min 511 ((calls.map fun c => if c.1.valid = true ∧ c.1.bin.toNat = b.val then min 100 (c.2.toInt / 2) else 0).sum) := by
  obtain ⟨hist, h1, h2⟩ := fill_calls calls hb hp
  refine ⟨hist, h1, fun b => ?_⟩
  rw [h2 b]
  unfold binContent vtxPt
  rw [List.map_map]
  congr 3
  funext c
  show (if (asEntry c).1 = some b.val then min 100 (c.2.toInt / 2) else 0) = _
  unfold asEntry
  cases c.1.valid <;> simp

/-- **C27.** The order of the calls does not matter. -/
theorem C27_order_irrelevant {calls calls' : List (ZBinV × Pt)} (hperm : calls.Perm calls')
    (hb : ∀ c ∈ calls, c.1.valid = true → c.1.bin.toNat < 72) (hp : ∀ c ∈ calls, 0 ≤ c.2.toInt) :
    calls.foldlM (fun h c => bhv_add_track c.1 c.2 h) (fun _ => (0 : PtSum)) =
    calls'.foldlM (fun h c => bhv_add_track c.1 c.2 h) (fun _ => (0 : PtSum)) := by
  obtain ⟨h1, e1, f1⟩ := C27_bins_saturate calls hb hp
  obtain ⟨h2, e2, f2⟩ := C27_bins_saturate calls' (fun c hc => hb c (hperm.mem_iff.mpr hc))
    (fun c hc => hp c (hperm.mem_iff.mpr hc))
  rw [e1, e2]
  congr 1
  funext b
  apply BitVec.eq_of_toNat_eq
  have a := f1 b
  have c := f2 b
  rw [(hperm.map _).sum_eq, ← c] at a
  exact_mod_cast a

/-- Three tracks in bin 5 saturate nothing, six large ones do. -/
example : (([(⟨5, true⟩, 40), (⟨5, true⟩, 1000), (⟨6, false⟩, 9)] : List (ZBinV × Pt)).foldlM
      (fun h c => bhv_add_track c.1 c.2 h) (fun _ => (0 : PtSum))).map
        (fun h => ((h 5).toNat, (h 6).toNat)) = .ok (120, 0) ∧
    ((List.replicate 6 ((⟨5, true⟩, 1000) : ZBinV × Pt)).foldlM
      (fun h c => bhv_add_track c.1 c.2 h) (fun _ => (0 : PtSum))).map
        (fun h => (h 5).toNat) = .ok 511 := by decide +kernel

/-- The bound on the bin is needed: the firmware does not check it. -/
theorem C27_bin_unchecked (bin : ZBin) (h : 72 ≤ bin.toNat) (p : Pt) (hist : Arr BHV_NBINS PtSum) :
    bhv_add_track ⟨bin, true⟩ p hist = .error .oob := by
  unfold bhv_add_track
  rw [if_pos rfl]
  simp only [Arr.read]
  rw [dif_neg (show ¬ bin.toNat < 72 by omega)]
  rfl

/-- **C28.** On any packed histogram `bhv_find_pv` returns the first maximal bin and its total. -/
theorem C28_first_max (hist : Arr NS (Arr 36 (BitVec 18))) (hcap : NS * 511 ≤ 32767) :
    ∃ bin sum, bhv_find_pv hist = .ok (bin, sum) ∧ ∃ hb : bin.toNat < 72,
      FirstMax (fun b : Fin 72 => packedTotal hist b) ⟨bin.toNat, hb⟩ ∧
      sum.toInt = packedTotal hist bin.toNat := find_pv_spec hist hcap

/-- **C28.** Everything empty: bin 0 and sum 0. -/
theorem C28_empty (hcap : NS * 511 ≤ 32767) :
    bhv_find_pv (fun (_ : Fin NS) (_ : Fin 36) => (0 : BitVec 18)) = .ok (0, 0) := by
  obtain ⟨bin, sum, h1, hb, h2, h3⟩ := C28_first_max (NS := NS) (fun _ _ => 0) hcap
  have hz : ∀ b, packedTotal (fun (_ : Fin NS) (_ : Fin 36) => (0 : BitVec 18)) b = 0 := by
    intro b
    unfold packedTotal packedBin
    apply Finset.sum_eq_zero
    intro s _
    split
    · split <;> simp
    · rfl
  rw [h1]
  rw [hz] at h3
  have hs : sum = 0 := BitVec.eq_of_toInt_eq (by rw [h3]; rfl)
  have hbin : bin = 0 := by
    by_contra hne
    have hpos : 0 < bin.toNat := Nat.pos_of_ne_zero (fun h => hne (BitVec.eq_of_toNat_eq h))
    have := (h2 ⟨0, by decide⟩).2 (by exact hpos)
    simp only [hz] at this
    omega
  rw [hs, hbin]

/-- Ties go to the lower bin; two sectors add. -/
example : (bhv_find_pv (NS := 2) (fun s i => if i = 7 then (3 * 512 + 3 : BitVec 18) else
      if i = 8 ∧ s = 0 then 6 else 0)).map (fun r => (r.1.toNat, r.2.toInt)) = .ok (14, 6) := by decide +kernel

/-- **C29.** Binning: validity, range, centre within half a bin, centre in the same bin. -/
theorem C29_binning (z : Z0) :
    ((fetch_bin_ref z).valid = true ↔ -288 ≤ z.toInt ∧ z.toInt ≤ 287) ∧
    (fetch_bin_ref z).bin.toNat < 72 ∧
    ((fetch_bin_ref z).valid = true →
      -4 ≤ z.toInt - (bin_center_ref (fetch_bin_ref z).bin).toInt ∧
      z.toInt - (bin_center_ref (fetch_bin_ref z).bin).toInt < 4 ∧
      fetch_bin_ref (bin_center_ref (fetch_bin_ref z).bin) = fetch_bin_ref z) := by
  revert z
  decide +kernel

/-- **C29.** Every bin is the bin of its centre. -/
theorem C29_center (b : ZBin) (h : b.toNat < 72) : fetch_bin_ref (bin_center_ref b) = ⟨b, true⟩ := by
  revert b
  decide +kernel

example : fetch_bin_ref 100 = ⟨48, true⟩ := by decide

end Verif
