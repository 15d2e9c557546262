import Verif.Spec.VertexUse
import Verif.Props.BramHist
import Verif.Props.Puppi
/-! # C83, C84 — the vertex as PUPPI uses it, and its stability -/
namespace Verif
open Spec
open scoped BigOperators
variable {NS NTK NT NN : Nat}

/-- The result of the firmware chain, by the specification. -/
theorem chain_spec {tracks : Arr NS (Arr NTK TkObj)} (hp : ∀ s t, 0 ≤ (tracks s t).hwPt.toInt) (hcap : NS * 511 ≤ 32767)
    {bin : ZBin} {z : Z0} {sum : Pt} (h : bhv_chain tracks = .ok (bin, z, sum)) :
    ∃ b : Fin 72, bin.toNat = b.val ∧ z.toInt = 8 * (b.val : Int) - 284 ∧
      FirstMax (fun b : Fin 72 => ∑ s, binContent (trackEntries (tracks s)) b) b ∧
      sum.toInt = ∑ s, binContent (trackEntries (tracks s)) b := by
  obtain ⟨bin', z', sum', h1, -, h2⟩ := C26_firmware_eq_ref tracks hp hcap
  rw [h] at h1
  obtain ⟨rfl, rfl, rfl⟩ : bin = bin' ∧ z = z' ∧ sum = sum' := by
    simpa only [Except.ok.injEq, Prod.mk.injEq] using h1
  exact h2

/-! ### C83 -/

/-- **C83.** A track of the chosen bin, and every track within 12.6 cm of one, is compatible with the vertex
according to PUPPI: whether it counts for a neutral depends only on the cone. -/
theorem C83_voters_count (tracks : Arr NS (Arr NTK TkObj)) (hp : ∀ s t, 0 ≤ (tracks s t).hwPt.toInt) (hcap : NS * 511 ≤ 32767)
    {bin : ZBin} {z : Z0} {sum : Pt} (h : bhv_chain tracks = .ok (bin, z, sum)) (s : Fin NS) (t : Fin NTK)
    (hv : fetch_bin_ref (tracks s t).hwZ0 = ⟨bin, true⟩) (c : PFChargedObj)
    (hc : (c.hwZ0.toInt - (tracks s t).hwZ0.toInt).natAbs ≤ 252) (ne : PFNeutralObj) :
    PuppiNear z ne c ↔ dist2 c.hwEta c.hwPhi ne.hwEta ne.hwPhi ≤ 8404 := by
  obtain ⟨b, h1, h2, -, -⟩ := chain_spec hp hcap h
  obtain ⟨-, -, b3⟩ := C29_binning (tracks s t).hwZ0
  obtain ⟨b4, b5, -⟩ := b3 (by rw [hv])
  have hcent : (bin_center_ref (fetch_bin_ref (tracks s t).hwZ0).bin).toInt = z.toInt := by
    rw [hv, h2, ← h1]
    have : bin.toNat < 72 := by rw [h1]; exact b.isLt
    show (reg 10 (((bin.toNat : Int) - 36) * 8 + 4)).toInt = _
    rw [reg10_toInt (by omega) (by omega)]
    omega
  unfold PuppiNear
  constructor
  · exact fun x => x.2
  · exact fun x => ⟨by omega, x⟩

/-- **C83.** Which tracks of the histogram PUPPI accepts, by the distance in bins between the track and the
vertex: all up to 31 bins, none from 33 bins, and at 32 bins the nearer half of the bin (with its middle, on the upper side). -/
theorem C83_window (bin : ZBin) (hb : bin.toNat < 72) (zt : Z0) (hv : (fetch_bin_ref zt).valid = true) :
    (bin_center_ref bin).toInt = 8 * (bin.toNat : Int) - 284 ∧
    (((bin_center_ref bin).toInt - zt.toInt).natAbs ≤ 256 ↔
      ((fetch_bin_ref zt).bin.toNat : Int) - bin.toNat ≤ 31 ∧ (bin.toNat : Int) - (fetch_bin_ref zt).bin.toNat ≤ 31 ∨
      ((fetch_bin_ref zt).bin.toNat : Int) - bin.toNat = 32 ∧ zt.toInt % 8 ≤ 4 ∨
      (bin.toNat : Int) - (fetch_bin_ref zt).bin.toNat = 32 ∧ 4 ≤ zt.toInt % 8) := by
  have hc : (bin_center_ref bin).toInt = 8 * (bin.toNat : Int) - 284 := by
    show (reg 10 (((bin.toNat : Int) - 36) * 8 + 4)).toInt = _
    rw [reg10_toInt (by omega) (by omega)]
    omega
  refine ⟨hc, ?_⟩
  have hbin : ((fetch_bin_ref zt).bin.toNat : Int) = zt.toInt / 8 + 36 := by
    revert hv
    revert zt
    decide +kernel
  rw [hc, hbin]
  omega

/-- **C83.** If no track votes, the vertex is the first bin, 14.2 cm from the centre: PUPPI then accepts
exactly the tracks below -1.4 cm. -/
theorem C83_no_votes (tracks : Arr NS (Arr NTK TkObj)) (hp : ∀ s t, 0 ≤ (tracks s t).hwPt.toInt) (hcap : NS * 511 ≤ 32767)
    (hno : ∀ s t, ¬ Votes (tracks s t)) :
    bhv_chain tracks = .ok (0, reg 10 (-284), 0) ∧
    ∀ (c : PFChargedObj) (ne : PFNeutralObj), PuppiNear (reg 10 (-284)) ne c ↔
      c.hwZ0.toInt ≤ -28 ∧ dist2 c.hwEta c.hwPhi ne.hwEta ne.hwPhi ≤ 8404 := by
  have hz : (reg 10 (-284)).toInt = -284 := by decide
  constructor
  · obtain ⟨bin, z, sum, h1, -, b, h2, h3, h4, h5⟩ := C26_firmware_eq_ref tracks hp hcap
    have zero : ∀ b : Fin 72, ∑ s, binContent (trackEntries (tracks s)) b = 0 := by
      intro b
      refine Finset.sum_eq_zero fun s _ => ?_
      unfold binContent
      rw [List.sum_eq_zero]
      · rfl
      · intro x hx
        unfold trackEntries at hx
        rw [List.map_map, List.mem_map] at hx
        obtain ⟨t, -, rfl⟩ := hx
        show (if zBin (tracks s t).hwZ0.toInt = some b.val then vtxPt (tracks s t).hwPt.toInt else 0) = 0
        by_cases hb : zBin (tracks s t).hwZ0.toInt = some b.val
        · rw [if_pos hb]
          unfold zBin at hb
          by_cases hr : -288 ≤ (tracks s t).hwZ0.toInt ∧ (tracks s t).hwZ0.toInt < 288
          · have : ¬ 2 ≤ (tracks s t).hwPt.toInt := fun h => hno s t ⟨hr.1, hr.2, h⟩
            have := hp s t
            unfold vtxPt
            omega
          · rw [if_neg hr] at hb; exact absurd hb (by simp)
        · rw [if_neg hb]
    have hb0 : b.val = 0 := by
      by_contra hne
      have := (h4 0).2 (by rw [Fin.lt_def]; exact Nat.pos_of_ne_zero hne)
      simp only [zero] at this
      omega
    rw [zero] at h5
    rw [h1, show bin = 0 from BitVec.eq_of_toNat_eq (by rw [h2, hb0]; rfl),
      show sum = 0 from BitVec.eq_of_toInt_eq (by rw [h5]; rfl),
      show z = reg 10 (-284) from BitVec.eq_of_toInt_eq (by rw [h3, hb0, hz]; rfl)]
  · intro c ne
    unfold PuppiNear
    rw [hz]
    have := z0_range c.hwZ0
    constructor
    · rintro ⟨a, b⟩; exact ⟨by omega, b⟩
    · rintro ⟨a, b⟩; exact ⟨by omega, b⟩

/-- **C83**, a concrete chain: a 10 GeV track at 5 cm makes the vertex; a charged candidate with its `hwZ0` counts for a
neutral beside it. -/
example : (bhv_chain (oneTrack 40 100)).map (fun r => r.2.1.toInt) = .ok 100 ∧
    PuppiNear 100 ⟨40, 0, 0, 0, 0⟩ ⟨40, 10, 0, 0, 103⟩ := by decide +kernel

/-- **C83**: a single track just outside the histogram does not vote. At -14.45 cm PUPPI counts it, at 14.4 cm not. -/
theorem C83_one_sided :
    bhv_chain (oneTrack 400 (-289)) = .ok (0, reg 10 (-284), 0) ∧ bhv_chain (oneTrack 400 288) = .ok (0, reg 10 (-284), 0) ∧
    PuppiNear (reg 10 (-284)) ⟨40, 0, 0, 0, 0⟩ ⟨400, 10, 0, 0, reg 10 (-289)⟩ ∧
    ¬ PuppiNear (reg 10 (-284)) ⟨40, 0, 0, 0, 0⟩ ⟨400, 10, 0, 0, reg 10 288⟩ := by decide +kernel

/-! ### C84 -/

theorem binContent_track (tracks : Arr NTK TkObj) (b : Nat) : binContent (trackEntries tracks) b =
    min 511 (∑ t, if zBin (tracks t).hwZ0.toInt = some b then vtxPt (tracks t).hwPt.toInt else 0) := by
  unfold binContent trackEntries
  rw [List.map_map, ← List.sum_ofFn, List.ofFn_eq_map]
  rfl

theorem total_harder {a a' : Arr NS (Arr NTK TkObj)} {s : Fin NS} {t : Fin NTK} (h : Harder a a' s t) (b : Nat) :
    vtxTotal a b ≤ vtxTotal a' b ∧ (zBin (a s t).hwZ0.toInt ≠ some b → vtxTotal a b = vtxTotal a' b) := by
  obtain ⟨h1, h2, h3⟩ := h
  have step : ∀ s' t', (if zBin (a s' t').hwZ0.toInt = some b then vtxPt (a s' t').hwPt.toInt else 0) ≤
      (if zBin (a' s' t').hwZ0.toInt = some b then vtxPt (a' s' t').hwPt.toInt else 0) ∧
      (zBin (a s t).hwZ0.toInt ≠ some b →
        (if zBin (a s' t').hwZ0.toInt = some b then vtxPt (a s' t').hwPt.toInt else 0) =
        (if zBin (a' s' t').hwZ0.toInt = some b then vtxPt (a' s' t').hwPt.toInt else 0)) := by
    intro s' t'
    by_cases hst : s' = s ∧ t' = t
    · obtain ⟨rfl, rfl⟩ := hst
      rw [← h2]
      by_cases hb : zBin (a s' t').hwZ0.toInt = some b
      · rw [if_pos hb, if_pos hb]
        exact ⟨by unfold vtxPt; omega, fun hn => absurd hb hn⟩
      · rw [if_neg hb, if_neg hb]
        exact ⟨le_rfl, fun _ => rfl⟩
    · have : a s' t' = a' s' t' := h1 s' t' (by
        by_cases hs : s' = s
        · exact Or.inr (fun ht => hst ⟨hs, ht⟩)
        · exact Or.inl hs)
      rw [this]
      exact ⟨le_rfl, fun _ => rfl⟩
  unfold vtxTotal
  constructor
  · refine Finset.sum_le_sum fun s' _ => ?_
    rw [binContent_track, binContent_track]
    exact min_le_min le_rfl (Finset.sum_le_sum fun t' _ => (step s' t').1)
  · intro hb
    refine Finset.sum_congr rfl fun s' _ => ?_
    rw [binContent_track, binContent_track]
    congr 1
    exact Finset.sum_congr rfl fun t' _ => (step s' t').2 hb

/-- **C84.** Giving more pt to one track (or filling an empty slot) leaves the vertex where it was or moves it to
the bin of that track; it never moves away from the bin of the track. -/
theorem C84_harder (a a' : Arr NS (Arr NTK TkObj)) (hp : ∀ s t, 0 ≤ (a s t).hwPt.toInt) (hcap : NS * 511 ≤ 32767)
    (s : Fin NS) (t : Fin NTK) (h : Harder a a' s t) :
    ∃ bin z sum bin' z' sum', bhv_chain a = .ok (bin, z, sum) ∧ bhv_chain a' = .ok (bin', z', sum') ∧
      sum.toInt ≤ sum'.toInt ∧ ((bin', z') = (bin, z) ∨ fetch_bin_ref (a s t).hwZ0 = ⟨bin', true⟩) ∧
      (fetch_bin_ref (a s t).hwZ0 = ⟨bin, true⟩ → (bin', z') = (bin, z)) := by
  have hp' : ∀ s t, 0 ≤ (a' s t).hwPt.toInt := by
    intro s' t'
    by_cases hst : s' = s ∧ t' = t
    · obtain ⟨rfl, rfl⟩ := hst
      exact le_trans (hp _ _) h.2.2
    · rw [← h.1 s' t' (by
        by_cases hs : s' = s
        · exact Or.inr (fun ht => hst ⟨hs, ht⟩)
        · exact Or.inl hs)]
      exact hp _ _
  obtain ⟨bin, z, sum, e1, -, b, f1, f2, f3, f4⟩ := C26_firmware_eq_ref a hp hcap
  obtain ⟨bin', z', sum', e1', -, b', f1', f2', f3', f4'⟩ := C26_firmware_eq_ref a' hp' hcap
  have m : ∀ x : Fin 72, vtxTotal a x ≤ vtxTotal a b ∧ (x < b → vtxTotal a x < vtxTotal a b) := f3
  have m' : ∀ x : Fin 72, vtxTotal a' x ≤ vtxTotal a' b' ∧ (x < b' → vtxTotal a' x < vtxTotal a' b') := f3'
  have tb := total_harder h
  have eqz : ∀ x : Fin 72, ∀ n : ZBin, n.toNat = x.val →
      (fetch_bin_ref (a s t).hwZ0 = ⟨n, true⟩ ↔ zBin (a s t).hwZ0.toInt = some x.val) := by
    intro x n hn
    have key : ∀ z : Z0, (fetch_bin_ref z).valid = (zBin z.toInt).isSome ∧
        ((zBin z.toInt).isSome = true → zBin z.toInt = some (fetch_bin_ref z).bin.toNat) := by decide +kernel
    obtain ⟨k1, k2⟩ := key (a s t).hwZ0
    constructor
    · intro e
      rw [k2 (by rw [← k1, e]), e, hn]
    · intro e
      have hv : (fetch_bin_ref (a s t).hwZ0).valid = true := by rw [k1, e]; rfl
      have hb := k2 (by rw [e]; rfl)
      rw [e] at hb
      have hb := Option.some.inj hb
      generalize fetch_bin_ref (a s t).hwZ0 = g at hv hb
      obtain ⟨gb, gv⟩ := g
      simp only at hv hb
      rw [hv, show gb = n from BitVec.eq_of_toNat_eq (by rw [hn, hb])]
  have same : b' = b → (bin', z') = (bin, z) := by
    intro e
    rw [show bin' = bin from BitVec.eq_of_toNat_eq (by rw [f1, f1', e]),
      show z' = z from BitVec.eq_of_toInt_eq (by rw [f2, f2', e])]
  refine ⟨bin, z, sum, bin', z', sum', e1, e1', ?_, ?_, ?_⟩
  · rw [f4, f4']
    exact le_trans (tb b).1 (m' b).1
  · by_cases hb' : zBin (a s t).hwZ0.toInt = some b'.val
    · exact Or.inr ((eqz b' bin' f1').mpr hb')
    · refine Or.inl (same ?_)
      have e' := (tb b').2 hb'
      have := (tb b).1
      rcases lt_trichotomy b b' with hlt | heq | hgt
      · have h1 := (m' b).2 hlt
        have h2 := (m b').1
        omega
      · exact heq.symm
      · have h1 := (m b').2 hgt
        have h2 := (m' b).1
        omega
  · intro hb
    have hb := (eqz b bin f1).mp hb
    refine same ?_
    by_contra hne
    have e' := (tb b').2 (fun e => hne (Fin.ext (Option.some.inj (e.symm.trans hb))))
    have := (tb b).1
    rcases lt_or_gt_of_ne hne with hlt | hgt
    · have h1 := (m b').2 hlt
      have h2 := (m' b).1
      omega
    · have h1 := (m' b).2 hgt
      have h2 := (m b').1
      omega

/-- **C84.** Moving all tracks by `k` bins, if none leaves or enters the histogram, moves the vertex by `k` bins. -/
theorem C84_shift (a a' : Arr NS (Arr NTK TkObj)) (hp : ∀ s t, 0 ≤ (a s t).hwPt.toInt) (hcap : NS * 511 ≤ 32767) (k : Int)
    (h : MovedZ (fun z => z + 8 * k) a a')
    (hin : ∀ s t, 0 < (a s t).hwPt.toInt → -288 ≤ (a s t).hwZ0.toInt ∧ (a s t).hwZ0.toInt < 288 ∧
      -288 ≤ (a s t).hwZ0.toInt + 8 * k ∧ (a s t).hwZ0.toInt + 8 * k < 288)
    (hsome : ∃ s t, 2 ≤ (a s t).hwPt.toInt) :
    ∃ bin z sum bin' z', bhv_chain a = .ok (bin, z, sum) ∧ bhv_chain a' = .ok (bin', z', sum) ∧
      (bin'.toNat : Int) = bin.toNat + k ∧ z'.toInt = z.toInt + 8 * k := by
  have hp' : ∀ s t, 0 ≤ (a' s t).hwPt.toInt := fun s t => by rw [(h s t).1]; exact hp s t
  have tot : ∀ x y : Nat, x < 72 → y < 72 → (y : Int) = x + k → vtxTotal a' y = vtxTotal a x := by
    intro x y hx hy hxy
    unfold vtxTotal
    refine Finset.sum_congr rfl fun s _ => ?_
    rw [binContent_track, binContent_track]
    congr 1
    refine Finset.sum_congr rfl fun t _ => ?_
    rw [(h s t).1]
    rcases (hp s t).lt_or_eq with h0 | h0
    · obtain ⟨r1, r2, r3, r4⟩ := hin s t h0
      refine if_congr ?_ rfl rfl
      unfold zBin
      have r5 : (a' s t).hwZ0.toInt = (a s t).hwZ0.toInt + 8 * k := (h s t).2
      rw [r5, if_pos ⟨r3, r4⟩, if_pos ⟨r1, r2⟩]
      simp only [Option.some.injEq]
      omega
    · rw [← h0]
      by_cases c1 : zBin (a' s t).hwZ0.toInt = some y <;> by_cases c2 : zBin (a s t).hwZ0.toInt = some x <;> simp [c1, c2, vtxPt]
  have nonneg : ∀ (c : Arr NS (Arr NTK TkObj)) (_ : ∀ s t, 0 ≤ (c s t).hwPt.toInt) (x : Nat), 0 ≤ vtxTotal c x := by
    intro c hc x
    refine Finset.sum_nonneg fun s _ => ?_
    rw [binContent_track]
    refine le_min (by decide) (Finset.sum_nonneg fun t _ => ?_)
    have := hc s t
    by_cases e : zBin (c s t).hwZ0.toInt = some x
    · rw [if_pos e]; unfold vtxPt; omega
    · rw [if_neg e]
  -- a bin reached by no shifted bin is empty
  have empty : ∀ (c : Arr NS (Arr NTK TkObj)) (_ : ∀ s t, 0 ≤ (c s t).hwPt.toInt) (x : Nat),
      (∀ s t, 0 < (c s t).hwPt.toInt → zBin (c s t).hwZ0.toInt ≠ some x) → vtxTotal c x = 0 := by
    intro c hc x hx
    refine Finset.sum_eq_zero fun s _ => ?_
    rw [binContent_track, Finset.sum_eq_zero]
    · rfl
    · intro t _
      by_cases e : zBin (c s t).hwZ0.toInt = some x
      · rw [if_pos e]
        have h0 : ¬ 0 < (c s t).hwPt.toInt := fun h0 => hx s t h0 e
        have := hc s t
        unfold vtxPt; omega
      · rw [if_neg e]
  obtain ⟨bin, z, sum, e1, -, b, f1, f2, f3, f4⟩ := C26_firmware_eq_ref a hp hcap
  obtain ⟨bin', z', sum', e1', -, b', f1', f2', f3', f4'⟩ := C26_firmware_eq_ref a' hp' hcap
  have m : ∀ x : Fin 72, vtxTotal a x ≤ vtxTotal a b ∧ (x < b → vtxTotal a x < vtxTotal a b) := f3
  have m' : ∀ x : Fin 72, vtxTotal a' x ≤ vtxTotal a' b' ∧ (x < b' → vtxTotal a' x < vtxTotal a' b') := f3'
  have f4 : sum.toInt = vtxTotal a b := f4
  have f4' : sum'.toInt = vtxTotal a' b' := f4'
  -- the totals of the vertices are positive
  have pos : 0 < vtxTotal a b := by
    obtain ⟨s, t, hst⟩ := hsome
    obtain ⟨r1, r2, -, -⟩ := hin s t (by omega)
    let x : Fin 72 := ⟨(((a s t).hwZ0.toInt + 288) / 8).toNat, by omega⟩
    refine lt_of_lt_of_le ?_ (m x).1
    refine Finset.sum_pos' (fun s' _ => ?_) ⟨s, Finset.mem_univ _, ?_⟩
    · rw [binContent_track]
      refine le_min (by decide) (Finset.sum_nonneg fun t _ => ?_)
      have := hp s' t
      by_cases e : zBin (a s' t).hwZ0.toInt = some x.val
      · rw [if_pos e]; unfold vtxPt; omega
      · rw [if_neg e]
    · rw [binContent_track]
      refine lt_min (by decide) (Finset.sum_pos' (fun t' _ => ?_) ⟨t, Finset.mem_univ _, ?_⟩)
      · have := hp s t'
        by_cases e : zBin (a s t').hwZ0.toInt = some x.val
        · rw [if_pos e]; unfold vtxPt; omega
        · rw [if_neg e]
      · rw [if_pos (by unfold zBin; rw [if_pos ⟨r1, r2⟩])]
        unfold vtxPt; omega
  have hbk : 0 ≤ (b.val : Int) + k ∧ (b.val : Int) + k < 72 := by
    by_contra hc
    rw [empty a hp b.val] at pos
    · omega
    · intro s t h0 e
      obtain ⟨r1, r2, r3, r4⟩ := hin s t h0
      unfold zBin at e
      rw [if_pos ⟨r1, r2⟩] at e
      have := Option.some.inj e
      omega
  have hbb : ((b.val : Int) + k).toNat < 72 := by omega
  have t1 := tot b.val ((b.val : Int) + k).toNat b.isLt hbb (by omega)
  have pos' : 0 < vtxTotal a' b' := lt_of_lt_of_le (by rw [t1]; exact pos) (m' ⟨_, hbb⟩).1
  have hbk' : 0 ≤ (b'.val : Int) - k ∧ (b'.val : Int) - k < 72 := by
    by_contra hc
    rw [empty a' hp' b'.val] at pos'
    · omega
    · intro s t h0 e
      rw [(h s t).1] at h0
      obtain ⟨r1, r2, r3, r4⟩ := hin s t h0
      have r5 : (a' s t).hwZ0.toInt = (a s t).hwZ0.toInt + 8 * k := (h s t).2
      unfold zBin at e
      rw [r5, if_pos ⟨r3, r4⟩] at e
      have := Option.some.inj e
      omega
  have hbb' : ((b'.val : Int) - k).toNat < 72 := by omega
  have t2 := tot ((b'.val : Int) - k).toNat b'.val hbb' b'.isLt (by omega)
  have key : (b'.val : Int) = b.val + k := by
    have g1 := (m' ⟨_, hbb⟩)
    have g2 := (m ⟨_, hbb'⟩)
    simp only [Fin.lt_def] at g1 g2
    rw [t1] at g1
    rw [← t2] at g2
    by_contra hne
    rcases lt_or_gt_of_ne hne with hlt | hgt
    · have := g2.2 (by omega)
      omega
    · have := g1.2 (by omega)
      omega
  refine ⟨bin, z, sum, bin', z', e1, ?_, by rw [f1, f1', key], by rw [f2, f2', key]; ring⟩
  rw [e1']
  congr 3
  apply BitVec.eq_of_toInt_eq
  rw [f4, f4', ← t1]
  congr 1
  omega

/-- **C84.** Reflecting the tracks in the origin reflects the vertex, if no other bin is as full. -/
theorem C84_mirror (a a' : Arr NS (Arr NTK TkObj)) (hp : ∀ s t, 0 ≤ (a s t).hwPt.toInt) (hcap : NS * 511 ≤ 32767)
    (h : MovedZ (fun z => -1 - z) a a') {bin : ZBin} {z : Z0} {sum : Pt} (h1 : bhv_chain a = .ok (bin, z, sum))
    (huniq : ∀ x : Fin 72, x.val ≠ bin.toNat → vtxTotal a x < vtxTotal a bin.toNat) :
    ∃ bin' z', bhv_chain a' = .ok (bin', z', sum) ∧ bin'.toNat = 71 - bin.toNat ∧ z'.toInt = -z.toInt := by
  have hp' : ∀ s t, 0 ≤ (a' s t).hwPt.toInt := fun s t => by rw [(h s t).1]; exact hp s t
  have tot : ∀ x : Nat, x < 72 → vtxTotal a' (71 - x) = vtxTotal a x := by
    intro x hx
    unfold vtxTotal
    refine Finset.sum_congr rfl fun s _ => ?_
    rw [binContent_track, binContent_track]
    congr 1
    refine Finset.sum_congr rfl fun t _ => ?_
    rw [(h s t).1]
    refine if_congr ?_ rfl rfl
    have r5 : (a' s t).hwZ0.toInt = -1 - (a s t).hwZ0.toInt := (h s t).2
    rw [r5]
    unfold zBin
    by_cases r : -288 ≤ (a s t).hwZ0.toInt ∧ (a s t).hwZ0.toInt < 288
    · rw [if_pos r, if_pos (by omega)]
      simp only [Option.some.injEq]
      omega
    · rw [if_neg r, if_neg (by omega)]
      simp
  obtain ⟨b, f1, f2, f3, f4⟩ := chain_spec hp hcap h1
  obtain ⟨bin', z', sum', e1', -, b', f1', f2', f3', f4'⟩ := C26_firmware_eq_ref a' hp' hcap
  have m' : ∀ x : Fin 72, vtxTotal a' x ≤ vtxTotal a' b' ∧ (x < b' → vtxTotal a' x < vtxTotal a' b') := f3'
  have f4 : sum.toInt = vtxTotal a b := f4
  have f4' : sum'.toInt = vtxTotal a' b' := f4'
  have hb := b.isLt
  have hb' := b'.isLt
  have t1 := tot b.val b.isLt
  have t2 := tot (71 - b'.val) (by omega)
  rw [show 71 - (71 - b'.val) = b'.val by omega] at t2
  have key : b'.val = 71 - b.val := by
    by_contra hne
    have g1 := huniq ⟨71 - b'.val, by omega⟩ (by show 71 - b'.val ≠ _; omega)
    have g2 := (m' ⟨71 - b.val, by omega⟩).1
    simp only [f1] at g1 g2
    omega
  refine ⟨bin', z', ?_, by omega, by omega⟩
  rw [e1']
  congr 3
  apply BitVec.eq_of_toInt_eq
  rw [f4, f4', ← t1, key]

/-- **C84.** With two equal bins it is not reflected: the lower bin is taken both times. -/
theorem C84_mirror_tie :
    let a : Arr 1 (Arr 2 TkObj) := fun _ t => { TkObj.clear with hwPt := 40, hwZ0 := if t = 0 then reg 10 (-100) else 60 }
    let a' : Arr 1 (Arr 2 TkObj) := fun _ t => { TkObj.clear with hwPt := 40, hwZ0 := if t = 0 then 99 else reg 10 (-61) }
    MovedZ (fun z => -1 - z) a a' ∧
    (bhv_chain a).map (fun r => r.2.1.toInt) = .ok (-100) ∧ (bhv_chain a').map (fun r => r.2.1.toInt) = .ok (-60) := by
  refine ⟨?_, by decide +kernel, by decide +kernel⟩
  unfold MovedZ
  decide +kernel

/-- Non-vacuity of C84: a second track of 5 GeV changes nothing, of 20 GeV takes the vertex; and a shift. -/
example : let ev : Int → Int → Arr 1 (Arr 2 TkObj) := fun pt dz _ t =>
      { TkObj.clear with hwPt := if t = 0 then 40 else reg 16 pt, hwZ0 := reg 10 (dz + if t = 0 then 100 else -60) }
    Harder (ev 20 0) (ev 80 0) 0 1 ∧ MovedZ (fun z => z + 8 * 5) (ev 20 0) (ev 20 40) ∧
    (bhv_chain (ev 20 0)).map (fun r => (r.1.toNat, r.2.1.toInt)) = .ok (48, 100) ∧
    (bhv_chain (ev 80 0)).map (fun r => (r.1.toNat, r.2.1.toInt)) = .ok (28, -60) ∧
    (bhv_chain (ev 20 40)).map (fun r => (r.1.toNat, r.2.1.toInt)) = .ok (53, 140) := by
  refine ⟨?_, ?_, by decide +kernel, by decide +kernel, by decide +kernel⟩
  · unfold Harder
    decide +kernel
  · unfold MovedZ
    decide +kernel

end Verif
