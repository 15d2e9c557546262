import Verif.Spec.SinglePuppi
import Verif.Props.LoneDet
import Verif.Props.VertexUse
import Verif.Props.System
/-! # C106: PUPPI in events with at most one object of each kind -/
namespace Verif
open Spec
variable {NT NC NE NM NS N N' NV NTK : Nat} {inp : PFInputs NT NC NE NM} {s : Single} {t0 : Fin NT} {c0 : Fin NE} {h0 : Fin NC} {m0 : Fin NM}

/-- What a board makes of an event with one object of each kind: candidates, and neutrals with their PUPPI pts. -/
structure PuppiOne (s : Single) (table : PuppiTable) (z : Z0) (r : PFOutputs NT NE NS NM × Arr (NE + NS) PFNeutralObj) : Prop where
  pf : MakesOne s r.1
  puppi : (List.ofFn fun n => (seen (r.2 n), (r.2 n).hwPtPuppi.toInt)).filter (fun x => decide (x.1.1 ≠ 0)) = s.puppi NS table z

theorem one_puppiSum {out : PFOutputs NT NE NS NM} (h : MakesOne s out) (z : Z0) (ne : PFNeutralObj) :
    puppiSum out.outch z ne = s.alpha z ne.hwEta ne.hwPhi := by
  have e : puppiSum out.outch z ne = ((chargedList out).map fun c => if PuppiNear z ne c then puppiTerm ne c else 0).sum := by
    unfold puppiSum chargedList
    rw [sum_filter_map, List.map_ofFn, List.sum_ofFn]
    · rfl
    · intro c _ hc
      exact puppiGuard_zero z ne (by simpa using hc)
  rw [e, h.charged]
  unfold Single.charged Single.alpha
  by_cases k : s.kept
  · rw [if_pos k]
    simp only [List.map_cons, List.map_nil, List.sum_cons, List.sum_nil, Int.add_zero]
    exact if_congr ⟨fun c => ⟨k, c⟩, fun c => c.2⟩ rfl rfl
  · rw [if_neg k, if_neg fun c : s.counts z ne.hwEta ne.hwPhi => k c.1]
    rfl

theorem puppiPt_within (table : PuppiTable) (sum : Int) (p : Pt) : -32768 ≤ puppiPt table sum p.toInt ∧ puppiPt table sum p.toInt < 32768 := by
  have h := pt_range p
  unfold puppiPt
  by_cases h1 : sum < 1024
  · rw [if_pos h1]; decide
  · rw [if_neg h1]
    by_cases h2 : sum < 1174 * 1024
    · rw [dif_pos h2]
      have hk : (sum / 1024).toNat < 1174 := by omega
      have hw := (table ⟨(sum / 1024).toNat, hk⟩).isLt
      generalize (table ⟨(sum / 1024).toNat, hk⟩).toNat = w at *
      have hw' : (w : Int) ≤ 255 := by omega
      have : -32768 * 256 ≤ p.toInt * w ∧ p.toInt * w ≤ 32767 * 255 := by
        constructor <;> nlinarith
      omega
    · rw [dif_neg h2]; exact h

theorem one_neutralList {pho : Arr NE PFNeutralObj} {ne : Arr NS PFNeutralObj}
    (h1 : (List.ofFn fun c => seen (pho c)).filter (fun x => decide (x.1 ≠ 0)) = s.photons) (h2 : List.ofFn (fun i => seen (ne i)) = fit NS s.neutrals) :
    (List.ofFn fun n => seen (mergeNeutrals pho ne n)).filter (fun x => decide (x.1 ≠ 0)) = s.photons ++ s.neutrals.take NS := by
  rw [List.ofFn_add, List.filter_append]
  congr 1
  · rw [← h1]
    congr 2
    funext c
    show seen (if h : c.val < NE then _ else _) = _
    rw [dif_pos c.isLt]
    rfl
  · have e : (List.ofFn fun i => seen (mergeNeutrals pho ne (Fin.natAdd NE i))) = List.ofFn (fun i => seen (ne i)) := by
      congr 1
      funext i
      unfold mergeNeutrals
      rw [dif_neg (show ¬ (Fin.natAdd NE i).val < NE by simp)]
      have e : (⟨(Fin.natAdd NE i).val - NE, by have := i.isLt; simp⟩ : Fin NS) = i := Fin.ext (by simp)
      rw [e]
      rfl
    rw [e, h2]
    unfold fit Single.neutrals
    by_cases z : s.neutral = 0
    · rw [if_pos z]
      simp
    · rw [if_neg z]
      cases NS with
      | zero => rfl
      | succ n => simp [z]

theorem one_puppiList {out : PFOutputs NT NE NS NM} (h : MakesOne s out) (table : PuppiTable) (z : Z0) {ne r : Arr (NE + NS) PFNeutralObj}
    (hl : (List.ofFn fun n => seen (ne n)).filter (fun x => decide (x.1 ≠ 0)) = s.photons ++ s.neutrals.take NS)
    (hz : ∀ n, (ne n).hwPt = 0 → (r n).hwPt = 0)
    (hr : ∀ n, (ne n).hwPt ≠ 0 → r n = { ne n with hwPtPuppi := reg 16 (puppiPt table (puppiSum out.outch z (ne n)) (ne n).hwPt.toInt) }) :
    (List.ofFn fun n => (seen (r n), (r n).hwPtPuppi.toInt)).filter (fun x => decide (x.1.1 ≠ 0)) = s.puppi NS table z := by
  unfold Single.puppi
  rw [← hl, filter_ofFn, filter_ofFn, List.map_map]
  have sz : ∀ o : PFNeutralObj, (seen o).1 = 0 ↔ o.hwPt = 0 := fun o => by
    rw [seen_fst]
    exact pt_toInt_zero
  have e : slots (fun x : Seen × Int => decide (x.1.1 ≠ 0)) (fun n => (seen (r n), (r n).hwPtPuppi.toInt)) =
      slots (fun x : Seen => decide (x.1 ≠ 0)) fun n => seen (ne n) := by
    unfold slots
    refine List.filter_congr fun n _ => ?_
    show decide ((seen (r n)).1 ≠ 0) = decide ((seen (ne n)).1 ≠ 0)
    rw [decide_eq_decide, ne_eq, ne_eq, sz, sz]
    by_cases c : (ne n).hwPt = 0
    · simp [c, hz n c]
    · rw [hr n c]
  rw [e]
  refine List.map_congr_left fun n hn => ?_
  have hm : (seen (ne n)).1 ≠ 0 := by simpa using mem_slots.mp hn
  have c : (ne n).hwPt ≠ 0 := fun x => hm ((sz _).mpr x)
  have e2 : seen (ne n) = ((ne n).hwPt.toInt, (ne n).hwEta, (ne n).hwPhi, (ne n).hwId) := if_neg c
  show (seen (r n), (r n).hwPtPuppi.toInt) = _
  have e3 : seen (r n) = seen (ne n) := by rw [hr n c]; rfl
  rw [e3, hr n c]
  simp only [Function.comp, e2]
  rw [one_puppiSum h]
  have g := puppiPt_within table (s.alpha z (ne n).hwEta (ne n).hwPhi) (ne n).hwPt
  rw [reg16_toInt g.1 g.2]

theorem one_pt2 {out : PFOutputs NT NE NS NM} (h : MakesOne s out) (hp : 0 ≤ s.p) (h2 : s.p ^ 2 < 2 ^ 21) (z : Z0) (ne : PFNeutralObj) :
    puppiSum out.outch z ne ≤ 2147483647 := by
  rw [one_puppiSum h]
  unfold Single.alpha
  split
  · have a : min (s.p ^ 2 / 32) 131071 ≤ 65535 := by omega
    have a0 : 0 ≤ min (s.p ^ 2 / 32) 131071 := by
      have := sq_nonneg s.p
      omega
    have b : (32768 : Int) / max 1 (dist2 s.T.hwEta s.T.hwPhi ne.hwEta ne.hwPhi / 32) ≤ 32768 := Int.ediv_le_self _ (by decide)
    have b0 : 0 ≤ (32768 : Int) / max 1 (dist2 s.T.hwEta s.T.hwPhi ne.hwEta ne.hwPhi / 32) := Int.ediv_nonneg (by decide) (by omega)
    nlinarith
  · decide

/-- **C106.** Particle flow behind its links, then PUPPI, in firmware and in the reference: the candidates of C103, with PUPPI pts in closed form. -/
theorem C106_board (H : OneEach inp s t0 c0 h0 m0) (hg : s.Good) (h2 : s.p ^ 2 < 2 ^ 21) (table : PuppiTable) (z : Z0) (data : Arr N Word)
    (out0 : Arr N' Word) (pf0 old old' : PFOutputs NT NE NS NM) (mem : PFScratch NC NS) (mem' : Arr NC PFNeutralObj)
    (hi : 2 * NE + 2 * NT + 2 * NC + 2 * NM ≤ min N MP7_NCHANN) (ho : 2 * NT + 2 * NE + 2 * NS + 2 * NM ≤ min N' MP7_NCHANN) :
    ∃ r r', fwBoard table z inp data out0 pf0 old mem = .ok r ∧ refBoard table z inp old' mem' = .ok r' ∧ PuppiOne s table z r ∧ PuppiOne s table z r' := by
  obtain ⟨out, h1, hm⟩ := C103_single H hg pf0 mem
  obtain ⟨out', h1', hm'⟩ := C103_single_ref H hg old' mem'
  let pho : Arr NE PFNeutralObj := fun i => { out.outpho i with hwPtPuppi := (old.outpho i).hwPtPuppi }
  let ne : Arr NS PFNeutralObj := fun i => { out.outne i with hwPtPuppi := (old.outne i).hwPtPuppi }
  obtain ⟨hw, _, e1, -, hhw⟩ := C22_puppi_agree table out.outch (mergeNeutrals pho ne) z fun n => one_pt2 hm hg.p h2 z _
  obtain ⟨hw', ref', -, e2, href⟩ := C22_puppi_agree table out'.outch (mergeNeutrals out'.outpho out'.outne) z fun n => one_pt2 hm' hg.p h2 z _
  have hm2 : MakesOne s ({ outch := out.outch, outpho := pho, outne := ne, outmu := out.outmu } : PFOutputs NT NE NS NM) :=
    ⟨hm.charged, hm.photons, hm.muons, hm.neutrals⟩
  refine ⟨({ outch := out.outch, outpho := pho, outne := ne, outmu := out.outmu }, hw), (out', ref'), ?_, ?_, ⟨hm2, ?_⟩, ⟨hm', ?_⟩⟩
  · unfold fwBoard
    rw [C19_wrapped_eq_plain inp data out0 pf0 old mem hi ho, h1, Run.ok_bind, Run.ok_bind]
    show (simple_puppi_hw table out.outch (mergeNeutrals pho ne) z >>= _) = _
    rw [e1]; rfl
  · unfold refBoard
    rw [h1', Run.ok_bind, e2]; rfl
  · exact one_puppiList hm2 table z (one_neutralList hm2.photons hm2.neutrals) (fun n c => by show (hw n).hwPt = 0; rw [(hhw n).1]; exact c) fun n _ => (hhw n).1
  · exact one_puppiList hm' table z (one_neutralList hm'.photons hm'.neutrals) (fun n c => by show (ref' n).hwPt = 0; rw [((href n).2.2 c).1]; exact c)
      fun n c => ((href n).2.1 c).trans (href n).1

/-! ### The vertex of one track -/

/-- **C106.** If all the tracks in the histogram have the same `hwZ0`, the vertex is the middle of its bin: at most 0.2 cm from the tracks. -/
theorem C106_vertex (vtk : Arr NV (Arr NTK TkObj)) (hv : ∀ i t, 0 ≤ (vtk i t).hwPt.toInt) (hcap : NV * 511 ≤ 32767) (zt : Z0)
    (hall : ∀ i t, Votes (vtk i t) → (vtk i t).hwZ0 = zt) (hex : ∃ i t, Votes (vtk i t)) :
    ∃ bin z sum, bhv_chain vtk = .ok (bin, z, sum) ∧ bhv_find_pv_ref vtk = .ok (bin, z, sum.toInt) ∧
      z.toInt = (zt.toInt / 8) * 8 + 4 := by
  obtain ⟨bin, z, sum, e1, e2, b, h1, h2, h3, h4⟩ := C26_firmware_eq_ref vtk hv hcap
  refine ⟨bin, z, sum, e1, e2, ?_⟩
  obtain ⟨i1, t1, hvote⟩ := hex
  have hz := hall i1 t1 hvote
  have hr : -288 ≤ zt.toInt ∧ zt.toInt < 288 := by rw [← hz]; exact ⟨hvote.1, hvote.2.1⟩
  have term : ∀ i t (k : Nat), 0 ≤ (if zBin (vtk i t).hwZ0.toInt = some k then vtxPt (vtk i t).hwPt.toInt else 0) := fun i t k => by
    have := hv i t
    unfold vtxPt
    split <;> omega
  have content : ∀ i (k : Nat), binContent (trackEntries (vtk i)) k =
      min 511 (∑ t, if zBin (vtk i t).hwZ0.toInt = some k then vtxPt (vtk i t).hwPt.toInt else 0) := fun i k => binContent_track (vtk i) k
  have nonneg : ∀ i (k : Nat), 0 ≤ binContent (trackEntries (vtk i)) k := fun i k => by
    rw [content]
    have := Finset.sum_nonneg fun t (_ : t ∈ Finset.univ) => term i t k
    omega
  have hb : zBin zt.toInt = some b.val := by
    by_contra hne
    have zero : ∀ i, binContent (trackEntries (vtk i)) b.val = 0 := fun i => by
      rw [content, Finset.sum_eq_zero]
      · rfl
      · intro t _
        by_cases c : zBin (vtk i t).hwZ0.toInt = some b.val
        · rw [if_pos c]
          have hr : -288 ≤ (vtk i t).hwZ0.toInt ∧ (vtk i t).hwZ0.toInt < 288 := by
            by_contra hr
            unfold zBin at c
            rw [if_neg hr] at c
            exact absurd c (by simp)
          have : ¬ 2 ≤ (vtk i t).hwPt.toInt := fun h => by
            rw [hall i t ⟨hr.1, hr.2, h⟩] at c
            exact hne c
          have := hv i t
          unfold vtxPt
          omega
        · exact if_neg c
    have hk : ((zt.toInt + 288) / 8).toNat < 72 := by omega
    have hmax := (h3 ⟨_, hk⟩).1
    simp only [zero, Finset.sum_const_zero] at hmax
    have h1 : binContent (trackEntries (vtk i1)) ((zt.toInt + 288) / 8).toNat ≤ 0 :=
      le_trans (Finset.single_le_sum (f := fun i => binContent (trackEntries (vtk i)) ((zt.toInt + 288) / 8).toNat) (fun i _ => nonneg i _) (Finset.mem_univ i1)) hmax
    rw [content] at h1
    have h2 := Finset.single_le_sum (f := fun t => if zBin (vtk i1 t).hwZ0.toInt = some ((zt.toInt + 288) / 8).toNat then vtxPt (vtk i1 t).hwPt.toInt else 0)
      (fun t _ => term i1 t _) (Finset.mem_univ t1)
    have h3 : zBin (vtk i1 t1).hwZ0.toInt = some ((zt.toInt + 288) / 8).toNat := by
      rw [hz]
      unfold zBin
      rw [if_pos hr]
    simp only [h3, if_true] at h2
    have := hvote.2.2
    unfold vtxPt at h1 h2
    omega
  unfold zBin at hb
  rw [if_pos hr] at hb
  injection hb with hb
  omega

theorem counts_iff {z : Z0} (hz : (z.toInt - s.T.hwZ0.toInt).natAbs ≤ 256) (eta phi : EtaPhi) :
    s.counts z eta phi ↔ s.kept ∧ dist2 s.T.hwEta s.T.hwPhi eta phi ≤ 8404 :=
  ⟨fun h => ⟨h.1, h.2.2⟩, fun h => ⟨h.1, hz, h.2⟩⟩

/-! ### The whole chain -/
section
variable {FE FT : Nat}

/-- **C106.** The whole chain, firmware and reference: every region makes of a detector with one object of each kind, with the vertex of its
track, the candidates of C104 with PUPPI pts in closed form. -/
theorem C106_system {d : DetEvent FE FT NT NC NE NM} {e : LoneEvent} (h : d.LoneIs e) (hg : e.of.Good) (h2 : e.of.p ^ 2 < 2 ^ 21)
    (haway : ∀ ir, e.Away ir)
    (mu rest : Arr N_MUON_SECTORS (List MuObj)) (hmu : regionize_muon_ref NM mu = .ok (rest, d.rm)) (hN : d.sz.hadSlice ≤ NC)
    (table : PuppiTable) (vtk : Arr NV (Arr NTK TkObj)) (hv : ∀ i t, 0 ≤ (vtk i t).hwPt.toInt) (hcap : NV * 511 ≤ 32767)
    (hall : ∀ i t, Votes (vtk i t) → (vtk i t).hwZ0 = e.of.T.hwZ0) (hex : ∃ i t, Votes (vtk i t))
    (memh : Arr N_OUT_REGIONS (Arr NC HadCaloObj)) (data : Arr N_OUT_REGIONS (Arr N Word)) (out0 : Arr N_OUT_REGIONS (Arr N' Word))
    (pf0 old old' : Arr N_OUT_REGIONS (PFOutputs NT NE NS NM)) (mem : Arr N_OUT_REGIONS (PFScratch NC NS))
    (mem' : Arr N_OUT_REGIONS (Arr NC PFNeutralObj))
    (hi : 2 * NE + 2 * NT + 2 * NC + 2 * NM ≤ min N MP7_NCHANN) (ho : 2 * NT + 2 * NE + 2 * NS + 2 * NM ≤ min N' MP7_NCHANN) :
    ∃ z r r', (z.toInt - e.of.T.hwZ0.toInt).natAbs ≤ 4 ∧
      fwSystem d.sz table d.em d.had d.tk mu vtk memh data out0 pf0 old mem = .ok r ∧
      refSystem d.sz table d.em d.had d.tk mu vtk old' mem' = .ok r' ∧
      ∀ ir, ∃ M, MuonSeen e ir M ∧ PuppiOne (e.view (regionEta ir) (regionPhi ir) M) table z (r ir) ∧
        PuppiOne (e.view (regionEta ir) (regionPhi ir) M) table z (r' ir) := by
  obtain ⟨bin, z, sum, e5, e6, hz⟩ := C106_vertex vtk hv hcap e.of.T.hwZ0 hall hex
  obtain ⟨_, e1⟩ := h.em
  obtain ⟨_, e2'⟩ := h.had
  obtain ⟨_, e3⟩ := h.tk
  have e2 := e2'
  rw [← C32_agree d.sz.hadSec d.sz.hadSlice hN memh d.had] at e2
  have hb : ∀ ir, ∃ p : (PFOutputs NT NE NS NM × Arr (NE + NS) PFNeutralObj) × (PFOutputs NT NE NS NM × Arr (NE + NS) PFNeutralObj),
      fwBoard table z (boardOf d.re d.rh d.rt d.rm ir) (data ir) (out0 ir) (pf0 ir) (old ir) (mem ir) = .ok p.1 ∧
      refBoard table z (boardOf d.re d.rh d.rt d.rm ir) (old' ir) (mem' ir) = .ok p.2 ∧
      ∃ M, MuonSeen e ir M ∧ PuppiOne (e.view (regionEta ir) (regionPhi ir) M) table z p.1 ∧
        PuppiOne (e.view (regionEta ir) (regionPhi ir) M) table z p.2 := fun ir => by
    obtain ⟨M, hM, t0, c0, h0, m0, H⟩ := lone_board h ir (haway ir)
    have g := view_good hg (regionEta ir) (regionPhi ir) M
    have hp2 : (e.view (regionEta ir) (regionPhi ir) M).p ^ 2 < 2 ^ 21 := by
      show (viewOf (regionEta ir) (regionPhi ir) e.sT e.of.T).hwPt.toInt ^ 2 < _
      unfold viewOf
      split
      · exact h2
      · decide
    obtain ⟨r, r', a, b, c, c'⟩ := C106_board H g hp2 table z (data ir) (out0 ir) (pf0 ir) (old ir) (old' ir) (mem ir) (mem' ir) hi ho
    exact ⟨(r, r'), a, b, M, hM, c, c'⟩
  choose p h1 h2 h3 using hb
  refine ⟨z, fun ir => (p ir).1, fun ir => (p ir).2, by omega, ?_, ?_, h3⟩
  · unfold fwSystem
    rw [e2, Run.ok_bind, e1, Run.ok_bind, e3, Run.ok_bind, hmu, Run.ok_bind, e5, Run.ok_bind]
    exact buildM_ok _ h1
  · unfold refSystem
    rw [e2', Run.ok_bind, e1, Run.ok_bind, e3, Run.ok_bind, hmu, Run.ok_bind, e6, Run.ok_bind]
    exact buildM_ok _ h2

end

/-! ### Particles -/

/-- **C106.** Where the track does not count, a neutral gets no PUPPI pt: a photon or a neutral hadron alone vanishes. -/
theorem C106_alone (table : PuppiTable) (z : Z0) (NS : Nat) (x : Seen × Int) (hx : x ∈ s.puppi NS table z) (h : ¬ s.counts z x.1.2.1 x.1.2.2.1) : x.2 = 0 := by
  unfold Single.puppi at hx
  obtain ⟨y, -, rfl⟩ := List.mem_map.mp hx
  show puppiPt table (s.alpha z y.2.1 y.2.2.1) y.1 = 0
  unfold Single.alpha
  rw [if_neg h]
  rfl

theorem full_of_alpha (table : PuppiTable) {a : Int} (h : 1174 * 1024 ≤ a) (p : Int) : puppiPt table a p = p := by
  unfold puppiPt
  rw [if_neg (by omega), dif_neg (by omega)]

theorem alpha_ge {z : Z0} {eta phi : EtaPhi} (hc : s.counts z eta phi) {D p0 : Int} (hd : dist2 s.T.hwEta s.T.hwPhi eta phi ≤ D) (hD : 32 ≤ D) (hp0 : 0 ≤ p0)
    (hp : p0 ≤ s.p) (h : 1174 * 1024 ≤ min (p0 ^ 2 / 32) 131071 * (32768 / (D / 32))) : 1174 * 1024 ≤ s.alpha z eta phi := by
  unfold Single.alpha
  rw [if_pos hc]
  have m1 : p0 ^ 2 / 32 ≤ s.p ^ 2 / 32 := Int.ediv_le_ediv (by decide) (pow_le_pow_left₀ hp0 hp 2)
  have m0 : 0 ≤ p0 ^ 2 / 32 := Int.ediv_nonneg (sq_nonneg _) (by decide)
  have d1 : max 1 (dist2 s.T.hwEta s.T.hwPhi eta phi / 32) ≤ D / 32 := by omega
  have d2 : 32768 / (D / 32) ≤ (32768 : Int) / max 1 (dist2 s.T.hwEta s.T.hwPhi eta phi / 32) := by
    refine Int.le_ediv_of_mul_le (by omega) ?_
    have := Int.ediv_mul_le 32768 (show D / 32 ≠ 0 by omega)
    have h0 : (0 : Int) ≤ 32768 / (D / 32) := Int.ediv_nonneg (by decide) (by omega)
    nlinarith
  have h0 : (0 : Int) ≤ 32768 / (D / 32) := Int.ediv_nonneg (by decide) (by omega)
  have m2 : min (p0 ^ 2 / 32) 131071 ≤ min (s.p ^ 2 / 32) 131071 := by omega
  have m3 : 0 ≤ min (p0 ^ 2 / 32) 131071 := by omega
  refine le_trans h (Int.mul_le_mul m2 d2 h0 (by omega))

/-- **C106.** A photon next to its electron of at least 12.25 GeV, or what is left of the cluster of a hadron of at least 41.25 GeV, keeps its whole pt. -/
theorem C106_full (table : PuppiTable) {z : Z0} (hz : (z.toInt - s.T.hwZ0.toInt).natAbs ≤ 256) (hk : s.kept) :
    (s.nearEm → 49 ≤ s.p → ∀ p, puppiPt table (s.alpha z s.C.hwEta s.C.hwPhi) p = p) ∧
    (s.ends → 165 ≤ s.p → ∀ p, puppiPt table (s.alpha z s.H.hwEta s.H.hwPhi) p = p) := by
  refine ⟨fun hn hp p => full_of_alpha table ?_ p, fun hn hp p => full_of_alpha table ?_ p⟩
  · have hd := hn.2
    exact alpha_ge ((counts_iff hz _ _).mpr ⟨hk, by omega⟩) (D := 83) (p0 := 49) (by omega) (by decide) (by decide) hp (by decide)
  · have hd := hn.2
    exact alpha_ge ((counts_iff hz _ _).mpr ⟨hk, by omega⟩) (D := 755) (p0 := 165) (by omega) (by decide) (by decide) hp (by decide)

/-- An electron of 12 GeV with a photon of 8 GeV, and a hadron of 41 GeV with a neutral of 40 GeV, at the edges of their cones. -/
def softElectron : Single := ⟨⟨48, 4, 20, 0, 0, true⟩, ⟨80, 2, 28, 3⟩, HadCaloObj.clear, MuObj.clear⟩
@[inherit_doc softElectron] def softPion : Single := ⟨⟨164, 10, 20, 0, 0, true⟩, EmCaloObj.clear, ⟨324, 47, 5, 0, false⟩, MuObj.clear⟩

/-- **C106.** These bounds are the best possible: a quarter of a GeV below, the table is used. -/
theorem C106_sharp : softElectron.nearEm ∧ softElectron.kept ∧ softElectron.photons = [(32, 28, 3, 2)] ∧ softElectron.alpha 0 28 3 = 1179648 ∧
    softPion.ends ∧ softPion.kept ∧ softPion.neutrals = [(160, 47, 5, 1)] ∧ softPion.alpha 0 47 5 = 1196160 ∧ (1196160 : Int) < 1174 * 1024 ∧
    ∀ table : PuppiTable, softElectron.puppi 1 table 0 = ([((32, 28, 3, 2), 32 * ((table 1152).toNat : Int) / 256)] : List (Seen × Int)) ∧
      softPion.puppi 1 table 0 = ([((160, 47, 5, 1), 160 * ((table 1168).toNat : Int) / 256)] : List (Seen × Int)) := by
  refine ⟨by decide +kernel, by decide +kernel, by decide +kernel, by decide +kernel, by decide +kernel, by decide +kernel, by decide +kernel,
    by decide +kernel, by decide, fun table => ⟨?_, ?_⟩⟩
  · have e1 : softElectron.photons ++ softElectron.neutrals.take 1 = [(32, 28, 3, 2)] := by decide +kernel
    have e2 : softElectron.alpha 0 28 3 = 1179648 := by decide +kernel
    unfold Single.puppi
    rw [e1]
    simp only [List.map_cons, List.map_nil, e2]
    rfl
  · have e1 : softPion.photons ++ softPion.neutrals.take 1 = [(160, 47, 5, 1)] := by decide +kernel
    have e2 : softPion.alpha 0 47 5 = 1196160 := by decide +kernel
    unfold Single.puppi
    rw [e1]
    simp only [List.map_cons, List.map_nil, e2]
    rfl

/-- The tracks of the vertex finder for the event of `C104_example`. -/
def loneVtx : Arr 1 (Arr 2 TkObj) := fun _ t => if t = 0 then loneEvent.of.T else TkObj.clear

/-- **C106**, non-vacuity: the event of C104 with its track in the vertex finder meets the hypotheses, and each of the four regions that see it gives the
neutral its whole pt. -/
theorem C106_example : loneEvent.of.Good ∧ loneEvent.of.p ^ 2 < 2 ^ 21 ∧
    (∀ ir, loneEvent.Away ir) ∧
    (∀ i t, Votes (loneVtx i t) → (loneVtx i t).hwZ0 = loneEvent.of.T.hwZ0) ∧ (∃ i t, Votes (loneVtx i t)) ∧
    ∀ (table : PuppiTable) (z : Z0), (z.toInt - loneEvent.of.T.hwZ0.toInt).natAbs ≤ 4 → ∀ ir ∈ ([6, 7, 12, 13] : List (Fin 18)),
      ((loneEvent.view (regionEta ir) (regionPhi ir) (place (regionEta ir) (regionPhi ir) loneEvent.sM loneEvent.of.M)).puppi 1 table z).map
        (fun x => (x.1.1, x.1.2.2.2, x.2)) = [(100, 1, 100)] := by
  refine ⟨C104_example.2.1, by decide, by unfold LoneEvent.Away; decide +kernel, ?_, ⟨0, 0, by unfold Votes; decide⟩, fun table z hz ir hir => ?_⟩
  · intro i t h
    unfold loneVtx at h ⊢
    by_cases c : t = 0
    · rw [if_pos c]
    · rw [if_neg c] at h
      exact absurd h.2.2 (by decide)
  · have k : ∀ ir ∈ ([6, 7, 12, 13] : List (Fin 18)),
        let v := loneEvent.view (regionEta ir) (regionPhi ir) (place (regionEta ir) (regionPhi ir) loneEvent.sM loneEvent.of.M)
        v.T.hwZ0 = loneEvent.of.T.hwZ0 ∧ v.kept ∧ v.p = 100 ∧ dist2 v.T.hwEta v.T.hwPhi v.H.hwEta v.H.hwPhi ≤ 32 ∧
          v.photons ++ v.neutrals.take 1 = [(100, v.H.hwEta, v.H.hwPhi, 1)] := by decide +kernel
    obtain ⟨a, b, c, d, e⟩ := k ir hir
    unfold Single.puppi
    rw [e]
    simp only [List.map_cons, List.map_nil]
    rw [full_of_alpha table (alpha_ge ((counts_iff (by rw [a]; omega) _ _).mpr ⟨b, by omega⟩) (D := 32) (p0 := 100) d (by decide) (by decide) (by omega) (by decide))]

end Verif
