import Verif.Spec.Arrival
import Verif.Props.System
import Verif.Proofs.RegMuon2
import Verif.Props.DetSym
/-! # C89: the order in which objects arrive on the links -/
open scoped BigOperators
namespace Verif
open Spec

variable {NT NC NE NM NS N N' NV NTK : Nat}

section
variable {T : Type} [RegObj T] [LawfulReg T]

omit [LawfulReg T] in
theorem best_perm {n : Nat} {l l' : List T} (h : l.Perm l')
    (ht : ∀ a ∈ l, ∀ b ∈ l, 0 < ptOf a → ptOf a = ptOf b → a = b) : best n l = best n l' := by
  have hf : (l.filter fun o => decide (0 < ptOf o)).Perm (l'.filter fun o => decide (0 < ptOf o)) := h.filter _
  unfold best
  congr 1
  refine List.Perm.eq_of_pairwise ?_ (List.pairwise_insertionSort byPt _) (List.pairwise_insertionSort byPt _)
    (((List.perm_insertionSort byPt _).trans hf).trans (List.perm_insertionSort byPt _).symm)
  intro a b ha hb hab hba
  have ha' := List.mem_filter.mp ((List.mem_insertionSort byPt).mp ha)
  have hb' := List.mem_filter.mp ((List.mem_insertionSort byPt).mp hb)
  exact ht a ha'.1 b (h.mem_iff.mpr hb'.1) (of_decide_eq_true ha'.2) (le_antisymm hba hab)

omit [LawfulReg T] in
theorem best_pts {n : Nat} {l l' : List T} (h : (l.map ptOf).Perm (l'.map ptOf)) :
    (best n l).map ptOf = (best n l').map ptOf := by
  have key : ∀ l : List T, ((l.filter fun o => decide (0 < ptOf o)).map ptOf) = (l.map ptOf).filter fun p => decide (0 < p) :=
    fun l => by rw [List.filter_map]; rfl
  have hf : ((l.filter fun o => decide (0 < ptOf o)).map ptOf).Perm ((l'.filter fun o => decide (0 < ptOf o)).map ptOf) := by
    rw [key, key]; exact h.filter _
  have hs : ∀ l : List T, ((l.insertionSort byPt).map ptOf).Pairwise (· ≥ ·) := fun l =>
    List.pairwise_map.mpr ((List.pairwise_insertionSort byPt l).imp fun {a b} (hab : ptOf b ≤ ptOf a) => hab)
  unfold best
  rw [List.map_take, List.map_take]
  congr 1
  refine List.Perm.eq_of_pairwise (fun a b _ _ h1 h2 => le_antisymm h2 h1) (hs _) (hs _) ?_
  exact (((List.perm_insertionSort byPt _).map ptOf).trans hf).trans ((List.perm_insertionSort byPt _).map ptOf).symm

theorem slice_perm {n : Nat} {ie : Fin 3} {l l' : List T} (h : l.Perm l') (ht : NoTies l) : slice n ie l = slice n ie l' := by
  unfold slice
  refine best_perm ((h.filter _).map _) ?_
  intro a ha b hb hp he
  obtain ⟨x, hx, rfl⟩ := List.mem_map.mp ha
  obtain ⟨y, hy, rfl⟩ := List.mem_map.mp hb
  rw [ptOf_etaRel] at hp he
  rw [ptOf_etaRel] at he
  have hx' := List.mem_filter.mp hx
  have hy' := List.mem_filter.mp hy
  rw [ht ie x hx'.1 y hy'.1 hx'.2 hy'.2 hp he]

theorem slice_pts {n : Nat} {ie : Fin 3} {l l' : List T} (h : l.Perm l') :
    (slice n ie l).map ptOf = (slice n ie l').map ptOf := by
  unfold slice
  exact best_pts (((h.filter _).map _).map _)

theorem map_ptOf_phiMove (d : Int) (l : List T) : (l.map (phiMove d)).map ptOf = l.map ptOf := by
  rw [List.map_map]
  exact List.map_congr_left fun x _ => ptOf_phiMove d x

variable {NFPS NFPS' NREG : Nat}

/-- C89: the objects of a sector in another order, or shared differently among its fibres, with no ties in pt: the regions
are the same. -/
theorem C89_regions (NSEC NSEC' NSE : Nat) (fib rest : Arr (NFPS * N_IN_SECTORS) (List T))
    (fib' : Arr (NFPS' * N_IN_SECTORS) (List T)) (regions : Arr N_OUT_REGIONS (Arr NREG T))
    (hrun : regionize_ref NSEC NSE NREG fib = .ok (rest, regions)) (hlen : ∀ k, NSEC' / NFPS' ≤ (fib' k).length)
    (hperm : ∀ s, (arrivals NSEC fib s).Perm (arrivals NSEC' fib' s)) (ht : ∀ s, NoTies (arrivals NSEC fib s)) :
    regionize_ref NSEC' NSE NREG fib' = .ok (fun k => (fib' k).drop (NSEC' / NFPS'), regions) := by
  obtain ⟨r, h⟩ := (C37_ref_consumes NSEC' NSE NREG fib').1 hlen
  have : r = regions := by
    funext ir
    refine List.ofFn_injective ?_
    rw [C33_ref_content NSEC NSE NREG fib rest regions hrun ir, C33_ref_content NSEC' NSE NREG fib' _ r h ir]
    show pad NREG (region NREG NSE _ _ (arrivals NSEC' fib')) = pad NREG (region NREG NSE _ _ (arrivals NSEC fib))
    unfold region candidates
    rw [slice_perm (hperm _) (ht _), slice_perm (hperm _) (ht _), slice_perm (hperm _) (ht _)]
  rw [h, this]

/-- C89: even with ties the pts of the regions are the same. -/
theorem C89_pts (NSEC NSEC' NSE : Nat) (fib rest : Arr (NFPS * N_IN_SECTORS) (List T))
    (fib' : Arr (NFPS' * N_IN_SECTORS) (List T)) (regions : Arr N_OUT_REGIONS (Arr NREG T))
    (hrun : regionize_ref NSEC NSE NREG fib = .ok (rest, regions)) (hlen : ∀ k, NSEC' / NFPS' ≤ (fib' k).length)
    (hperm : ∀ s, (arrivals NSEC fib s).Perm (arrivals NSEC' fib' s)) :
    ∃ regions', regionize_ref NSEC' NSE NREG fib' = .ok (fun k => (fib' k).drop (NSEC' / NFPS'), regions') ∧
      ∀ ir i, ptOf (regions' ir i) = ptOf (regions ir i) := by
  obtain ⟨r, h⟩ := (C37_ref_consumes NSEC' NSE NREG fib').1 hlen
  refine ⟨r, h, fun ir => ?_⟩
  have key : (List.ofFn (r ir)).map ptOf = (List.ofFn (regions ir)).map ptOf := by
    rw [C33_ref_content NSEC NSE NREG fib rest regions hrun ir, C33_ref_content NSEC' NSE NREG fib' _ r h ir]
    show (pad NREG (region NREG NSE _ _ (arrivals NSEC' fib'))).map ptOf = (pad NREG (region NREG NSE _ _ (arrivals NSEC fib))).map ptOf
    unfold pad
    rw [List.map_take, List.map_take, List.map_append, List.map_append]
    unfold region
    rw [best_pts (l := candidates NSE _ _ (arrivals NSEC' fib')) (l' := candidates NSE _ _ (arrivals NSEC fib))]
    unfold candidates
    simp only [List.map_append, map_ptOf_phiMove]
    rw [slice_pts (hperm _), slice_pts (hperm _), slice_pts (hperm _)]
  rw [List.map_ofFn, List.map_ofFn] at key
  exact fun i => congrFun (List.ofFn_injective key) i
end

/-- C89: the muons of a muon sector in another order. -/
theorem C89_muons (fib fib' rest : Arr N_MUON_SECTORS (List MuObj)) (regions : Arr N_OUT_REGIONS (Arr NM MuObj))
    (hrun : regionize_muon_ref NM fib = .ok (rest, regions)) (hlen : ∀ s, NM ≤ (fib' s).length)
    (hperm : ∀ s, ((fib s).take NM).Perm ((fib' s).take NM)) (ht : ∀ s, NoTies ((fib s).take NM)) :
    regionize_muon_ref NM fib' = .ok (fun s => (fib' s).drop NM, regions) := by
  obtain ⟨work, w1, w2⟩ := deserialize_muon_ok fib (mu_long hrun)
  obtain ⟨work', w1', w2'⟩ := deserialize_muon_ok fib' hlen
  have hw : work' = work := by
    funext s ie
    have h1 := w2' s ie
    rw [← slice_perm (hperm s) (ht s)] at h1
    exact Holds.unique h1 (w2 s ie)
  unfold regionize_muon_ref at hrun ⊢
  rw [w1, Run.ok_bind] at hrun
  cases hrun
  rw [w1', Run.ok_bind, hw]

theorem entries_perm {a b : Arr NTK TkObj} (h : (List.ofFn a).Perm (List.ofFn b)) : (trackEntries a).Perm (trackEntries b) := by
  have : ∀ a : Arr NTK TkObj, trackEntries a = (List.ofFn a).map fun t => (zBin t.hwZ0.toInt, t.hwPt.toInt) := fun a => by
    unfold trackEntries
    rw [List.ofFn_eq_map, List.map_map]; rfl
  rw [this, this]
  exact h.map _

/-- C89: the tracks of the vertex finder in another order, sector by sector: the vertex is the same, ties or not. -/
theorem C89_vertex (vtk vtk' : Arr NV (Arr NTK TkObj)) (hv : ∀ s t, 0 ≤ (vtk s t).hwPt.toInt) (hcap : NV * 511 ≤ 32767)
    (hperm : ∀ s, (List.ofFn (vtk s)).Perm (List.ofFn (vtk' s))) :
    bhv_chain vtk' = bhv_chain vtk ∧ bhv_find_pv_ref vtk' = bhv_find_pv_ref vtk := by
  have hv' : ∀ s t, 0 ≤ (vtk' s t).hwPt.toInt := fun s t => by
    obtain ⟨i, hi⟩ := (List.mem_ofFn' _ _).mp ((hperm s).mem_iff.mpr ((List.mem_ofFn' _ _).mpr ⟨t, rfl⟩))
    rw [← hi]; exact hv s i
  obtain ⟨bin, z, sum, e1, e2, b, f1, f2, f3, f4⟩ := C26_firmware_eq_ref vtk hv hcap
  obtain ⟨bin', z', sum', e1', e2', b', f1', f2', f3', f4'⟩ := C26_firmware_eq_ref vtk' hv' hcap
  have hc : ∀ s b, binContent (trackEntries (vtk' s)) b = binContent (trackEntries (vtk s)) b := fun s b => by
    unfold binContent
    rw [((entries_perm (hperm s)).map _).sum_eq]
  simp only [hc] at f3' f4'
  have hb : b' = b := by
    rcases lt_trichotomy b b' with h | h | h
    · have := (f3' b).2 h
      have := (f3 b').1
      omega
    · exact h.symm
    · have := (f3 b').2 h
      have := (f3' b).1
      omega
  subst hb
  have g1 : bin' = bin := BitVec.eq_of_toNat_eq (f1'.trans f1.symm)
  have g2 : z' = z := BitVec.eq_of_toInt_eq (f2'.trans f2.symm)
  have g3 : sum' = sum := BitVec.eq_of_toInt_eq (f4'.trans f4.symm)
  rw [e1, e1', e2, e2', g1, g2, g3]
  exact ⟨rfl, rfl⟩

section
variable {FE FT FE' FT' : Nat}

/-- C89: the whole chain, firmware and reference, does not depend on the order in which the objects of a sector arrive or on
how they are shared among its fibres, as long as no two of them in a slice have the same pt. -/
theorem C89_system (sz sz' : SystemSizes) (table : PuppiTable)
    (em : Arr (FE * N_IN_SECTORS) (List EmCaloObj)) (em' : Arr (FE' * N_IN_SECTORS) (List EmCaloObj))
    (had had' : Arr N_IN_SECTORS (List HadCaloObj))
    (tk : Arr (FT * N_IN_SECTORS) (List TkObj)) (tk' : Arr (FT' * N_IN_SECTORS) (List TkObj))
    (mu mu' : Arr N_MUON_SECTORS (List MuObj)) (vtk vtk' : Arr NV (Arr NTK TkObj))
    (memh memh' : Arr N_OUT_REGIONS (Arr NC HadCaloObj))
    (data : Arr N_OUT_REGIONS (Arr N Word)) (out0 : Arr N_OUT_REGIONS (Arr N' Word))
    (pf0 old old' : Arr N_OUT_REGIONS (PFOutputs NT NE NS NM)) (mem : Arr N_OUT_REGIONS (PFScratch NC NS))
    (mem' : Arr N_OUT_REGIONS (Arr NC PFNeutralObj)) (hN : sz.hadSlice ≤ NC)
    (hsz : sz'.emSlice = sz.emSlice ∧ sz'.hadSlice = sz.hadSlice ∧ sz'.tkSlice = sz.tkSlice)
    (le : ∀ k, sz.emSec / FE ≤ (em k).length) (lh : ∀ k, sz.hadSec ≤ (had k).length)
    (lt : ∀ k, sz.tkSec / FT ≤ (tk k).length) (lm : ∀ k, NM ≤ (mu k).length)
    (le' : ∀ k, sz'.emSec / FE' ≤ (em' k).length) (lh' : ∀ k, sz'.hadSec ≤ (had' k).length)
    (lt' : ∀ k, sz'.tkSec / FT' ≤ (tk' k).length) (lm' : ∀ k, NM ≤ (mu' k).length)
    (hv : ∀ s t, 0 ≤ (vtk s t).hwPt.toInt) (hcap : NV * 511 ≤ 32767)
    (pe : ∀ s, (arrivals sz.emSec em s).Perm (arrivals sz'.emSec em' s)) (te : ∀ s, NoTies (arrivals sz.emSec em s))
    (ph : ∀ s, (arrivals (NFPS := 1) sz.hadSec had s).Perm (arrivals (NFPS := 1) sz'.hadSec had' s))
    (th : ∀ s, NoTies (arrivals (NFPS := 1) sz.hadSec had s))
    (pt : ∀ s, (arrivals sz.tkSec tk s).Perm (arrivals sz'.tkSec tk' s)) (tt : ∀ s, NoTies (arrivals sz.tkSec tk s))
    (pm : ∀ s, ((mu s).take NM).Perm ((mu' s).take NM)) (tm : ∀ s, NoTies ((mu s).take NM))
    (pv : ∀ s, (List.ofFn (vtk s)).Perm (List.ofFn (vtk' s))) :
    fwSystem sz' table em' had' tk' mu' vtk' memh' data out0 pf0 old mem =
      fwSystem sz table em had tk mu vtk memh data out0 pf0 old mem ∧
    refSystem sz' table em' had' tk' mu' vtk' old' mem' = refSystem sz table em had tk mu vtk old' mem' := by
  obtain ⟨h1, h2, h3⟩ := hsz
  obtain ⟨re, e1⟩ := (C37_ref_consumes sz.emSec sz.emSlice NE em).1 le
  obtain ⟨rh, e2⟩ := (C37_ref_consumes (NFPS := 1) sz.hadSec sz.hadSlice NC had).1 (fun k => by rw [Nat.div_one]; exact lh k)
  obtain ⟨rt, e3⟩ := (C37_ref_consumes sz.tkSec sz.tkSlice NT tk).1 lt
  obtain ⟨rm, e4⟩ := (C37_muon_consumes mu).1 lm
  have e1' := C89_regions _ sz'.emSec _ em _ em' re e1 le' pe te
  have e2' := C89_regions (NFPS := 1) (NFPS' := 1) sz.hadSec sz'.hadSec _ had _ had' rh e2 (fun k => by rw [Nat.div_one]; exact lh' k) ph th
  have e3' := C89_regions _ sz'.tkSec _ tk _ tk' rt e3 lt' pt tt
  have e4' := C89_muons mu mu' _ rm e4 lm' pm tm
  obtain ⟨v1, v2⟩ := C89_vertex vtk vtk' hv hcap pv
  constructor
  · unfold fwSystem
    rw [C32_agree sz'.hadSec sz'.hadSlice (by rw [h2]; exact hN) memh' had', C32_agree sz.hadSec sz.hadSlice hN memh had,
      h1, h2, h3, e2, e2', Run.ok_bind, Run.ok_bind, e1, e1', Run.ok_bind, Run.ok_bind, e3, e3', Run.ok_bind, Run.ok_bind,
      e4, e4', Run.ok_bind, Run.ok_bind, v1]
  · unfold refSystem
    rw [h1, h2, h3, e2, e2', Run.ok_bind, Run.ok_bind, e1, e1', Run.ok_bind, Run.ok_bind, e3, e3', Run.ok_bind, Run.ok_bind,
      e4, e4', Run.ok_bind, Run.ok_bind, v2]
end

/-- Two clusters of the same pt. -/
def tieA : HadCaloObj := { hwPt := 50, hwEmPt := 20, hwEta := 10, hwPhi := 5, hwIsEM := false }
def tieB : HadCaloObj := { hwPt := 50, hwEmPt := 0, hwEta := -30, hwPhi := 9, hwIsEM := false }

/-- C89: with a tie the order matters: where there is room for one cluster only, the first of two of the same pt is kept. -/
theorem C89_tie :
    let r := fun l => (regionize_ref (NFPS := 1) (T := HadCaloObj) 2 1 1 (fun _ => l)).map fun o => (o.2 7 0).hwEta.toInt
    r [tieA, tieB] = .ok 10 ∧ r [tieB, tieA] = .ok (-30) ∧ [tieA, tieB].Perm [tieB, tieA] ∧ ¬ NoTies [tieA, tieB] := by
  refine ⟨by decide +kernel, by decide +kernel, List.Perm.swap _ _ _, fun h => ?_⟩
  exact absurd (h 1 tieA (by simp) tieB (by simp) (by decide) (by decide) (by decide) (by decide)) (by decide)

/-- Non-vacuity of C89: tracks of different pts on one fibre per sector and on two. -/
def arrOne : Arr (1 * N_IN_SECTORS) (List TkObj) := fun _ => [exTk, { exTk with hwPt := 30 }, TkObj.clear, TkObj.clear]
def arrTwo : Arr (2 * N_IN_SECTORS) (List TkObj) := fun k =>
  if k.val % 2 = 0 then [TkObj.clear, { exTk with hwPt := 30 }] else [TkObj.clear, exTk]

example : (∀ s, (arrivals 4 arrOne s).Perm (arrivals 4 arrTwo s)) ∧ ∀ s, NoTies (arrivals 4 arrOne s) := by
  refine ⟨by decide +kernel, ?_⟩
  unfold NoTies
  decide +kernel

end Verif
