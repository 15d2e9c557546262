import Verif.Proofs.RegMuon
import Mathlib.Tactic.IntervalCases
/-! # Where each muon goes -/
namespace Verif
open Spec

section
variable {T I : Type} [RegObj T] {N : Nat}

/-- `best` on indices. -/
def bestIdx (g : I → T) (n : Nat) (l : List I) : List I :=
  ((l.filter fun i => decide (0 < ptOf (g i))).insertionSort (fun i j => byPt (g i) (g j))).take n

theorem best_map (g : I → T) (n : Nat) (l : List I) : best n (l.map g) = (bestIdx g n l).map g := by
  unfold best bestIdx
  rw [List.filter_map, List.map_take, List.map_insertionSort (r := fun i j => byPt (g i) (g j)) (s := byPt) g]
  · rfl
  · intros; rfl

theorem mem_bestIdx {g : I → T} {n : Nat} {l : List I} {i : I} (h : i ∈ bestIdx g n l) : i ∈ l ∧ 0 < ptOf (g i) := by
  have := List.mem_filter.mp ((List.mem_insertionSort _).mp (List.mem_of_mem_take h))
  exact ⟨this.1, of_decide_eq_true this.2⟩

theorem bestIdx_nodup {g : I → T} {n : Nat} {l : List I} (h : l.Nodup) : (bestIdx g n l).Nodup := by
  unfold bestIdx
  apply List.Nodup.sublist (List.take_sublist _ _)
  exact (List.perm_insertionSort _ _).nodup_iff.mpr (h.filter _)

theorem bestIdx_length (g : I → T) (n : Nat) (l : List I) : (bestIdx g n l).length ≤ n := by
  unfold bestIdx; rw [List.length_take]; omega

theorem mem_bestIdx_of {g : I → T} {n : Nat} {l : List I} (hl : (l.filter fun i => decide (0 < ptOf (g i))).length ≤ n)
    {i : I} (hi : i ∈ l) (hp : 0 < ptOf (g i)) : i ∈ bestIdx g n l := by
  unfold bestIdx
  rw [List.take_of_length_le (by rw [List.length_insertionSort]; exact hl)]
  exact (List.mem_insertionSort _).mpr (List.mem_filter.mpr ⟨hi, decide_eq_true hp⟩)

theorem bestIdx_sorted (g : I → T) (n : Nat) (l : List I) : (bestIdx g n l).Pairwise (fun i j => byPt (g i) (g j)) := by
  have : Std.Total (fun i j => byPt (g i) (g j)) := ⟨fun _ _ => le_total _ _⟩
  have : IsTrans I (fun i j => byPt (g i) (g j)) := ⟨fun _ _ _ h1 h2 => le_trans h2 h1⟩
  exact (List.pairwise_insertionSort _ _).sublist (List.take_sublist _ _)

theorem best_congr {n : Nat} {l l' : List T}
    (h : (l.filter fun o => decide (0 < ptOf o)) = l'.filter fun o => decide (0 < ptOf o)) : best n l = best n l' := by
  unfold best; rw [h]

theorem filter_pos_pad [LawfulReg T] {l : List T} (hn : l.length ≤ N) (c : T → Bool) (f : T → T) (hf : ∀ x, ptOf (f x) = ptOf x) :
    (((pad N l).filter c).map f).filter (fun o => decide (0 < ptOf o)) =
      ((l.filter c).map f).filter (fun o => decide (0 < ptOf o)) := by
  rw [pad_of_le hn, List.filter_append, List.map_append, List.filter_append]
  have : (List.map f (List.filter c (List.replicate (N - l.length) RegObj.clear))).filter (fun o => decide (0 < ptOf o)) = [] := by
    apply List.filter_eq_nil_iff.mpr
    intro x hx
    obtain ⟨y, hy, rfl⟩ := List.mem_map.mp hx
    rw [(List.mem_replicate.mp (List.mem_filter.mp hy).1).2, hf, ptOf_clear]
    decide
  rw [this, List.append_nil]

end

variable {NMU : Nat}

theorem phiShift_eq (k : Fin 3) : PHI_SHIFT k = 120 * ((k.val : Int) - 1) := by revert k; decide

/-- Phi of a muon in its muon sector -/
def secPhi (ics : Fin 12) (phi : Int) : Int := phi + 120 * (((ics.val % 3 : Nat) : Int) - 1)

/-- A muon in its muon sector. -/
def inSec (ics : Fin 12) (mu : MuObj) : MuObj := phiMove (PHI_SHIFT ⟨ics.val % 3, by omega⟩) mu

theorem inSec_phi (ics : Fin 12) (mu : MuObj) (h : -60 ≤ mu.hwPhi.toInt ∧ mu.hwPhi.toInt ≤ 60) :
    (inSec ics mu).hwPhi.toInt = secPhi ics mu.hwPhi.toInt := by
  show (reg 10 (mu.hwPhi.toInt + PHI_SHIFT _)).toInt = _
  unfold secPhi
  rw [phiShift_eq, reg10_toInt] <;> simp only [] <;> omega

theorem toRegion_a0 (ie : Fin 3) (ip : Fin 6) (ics : Fin 12) (mu : MuObj) (h : -60 ≤ mu.hwPhi.toInt ∧ mu.hwPhi.toInt ≤ 60)
    (hip : ip.val % 3 = 0) (ha : ics.val / 3 = (muA ip).val) :
    etaRel ie (inSec ics mu) = muToRegion ie ip ics mu := by
  have ha' : ics.val / 3 = 2 * ip.val / 3 := ha
  have hi := ics.isLt
  have hq := ip.isLt
  have hs : mu.hwPhi.toInt + PHI_SHIFT ⟨ics.val % 3, by omega⟩ = relPhi ip ics mu.hwPhi.toInt := by
    rw [phiShift_eq]; unfold relPhi; simp only []; omega
  show MuObj.mk _ _ _ _ = MuObj.mk _ _ _ _
  rw [← hs]; rfl

theorem toRegion_mv (ie : Fin 3) (ip : Fin 6) (ics : Fin 12) (mu : MuObj) (h : -60 ≤ mu.hwPhi.toInt ∧ mu.hwPhi.toInt ≤ 60)
    (d : Int) (hd : secPhi ics mu.hwPhi.toInt + d = relPhi ip ics mu.hwPhi.toInt) :
    phiMove d (etaRel ie (inSec ics mu)) = muToRegion ie ip ics mu := by
  show MuObj.mk _ _ _ (BitVec.ofInt 10 ((inSec ics mu).hwPhi.toInt + d)) = MuObj.mk _ _ _ _
  rw [inSec_phi _ _ h, hd]
  rfl

theorem toRegion_a1 (ip : Fin 6) (ics : Fin 12) (phi : Int) (h : -60 ≤ phi ∧ phi ≤ 60)
    (hip : ip.val % 3 = 1) (ha : ics.val / 3 = (muA ip).val) : secPhi ics phi + -240 = relPhi ip ics phi := by
  have ha' : ics.val / 3 = 2 * ip.val / 3 := ha
  have hi := ics.isLt
  have hq := ip.isLt
  unfold secPhi relPhi; omega

theorem toRegion_b1 (ip : Fin 6) (ics : Fin 12) (phi : Int) (h : -60 ≤ phi ∧ phi ≤ 60)
    (hip : ip.val % 3 = 1) (ha : ics.val / 3 = (muB ip).val) : secPhi ics phi + 120 = relPhi ip ics phi := by
  have ha' : ics.val / 3 = (2 * ip.val / 3 + 1) % 4 := ha
  have hi := ics.isLt
  have hq := ip.isLt
  unfold secPhi relPhi; omega

theorem toRegion_a2 (ip : Fin 6) (ics : Fin 12) (phi : Int) (h : -60 ≤ phi ∧ phi ≤ 60)
    (hip : ip.val % 3 = 2) (ha : ics.val / 3 = (muA ip).val) : secPhi ics phi + -120 = relPhi ip ics phi := by
  have ha' : ics.val / 3 = 2 * ip.val / 3 := ha
  have hi := ics.isLt
  have hq := ip.isLt
  unfold secPhi relPhi; omega

theorem toRegion_b2 (ip : Fin 6) (ics : Fin 12) (phi : Int) (h : -60 ≤ phi ∧ phi ≤ 60)
    (hip : ip.val % 3 = 2) (ha : ics.val / 3 = (muB ip).val) : secPhi ics phi + 240 = relPhi ip ics phi := by
  have ha' : ics.val / 3 = (2 * ip.val / 3 + 1) % 4 := ha
  have hi := ics.isLt
  have hq := ip.isLt
  unfold secPhi relPhi; omega

theorem sec_b {ip ics : Nat} {phi : Int} (hq : ip < 6) (hi : ics < 12) (h : -60 ≤ phi ∧ phi ≤ 60) (h0 : ¬ ip % 3 = 0)
    (ha : ¬ ics / 3 = 2 * ip / 3)
    (hr1 : -180 < (120 * (ics : Int) + phi - 120 * (2 * (ip : Int) + 1) + 720) % 1440 - 720)
    (hr2 : (120 * (ics : Int) + phi - 120 * (2 * (ip : Int) + 1) + 720) % 1440 - 720 < 180) :
    ics / 3 = (2 * ip / 3 + 1) % 4 := by
  interval_cases ip <;> omega

/-- All positions. -/
def allIdx (NMU : Nat) : List (Fin 12 × Fin NMU) :=
  (List.finRange 12).flatMap fun ics => (List.finRange NMU).map fun io => (ics, io)

theorem allIdx_nodup : (allIdx NMU).Nodup := by
  unfold allIdx
  rw [List.nodup_flatMap]
  refine ⟨fun x _ => (List.nodup_finRange _).map (fun a b h => (Prod.mk.inj h).2), ?_⟩
  refine (List.nodup_finRange 12).imp ?_
  intro a b hab x hx hy
  obtain ⟨_, _, rfl⟩ := List.mem_map.mp hx
  obtain ⟨_, _, e⟩ := List.mem_map.mp hy
  exact hab (Prod.mk.inj e).1.symm

theorem mem_allIdx (p : Fin 12 × Fin NMU) : p ∈ allIdx NMU :=
  List.mem_flatMap.mpr ⟨p.1, List.mem_finRange _, List.mem_map.mpr ⟨p.2, List.mem_finRange _, rfl⟩⟩

/-- Positions of the muons of a muon sector. -/
def secIdx (NMU : Nat) (s : Fin 4) : List (Fin 12 × Fin NMU) := (allIdx NMU).filter fun p => decide (p.1.val / 3 = s.val)

theorem muArr_eq (inn : Arr N_IN_SECTORS (Arr NMU MuObj)) (s : Fin 4) :
    muArr inn s = (secIdx NMU s).map fun p => inSec p.1 (inn p.1 p.2) := by
  unfold muArr secIdx allIdx
  have : ((List.finRange N_IN_SECTORS).flatMap fun ics => (List.finRange NMU).map fun io =>
      ((⟨ics.val / 3, by have h : ics.val < 12 := ics.isLt; omega⟩ : Fin 4),
      phiMove (PHI_SHIFT ⟨ics.val % 3, by omega⟩) (inn ics io))) =
      ((List.finRange 12).flatMap fun ics => (List.finRange NMU).map fun io => (ics, io)).map
        fun p => ((⟨p.1.val / 3, by omega⟩ : Fin 4), inSec p.1 (inn p.1 p.2)) := by
    rw [List.map_flatMap]
    simp only [List.map_map]
    rfl
  rw [this, List.filter_map, List.map_map]
  congr 1
  apply List.filter_congr
  intro p _
  simp only [Function.comp, Fin.ext_iff]

/-- What the work area contains after streaming the merged muons. -/
theorem work_idx (inn : Arr N_IN_SECTORS (Arr NMU MuObj)) (ie : Fin 3) (s : Fin 4) :
    ∃ L : List (Fin 12 × Fin NMU), slice NMU ie (List.ofFn (merge_muon_in inn s)) =
      L.map (fun p => etaRel ie (inSec p.1 (inn p.1 p.2))) ∧ L.Nodup ∧ L.length ≤ NMU ∧
      L.Pairwise (fun p q => ptOf (inn q.1 q.2) ≤ ptOf (inn p.1 p.2)) ∧
      (∀ p ∈ L, p.1.val / 3 = s.val ∧ 0 < ptOf (inn p.1 p.2) ∧ inSlice ie (inn p.1 p.2) = true) ∧
      ((muIndices inn).length ≤ NMU → ∀ p : Fin 12 × Fin NMU, p.1.val / 3 = s.val → 0 < ptOf (inn p.1 p.2) →
        inSlice ie (inn p.1 p.2) = true → p ∈ L) := by
  have hpt : ∀ p : Fin 12 × Fin NMU, ptOf (inSec p.1 (inn p.1 p.2)) = ptOf (inn p.1 p.2) := fun p => rfl
  have hpt2 : ∀ p : Fin 12 × Fin NMU, ptOf (etaRel ie (inSec p.1 (inn p.1 p.2))) = ptOf (inn p.1 p.2) := fun p => rfl
  have hsl : ∀ p : Fin 12 × Fin NMU, inSlice ie (inSec p.1 (inn p.1 p.2)) = inSlice ie (inn p.1 p.2) := fun p => rfl
  let L1 := bestIdx (fun p : Fin 12 × Fin NMU => inSec p.1 (inn p.1 p.2)) NMU (secIdx NMU s)
  have hL1 : L1.Nodup := bestIdx_nodup (allIdx_nodup.filter _)
  have h1 : List.ofFn (merge_muon_in inn s) = pad NMU (L1.map fun p => inSec p.1 (inn p.1 p.2)) := by
    have := merge_muon_holds inn s
    rw [muArr_eq, best_map] at this
    exact this
  let L2 := bestIdx (fun p : Fin 12 × Fin NMU => etaRel ie (inSec p.1 (inn p.1 p.2))) NMU
    (L1.filter fun p => inSlice ie (inn p.1 p.2))
  have hsub : ∀ L : List (Fin 12 × Fin NMU), L.Nodup → 
      (L.filter fun p => decide (0 < ptOf (inn p.1 p.2))).length ≤ (muIndices inn).length := by
    intro L hL
    apply List.Subperm.length_le
    apply List.subperm_of_subset (hL.filter _)
    intro p hp
    exact List.mem_filter.mpr ⟨mem_allIdx p, (List.mem_filter.mp hp).2⟩
  refine ⟨L2, ?_, bestIdx_nodup (hL1.filter _), bestIdx_length _ _ _, bestIdx_sorted _ _ _, ?_, ?_⟩
  · unfold slice
    rw [h1, best_congr (filter_pos_pad (by rw [List.length_map]; exact bestIdx_length _ _ _) (inSlice ie) (etaRel ie)
      (fun x => ptOf_etaRel ie x)), List.filter_map, List.map_map]
    exact best_map (fun p : Fin 12 × Fin NMU => etaRel ie (inSec p.1 (inn p.1 p.2))) NMU _
  · intro p hp
    obtain ⟨hp1, hp2⟩ := mem_bestIdx hp
    obtain ⟨hp3, hp4⟩ := List.mem_filter.mp hp1
    obtain ⟨hp5, _⟩ := mem_bestIdx hp3
    exact ⟨of_decide_eq_true (List.mem_filter.mp hp5).2, hp2, hp4⟩
  · intro hn p hs hp hw
    apply mem_bestIdx_of
    · exact le_trans (hsub _ (hL1.filter _)) hn
    · refine List.mem_filter.mpr ⟨?_, hw⟩
      apply mem_bestIdx_of
      · exact le_trans (hsub _ (allIdx_nodup.filter _)) hn
      · exact List.mem_filter.mpr ⟨mem_allIdx p, decide_eq_true hs⟩
      · exact hp
    · exact hp

/-- The muons delivered to a region. -/
theorem muon_regions (inn : Arr N_IN_SECTORS (Arr NMU MuObj)) (work : Work MuObj N_MUON_SECTORS NMU)
    (hw : ∀ is ie, Holds (work is ie) (slice NMU ie (List.ofFn (merge_muon_in inn is))))
    (hphi : ∀ ics io, 0 < ptOf (inn ics io) → -60 ≤ (inn ics io).hwPhi.toInt ∧ (inn ics io).hwPhi.toInt ≤ 60)
    (ir : Fin N_OUT_REGIONS) :
    ∃ L : List (Fin 12 × Fin NMU), Holds (muon_region work ir)
        (L.map fun p => muToRegion (regionEta ir) (regionPhi ir) p.1 (inn p.1 p.2)) ∧ L.Nodup ∧ L.length ≤ NMU ∧
      L.Pairwise (fun p q => ptOf (inn q.1 q.2) ≤ ptOf (inn p.1 p.2)) ∧
      (∀ p ∈ L, 0 < ptOf (inn p.1 p.2) ∧ inSlice (regionEta ir) (inn p.1 p.2) = true ∧
        -180 ≤ relPhi (regionPhi ir) p.1 (inn p.1 p.2).hwPhi.toInt ∧
        relPhi (regionPhi ir) p.1 (inn p.1 p.2).hwPhi.toInt ≤ 180) ∧
      ((muIndices inn).length ≤ NMU → ∀ p : Fin 12 × Fin NMU, 0 < ptOf (inn p.1 p.2) →
        inSlice (regionEta ir) (inn p.1 p.2) = true →
        -180 < relPhi (regionPhi ir) p.1 (inn p.1 p.2).hwPhi.toInt →
        relPhi (regionPhi ir) p.1 (inn p.1 p.2).hwPhi.toInt < 180 → p ∈ L) := by
  obtain ⟨LA, a1, a2, a3, a4, a5, a6⟩ := work_idx inn (regionEta ir) (muA (regionPhi ir))
  obtain ⟨LB, b1, b2, b3, b4, b5, b6⟩ := work_idx inn (regionEta ir) (muB (regionPhi ir))
  have hA := hw (muA (regionPhi ir)) (regionEta ir)
  have hB := hw (muB (regionPhi ir)) (regionEta ir)
  rw [a1] at hA
  rw [b1] at hB
  generalize hir : regionEta ir = ie at *
  have hq := (regionPhi ir).isLt
  have vA : (muA (regionPhi ir)).val = 2 * (regionPhi ir).val / 3 := rfl
  have vB : (muB (regionPhi ir)).val = (2 * (regionPhi ir).val / 3 + 1) % 4 := rfl
  by_cases h0 : (regionPhi ir).val % 3 = 0
  · refine ⟨LA, ?_, a2, a3, a4, ?_, ?_⟩
    · rw [muon_region_zero work ir h0, hir]
      have : LA.map (fun p => etaRel ie (inSec p.1 (inn p.1 p.2))) =
          LA.map (fun p => muToRegion ie (regionPhi ir) p.1 (inn p.1 p.2)) := by
        apply List.map_congr_left
        intro p hp
        obtain ⟨c1, c2, c3⟩ := a5 p hp
        exact toRegion_a0 ie (regionPhi ir) p.1 _ (hphi _ _ c2) h0 c1
      rw [← this]; exact hA
    · intro p hp
      obtain ⟨c1, c2, c3⟩ := a5 p hp
      have := hphi _ _ c2
      have hi := p.1.isLt
      refine ⟨c2, c3, ?_, ?_⟩ <;> unfold relPhi <;> omega
    · intro hn p hp hs hr1 hr2
      have := hphi _ _ hp
      have hi := p.1.isLt
      refine a6 hn p ?_ hp hs
      unfold relPhi at hr1 hr2
      omega
  · let cA : Fin 12 × Fin NMU → Bool := fun p => decide
      (secPhi p.1 (inn p.1 p.2).hwPhi.toInt > if (regionPhi ir).val % 3 = 1 then 60 else -60)
    let cB : Fin 12 × Fin NMU → Bool := fun p => decide
      (secPhi p.1 (inn p.1 p.2).hwPhi.toInt ≤ if (regionPhi ir).val % 3 = 1 then 60 else -60)
    let g : Fin 12 × Fin NMU → MuObj := fun p => muToRegion ie (regionPhi ir) p.1 (inn p.1 p.2)
    let C := LA.filter cA ++ LB.filter cB
    have hC : C.Nodup := by
      refine List.Nodup.append (a2.filter _) (b2.filter _) ?_
      intro p hpA hpB
      have e1 := (a5 p (List.mem_filter.mp hpA).1).1
      have e2 := (b5 p (List.mem_filter.mp hpB).1).1
      omega
    have hsub : (C.filter fun p => decide (0 < ptOf (g p))).length ≤ (muIndices inn).length := by
      apply List.Subperm.length_le
      apply List.subperm_of_subset (hC.filter _)
      intro p hp
      exact List.mem_filter.mpr ⟨mem_allIdx p, (List.mem_filter.mp hp).2⟩
    have hphiA : ∀ p ∈ LA, (etaRel ie (inSec p.1 (inn p.1 p.2))).hwPhi.toInt = secPhi p.1 (inn p.1 p.2).hwPhi.toInt :=
      fun p hp => inSec_phi _ _ (hphi _ _ (a5 p hp).2.1)
    have hphiB : ∀ p ∈ LB, (etaRel ie (inSec p.1 (inn p.1 p.2))).hwPhi.toInt = secPhi p.1 (inn p.1 p.2).hwPhi.toInt :=
      fun p hp => inSec_phi _ _ (hphi _ _ (b5 p hp).2.1)
    have stage : ∀ (L : List (Fin 12 × Fin NMU)) (c : MuObj → Bool) (c' : Fin 12 × Fin NMU → Bool) (d : Int),
        (∀ p ∈ L, c (etaRel ie (inSec p.1 (inn p.1 p.2))) = c' p) →
        (∀ p ∈ L, phiMove d (etaRel ie (inSec p.1 (inn p.1 p.2))) = g p) →
        ((L.map fun p => etaRel ie (inSec p.1 (inn p.1 p.2))).filter c).map (phiMove d) = (L.filter c').map g := by
      intro L c c' d h1 h2
      have h3 : L.filter (c ∘ fun p : Fin 12 × Fin NMU => etaRel ie (inSec p.1 (inn p.1 p.2))) = L.filter c' :=
        List.filter_congr (fun p hp => h1 p hp)
      rw [List.filter_map, List.map_map, h3]
      exact List.map_congr_left fun p hp => h2 p (List.mem_filter.mp hp).1
    have hpick := muon_region_pick work ir h0
    rw [hir] at hpick
    have hlist : best NMU (muPick (regionPhi ir) (List.ofFn (work (muA (regionPhi ir)) ie))
        (List.ofFn (work (muB (regionPhi ir)) ie))) = best NMU (C.map g) := by
      rw [hA, hB]
      apply best_congr
      show _ = ((LA.filter cA ++ LB.filter cB).map g).filter _
      unfold muPick
      rcases (by omega : (regionPhi ir).val % 3 = 1 ∨ (regionPhi ir).val % 3 = 2) with h1 | h1
      · rw [if_pos h1, List.filter_append,
          filter_pos_pad (by rw [List.length_map]; exact a3) _ _ (fun x => ptOf_phiMove _ x),
          filter_pos_pad (by rw [List.length_map]; exact b3) _ _ (fun x => ptOf_phiMove _ x), List.map_append,
          List.filter_append, stage LA _ cA, stage LB _ cB]
        · intro p hp
          simp only [cB]; rw [if_pos h1, hphiB p hp]
        · intro p hp
          exact toRegion_mv ie _ _ _ (hphi _ _ (b5 p hp).2.1) _ (toRegion_b1 _ _ _ (hphi _ _ (b5 p hp).2.1) h1 (b5 p hp).1)
        · intro p hp
          simp only [cA]; rw [if_pos h1, hphiA p hp]
        · intro p hp
          exact toRegion_mv ie _ _ _ (hphi _ _ (a5 p hp).2.1) _ (toRegion_a1 _ _ _ (hphi _ _ (a5 p hp).2.1) h1 (a5 p hp).1)
      · rw [if_neg (by omega), List.filter_append,
          filter_pos_pad (by rw [List.length_map]; exact a3) _ _ (fun x => ptOf_phiMove _ x),
          filter_pos_pad (by rw [List.length_map]; exact b3) _ _ (fun x => ptOf_phiMove _ x), List.map_append,
          List.filter_append, stage LA _ cA, stage LB _ cB]
        · intro p hp
          simp only [cB]; rw [if_neg (by omega), hphiB p hp]
        · intro p hp
          exact toRegion_mv ie _ _ _ (hphi _ _ (b5 p hp).2.1) _ (toRegion_b2 _ _ _ (hphi _ _ (b5 p hp).2.1) h1 (b5 p hp).1)
        · intro p hp
          simp only [cA]; rw [if_neg (by omega), hphiA p hp]
        · intro p hp
          exact toRegion_mv ie _ _ _ (hphi _ _ (a5 p hp).2.1) _ (toRegion_a2 _ _ _ (hphi _ _ (a5 p hp).2.1) h1 (a5 p hp).1)
    rw [hlist, best_map] at hpick
    refine ⟨bestIdx g NMU C, hpick, bestIdx_nodup hC, bestIdx_length _ _ _, bestIdx_sorted _ _ _, ?_, ?_⟩
    · intro p hp
      obtain ⟨c1, c2⟩ := mem_bestIdx hp
      have hi := p.1.isLt
      rcases List.mem_append.mp c1 with c | c
      · obtain ⟨d1, d2⟩ := List.mem_filter.mp c
        obtain ⟨d3, d4, d5⟩ := a5 p d1
        have hph := hphi _ _ d4
        refine ⟨d4, d5, ?_⟩
        have d2' := of_decide_eq_true d2
        unfold secPhi at d2'
        rcases (by omega : (regionPhi ir).val % 3 = 1 ∨ (regionPhi ir).val % 3 = 2) with h1 | h1
        · rw [if_pos h1] at d2'
          unfold relPhi; omega
        · rw [if_neg (by omega)] at d2'
          unfold relPhi; omega
      · obtain ⟨d1, d2⟩ := List.mem_filter.mp c
        obtain ⟨d3, d4, d5⟩ := b5 p d1
        have hph := hphi _ _ d4
        refine ⟨d4, d5, ?_⟩
        have d2' := of_decide_eq_true d2
        unfold secPhi at d2'
        rcases (by omega : (regionPhi ir).val % 3 = 1 ∨ (regionPhi ir).val % 3 = 2) with h1 | h1
        · rw [if_pos h1] at d2'
          unfold relPhi; omega
        · rw [if_neg (by omega)] at d2'
          unfold relPhi; omega
    · intro hn p hp hs hr1 hr2
      have hph := hphi _ _ hp
      have hi := p.1.isLt
      refine mem_bestIdx_of (le_trans hsub hn) ?_ hp
      unfold relPhi at hr1 hr2
      by_cases hsec : p.1.val / 3 = (muA (regionPhi ir)).val
      · refine List.mem_append_left _ (List.mem_filter.mpr ⟨a6 hn p hsec hp hs, decide_eq_true ?_⟩)
        unfold secPhi
        rcases (by omega : (regionPhi ir).val % 3 = 1 ∨ (regionPhi ir).val % 3 = 2) with h1 | h1
        · rw [if_pos h1]; omega
        · rw [if_neg (by omega)]; omega
      · have hsb : p.1.val / 3 = (muB (regionPhi ir)).val := by
          rw [vB]
          exact sec_b hq hi hph h0 (by rw [← vA]; exact hsec) hr1 hr2
        refine List.mem_append_right _ (List.mem_filter.mpr ⟨b6 hn p hsb hp hs, decide_eq_true ?_⟩)
        unfold secPhi
        rcases (by omega : (regionPhi ir).val % 3 = 1 ∨ (regionPhi ir).val % 3 = 2) with h1 | h1
        · rw [if_pos h1]; omega
        · rw [if_neg (by omega)]; omega

end Verif
