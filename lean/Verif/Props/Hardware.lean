import Verif.Proofs.Hardware
import Verif.Proofs.BramHist
import Verif.Proofs.RegMerge
import Verif.Proofs.SimpleVtx
import Verif.Model.PF
/-! # C81, C82: the loops as the hardware runs them -/
namespace Verif
open Spec

/-! ### C81: clocked registers -/

section
variable {T : Type} [HasPt T] {NIn NOut : Nat}

/-- **C81.** The sorter of the firmware is a row of `NOut` registers clocked once for each input, every register looking
at itself and its left neighbour before any of them changes. For all object types, sizes and contents. -/
theorem C81_sorter (tmp0 : Arr NOut T) (inp : Arr NIn T) :
    ptsort_hwopt tmp0 inp =
      ticks (cellFirst (fun o => (HasPt.pt o).toInt)) (List.ofFn inp) (fun i => HasPt.setPt (tmp0 i) 0) := by
  have hs : ∀ (x : T) (a : Arr NOut T), loopDown (ptsort_hwopt_step x) a = tick (cellFirst (fun o => (HasPt.pt o).toInt)) x a := by
    intro x a
    apply loopDown_tick
    intro i a
    unfold ptsort_hwopt_step
    by_cases h1 : (HasPt.pt x).toInt < (HasPt.pt (a i)).toInt
    · rw [if_neg (by omega)]
      by_cases h2 : i.val = 0
      · rw [dif_pos h2]; simp only [cellFirst, if_pos h1]; exact (Arr.set_eq_self a i).symm
      · rw [dif_neg h2]; simp only [cellFirst, if_pos h1]; exact (Arr.set_eq_self a i).symm
    · rw [if_pos (by omega)]
      by_cases h2 : i.val = 0
      · rw [dif_pos h2, dif_pos h2]; simp only [cellFirst, if_neg h1]
      · rw [dif_neg h2, dif_neg h2]
        simp only [cellFirst, if_neg h1]
        by_cases h3 : (HasPt.pt x).toInt < (HasPt.pt (a ⟨i.val - 1, by omega⟩)).toInt
        · rw [if_pos h3, if_pos h3]
        · rw [if_neg h3, if_neg h3]
  unfold ptsort_hwopt ticks loop
  rw [List.ofFn_eq_map, List.foldl_map]
  have e : (fun (s : Arr NOut T) (i : Fin NIn) => (fun it tmp => loopDown (ptsort_hwopt_step (inp it)) tmp) i s) =
      fun s i => tick (cellFirst (fun o => (HasPt.pt o).toInt)) (inp i) s := funext fun s => funext fun i => hs _ _
  simp only [] at e
  rw [e]

end

section
variable {T : Type} [RegObj T] {NSE NREG : Nat}

theorem push_tick (inn val : T) (a : Arr NSE T) :
    loopDown (push_step inn val) a = tick (cellLast (fun o => (RegObj.pt o).toInt)) (inn, val) a := by
  apply loopDown_tick
  intro i a
  unfold push_step
  by_cases h1 : (RegObj.pt inn).toInt ≤ (RegObj.pt (a i)).toInt
  · rw [if_neg (by omega)]
    by_cases h2 : i.val = 0
    · rw [dif_pos h2]; simp only [cellLast, if_pos h1]; exact (Arr.set_eq_self a i).symm
    · rw [dif_neg h2]; simp only [cellLast, if_pos h1]; exact (Arr.set_eq_self a i).symm
  · rw [if_pos (by omega)]
    by_cases h2 : i.val = 0
    · rw [dif_pos h2, dif_pos h2]; simp only [cellLast, if_neg h1]
    · rw [dif_neg h2, dif_neg h2]
      simp only [cellLast, if_neg h1]
      by_cases h3 : (RegObj.pt inn).toInt ≤ (RegObj.pt (a ⟨i.val - 1, by omega⟩)).toInt
      · rw [if_pos h3, if_pos h3]
      · rw [if_neg h3, if_neg h3]

/-- **C81.** The insertion of the regionizer is one clock edge of such a row, for objects in the eta window. -/
theorem C81_push (inn : T) (out : Arr NSE T) (etaMin etaMax etaShift : EtaPhi) :
    push_in_sector_eta inn out etaMin etaMax etaShift =
      if etaMin.toInt ≤ (RegObj.eta inn).toInt ∧ (RegObj.eta inn).toInt ≤ etaMax.toInt then
        tick (cellLast (fun o => (RegObj.pt o).toInt)) (inn, addEta inn etaShift) out
      else out := by
  unfold push_in_sector_eta
  rw [push_tick]

/-- What the merge stores for an object of a neighbouring sector. -/
def shifted (d : EtaPhi) (o : T) : T := if (RegObj.pt o).toInt > 0 then addPhi o d else o

/-- **C81.** The merge of three sectors loads the first list in the registers and clocks them once for each object of
the other two. -/
theorem C81_merge (hN : NSE ≤ NREG) (tmp0 : Arr NREG T) (l1 l2 l3 : Arr NSE T) (d1 d2 d3 : EtaPhi) :
    merge_smart tmp0 l1 d1 l2 d2 l3 d3 =
      .ok (ticks (cellLast (fun o => (RegObj.pt o).toInt))
        ((List.ofFn l2).map (fun o => (o, shifted d2 o)) ++ (List.ofFn l3).map (fun o => (o, shifted d3 o)))
        (fun i => if h : i.val < NSE then shifted d1 (l1 ⟨i.val, h⟩) else RegObj.clear)) := by
  have pass : ∀ (l : Arr NSE T) (d : EtaPhi) (tmp : Arr NREG T), merge_pass l d tmp =
      ticks (cellLast (fun o => (RegObj.pt o).toInt)) ((List.ofFn l).map (fun o => (o, shifted d o))) tmp := by
    intro l d tmp
    unfold merge_pass ticks loop
    rw [List.ofFn_eq_map, List.map_map, List.foldl_map]
    have e : (fun (s : Arr NREG T) (it : Fin NSE) => loopDown (push_step (l it)
        (if (RegObj.pt (l it)).toInt > 0 then addPhi (l it) d else l it)) s) =
        fun s it => tick (cellLast (fun o => (RegObj.pt o).toInt)) (((fun o => (o, shifted d o)) ∘ l) it) s :=
      funext fun s => funext fun i => push_tick _ _ _
    rw [e]
  obtain ⟨t, e1, e2⟩ := loopM_induct (n := NSE)
    (fun m (tmp : Arr NREG T) => ∀ i : Fin NSE, i.val < m → ∀ h : i.val < NREG, tmp ⟨i.val, h⟩ = shifted d1 (l1 i))
    (fun (i : Fin NSE) (tmp : Arr NREG T) =>
      tmp.write i.val (if (RegObj.pt (l1 i)).toInt > 0 then addPhi (l1 i) d1 else l1 i)) tmp0
    (fun i hi => absurd hi (by omega))
    (by
      intro i s hs
      have hi : i.val < NREG := lt_of_lt_of_le i.isLt hN
      rw [Arr.write_ok _ _ hi]
      refine ⟨_, rfl, fun j hj hh => ?_⟩
      by_cases e : j = i
      · subst e; rw [Arr.set_same]; rfl
      · rw [Arr.set_ne _ _ (fun x => e (Fin.ext (by simpa using congrArg Fin.val x)))]
        exact hs j (by have : j.val ≠ i.val := fun x => e (Fin.ext x); omega) hh)
  unfold merge_smart
  rw [e1, Run.ok_bind]
  simp only []
  rw [pass, pass]
  unfold ticks
  rw [List.foldl_append]
  congr 3
  funext i
  by_cases h : i.val < NSE
  · rw [if_neg (by omega), dif_pos h]
    exact e2 ⟨i.val, h⟩ h i.isLt
  · rw [if_pos (by omega), dif_neg h]

end

/-- **C81.** The direction of the inner loop matters: run upwards, an insertion copies the first object over the whole row. -/
theorem C81_upwards_differs :
    (fun i => ((loop (ptsort_hwopt_step (⟨9, 0, 0, 1, 0⟩ : PFNeutralObj))
      (fun i : Fin 3 => ([⟨8, 0, 0, 1, 0⟩, ⟨7, 0, 0, 1, 0⟩, ⟨6, 0, 0, 1, 0⟩] : List PFNeutralObj)[i])) i).hwPt) ≠
    (fun i => ((loopDown (ptsort_hwopt_step (⟨9, 0, 0, 1, 0⟩ : PFNeutralObj))
      (fun i : Fin 3 => ([⟨8, 0, 0, 1, 0⟩, ⟨7, 0, 0, 1, 0⟩, ⟨6, 0, 0, 1, 0⟩] : List PFNeutralObj)[i])) i).hwPt) := by
  decide +kernel

/-! ### C81: adders -/

/-- **C81.** The sums of track pt by EM cluster are the outputs of any tree of 16-bit adders that has each track once. -/
theorem C81_em_adders {NT NE : Nat} (track : Arr NT TkObj) (link : Arr NT (Arr NE Bool)) (c : Fin NE) (t : Adders NT)
    (ht : t.Complete) :
    tk2em_sumtk track link c = t.output (fun it => if link it c then (track it).hwPt else 0) := by
  unfold tk2em_sumtk
  apply loop_adders _ _ _ t ht
  intro i s
  by_cases h : link i c = true
  · rw [if_pos h, if_pos h, reg_add]
  · rw [if_neg h, if_neg h]; exact (BitVec.add_zero s).symm

/-- **C81.** The same for the EM pt by calorimeter cluster. -/
theorem C81_had_adders {NE NC : Nat} (emcalo : Arr NE EmCaloObj) (isEM : Arr NE Bool) (link : Arr NE (Arr NC Bool)) (c : Fin NC)
    (t : Adders NE) (ht : t.Complete) :
    (em2calo_sumem emcalo isEM link c).1 =
      t.output (fun e => if link e c ∧ isEM e then (emcalo e).hwPt else 0) := by
  rw [← loop_adders (fun e s => if link e c ∧ isEM e then reg 16 (s.toInt + (emcalo e).hwPt.toInt) else s) _ ?_ t ht]
  · unfold em2calo_sumem loop
    suffices h : ∀ (l : List (Fin NE)) (s : Pt × Bool) (s' : Pt), s.1 = s' →
        (l.foldl (fun (s : Pt × Bool) iem => if link iem c then
          if isEM iem then (reg 16 (s.1.toInt + (emcalo iem).hwPt.toInt), s.2) else (s.1, false) else s) s).1 =
        l.foldl (fun s e => if link e c ∧ isEM e then reg 16 (s.toInt + (emcalo e).hwPt.toInt) else s) s' from h _ _ _ rfl
    intro l
    induction l with
    | nil => intro s s' h; exact h
    | cons e l ih =>
      intro s s' h
      subst h
      simp only [List.foldl_cons]
      apply ih
      by_cases h1 : link e c = true
      · by_cases h2 : isEM e = true
        · rw [if_pos h1, if_pos h2, if_pos ⟨h1, h2⟩]
        · rw [if_pos h1, if_neg h2, if_neg (fun h => h2 h.2)]
      · rw [if_neg h1, if_neg (fun h => h1 h.1)]
  · intro i s
    by_cases h : link i c = true ∧ isEM i = true
    · rw [if_pos h, if_pos h, reg_add]
    · rw [if_neg h, if_neg h]; exact (BitVec.add_zero s).symm

/-- **C81.** A level of the reduction of the 15-bin vertex finder is one clock edge of all its rows: each row whose number
is a multiple of twice the stride adds the old content of the row a stride further on, the others keep theirs. -/
theorem C81_tree_level {P : Nat} (hP : P ≤ 6) (k : Fin P) (rows : Arr (2 ^ P) VtxHist) :
    ∃ rows', vtx_level k.val rows = .ok rows' ∧ ∀ i : Fin (2 ^ P), rows' i =
      if h : 2 ^ (k.val + 1) ∣ i.val ∧ i.val + 2 ^ k.val < 2 ^ P then fun j =>
        ((rows i j).1 + (rows ⟨i.val + 2 ^ k.val, h.2⟩ j).1, (rows i j).2 + (rows ⟨i.val + 2 ^ k.val, h.2⟩ j).2)
      else rows i := by
  obtain ⟨rows', h1, h2⟩ := level_edge rfl k.isLt (by omega) rows
  refine ⟨rows', h1, fun i => ?_⟩
  obtain ⟨a, b, c⟩ := h2 i
  by_cases h : 2 ^ (k.val + 1) ∣ i.val
  · rw [dif_pos ⟨h, b h⟩]; exact a (b h) h
  · rw [dif_neg (fun x => h x.1)]; exact c h

/-- Non-vacuity: two complete trees over four inputs, a chain and a balanced tree. -/
example : (Adders.add (.add (.add (.input (0 : Fin 4)) (.input 1)) (.input 2)) (.input 3)).Complete ∧
    (Adders.add (.add (.input (0 : Fin 4)) (.input 2)) (.add (.input 3) (.input 1))).Complete := by
  constructor <;> (unfold Adders.Complete; decide)

/-! ### C82: the pipelined histogram -/

/-- What a call of `bhv_add_track` does to its bin. -/
def bhvAccess (c : ZBinV × Pt) : Option (Access 72 PtSum) :=
  if h : c.1.valid = true ∧ c.1.bin.toNat < 72 then
    some ⟨⟨c.1.bin.toNat, h.2⟩, fun old => BitVec.ofInt 9 (min 511 ((old.toNat : Int) + min 100 (c.2.toInt / 2)))⟩
  else none

theorem bhv_sequential (calls : List (ZBinV × Pt)) (hb : ∀ c ∈ calls, c.1.valid = true → c.1.bin.toNat < 72)
    (hp : ∀ c ∈ calls, 0 ≤ c.2.toInt) (h : Arr 72 PtSum) :
    calls.foldlM (fun h c => bhv_add_track c.1 c.2 h) h = .ok (sequential (calls.map bhvAccess) h) := by
  induction calls generalizing h with
  | nil => rfl
  | cons c l ih =>
    have e : bhv_add_track c.1 c.2 h = .ok (access h (bhvAccess c)) := by
      unfold bhvAccess
      by_cases hv : c.1.valid = true
      · have hbin := hb c List.mem_cons_self hv
        rw [dif_pos ⟨hv, hbin⟩, add_track_valid _ _ _ hv hbin (hp c List.mem_cons_self)]
        rfl
      · rw [dif_neg (fun x => hv x.1), add_track_invalid _ _ _ (by simpa using hv)]
        rfl
    rw [List.foldlM_cons, e, Run.ok_bind, ih (fun d hd => hb d (List.mem_cons_of_mem _ hd)) (fun d hd => hp d (List.mem_cons_of_mem _ hd))]
    rfl

/-- **C82.** With a new call every two cycles (the pragma) and the write one cycle after the read, the pipelined
histogram is the histogram of the program: for any number of calls, any bins and any contents. -/
theorem C82_pipeline (calls : List (ZBinV × Pt)) (hb : ∀ c ∈ calls, c.1.valid = true → c.1.bin.toNat < 72)
    (hp : ∀ c ∈ calls, 0 ≤ c.2.toInt) (h : Arr 72 PtSum) :
    calls.foldlM (fun h c => bhv_add_track c.1 c.2 h) h = .ok (pipeline 2 1 (calls.map bhvAccess) h calls.length) := by
  rw [bhv_sequential calls hb hp, ← List.length_map (as := calls) bhvAccess, pipeline_sequential]
  intro j k c d ho
  exact absurd ho.2 (by have := ho.1; omega)

/-- **C82.** One port is enough exactly when the write comes an odd number of cycles after the read; and a new call in
every cycle would need two ports whatever the latency. So two is the shortest interval a memory with one port allows. -/
theorem C82_one_port (lat : Nat) : (OnePort 2 lat ↔ lat % 2 = 1) ∧ ¬ OnePort 1 lat := by
  refine ⟨⟨fun h => ?_, fun h j k => by omega⟩, fun h => h lat 0 (by omega)⟩
  by_contra hc
  exact h (lat / 2) 0 (by omega)

/-- **C82.** With a longer latency, tracks in flight together must be in different bins: then the result is still right. -/
theorem C82_far_apart (q : Nat) (calls : List (ZBinV × Pt)) (hb : ∀ c ∈ calls, c.1.valid = true → c.1.bin.toNat < 72)
    (hp : ∀ c ∈ calls, 0 ≤ c.2.toInt) (h : Arr 72 PtSum)
    (hfar : ∀ j k (hj : j < calls.length) (hk : k < calls.length), j < k → k ≤ j + q →
      calls[j].1.valid = true → calls[k].1.valid = true → calls[j].1.bin ≠ calls[k].1.bin) :
    calls.foldlM (fun h c => bhv_add_track c.1 c.2 h) h = .ok (pipeline 2 (2 * q + 1) (calls.map bhvAccess) h calls.length) := by
  rw [bhv_sequential calls hb hp, ← List.length_map (as := calls) bhvAccess, pipeline_sequential]
  intro j k c d ho hc hd hcd
  have get : ∀ {i : Nat} {a : Access 72 PtSum}, (calls.map bhvAccess)[i]? = some (some a) →
      ∃ hi : i < calls.length, calls[i].1.valid = true ∧ calls[i].1.bin.toNat = a.addr.val := by
    intro i a h
    rw [List.getElem?_map] at h
    by_cases hi : i < calls.length
    · rw [List.getElem?_eq_getElem hi, Option.map_some] at h
      have h := Option.some.inj h
      unfold bhvAccess at h
      by_cases hv : calls[i].1.valid = true ∧ calls[i].1.bin.toNat < 72
      · rw [dif_pos hv] at h
        exact ⟨hi, hv.1, by rw [← Option.some.inj h]⟩
      · rw [dif_neg hv] at h; exact absurd h (by simp)
    · rw [List.getElem?_eq_none (by omega)] at h; exact absurd h (by simp)
  obtain ⟨hj, vj, bj⟩ := get hc
  obtain ⟨hk, vk, bk⟩ := get hd
  have := ho.2
  exact hfar j k hj hk ho.1 (by omega) vj vk (BitVec.eq_of_toNat_eq (by rw [bj, bk, hcd]))

/-- **C82.** One cycle is the only latency that is always right: with any other that one port allows, the second of
two tracks of the same bin erases the first, whatever the bin held and whatever their pts. -/
theorem C82_late (lat : Nat) (hlat : 2 ≤ lat) (b : ZBin) (hb : b.toNat < 72) (p p' : Pt) (h : Arr 72 PtSum) :
    pipeline 2 lat ([(⟨b, true⟩, p), (⟨b, true⟩, p')].map bhvAccess) h 2 =
      pipeline 2 lat ([(⟨b, true⟩, p')].map bhvAccess) h 1 := by
  have w1 : written 2 lat 1 = 0 := by
    unfold written
    rw [List.length_eq_zero_iff, List.filter_eq_nil_iff]
    intro j hj
    have : j < 1 := List.mem_range.mp hj
    simp only [decide_eq_true_eq]
    omega
  have w0 : written 2 lat 0 = 0 := rfl
  have e : ∀ p : Pt, bhvAccess (⟨b, true⟩, p) = some ⟨⟨b.toNat, hb⟩, fun old =>
      BitVec.ofInt 9 (min 511 ((old.toNat : Int) + min 100 (p.toInt / 2)))⟩ := fun p => dif_pos ⟨rfl, hb⟩
  have z : ∀ (l : List (Option (Access 72 PtSum))), pipeline 2 lat l h 0 = h := fun l => by rw [pipeline]
  have s : ∀ (l : List (Option (Access 72 PtSum))) (m : Nat) (c : Access 72 PtSum) (i : Fin 72), l[m]? = some (some c) →
      written 2 lat m = 0 → pipeline 2 lat l h (m + 1) i = if i = c.addr then c.f (h c.addr) else pipeline 2 lat l h m i := by
    intro l m c i hc hw
    rw [pipeline, hc, hw, Nat.min_zero, z]
  simp only [List.map_cons, List.map_nil, e]
  funext i
  rw [s _ 1 _ i rfl w1, s _ 0 _ i rfl w0, s _ 0 _ i rfl w0, z, z]
  by_cases hi : i = ⟨b.toNat, hb⟩
  · simp only [if_pos hi]
  · simp only [if_neg hi]

/-- **C82**, non-vacuity: tracks of pt 20 and 40 in bin 7 make 30 with a latency of one cycle, 20 with three. -/
example : (pipeline 2 1 ([(⟨7, true⟩, 20), (⟨7, true⟩, 40)].map bhvAccess) (fun _ => 0) 2 7,
    pipeline 2 3 ([(⟨7, true⟩, 20), (⟨7, true⟩, 40)].map bhvAccess) (fun _ => 0) 2 7) = (30, 20) := by
  decide +kernel

end Verif
