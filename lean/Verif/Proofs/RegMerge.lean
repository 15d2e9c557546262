import Verif.Proofs.RegPush
/-! # The two merges of the regionizer -/
namespace Verif
open Spec

variable {T : Type} [RegObj T] [LawfulReg T] {N NSE NREG : Nat}

omit [LawfulReg T] in
theorem addPhi_eq (o : T) (d : EtaPhi) : addPhi o d = phiMove d.toInt o := rfl

theorem reg10_small {d : Int} (h1 : -512 ≤ d) (h2 : d < 512) : (reg 10 d).toInt = d := reg10_toInt h1 h2

/-- An array holding a list, padded. -/
def Holds (a : Arr N T) (l : List T) : Prop := List.ofFn a = pad N l

omit [LawfulReg T] in
theorem pad_of_le {l : List T} (h : l.length ≤ N) : pad N l = l ++ List.replicate (N - l.length) RegObj.clear := by
  unfold pad
  rw [List.take_append, List.take_of_length_le h, List.take_replicate, Nat.min_eq_left (by omega)]

omit [LawfulReg T] in
theorem Holds.get {a : Arr N T} {l : List T} (h : Holds a l) (i : Fin N) :
    a i = if hi : i.val < l.length then l[i.val] else RegObj.clear := by
  have e : (List.ofFn a)[i.val]'(by simp) = a i := by simp
  rw [← e]
  have e2 : (List.ofFn a)[i.val]'(by simp) = (pad N l)[i.val]'(by rw [pad_length]; exact i.isLt) := by
    congr 1
  rw [e2]
  unfold pad
  rw [List.getElem_take, List.getElem_append]
  split
  · rfl
  · rw [List.getElem_replicate]

omit [LawfulReg T] in
theorem holds_of_get {a : Arr N T} {l : List T}
    (h : ∀ i : Fin N, a i = if hi : i.val < l.length then l[i.val] else RegObj.clear) : Holds a l := by
  unfold Holds
  apply List.ext_getElem
  · rw [pad_length, List.length_ofFn]
  · intro i h1 h2
    rw [List.length_ofFn] at h1
    rw [List.getElem_ofFn, h ⟨i, h1⟩]
    simp only [pad]
    rw [List.getElem_take, List.getElem_append]
    split
    · rfl
    · rw [List.getElem_replicate]

omit [LawfulReg T] in
theorem Holds.unique {a b : Arr N T} {l : List T} (ha : Holds a l) (hb : Holds b l) : a = b :=
  List.ofFn_injective (ha.trans hb.symm)

omit [LawfulReg T] in
theorem holds_take {a : Arr N T} {l : List T} : Holds a (l.take N) ↔ Holds a l := by
  unfold Holds; rw [pad_take]

theorem filter_pad {l : List T} (h : Good l) (hN : l.length ≤ N) :
    (pad N l).filter (fun x => decide (0 < ptOf x)) = l := by
  rw [pad_of_le hN, List.filter_append, List.filter_eq_self.mpr (fun x hx => decide_eq_true (h.pos x hx)),
    List.filter_eq_nil_iff.mpr (by
      intro x hx
      rw [(List.mem_replicate.mp hx).2, ptOf_clear]; decide), List.append_nil]

theorem mergePass_holds {list : Arr NSE T} {l2 : List T} (h2 : Holds list l2) (g2 : Good l2) (hn : l2.length ≤ NSE)
    (d : EtaPhi) {tmp : Arr NREG T} {l : List T} (ht : Holds tmp l) (gl : Good l) :
    Holds (merge_pass list d tmp) ((l ++ l2.map (phiMove d.toInt)).insertionSort byPt) ∧
      Good ((l ++ l2.map (phiMove d.toInt)).insertionSort byPt) := by
  have hgood : Good ((l ++ l2.map (phiMove d.toInt)).insertionSort byPt) := by
    apply good_sort
    intro x hx
    rcases List.mem_append.mp hx with hx | hx
    · exact gl.pos x hx
    · exact (g2.map (fun x => ptOf_phiMove d.toInt x)).pos x hx
  refine ⟨?_, hgood⟩
  unfold Holds merge_pass loop
  let g : T → T × T := fun o => (o, if (RegObj.pt o).toInt > 0 then addPhi o d else o)
  have hfold : (List.finRange NSE).foldl (fun (s : Arr NREG T) it => loopDown (push_step (list it)
      (if (RegObj.pt (list it)).toInt > 0 then addPhi (list it) d else list it)) s) tmp =
      ((List.ofFn list).map g).foldl (fun a x => loopDown (push_step x.1 x.2) a) tmp := by
    rw [List.ofFn_eq_map, List.map_map, List.foldl_map]
    rfl
  rw [hfold, push_passes _ (by
    intro x hx
    obtain ⟨o, _, rfl⟩ := List.mem_map.mp hx
    show ptOf (if (RegObj.pt o).toInt > 0 then addPhi o d else o) = ptOf o
    split
    · rw [addPhi_eq, ptOf_phiMove]
    · rfl) gl ht, h2]
  rw [foldl_insS_good gl]
  congr 3
  rw [List.filter_map]
  have : ((fun x : T × T => decide (0 < ptOf x.1)) ∘ g) = fun x => decide (0 < ptOf x) := rfl
  rw [this, filter_pad g2 hn, List.map_map]
  apply List.map_congr_left
  intro x hx
  show (if (RegObj.pt x).toInt > 0 then addPhi x d else x) = _
  rw [if_pos (show (RegObj.pt x).toInt > 0 from g2.pos x hx), addPhi_eq]

/-- What a merge of three slices gives. -/
def merged (l1 l2 l3 : List T) (d1 d2 d3 : Int) : List T :=
  (l1.map (phiMove d1) ++ l2.map (phiMove d2) ++ l3.map (phiMove d3)).insertionSort byPt

omit [LawfulReg T] in
theorem insertionSort_sort_append {l ys : List T} :
    (l.insertionSort byPt ++ ys).insertionSort byPt = (l ++ ys).insertionSort byPt := by
  rw [← foldl_insS, ← foldl_insS (l ++ ys), List.foldl_append, List.foldl_append, foldl_insS, foldl_insS,
    (List.pairwise_insertionSort (r := byPt) l).insertionSort_eq]

theorem merge_smart_ok (hN : NSE ≤ NREG) (tmp0 : Arr NREG T) {a1 a2 a3 : Arr NSE T} {l1 l2 l3 : List T}
    (h1 : Holds a1 l1) (h2 : Holds a2 l2) (h3 : Holds a3 l3) (g1 : Good l1) (g2 : Good l2) (g3 : Good l3)
    (n1 : l1.length ≤ NSE) (n2 : l2.length ≤ NSE) (n3 : l3.length ≤ NSE) (d1 d2 d3 : EtaPhi) :
    ∃ r, merge_smart tmp0 a1 d1 a2 d2 a3 d3 = .ok r ∧ Holds r (merged l1 l2 l3 d1.toInt d2.toInt d3.toInt) := by
  obtain ⟨t, e1, e2⟩ := loopM_induct (n := NSE)
    (fun m (tmp : Arr NREG T) => ∀ i : Fin NSE, i.val < m → ∀ h : i.val < NREG, tmp ⟨i.val, h⟩ =
      if (RegObj.pt (a1 i)).toInt > 0 then addPhi (a1 i) d1 else a1 i)
    (fun (i : Fin NSE) (tmp : Arr NREG T) =>
      tmp.write i.val (if (RegObj.pt (a1 i)).toInt > 0 then addPhi (a1 i) d1 else a1 i)) tmp0
    (fun i hi => absurd hi (by omega))
    (by
      intro i s hs
      have hi : i.val < NREG := lt_of_lt_of_le i.isLt hN
      rw [Arr.write_ok _ _ hi]
      refine ⟨_, rfl, fun j hj hh => ?_⟩
      by_cases e : j = i
      · subst e; rw [Arr.set_same]
      · rw [Arr.set_ne _ _ (fun x => e (Fin.ext (by simpa using congrArg Fin.val x)))]
        exact hs j (by have : j.val ≠ i.val := fun x => e (Fin.ext x); omega) hh)
  have ht : Holds (fun i : Fin NREG => if NSE ≤ i.val then RegObj.clear else t i) (l1.map (phiMove d1.toInt)) := by
    apply holds_of_get
    intro i
    simp only [List.length_map, List.getElem_map]
    by_cases hi : NSE ≤ i.val
    · rw [if_pos hi, dif_neg (by omega)]
    · rw [if_neg hi]
      have := e2 ⟨i.val, by omega⟩ (by omega) i.isLt
      simp only [Fin.eta] at this
      rw [this, h1.get]
      simp only []
      split
      · rename_i hlt
        rw [if_pos (show (RegObj.pt _).toInt > 0 from g1.pos _ (List.getElem_mem hlt)), addPhi_eq]
      · rw [if_neg]
        have := ptOf_clear (T := T)
        unfold ptOf at this
        omega
  obtain ⟨m1, k1⟩ := mergePass_holds h2 g2 n2 d2 ht (g1.map (fun x => ptOf_phiMove d1.toInt x))
  obtain ⟨m2, k2⟩ := mergePass_holds h3 g3 n3 d3 m1 k1
  rw [insertionSort_sort_append] at m2
  refine ⟨_, ?_, m2⟩
  unfold merge_smart
  rw [e1]
  rfl

omit [LawfulReg T] in
/-- With fewer slots than a slice the firmware writes past its scratch array. -/
theorem merge_smart_oob (hN : NREG < NSE) (tmp0 : Arr NREG T) (a1 a2 a3 : Arr NSE T) (d1 d2 d3 : EtaPhi) :
    merge_smart tmp0 a1 d1 a2 d2 a3 d3 = .error .oob := by
  have : loopM (fun (i : Fin NSE) (tmp : Arr NREG T) =>
      tmp.write i.val (if (RegObj.pt (a1 i)).toInt > 0 then addPhi (a1 i) d1 else a1 i)) tmp0 = .error .oob := by
    have key : ∀ (l : List (Fin NSE)) (t : Arr NREG T), (⟨NREG, hN⟩ : Fin NSE) ∈ l →
        l.foldlM (m := Run) (fun (tmp : Arr NREG T) (i : Fin NSE) =>
          tmp.write i.val (if (RegObj.pt (a1 i)).toInt > 0 then addPhi (a1 i) d1 else a1 i)) t = .error .oob := by
      intro l
      induction l with
      | nil => intro t h; simp at h
      | cons i l ih =>
        intro t h
        rw [List.foldlM_cons]
        by_cases hi : i.val < NREG
        · rw [Arr.write_ok _ _ hi, Run.ok_bind]
          rcases List.mem_cons.mp h with e | e
          · rw [← e] at hi; exact absurd hi (lt_irrefl _)
          · exact ih _ e
        · unfold Arr.write
          rw [dif_neg hi]; rfl
    exact key _ _ (List.mem_finRange _)
  unfold merge_smart
  rw [this]; rfl

/-! ### The merge of the reference -/

omit [LawfulReg T] in
theorem sort_pick (A B : List T) (y : T) (hA : ∀ a ∈ A, ptOf a < ptOf y) (hB : ∀ b ∈ B, ptOf b ≤ ptOf y) :
    (A ++ y :: B).insertionSort byPt = y :: (A ++ B).insertionSort byPt := by
  induction A with
  | nil =>
    rw [List.nil_append, List.nil_append]
    exact List.insertionSort_cons_of_forall_rel (r := byPt) hB
  | cons a A ih =>
    rw [List.cons_append, List.cons_append, List.insertionSort_cons, ih (fun x hx => hA x (by simp [hx])),
      List.orderedInsert_cons, if_neg (show ¬ byPt a y from not_le.mpr (hA a (by simp))), List.insertionSort_cons]

omit [LawfulReg T] in
theorem pad_snoc {a : Arr N T} {pre : List T} (h : Holds a pre) (i : Fin N) (hi : pre.length = i.val) (x : T) :
    Holds (a.set i x) (pre ++ [x]) := by
  apply holds_of_get
  intro j
  by_cases e : j = i
  · subst e
    rw [Arr.set_same, dif_pos (by simp; omega), List.getElem_append_right (by omega)]
    simp [hi]
  · have hne : j.val ≠ i.val := fun x => e (Fin.ext x)
    rw [Arr.set_ne _ _ e, h.get]
    by_cases hj : j.val < pre.length
    · rw [dif_pos hj, dif_pos (by simp; omega), List.getElem_append_left hj]
    · rw [dif_neg hj, dif_neg (by simp; omega)]

omit [LawfulReg T] in
theorem Good.drop {l : List T} (h : Good l) (n : Nat) : Good (l.drop n) :=
  ⟨h.sorted.sublist (List.drop_sublist n l), fun _ hx => h.pos _ (List.mem_of_mem_drop hx)⟩

/-- pt of the head of the remaining list, 0 if empty. -/
def headPt (l : List T) : Int := match l with | [] => 0 | x :: _ => ptOf x

omit [LawfulReg T] in
theorem head_max {l : List T} (h : Good l) : ∀ x ∈ l, ptOf x ≤ headPt l := by
  cases l with
  | nil => intro x hx; simp at hx
  | cons a l =>
    intro x hx
    rcases List.mem_cons.mp hx with rfl | hx
    · exact le_refl _
    · exact (List.pairwise_cons.mp h.sorted).1 x hx

omit [LawfulReg T] in
theorem headPt_nonneg {l : List T} (h : Good l) : 0 ≤ headPt l := by
  cases l with
  | nil => exact le_refl _
  | cons a l => exact le_of_lt (h.pos a (by simp))

omit [LawfulReg T] in
theorem headPt_zero {l : List T} (h : Good l) (hz : headPt l ≤ 0) : l = [] := by
  cases l with
  | nil => rfl
  | cons a l => exact absurd (h.pos a (by simp)) (not_lt.mpr hz)

theorem cursor_pt {a : Arr NSE T} {l : List T} (h : Holds a l) (hn : l.length ≤ NSE) (i : Nat) :
    (if hi : i < NSE then RegObj.pt (a ⟨i, hi⟩) else reg 16 0).toInt = headPt (l.drop i) := by
  by_cases hi : i < NSE
  · rw [dif_pos hi, h.get]
    simp only []
    by_cases hl : i < l.length
    · rw [dif_pos hl, List.drop_eq_getElem_cons hl]; rfl
    · rw [dif_neg hl, List.drop_eq_nil_of_le (by omega), LawfulReg.pt_clear]; rfl
  · rw [dif_neg hi, List.drop_eq_nil_of_le (by omega)]; rfl

omit [LawfulReg T] in
theorem cursor_read {a : Arr NSE T} {l : List T} (h : Holds a l) (hn : l.length ≤ NSE) {i : Nat}
    (hp : 0 < headPt (l.drop i)) :
    ∃ x, a.read i = .ok x ∧ l.drop i = x :: l.drop (i + 1) ∧ i < NSE := by
  have hl : i < l.length := by
    by_contra hc
    rw [List.drop_eq_nil_of_le (by omega)] at hp
    exact absurd hp (lt_irrefl _)
  refine ⟨l[i], ?_, List.drop_eq_getElem_cons hl, by omega⟩
  rw [Arr.read_ok a (show i < NSE by omega), h.get]
  simp only []
  rw [dif_pos hl]

theorem merge_ref_ok {a1 a2 a3 : Arr NSE T} {l1 l2 l3 : List T}
    (h1 : Holds a1 l1) (h2 : Holds a2 l2) (h3 : Holds a3 l3) (g1 : Good l1) (g2 : Good l2) (g3 : Good l3)
    (n1 : l1.length ≤ NSE) (n2 : l2.length ≤ NSE) (n3 : l3.length ≤ NSE) (d1 d2 d3 : EtaPhi) :
    ∃ r, merge_sectors_ref NREG a1 d1 a2 d2 a3 d3 = .ok r ∧
      Holds r (merged l1 l2 l3 d1.toInt d2.toInt d3.toInt) := by
  let L : Nat → Nat → Nat → List T := fun i1 i2 i3 =>
    merged (l1.drop i1) (l2.drop i2) (l3.drop i3) d1.toInt d2.toInt d3.toInt
  have pm : ∀ (d : Int) (x : T) (l : List T), x ∈ l.map (phiMove d) → ∃ y ∈ l, ptOf x = ptOf y := by
    intro d x l hx
    obtain ⟨y, hy, rfl⟩ := List.mem_map.mp hx
    exact ⟨y, hy, ptOf_phiMove d y⟩
  obtain ⟨s, e1, e2⟩ := loopM_induct (n := NREG)
    (fun m (s : MergeSt T NREG) => 
      (s.brk = false ∧ ∃ pre, merged l1 l2 l3 d1.toInt d2.toInt d3.toInt = pre ++ L s.i1 s.i2 s.i3 ∧
        pre.length = m ∧ Holds s.out pre) ∨
      (s.brk = true ∧ Holds s.out (merged l1 l2 l3 d1.toInt d2.toInt d3.toInt)))
    (merge_sectors_step a1 d1 a2 d2 a3 d3)
    { i1 := 0, i2 := 0, i3 := 0, out := fun _ => RegObj.clear, brk := false }
    (Or.inl ⟨rfl, [], rfl, rfl, holds_of_get (fun i => rfl)⟩)
    (by
      rintro i s (⟨hb, pre, hS, hlen, ho⟩ | ⟨hb, ho⟩)
      swap
      · refine ⟨s, ?_, Or.inr ⟨hb, ho⟩⟩
        unfold merge_sectors_step
        rw [if_pos hb]
      have c1 := cursor_pt h1 n1 s.i1
      have c2 := cursor_pt h2 n2 s.i2
      have c3 := cursor_pt h3 n3 s.i3
      have m1 := head_max (g1.drop s.i1)
      have m2 := head_max (g2.drop s.i2)
      have m3 := head_max (g3.drop s.i3)
      have z1 := headPt_nonneg (g1.drop s.i1)
      have z2 := headPt_nonneg (g2.drop s.i2)
      have z3 := headPt_nonneg (g3.drop s.i3)
      unfold merge_sectors_step
      rw [hb, if_neg (by decide)]
      simp only [c1, c2, c3]
      by_cases k1 : headPt (l1.drop s.i1) ≥ headPt (l2.drop s.i2) ∧ headPt (l1.drop s.i1) ≥ headPt (l3.drop s.i3)
      · rw [if_pos k1]
        by_cases k0 : headPt (l1.drop s.i1) = 0
        · rw [if_pos k0]
          refine ⟨_, rfl, Or.inr ⟨rfl, ?_⟩⟩
          have : L s.i1 s.i2 s.i3 = [] := by
            simp only [L]
            rw [headPt_zero (g1.drop s.i1) (by omega), headPt_zero (g2.drop s.i2) (by omega),
              headPt_zero (g3.drop s.i3) (by omega)]
            rfl
          rw [this, List.append_nil] at hS
          rw [hS]; exact ho
        · rw [if_neg k0]
          obtain ⟨x, r1, r2, r3⟩ := cursor_read h1 n1 (i := s.i1) (by omega)
          rw [r1, Run.ok_bind]
          refine ⟨_, rfl, Or.inl ⟨rfl, pre ++ [addPhi x d1], ?_, by simp [hlen], pad_snoc ho i hlen _⟩⟩
          rw [hS, List.append_assoc]
          congr 1
          have hx : headPt (l1.drop s.i1) = ptOf x := by rw [r2]; rfl
          simp only [L, merged]
          rw [r2, List.map_cons, List.cons_append, List.cons_append]
          have := sort_pick [] ((l1.drop (s.i1 + 1)).map (phiMove d1.toInt) ++ (l2.drop s.i2).map (phiMove d2.toInt) ++
            (l3.drop s.i3).map (phiMove d3.toInt)) (phiMove d1.toInt x) (by simp) (by
              intro b hb
              rw [ptOf_phiMove]
              rcases List.mem_append.mp hb with hb | hb
              · rcases List.mem_append.mp hb with hb | hb
                · obtain ⟨y, hy, e⟩ := pm _ _ _ hb
                  have := m1 y (by rw [r2]; simp [hy])
                  omega
                · obtain ⟨y, hy, e⟩ := pm _ _ _ hb
                  have := m2 y hy
                  omega
              · obtain ⟨y, hy, e⟩ := pm _ _ _ hb
                have := m3 y hy
                omega)
          rw [List.nil_append, List.nil_append] at this
          rw [this]
          rfl
      · rw [if_neg k1]
        by_cases k2 : headPt (l1.drop s.i1) < headPt (l2.drop s.i2) ∧ headPt (l2.drop s.i2) ≥ headPt (l3.drop s.i3)
        · rw [if_pos k2]
          obtain ⟨x, r1, r2, r3⟩ := cursor_read h2 n2 (i := s.i2) (by omega)
          unfold cassert
          rw [if_pos (decide_eq_true r3), Run.ok_bind, r1, Run.ok_bind]
          refine ⟨_, rfl, Or.inl ⟨rfl, pre ++ [addPhi x d2], ?_, by simp [hlen], pad_snoc ho i hlen _⟩⟩
          rw [hS, List.append_assoc]
          congr 1
          have hx : headPt (l2.drop s.i2) = ptOf x := by rw [r2]; rfl
          simp only [L, merged]
          rw [r2, List.map_cons]
          have := sort_pick ((l1.drop s.i1).map (phiMove d1.toInt)) ((l2.drop (s.i2 + 1)).map (phiMove d2.toInt) ++
            (l3.drop s.i3).map (phiMove d3.toInt)) (phiMove d2.toInt x) (by
              intro b hb
              rw [ptOf_phiMove]
              obtain ⟨y, hy, e⟩ := pm _ _ _ hb
              have := m1 y hy
              omega) (by
              intro b hb
              rw [ptOf_phiMove]
              rcases List.mem_append.mp hb with hb | hb
              · obtain ⟨y, hy, e⟩ := pm _ _ _ hb
                have := m2 y (by rw [r2]; simp [hy])
                omega
              · obtain ⟨y, hy, e⟩ := pm _ _ _ hb
                have := m3 y hy
                omega)
          rw [List.append_assoc, List.cons_append, this, ← List.append_assoc]
          rfl
        · rw [if_neg k2]
          obtain ⟨x, r1, r2, r3⟩ := cursor_read h3 n3 (i := s.i3) (by omega)
          unfold cassert
          rw [if_pos (decide_eq_true r3), Run.ok_bind, r1, Run.ok_bind]
          refine ⟨_, rfl, Or.inl ⟨rfl, pre ++ [addPhi x d3], ?_, by simp [hlen], pad_snoc ho i hlen _⟩⟩
          rw [hS, List.append_assoc]
          congr 1
          have hx : headPt (l3.drop s.i3) = ptOf x := by rw [r2]; rfl
          simp only [L, merged]
          rw [r2, List.map_cons]
          have := sort_pick ((l1.drop s.i1).map (phiMove d1.toInt) ++ (l2.drop s.i2).map (phiMove d2.toInt))
            ((l3.drop (s.i3 + 1)).map (phiMove d3.toInt)) (phiMove d3.toInt x) (by
              intro b hb
              rw [ptOf_phiMove]
              rcases List.mem_append.mp hb with hb | hb
              · obtain ⟨y, hy, e⟩ := pm _ _ _ hb
                have := m1 y hy
                omega
              · obtain ⟨y, hy, e⟩ := pm _ _ _ hb
                have := m2 y hy
                omega) (by
              intro b hb
              rw [ptOf_phiMove]
              obtain ⟨y, hy, e⟩ := pm _ _ _ hb
              have := m3 y (by rw [r2]; simp [hy])
              omega)
          rw [this]
          rfl)
  refine ⟨s.out, ?_, ?_⟩
  · unfold merge_sectors_ref
    rw [e1]; rfl
  · rcases e2 with ⟨_, pre, hS, hlen, ho⟩ | ⟨_, ho⟩
    · rw [← holds_take, hS, List.take_append_of_le_length (by omega), List.take_of_length_le (by omega)]
      exact ho
    · exact ho

end Verif
