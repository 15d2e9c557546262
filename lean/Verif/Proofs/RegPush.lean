import Verif.Spec.Region
import Verif.Proofs.Insert
import Verif.Proofs.Basic
import Verif.Proofs.Arith
/-! # Insertion passes of the regionizer -/
namespace Verif
open Spec

/-- The accessors behave like fields. -/
class LawfulReg (T : Type) [RegObj T] : Prop where
  pt_clear : RegObj.pt (RegObj.clear : T) = 0
  pt_setEta : ∀ (x : T) e, RegObj.pt (RegObj.setEta x e) = RegObj.pt x
  pt_setPhi : ∀ (x : T) e, RegObj.pt (RegObj.setPhi x e) = RegObj.pt x
  eta_setEta : ∀ (x : T) e, RegObj.eta (RegObj.setEta x e) = e
  eta_setPhi : ∀ (x : T) e, RegObj.eta (RegObj.setPhi x e) = RegObj.eta x
  phi_setPhi : ∀ (x : T) e, RegObj.phi (RegObj.setPhi x e) = e
  phi_setEta : ∀ (x : T) e, RegObj.phi (RegObj.setEta x e) = RegObj.phi x

instance : LawfulReg HadCaloObj := ⟨rfl, fun _ _ => rfl, fun _ _ => rfl, fun _ _ => rfl, fun _ _ => rfl, fun _ _ => rfl, fun _ _ => rfl⟩
instance : LawfulReg EmCaloObj := ⟨rfl, fun _ _ => rfl, fun _ _ => rfl, fun _ _ => rfl, fun _ _ => rfl, fun _ _ => rfl, fun _ _ => rfl⟩
instance : LawfulReg TkObj := ⟨rfl, fun _ _ => rfl, fun _ _ => rfl, fun _ _ => rfl, fun _ _ => rfl, fun _ _ => rfl, fun _ _ => rfl⟩
instance : LawfulReg MuObj := ⟨rfl, fun _ _ => rfl, fun _ _ => rfl, fun _ _ => rfl, fun _ _ => rfl, fun _ _ => rfl, fun _ _ => rfl⟩

variable {T : Type} [RegObj T] {N : Nat}

theorem ptOf_clear [LawfulReg T] : ptOf (RegObj.clear : T) = 0 := by
  unfold ptOf; rw [LawfulReg.pt_clear]; rfl

theorem ptOf_phiMove [LawfulReg T] (d : Int) (x : T) : ptOf (phiMove d x) = ptOf x := by
  unfold ptOf phiMove; rw [LawfulReg.pt_setPhi]

theorem ptOf_etaRel [LawfulReg T] (ie : Fin 3) (x : T) : ptOf (etaRel ie x) = ptOf x := by
  unfold ptOf etaRel; rw [LawfulReg.pt_setEta]

/-- `b` makes room for an object of pt `k`. -/
def below (k : Int) (b : T) : Bool := decide (ptOf b < k)

theorem below_pos {k : Int} {b : T} (h : ptOf b < k) : below k b = true := decide_eq_true h
theorem below_neg {k : Int} {b : T} (h : ¬ ptOf b < k) : ¬ below k b = true := fun hh => h (of_decide_eq_true hh)

theorem push_pass_eq (inn val : T) (a : Arr N T) :
    loopDown (push_step inn val) a = arrIns (below (ptOf inn)) val a := by
  apply loopDown_pointwise
  · intro i a j hj
    unfold push_step
    simp only []
    split
    · split
      · exact Arr.set_ne _ _ hj
      · split <;> exact Arr.set_ne _ _ hj
    · rfl
  · intro i a b hab
    unfold push_step arrIns
    simp only [below, decide_eq_true_eq]
    rw [hab i (le_refl _)]
    show _ = if ptOf (b i) < ptOf inn then _ else _
    by_cases h1 : ptOf (b i) < ptOf inn
    · rw [if_pos (show (RegObj.pt (b i)).toInt < (RegObj.pt inn).toInt from h1), if_pos h1]
      by_cases h2 : i.val = 0
      · rw [dif_pos h2, dif_pos h2, Arr.set_same]
      · rw [dif_neg h2, dif_neg h2]
        have hp := hab ⟨i.val - 1, by omega⟩ (by simp)
        rw [hp]
        by_cases h3 : ptOf (b ⟨i.val - 1, by omega⟩) < ptOf inn
        · rw [if_pos h3, if_neg (show ¬ (RegObj.pt _).toInt ≥ (RegObj.pt _).toInt from not_le.mpr h3), Arr.set_same]
        · rw [if_neg h3, if_pos (show (RegObj.pt _).toInt ≥ (RegObj.pt _).toInt from not_lt.mp h3), Arr.set_same]
    · rw [if_neg (show ¬ (RegObj.pt (b i)).toInt < (RegObj.pt inn).toInt from h1), if_neg h1, hab i (le_refl _)]

/-- Insertion after the objects of at least the same pt. -/
def insS (x : T) (l : List T) : List T := insAt (below (ptOf x)) x l

/-- Sorted, positive pt. -/
structure Good (l : List T) : Prop where
  sorted : l.Pairwise byPt
  pos : ∀ x ∈ l, 0 < ptOf x

theorem good_nil : Good ([] : List T) := ⟨List.Pairwise.nil, by simp⟩

theorem Good.insS {l : List T} (h : Good l) {x : T} (hx : 0 < ptOf x) : Good (insS x l) := by
  constructor
  · have hs := h.sorted
    clear h
    unfold Verif.insS
    induction l with
    | nil => exact List.pairwise_singleton _ _
    | cons b l ih =>
      rw [List.pairwise_cons] at hs
      unfold insAt
      split
      · rename_i hb
        have hb : ptOf b < ptOf x := of_decide_eq_true hb
        refine List.pairwise_cons.mpr ⟨fun y hy => ?_, List.pairwise_cons.mpr hs⟩
        rcases List.mem_cons.mp hy with rfl | hy
        · exact le_of_lt hb
        · exact le_trans (hs.1 y hy) (le_of_lt hb)
      · rename_i hb
        have hb : ¬ ptOf b < ptOf x := fun h => hb (decide_eq_true h)
        refine List.pairwise_cons.mpr ⟨fun y hy => ?_, ih hs.2⟩
        rcases (mem_insAt _ _ _ _).mp hy with rfl | hy
        · exact not_lt.mp hb
        · exact hs.1 y hy
  · intro y hy
    rcases (mem_insAt _ _ _ _).mp hy with rfl | hy
    · exact hx
    · exact h.pos y hy

omit [RegObj T] in
theorem insAt_all {p : T → Bool} {x : T} {z : List T} (h : ∀ y ∈ z, p y = true) : insAt p x z = x :: z := by
  cases z with
  | nil => rfl
  | cons b z => unfold insAt; rw [if_pos (h b (by simp))]

omit [RegObj T] in
theorem insAt_none {p : T → Bool} {x : T} {z : List T} (h : ∀ y ∈ z, p y = false) : insAt p x z = z ++ [x] := by
  induction z with
  | nil => rfl
  | cons b z ih =>
    unfold insAt
    rw [if_neg (by rw [h b (by simp)]; decide), ih (fun y hy => h y (by simp [hy]))]
    rfl

omit [RegObj T] in
theorem insAt_append_all {p : T → Bool} {x : T} {l z : List T} (h : ∀ y ∈ z, p y = true) :
    insAt p x (l ++ z) = insAt p x l ++ z := by
  induction l with
  | nil => rw [List.nil_append, insAt_all h]; rfl
  | cons b l ih =>
    rw [List.cons_append]
    unfold insAt
    split
    · rfl
    · rw [ih]; rfl

theorem pad_length (l : List T) : (pad N l).length = N := by
  unfold pad; simp

theorem pad_take (l : List T) : pad N (l.take N) = pad N l := by
  unfold pad
  rw [List.take_append, List.take_append, List.take_take, Nat.min_self]
  congr 1
  rw [List.length_take]
  by_cases h : N ≤ l.length
  · rw [Nat.min_eq_left h, Nat.sub_self, Nat.sub_eq_zero_of_le h]
  · rw [Nat.min_eq_right (by omega)]

theorem pad_nonneg [LawfulReg T] {l : List T} (h : Good l) : ∀ y ∈ pad N l, 0 ≤ ptOf y := by
  intro y hy
  rcases List.mem_append.mp (List.mem_of_mem_take hy) with hy | hy
  · exact le_of_lt (h.pos y hy)
  · rw [(List.mem_replicate.mp hy).2, ptOf_clear]

theorem pad_sorted [LawfulReg T] {l : List T} (h : Good l) : (pad N l).Pairwise byPt := by
  apply List.Pairwise.sublist (List.take_sublist _ _)
  rw [List.pairwise_append]
  refine ⟨h.sorted, ?_, ?_⟩
  · rw [List.pairwise_replicate]
    right; exact le_refl _
  · intro a ha b hb
    rw [(List.mem_replicate.mp hb).2]
    show ptOf _ ≤ ptOf a
    rw [ptOf_clear]; exact le_of_lt (h.pos a ha)

theorem upClosed_below {a : Arr N T} (h : (List.ofFn a).Pairwise byPt) (k : Int) : UpClosed (below k) a := by
  intro i j hij hi
  rw [List.pairwise_ofFn] at h
  have hi : ptOf (a i) < k := of_decide_eq_true hi
  apply decide_eq_true
  rcases eq_or_lt_of_le hij with rfl | hlt
  · exact hi
  · exact lt_of_le_of_lt (h hlt) hi

/-- One pass on a padded list. -/
theorem push_pass_pad [LawfulReg T] {a : Arr N T} {l : List T} (hl : Good l) (ha : List.ofFn a = pad N l)
    (inn val : T) (hv : ptOf val = ptOf inn) :
    List.ofFn (loopDown (push_step inn val) a) = pad N (if 0 < ptOf inn then insS val l else l) := by
  rw [push_pass_eq, ofFn_arrIns _ _ _ (upClosed_below (by rw [ha]; exact pad_sorted hl) _), ha]
  by_cases hp : 0 < ptOf inn
  · rw [if_pos hp]
    unfold pad
    rw [insAt_take, insAt_append_all]
    · rw [← hv]; rfl
    · intro y hy
      apply decide_eq_true
      rw [(List.mem_replicate.mp hy).2, ptOf_clear]; exact hp
  · rw [if_neg hp, insAt_none, List.take_append_of_le_length (by rw [pad_length]), List.take_of_length_le (by rw [pad_length])]
    intro y hy
    apply decide_eq_false
    have := pad_nonneg hl y hy
    omega

/-- Passes over a list of (compared, stored) objects. -/
theorem push_passes [LawfulReg T] (xs : List (T × T)) (hx : ∀ x ∈ xs, ptOf x.2 = ptOf x.1) {a : Arr N T} {l : List T}
    (hl : Good l) (ha : List.ofFn a = pad N l) :
    List.ofFn (xs.foldl (fun a x => loopDown (push_step x.1 x.2) a) a) =
      pad N (((xs.filter fun x => decide (0 < ptOf x.1)).map (·.2)).foldl (fun l x => insS x l) l) := by
  induction xs generalizing a l with
  | nil => exact ha
  | cons x xs ih =>
    rw [List.foldl_cons]
    have e := hx x (by simp)
    have hs := push_pass_pad hl ha x.1 x.2 e
    by_cases hp : 0 < ptOf x.1
    · rw [if_pos hp] at hs
      rw [ih (fun y hy => hx y (by simp [hy])) (hl.insS (by omega)) hs,
        List.filter_cons_of_pos (by exact decide_eq_true hp), List.map_cons, List.foldl_cons]
    · rw [if_neg hp] at hs
      rw [ih (fun y hy => hx y (by simp [hy])) hl hs, List.filter_cons_of_neg (by simpa using hp)]

/-! ### Insertions and the stable sort -/

theorem insS_orderedInsert (x y : T) (l : List T) :
    insS y (l.orderedInsert byPt x) = (insS y l).orderedInsert byPt x := by
  induction l with
  | nil =>
    unfold insS
    simp only [List.orderedInsert_nil, insAt, List.orderedInsert_cons]
    by_cases h : ptOf x < ptOf y
    · rw [if_pos (below_pos h), if_neg (show ¬ byPt x y from not_le.mpr (by omega))]
    · rw [if_neg (below_neg h), if_pos (show byPt x y from (by show ptOf y ≤ ptOf x; omega))]
  | cons b l ih =>
    unfold insS at ih ⊢
    rw [List.orderedInsert_cons]
    by_cases h1 : byPt x b
    · rw [if_pos h1]
      have h1' : ptOf b ≤ ptOf x := h1
      by_cases h2 : ptOf x < ptOf y
      · have e1 : insAt (below (ptOf y)) y (x :: b :: l) = y :: x :: b :: l := if_pos (below_pos h2)
        have e2 : insAt (below (ptOf y)) y (b :: l) = y :: b :: l := if_pos (below_pos (by omega))
        rw [e1, e2, List.orderedInsert_cons, if_neg (show ¬ byPt x y from not_le.mpr (by omega)), List.orderedInsert_cons, if_pos h1]
      · have e1 : insAt (below (ptOf y)) y (x :: b :: l) = x :: insAt (below (ptOf y)) y (b :: l) :=
          if_neg (below_neg h2)
        rw [e1]
        by_cases h3 : ptOf b < ptOf y
        · have e2 : insAt (below (ptOf y)) y (b :: l) = y :: b :: l := if_pos (below_pos h3)
          rw [e2, List.orderedInsert_cons, if_pos (show byPt x y from (by show ptOf y ≤ ptOf x; omega))]
        · have e2 : insAt (below (ptOf y)) y (b :: l) = b :: insAt (below (ptOf y)) y l := if_neg (below_neg h3)
          rw [e2, List.orderedInsert_cons, if_pos h1]
    · rw [if_neg h1]
      have h1' : ¬ ptOf b ≤ ptOf x := h1
      by_cases h3 : ptOf b < ptOf y
      · have e2 : ∀ r, insAt (below (ptOf y)) y (b :: r) = y :: b :: r := fun r => if_pos (below_pos h3)
        rw [e2, e2, List.orderedInsert_cons, if_neg (show ¬ byPt x y from not_le.mpr (by omega)), List.orderedInsert_cons, if_neg h1]
      · have e2 : ∀ r, insAt (below (ptOf y)) y (b :: r) = b :: insAt (below (ptOf y)) y r :=
          fun r => if_neg (below_neg h3)
        rw [e2, e2, List.orderedInsert_cons, if_neg h1, ih]

theorem foldl_insS_orderedInsert (x : T) (ys l : List T) :
    ys.foldl (fun l y => insS y l) (l.orderedInsert byPt x) =
      (ys.foldl (fun l y => insS y l) l).orderedInsert byPt x := by
  induction ys generalizing l with
  | nil => rfl
  | cons y ys ih => rw [List.foldl_cons, List.foldl_cons, insS_orderedInsert, ih]

theorem foldl_insS (ys : List T) : ys.foldl (fun l y => insS y l) [] = ys.insertionSort byPt := by
  induction ys with
  | nil => rfl
  | cons y ys ih =>
    rw [List.foldl_cons, List.insertionSort_cons, ← ih]
    exact foldl_insS_orderedInsert y ys []

instance : Std.Total (byPt (T := T)) := ⟨fun _ _ => le_total _ _⟩
instance : IsTrans T (byPt (T := T)) := ⟨fun _ _ _ h1 h2 => le_trans h2 h1⟩

theorem foldl_insS_good {l : List T} (hl : Good l) (ys : List T) :
    ys.foldl (fun l y => insS y l) l = (l ++ ys).insertionSort byPt := by
  rw [← foldl_insS, List.foldl_append, foldl_insS, hl.sorted.insertionSort_eq]

theorem good_sort {l : List T} (h : ∀ x ∈ l, 0 < ptOf x) : Good (l.insertionSort byPt) :=
  ⟨List.pairwise_insertionSort _ l, fun _ hx => h _ ((List.mem_insertionSort _).mp hx)⟩

theorem Good.take {l : List T} (h : Good l) (n : Nat) : Good (l.take n) :=
  ⟨h.sorted.sublist (List.take_sublist n l), fun _ hx => h.pos _ (List.mem_of_mem_take hx)⟩

theorem good_best (n : Nat) (l : List T) : Good (best n l) :=
  (good_sort (fun _ hx => of_decide_eq_true (List.mem_filter.mp hx).2)).take n

theorem best_length (n : Nat) (l : List T) : (best n l).length ≤ n := by
  unfold best; rw [List.length_take]; omega

theorem Good.map {l : List T} (h : Good l) {f : T → T} (hf : ∀ x, ptOf (f x) = ptOf x) : Good (l.map f) := by
  constructor
  · rw [List.pairwise_map]
    exact h.sorted.imp (fun {a b} hab => by show ptOf _ ≤ ptOf _; rw [hf, hf]; exact hab)
  · intro x hx
    obtain ⟨y, hy, rfl⟩ := List.mem_map.mp hx
    rw [hf]; exact h.pos y hy

/-- Filling a cleared array with a list of objects. -/
theorem push_all [LawfulReg T] (xs : List (T × T)) (hx : ∀ x ∈ xs, ptOf x.2 = ptOf x.1) :
    List.ofFn (xs.foldl (fun a x => loopDown (push_step x.1 x.2) a) (fun _ : Fin N => (RegObj.clear : T))) =
      pad N (best N (xs.map (·.2))) := by
  rw [push_passes xs hx good_nil (by
    unfold pad
    rw [List.nil_append, List.take_of_length_le (by simp)]
    exact List.ofFn_const N _), foldl_insS]
  unfold best
  rw [pad_take, List.filter_map]
  congr 3
  apply List.filter_congr
  intro x hxm
  show _ = decide (0 < ptOf x.2)
  rw [hx x hxm]

end Verif
