import Verif.Model.RegionizerFiles
import Verif.Proofs.Basic
import Verif.Spec.RegionizerFiles
/-! # The text files of the regionizer test bench -/
namespace Verif
open Spec
variable {sz : RegSizes} {NC NE NT NM : Nat}

theorem printLoop_ok {A : Type} {n : Nat} {f : Fin n → Run (List A)} {g : Fin n → List A} (h : ∀ i, f i = .ok (g i)) :
    printLoop f = .ok ((List.finRange n).flatMap g) := by
  have hf : f = fun i => .ok (g i) := funext h
  subst hf
  unfold printLoop loopM
  have : ∀ (l : List (Fin n)) (acc : List A), List.foldlM (fun out i => (do
      let x ← (.ok (g i) : Run (List A))
      .ok (out ++ x) : Run (List A))) acc l = .ok (acc ++ l.flatMap g) := by
    intro l
    induction l with
    | nil => intro acc; simp [pure, Except.pure]
    | cons i l ih =>
      intro acc
      rw [List.foldlM_cons, Run.ok_bind, Run.ok_bind, ih, List.flatMap_cons, List.append_assoc]
  exact (this _ _).trans (by rw [List.nil_append])

/-- A block of a concatenation of blocks of equal length. -/
theorem flatMap_block {n k : Nat} {g : Fin n → List Int} (hk : ∀ i, (g i).length = k) (i : Fin n) :
    (((List.finRange n).flatMap g).drop (k * i.val)).take k = g i ∧ ((List.finRange n).flatMap g).length = k * n := by
  have hlen : ∀ l : List (Fin n), (l.flatMap g).length = k * l.length := by
    intro l
    induction l with
    | nil => simp
    | cons a l ih => rw [List.flatMap_cons, List.length_append, ih, hk, List.length_cons, Nat.mul_succ]; omega
  refine ⟨?_, by rw [hlen, List.length_finRange]⟩
  have hs : List.finRange n = (List.finRange n).take i.val ++ i :: (List.finRange n).drop (i.val + 1) := by
    have hi : i.val < (List.finRange n).length := by rw [List.length_finRange]; exact i.isLt
    have := (List.take_append_drop i.val (List.finRange n)).symm
    rw [List.drop_eq_getElem_cons hi, List.getElem_finRange] at this
    exact this
  rw [hs, List.flatMap_append, List.flatMap_cons]
  rw [List.drop_append_of_le_length (by rw [hlen, List.length_take, List.length_finRange, Nat.min_eq_left (Nat.le_of_lt i.isLt)]; exact Nat.le_refl _)]
  rw [List.drop_eq_nil_of_le (by rw [hlen, List.length_take, List.length_finRange, Nat.min_eq_left (Nat.le_of_lt i.isLt)]; exact Nat.le_refl _)]
  rw [List.nil_append, List.take_append_of_le_length (by rw [hk]; exact Nat.le_refl _), List.take_of_length_le (by rw [hk]; exact Nat.le_refl _)]

theorem dumpObj_ok {N : Nat} {T A : Type} (fields : T → List A) (clear : T) (a : Arr N T) (i limit : Nat) (send : Bool) (hl : limit ≤ N) :
    dumpObj fields clear a i limit send = .ok (if h : i < limit ∧ send = true then fields (a ⟨i, by omega⟩) else fields clear) := by
  unfold dumpObj
  by_cases h : i < limit ∧ send = true
  · rw [if_pos h, dif_pos h, Arr.read_ok _ (by omega)]
    rfl
  · rw [if_neg h, dif_neg h]

theorem dumpSlot_ok {N : Nat} {T A : Type} (fields : T → List A) (clear : T) (r : Arr N_OUT_REGIONS (Arr N T)) (ic : Fin N_CLOCKS) (i : Fin N) :
    dumpSlot fields clear r ic i = .ok (fields (r ⟨ic.val / 2, by have := ic.isLt; unfold N_CLOCKS at this; unfold N_OUT_REGIONS; omega⟩ i)) := by
  have h : ic.val / 2 < N_OUT_REGIONS := by have := ic.isLt; unfold N_CLOCKS at this; unfold N_OUT_REGIONS; omega
  unfold dumpSlot
  rw [if_pos h, Arr.read_ok _ h]
  rfl

theorem columns_append {line pre mid post xs : List Int} {p q : Nat} (h : line = pre ++ mid ++ post) (hp : p = pre.length + q)
    (hq : q + xs.length ≤ mid.length) (hx : (mid.drop q).take xs.length = xs) : ColumnsAt line p xs := by
  unfold ColumnsAt
  subst h hp
  rw [List.append_assoc, ← List.drop_drop, List.drop_left, List.drop_append_of_le_length (by omega)]
  rw [List.take_append_of_le_length (by rw [List.length_drop]; omega), hx]

theorem hadFields_length (o : HadCaloObj) : (hadFields o).length = 5 := rfl
theorem emFields_length (o : EmCaloObj) : (emFields o).length = 4 := rfl
theorem tkFields_length (o : TkObj) : (tkFields o).length = 5 := rfl
theorem muFields_length (o : MuObj) : (muFields o).length = 4 := rfl

def inCaloCols (d : RegRecord sz NC NE NT NM) (ic : Nat) (is : Fin N_IN_SECTORS) : List Int :=
  if h : ic / 2 < sz.calo ∧ (ic % 2 == 0) = true then hadFields (d.inp.calo is ⟨ic / 2, h.1⟩) else hadFields HadCaloObj.clear
def inEmCols (d : RegRecord sz NC NE NT NM) (ic : Nat) (is : Fin N_IN_SECTORS) : List Int :=
  if h : ic / 2 < sz.em ∧ (ic % 2 == 0) = true then emFields (d.inp.em is ⟨ic / 2, h.1⟩) else emFields EmCaloObj.clear
def inTrackCol (d : RegRecord sz NC NE NT NM) (ic b : Nat) (is : Fin N_IN_SECTORS) : List Int :=
  if h : ic + b < sz.track / 2 ∧ (ic % 2 == 0) = true then tkFields (d.inp.track is ⟨ic + b, by omega⟩) else tkFields TkObj.clear
def inTrackCols (d : RegRecord sz NC NE NT NM) (ic : Nat) (is : Fin N_IN_SECTORS) : List Int :=
  inTrackCol d ic 0 is ++ inTrackCol d ic 1 is
def inMuCols (d : RegRecord sz NC NE NT NM) (ic : Nat) (is : Fin N_MUON_SECTORS) : List Int :=
  if h : ic / 2 < NM ∧ (ic % 2 == 0) = true then muFields (d.mu_in is ⟨ic / 2, h.1⟩) else muFields MuObj.clear

theorem inCaloCols_length (d : RegRecord sz NC NE NT NM) (ic : Nat) (is) : (inCaloCols d ic is).length = 5 := by
  unfold inCaloCols; split <;> rfl
theorem inEmCols_length (d : RegRecord sz NC NE NT NM) (ic : Nat) (is) : (inEmCols d ic is).length = 4 := by
  unfold inEmCols; split <;> rfl
theorem inTrackCol_length (d : RegRecord sz NC NE NT NM) (ic b : Nat) (is) : (inTrackCol d ic b is).length = 5 := by
  unfold inTrackCol; split <;> rfl
theorem inTrackCols_length (d : RegRecord sz NC NE NT NM) (ic : Nat) (is) : (inTrackCols d ic is).length = 10 := by
  unfold inTrackCols; rw [List.length_append, inTrackCol_length, inTrackCol_length]
theorem inMuCols_length (d : RegRecord sz NC NE NT NM) (ic : Nat) (is) : (inMuCols d ic is).length = 4 := by
  unfold inMuCols; split <;> rfl

theorem dumpInLine_ok (frame test : Int) (d : RegRecord sz NC NE NT NM) (ic : Fin N_CLOCKS) :
    dumpInLine frame test d ic = .ok ([frame, test, (ic.val / 2 : Nat)] ++ (List.finRange N_IN_SECTORS).flatMap (inCaloCols d ic) ++
      (List.finRange N_IN_SECTORS).flatMap (inEmCols d ic) ++ (List.finRange N_IN_SECTORS).flatMap (inTrackCols d ic) ++
      (List.finRange N_MUON_SECTORS).flatMap (inMuCols d ic)) := by
  unfold dumpInLine
  dsimp only
  rw [printLoop_ok (g := inCaloCols d ic) (fun is => dumpObj_ok _ _ _ _ _ _ (Nat.le_refl _)), Run.ok_bind]
  rw [printLoop_ok (g := inEmCols d ic) (fun is => dumpObj_ok _ _ _ _ _ _ (Nat.le_refl _)), Run.ok_bind]
  rw [printLoop_ok (g := inTrackCols d ic) (fun is => by
    rw [dumpObj_ok _ _ _ _ _ _ (Nat.div_le_self _ _), Run.ok_bind, dumpObj_ok _ _ _ _ _ _ (Nat.div_le_self _ _), Run.ok_bind]
    rfl), Run.ok_bind]
  rw [printLoop_ok (g := inMuCols d ic) (fun is => dumpObj_ok _ _ _ _ _ _ (Nat.le_refl _)), Run.ok_bind]

theorem dumpOutLine_ok (frame : Int) (d : RegRecord sz NC NE NT NM) (ic : Fin N_CLOCKS) :
    ∃ ir : Fin N_OUT_REGIONS, ir.val = ic.val / 2 ∧
    dumpOutLine frame d ic = .ok ([frame] ++ (List.finRange NC).flatMap (fun i => hadFields (d.calo ir i)) ++
      (List.finRange NE).flatMap (fun i => emFields (d.em ir i)) ++ (List.finRange NT).flatMap (fun i => tkFields (d.track ir i)) ++
      (List.finRange NM).flatMap (fun i => muFields (d.mu ir i)) ++ [1]) := by
  refine ⟨⟨ic.val / 2, by have := ic.isLt; unfold N_CLOCKS at this; unfold N_OUT_REGIONS; omega⟩, rfl, ?_⟩
  unfold dumpOutLine
  rw [printLoop_ok (dumpSlot_ok _ _ _ ic), Run.ok_bind, printLoop_ok (dumpSlot_ok _ _ _ ic), Run.ok_bind,
    printLoop_ok (dumpSlot_ok _ _ _ ic), Run.ok_bind, printLoop_ok (dumpSlot_ok _ _ _ ic), Run.ok_bind]

end Verif
