import Verif.Proofs.RegDeser
/-! # Muon regionizing -/
namespace Verif
open Spec

section
variable {T : Type} [RegObj T] {N : Nat}

theorem mem_best {n : Nat} {l : List T} {x : T} (h : x ∈ best n l) : x ∈ l ∧ 0 < ptOf x := by
  have := List.mem_filter.mp ((List.mem_insertionSort _).mp (List.mem_of_mem_take h))
  exact ⟨this.1, of_decide_eq_true this.2⟩

theorem mem_best_of {n : Nat} {l : List T} (hl : (l.filter fun o => decide (0 < ptOf o)).length ≤ n) {x : T}
    (hx : x ∈ l) (hp : 0 < ptOf x) : x ∈ best n l := by
  unfold best
  rw [List.take_of_length_le (by rw [List.length_insertionSort]; exact hl)]
  exact (List.mem_insertionSort _).mpr (List.mem_filter.mpr ⟨hx, decide_eq_true hp⟩)

/-- What is dropped is no better than what is kept, and the slots are all used. -/
theorem not_mem_best {n : Nat} {l : List T} {x : T} (hx : x ∈ l) (hp : 0 < ptOf x) (h : x ∉ best n l) :
    (best n l).length = n ∧ ∀ y ∈ best n l, ptOf x ≤ ptOf y := by
  unfold best at h ⊢
  have hm : x ∈ (l.filter fun o => decide (0 < ptOf o)).insertionSort byPt :=
    (List.mem_insertionSort _).mpr (List.mem_filter.mpr ⟨hx, decide_eq_true hp⟩)
  have hs : ((l.filter fun o => decide (0 < ptOf o)).insertionSort byPt).Pairwise byPt :=
    List.pairwise_insertionSort (r := byPt) _
  generalize (l.filter fun o => decide (0 < ptOf o)).insertionSort byPt = s at h hm hs ⊢
  rw [← List.take_append_drop n s] at hm hs
  have hd : x ∈ s.drop n := (List.mem_append.mp hm).resolve_left h
  have hlen : n < s.length := by
    by_contra hc
    rw [List.drop_eq_nil_of_le (by omega)] at hd
    simp at hd
  exact ⟨by rw [List.length_take]; omega, fun y hy => (List.pairwise_append.mp hs).2.2 y hy x hd⟩

theorem Holds.mem {a : Arr N T} {l : List T} (h : Holds a l) (i : Fin N) (hp : 0 < ptOf (a i)) [LawfulReg T] : a i ∈ l := by
  rw [h.get i] at hp ⊢
  split
  · exact List.getElem_mem _
  · rename_i hn; rw [dif_neg hn, ptOf_clear] at hp; exact absurd hp (lt_irrefl _)

theorem Holds.exists {a : Arr N T} {l : List T} (h : Holds a l) (hl : l.length ≤ N) {x : T} (hx : x ∈ l) : ∃ i, a i = x := by
  obtain ⟨k, hk, e⟩ := List.getElem_of_mem hx
  refine ⟨⟨k, by omega⟩, ?_⟩
  rw [h.get]
  simp only []
  rw [dif_pos hk, e]

theorem Holds.ofFn_filter {a : Arr N T} {l : List T} (h : Holds a l) [LawfulReg T] {x : T} (hx : x ∈ List.ofFn a) (hp : 0 < ptOf x) :
    x ∈ l := by
  obtain ⟨i, rfl⟩ := (List.mem_ofFn' _ _).mp hx
  exact h.mem i hp

theorem push_in_all [LawfulReg T] (l : List T) :
    Holds (l.foldl (fun a x => push_in x a) (fun _ : Fin N => (RegObj.clear : T))) (best N l) := by
  have := push_all (N := N) (l.map fun x => (x, x)) (by
    intro x hx; obtain ⟨o, _, rfl⟩ := List.mem_map.mp hx; rfl)
  unfold Holds
  rw [List.map_map, List.foldl_map] at this
  rw [show (best N l) = best N (List.map ((fun x => x.2) ∘ fun x => (x, x)) l) by
    congr 1; exact (List.map_id l).symm, ← this]
  rfl

theorem foldl_set_filter {A X : Type} {M : Nat} (f : X → A → A) (l : List (Fin M × X)) (a : Arr M A) (s : Fin M) :
    (l.foldl (fun (out : Arr M A) p => out.set p.1 (f p.2 (out p.1))) a) s =
      ((l.filter fun p => decide (p.1 = s)).map (·.2)).foldl (fun a x => f x a) (a s) := by
  induction l generalizing a with
  | nil => rfl
  | cons p l ih =>
    rw [List.foldl_cons, ih]
    by_cases h : p.1 = s
    · rw [List.filter_cons_of_pos (by exact decide_eq_true h), List.map_cons, List.foldl_cons, h, Arr.set_same]
    · rw [List.filter_cons_of_neg (by simpa using h), Arr.set_ne _ _ (fun x => h x.symm)]

end

variable {NMU : Nat}

theorem addPhiI_eq {T : Type} [RegObj T] (o : T) (d : Int) : addPhiI o d = phiMove d o := rfl

/-- Muons arriving in a muon sector. -/
def muArr (inn : Arr N_IN_SECTORS (Arr NMU MuObj)) (s : Fin 4) : List MuObj :=
  ((((List.finRange N_IN_SECTORS).flatMap fun ics => (List.finRange NMU).map fun io =>
    ((⟨ics.val / 3, by have h : ics.val < 12 := ics.isLt; omega⟩ : Fin 4),
      phiMove (PHI_SHIFT ⟨ics.val % 3, by omega⟩) (inn ics io))).filter fun p => decide (p.1 = s)).map (·.2))

theorem merge_muon_holds (inn : Arr N_IN_SECTORS (Arr NMU MuObj)) (s : Fin 4) :
    Holds (merge_muon_in inn s) (best NMU (muArr inn s)) := by
  have h : merge_muon_in inn s = (muArr inn s).foldl (fun a x => push_in x a) (fun _ => RegObj.clear) := by
    unfold muArr
    rw [← foldl_set_filter (fun x (a : Arr NMU MuObj) => push_in x a) _ (fun _ _ => RegObj.clear) s, List.foldl_flatMap]
    simp only [List.foldl_map]
    rfl
  rw [h]
  exact push_in_all _

theorem mem_muArr {inn : Arr N_IN_SECTORS (Arr NMU MuObj)} {s : Fin 4} {x : MuObj} :
    x ∈ muArr inn s ↔ ∃ (ics : Fin 12) (io : Fin NMU), ics.val / 3 = s.val ∧
      x = phiMove (PHI_SHIFT ⟨ics.val % 3, by omega⟩) (inn ics io) := by
  unfold muArr
  constructor
  · intro h
    obtain ⟨p, hp, rfl⟩ := List.mem_map.mp h
    obtain ⟨h1, h2⟩ := List.mem_filter.mp hp
    obtain ⟨ics, _, h3⟩ := List.mem_flatMap.mp h1
    obtain ⟨io, _, rfl⟩ := List.mem_map.mp h3
    exact ⟨ics, io, congrArg Fin.val (of_decide_eq_true h2), rfl⟩
  · rintro ⟨ics, io, h1, rfl⟩
    refine List.mem_map.mpr ⟨(s, _), List.mem_filter.mpr ⟨List.mem_flatMap.mpr ⟨ics, List.mem_finRange _,
      List.mem_map.mpr ⟨io, List.mem_finRange _, ?_⟩⟩, decide_eq_true rfl⟩, rfl⟩
    exact Prod.ext (Fin.ext h1) rfl

/-- Objects picked for a region from two muon sectors. -/
def muPick (ip : Fin 6) (A B : List MuObj) : List MuObj :=
  if ip.val % 3 = 1 then
    (A.filter fun o => decide (o.hwPhi.toInt > 60)).map (phiMove (-240)) ++
      (B.filter fun o => decide (o.hwPhi.toInt ≤ 60)).map (phiMove 120)
  else
    (A.filter fun o => decide (o.hwPhi.toInt > -60)).map (phiMove (-120)) ++
      (B.filter fun o => decide (o.hwPhi.toInt ≤ -60)).map (phiMove 240)

def muA (ip : Fin 6) : Fin 4 := ⟨2 * ip.val / 3, by omega⟩
def muB (ip : Fin 6) : Fin 4 := ⟨(2 * ip.val / 3 + 1) % 4, by omega⟩

theorem loop_pick (w : Arr NMU MuObj) (c : MuObj → Bool) (d : Int) (r : Arr NMU MuObj) :
    loop (fun (io : Fin NMU) r => if c (w io) = true then push_in (addPhiI (w io) d) r else r) r =
      (((List.ofFn w).filter c).map (phiMove d)).foldl (fun a x => push_in x a) r := by
  rw [List.foldl_map, List.foldl_filter, List.ofFn_eq_map, List.foldl_map]
  rfl

theorem muon_region_zero (work : Work MuObj N_MUON_SECTORS NMU) (ir : Fin N_OUT_REGIONS) (h : (regionPhi ir).val % 3 = 0) :
    muon_region work ir = work (muA (regionPhi ir)) (regionEta ir) := by
  unfold muon_region
  simp only [h]
  rfl

theorem muon_region_pick (work : Work MuObj N_MUON_SECTORS NMU) (ir : Fin N_OUT_REGIONS) (h : (regionPhi ir).val % 3 ≠ 0) :
    Holds (muon_region work ir) (best NMU (muPick (regionPhi ir) (List.ofFn (work (muA (regionPhi ir)) (regionEta ir)))
      (List.ofFn (work (muB (regionPhi ir)) (regionEta ir))))) := by
  have hA : ∀ (A B : List MuObj), Holds (B.foldl (fun a x => push_in x a) (A.foldl (fun a x => push_in x a)
      (fun _ : Fin NMU => (RegObj.clear : MuObj)))) (best NMU (A ++ B)) := by
    intro A B
    rw [← List.foldl_append]
    exact push_in_all _
  unfold muPick
  rcases (by omega : (regionPhi ir).val % 3 = 1 ∨ (regionPhi ir).val % 3 = 2) with h1 | h1
  · rw [if_pos h1]
    have := hA ((List.filter (fun o => decide (o.hwPhi.toInt > 60)) (List.ofFn (work (muA (regionPhi ir)) (regionEta ir)))).map (phiMove (-240)))
      ((List.filter (fun o => decide (o.hwPhi.toInt ≤ 60)) (List.ofFn (work (muB (regionPhi ir)) (regionEta ir)))).map (phiMove 120))
    rw [← loop_pick, ← loop_pick] at this
    unfold muon_region
    simp only [h1]
    simp only [decide_eq_true_iff] at this
    exact this
  · rw [if_neg (by omega)]
    have := hA ((List.filter (fun o => decide (o.hwPhi.toInt > -60)) (List.ofFn (work (muA (regionPhi ir)) (regionEta ir)))).map (phiMove (-120)))
      ((List.filter (fun o => decide (o.hwPhi.toInt ≤ -60)) (List.ofFn (work (muB (regionPhi ir)) (regionEta ir)))).map (phiMove 240))
    rw [← loop_pick, ← loop_pick] at this
    unfold muon_region
    simp only [h1]
    simp only [decide_eq_true_iff] at this
    exact this

theorem deserialize_muon_ok (fib : Arr N_MUON_SECTORS (List MuObj)) (hlen : ∀ is, NMU ≤ (fib is).length) :
    ∃ work, deserialize_muon NMU fib = .ok (fun is => (fib is).drop NMU, work) ∧
      ∀ is ie, Holds (work is ie) (slice NMU ie ((fib is).take NMU)) := by
  obtain ⟨s, e1, e2, e3⟩ := deserG_ok (fun (is : Fin N_MUON_SECTORS) (_ : Fin 1) => is)
    (fun (_ : Fin N_MUON_SECTORS) x (a : Arr 3 (Arr NMU MuObj)) ie => push_in_sector_eta x (a ie)
      (reg 10 (ETA_MIN ie)) (reg 10 (ETA_MAX ie)) (reg 10 (ETA_SHIFT ie))) fib (fun _ _ _ => RegObj.clear)
    (fun a b c d h => ⟨h, Subsingleton.elim _ _⟩) NMU (fun is _ => hlen is)
  have hw := workHolds (fun is => (fib is).take NMU) s.2 (fun is => by rw [e3 is, interleave_one _ _ (hlen is)])
  refine ⟨s.2, ?_, hw⟩
  have e0 := deserG_one NMU (fun (_ : Fin N_MUON_SECTORS) x (a : Arr 3 (Arr NMU MuObj)) ie => push_in_sector_eta x (a ie)
      (reg 10 (ETA_MIN ie)) (reg 10 (ETA_MAX ie)) (reg 10 (ETA_SHIFT ie))) fib (fun _ _ _ => RegObj.clear)
  rw [e1] at e0
  rw [show deserialize_muon NMU fib = .ok s from e0]
  congr 1
  exact Prod.ext (funext fun is => e2 is 0) rfl

theorem deserialize_muon_short (fib : Arr N_MUON_SECTORS (List MuObj)) (hlen : ¬ ∀ is, NMU ≤ (fib is).length) :
    deserialize_muon NMU fib = .error .emptyStream := by
  have e0 := deserG_one NMU (fun (_ : Fin N_MUON_SECTORS) x (a : Arr 3 (Arr NMU MuObj)) ie => push_in_sector_eta x (a ie)
      (reg 10 (ETA_MIN ie)) (reg 10 (ETA_MAX ie)) (reg 10 (ETA_SHIFT ie))) fib (fun _ _ _ => RegObj.clear)
  rw [deserG_short (fun (is : Fin N_MUON_SECTORS) (_ : Fin 1) => is) _ _ _
    (fun a b c d h => ⟨h, Subsingleton.elim _ _⟩) NMU (fun h => hlen (fun is => h is 0))] at e0
  exact e0

end Verif
