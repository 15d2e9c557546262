import Verif.Proofs.PFTestReader
import Verif.Proofs.Serializer
/-! # Lemmas: what the serializers of the PF test bench print -/
namespace Verif
open Spec
variable {NT NC NE NM NS : Nat}

theorem ctp7_empties_says_ok (j : Nat) : ∀ m, m ≤ 1024 →
    Says (ctp7_empties_says j (BitVec.ofNat 32 m)) (((List.range j).filter fun k => m + k ≤ 1024).map fun k => say "ipattern =" ++ [.num ((m + k : Nat) : Int)]) := by
  induction j with
  | zero => intro m _; exact Says.nil
  | succ j ih =>
    intro m hm
    have hhead : Says (ipatternMessage (BitVec.ofNat 32 m)) [say "ipattern =" ++ [.num ((m : Nat) : Int)]] := by
      have := says_ipattern (BitVec.ofNat 32 m)
      rwa [BitVec.toNat_ofNat, Nat.mod_eq_of_lt (by omega)] at this
    unfold ctp7_empties_says
    rw [List.range_succ_eq_map, List.filter_cons_of_pos (by simpa using hm), List.map_cons]
    refine Says.append (ls := [_]) (by simpa using hhead) ?_
    simp only [bv_gt_1023 hm]
    by_cases h : 1023 < m
    · rw [if_pos h]
      have : (List.filter (fun k => decide (m + k ≤ 1024)) (List.map Nat.succ (List.range j))) = [] := by
        rw [List.filter_eq_nil_iff]
        intro k hk
        obtain ⟨k', _, rfl⟩ := List.mem_map.mp hk
        rw [decide_eq_true_eq]
        omega
      rw [this]
      exact Says.nil
    · rw [if_neg h, bv_succ]
      have := ih (m + 1) (by omega)
      rw [List.filter_map, List.map_map]
      simpa only [Function.comp_def, Nat.succ_eq_add_one, Nat.add_assoc, Nat.add_comm 1] using this

theorem ctp7_call_says_ok (test : Nat) : Says (ctp7_call_says (BitVec.ofNat 32 (min (6 * (test - 1)) 1024)))
    (if 6 * (test - 1) < 1024 then ((List.range 6).filter fun j => 6 * (test - 1) + j ≤ 1024).map fun j =>
      say "ipattern =" ++ [.num ((6 * (test - 1) + j : Nat) : Int)] else []) := by
  unfold ctp7_call_says
  simp only [bv_gt_1023 (Nat.min_le_right _ _)]
  by_cases h : 6 * (test - 1) < 1024
  · have hm : min (6 * (test - 1)) 1024 = 6 * (test - 1) := by omega
    rw [if_pos h, hm, if_neg (by omega), if_neg (by omega)]
    have := ctp7_empties_says_ok 6 (6 * (test - 1)) (by omega)
    rw [ctp7_empties_says] at this
    simp only [bv_gt_1023 (show 6 * (test - 1) ≤ 1024 by omega)] at this
    rwa [if_neg (by omega)] at this
  · rw [if_neg h, if_pos (by omega)]
    exact Says.nil

theorem ctp_says (test : Nat) : Says (ctp7_call_says (BitVec.ofNat 32 (min (6 * (test - 1)) 1024)) ++ ctp7_call_says (BitVec.ofNat 32 (min (6 * (test - 1)) 1024)))
    (ctpLines test) := by
  have := (ctp7_call_says_ok test).append (ctp7_call_says_ok test)
  unfold ctpLines
  split at this
  · rename_i h
    rw [if_pos h]
    exact this
  · rename_i h
    rw [if_neg h]
    exact this

theorem ctp7_call_ip (k : Nat) (e : MP7Event × Nat) (he : e.2 ≤ 144) (s : CTP7State) (hs : s.ipattern = BitVec.ofNat 32 (min (6 * k) 1024)) :
    ∃ s', ctp7_call 1 e.1 e.2 s = .ok s' ∧ s'.ipattern = BitVec.ofNat 32 (min (6 * (k + 1)) 1024) := by
  unfold ctp7_call
  rw [hs]
  simp only [bv_gt_1023 (Nat.min_le_right _ _)]
  by_cases hr : 1023 < min (6 * k) 1024
  · rw [if_pos hr]
    exact ⟨s, rfl, by rw [hs]; congr 1; omega⟩
  · have hm : min (6 * k) 1024 = 6 * k := by omega
    rw [if_neg hr, if_pos trivial]
    unfold ctp7_print
    rw [hs]
    simp only [bv_gt_1023 (Nat.min_le_right (6 * k) 1024)]
    rw [if_neg hr, buildM_ok (fun i : Fin e.2 => e.1 ⟨i.val, lt_of_lt_of_le i.isLt he⟩)
      (fun i => Arr.read_ok e.1 (lt_of_lt_of_le i.isLt he)), Run.ok_bind]
    refine ⟨_, rfl, ?_⟩
    simp only [bv_succ]
    rw [hm, ctp7_empties_eq e.2 5 (6 * k) _ (by omega)]
    simp only []
    congr 1

theorem ctp7_count_eq (E : List (MP7Event × Nat)) (hE : ∀ e ∈ E, e.2 ≤ 144) : ctp7_count E = .ok (BitVec.ofNat 32 (min (6 * E.length) 1024)) := by
  have key : ∀ (E : List (MP7Event × Nat)) (k : Nat) (s : CTP7State), (∀ e ∈ E, e.2 ≤ 144) → s.ipattern = BitVec.ofNat 32 (min (6 * k) 1024) →
      ∃ s', E.foldlM (fun s e => ctp7_call 1 e.1 e.2 s) s = .ok s' ∧ s'.ipattern = BitVec.ofNat 32 (min (6 * (k + E.length)) 1024) := by
    intro E
    induction E with
    | nil => intro k s _ hs; exact ⟨s, rfl, hs⟩
    | cons e E ih =>
      intro k s hE hs
      obtain ⟨s1, a1, a2⟩ := ctp7_call_ip k e (hE e List.mem_cons_self) s hs
      obtain ⟨s2, b1, b2⟩ := ih (k + 1) s1 (fun x hx => hE x (List.mem_cons_of_mem _ hx)) a2
      refine ⟨s2, ?_, by rw [b2, List.length_cons]; congr 3; omega⟩
      rw [List.foldlM_cons, a1]
      exact b1
  obtain ⟨s', h1, h2⟩ := key E 0 { ipattern := 0, rows := [] } hE rfl
  unfold ctp7_count
  rw [h1, Run.ok_bind, h2, Nat.zero_add]

theorem mp7_count_links {n : Nat} (nempty : Int) (nlinks : Nat) (hlinks : nlinks ≤ 144) (hn0 : 0 < n) (hn : 144 % n = 0) (evs : List MP7Event)
    (hP : evs.length * (nempty.natAbs + 1) ≤ 2 ^ 32) :
    mp7_count n nempty nlinks evs = .ok (BitVec.ofNat 32 (evs.length * (nempty.natAbs + 1))) := by
  have hn' : n * (144 / n) = 144 := by have := Nat.div_add_mod 144 n; omega
  let c : MP7Conf := { nlinks := if nlinks ≠ 0 then nlinks else 144 / n, nmux := n, nchann := 144 / n, nempty := nempty.natAbs, fillmagic := decide (nempty < 0) }
  have hc : c.nlinks ≤ 144 := by
    show (if nlinks ≠ 0 then nlinks else 144 / n) ≤ 144
    have := Nat.div_le_self 144 n
    split <;> omega
  have hnew : mp7_new n nempty nlinks = .ok (c, { ipattern := 0, buffer := fun _ _ => 0, rows := [] }) := by
    unfold mp7_new
    rw [if_neg (by omega)]
    simp only []
    split
    · unfold cassert
      rw [if_pos (decide_eq_true hn)]; rfl
    · rfl
  have h0 : MP7Inv c (stream c.nempty c.fillmagic []) ({ ipattern := 0, buffer := fun _ _ => 0, rows := [] } : MP7State n) := by
    rw [stream_nil]
    refine ⟨rfl, fun _ a j => ?_, by simp⟩
    rw [evWord_none (by simp)]
  obtain ⟨s, e1, e2⟩ := mp7_calls_ok c rfl rfl hn0 hn' hc evs h0 (by simp only [List.length_nil]; rw [Nat.zero_add]; exact hP)
  rw [List.nil_append] at e2
  unfold mp7_count
  rw [hnew, Run.ok_bind]
  simp only []
  rw [e1, Run.ok_bind, e2.ip, stream_length]

theorem mp7_count_eq {n : Nat} (nempty : Int) (hn0 : 0 < n) (hn : 144 % n = 0) (evs : List MP7Event)
    (hP : evs.length * (nempty.natAbs + 1) ≤ 2 ^ 32) :
    mp7_count n nempty 0 evs = .ok (BitVec.ofNat 32 (evs.length * (nempty.natAbs + 1))) :=
  mp7_count_links nempty 0 (by omega) hn0 hn evs hP

theorem hr_count_eq (n : Nat) : hr_count n = BitVec.ofNat 32 n := by
  have : ∀ k, hr_count k = BitVec.ofNat 32 k := by
    intro k
    induction k with
    | zero => rfl
    | succ k ih =>
      unfold hr_count at ih ⊢
      rw [List.range_succ, List.foldl_append, ih]
      exact bv_succ k
  exact this n

end Verif
