import Verif.Props.Serializer
/-! # C39, C40 — exactly which frame numbers and which words are in a pattern file -/
namespace Verif
open Spec

private theorem evWord_congr {m : Nat} {magic : Bool} {evs evs' : List MP7Event} (hlen : evs.length = evs'.length) {e w : Nat}
    (h : ∀ k, e = k * (m + 1) → ∀ (h1 : k < evs.length) (h2 : k < evs'.length) (hw : w < 144), evs[k] ⟨w, hw⟩ = evs'[k] ⟨w, hw⟩) :
    evWord (stream m magic evs) e w = evWord (stream m magic evs') e w := by
  by_cases he : e < evs.length * (m + 1)
  · unfold evWord stream
    rw [List.getElem?_map, List.getElem?_map, List.getElem?_range he, List.getElem?_range (by rw [← hlen]; exact he)]
    simp only [Option.map_some]
    by_cases hz : e % (m + 1) = 0
    · rw [if_pos hz, if_pos hz]
      by_cases hw : w < 144
      · rw [dif_pos hw, dif_pos hw]
        have hk : e / (m + 1) < evs.length := by
          rw [Nat.div_lt_iff_lt_mul (by omega)]
          exact he
        have hek : e = e / (m + 1) * (m + 1) := by
          have := Nat.div_add_mod e (m + 1)
          rw [Nat.mul_comm] at this
          omega
        rw [List.getD_eq_getElem?_getD, List.getD_eq_getElem?_getD, List.getElem?_eq_getElem hk, List.getElem?_eq_getElem (by omega)]
        exact h _ hek hk (by omega) hw
      · rw [dif_neg hw, dif_neg hw]
    · rw [if_neg hz, if_neg hz]
  · unfold evWord
    rw [List.getElem?_eq_none (by rw [stream_length]; omega), List.getElem?_eq_none (by rw [stream_length, ← hlen]; omega)]

/-- **C39.** The frame numbers of every file: rows of complete groups carry their own number; in an incomplete last group,
with `missing` events to go, row `r` carries `r + 1 - missing` modulo 2^32. -/
theorem C39_numbering {n : Nat} (nempty : Int) (nlinks : Nat) (hn0 : 0 < n) (hn : 144 % n = 0)
    (hl : nlinks ≤ 144) (evs : List MP7Event) (hP : evs.length * (nempty.natAbs + 1) < 2 ^ 32) :
    ∃ rows, mp7_file n nempty nlinks evs = .ok rows ∧
      rows.length = (evs.length * (nempty.natAbs + 1) + (n - 1)) / n * n ∧
      ∀ r (h : r < rows.length), rows[r].1 = BitVec.ofInt 32
        (if r < evs.length * (nempty.natAbs + 1) / n * n then (r : Int)
          else (r : Int) + 1 - ((n - evs.length * (nempty.natAbs + 1) % n : Nat) : Int)) := by
  obtain ⟨rows, h1, h2, h3⟩ := mp7_file_rows nempty nlinks hn0 hn hl evs hP
  refine ⟨rows, h1, h2, fun r h => ?_⟩
  rw [h3 r h]
  simp only []
  by_cases hr : r < evs.length * (nempty.natAbs + 1) / n * n
  · rw [if_pos hr, if_pos hr]
    simp
  · rw [if_neg hr, if_neg hr]
    generalize hL : evs.length * (nempty.natAbs + 1) = L at *
    have hd := Nat.div_add_mod L n
    have hm := Nat.mod_lt L hn0
    have hlt : r < L / n * n + n := by
      have : (L + (n - 1)) / n ≤ L / n + 1 := by
        rw [← Nat.lt_succ_iff, Nat.div_lt_iff_lt_mul hn0]
        have : (L / n + 1).succ * n = n * (L / n) + n + n := by rw [Nat.succ_mul, Nat.add_mul, Nat.mul_comm]; omega
        omega
      have := Nat.mul_le_mul_right n this
      rw [Nat.add_mul, Nat.one_mul] at this
      omega
    have hrm : r % n = r - L / n * n := by
      have e : r = n * (L / n) + (r - L / n * n) := by rw [Nat.mul_comm]; omega
      conv_lhs => rw [e]
      rw [Nat.mul_add_mod, Nat.mod_eq_of_lt (by omega)]
    have e0 : (BitVec.ofNat 32 L - BitVec.ofNat 32 n + 1 + BitVec.ofNat 32 (r % n)) =
        BitVec.ofInt 32 ((L : Int) - n + 1 + (r % n : Nat)) := by
      rw [BitVec.ofInt_add, BitVec.ofInt_add, Int.sub_eq_add_neg, BitVec.ofInt_add, BitVec.ofInt_neg, BitVec.ofInt_natCast,
        BitVec.ofInt_natCast, BitVec.ofInt_natCast, BitVec.sub_eq_add_neg]
      rfl
    rw [e0, hrm]
    congr 1
    rw [Nat.mul_comm] at hd
    omega

/-- **C40.** Exactly which words are in the file: two sequences of as many events give the same file if and only if they
agree in the words whose link is printed. -/
theorem C40_exact {n : Nat} (nempty : Int) (nlinks : Nat) (hn0 : 0 < n) (hn : 144 % n = 0) (hl : nlinks ≤ 144)
    (evs evs' : List MP7Event) (hlen : evs.length = evs'.length) (hP : evs.length * (nempty.natAbs + 1) < 2 ^ 32) :
    mp7_file n nempty nlinks evs = mp7_file n nempty nlinks evs' ↔
      ∀ k (h1 : k < evs.length) (h2 : k < evs'.length) (w : Fin 144),
        (k * (nempty.natAbs + 1) % n) * (144 / n) + w.val / n < (if nlinks ≠ 0 then nlinks else 144 / n) → evs[k] w = evs'[k] w := by
  have hn' : n * (144 / n) = 144 := by have := Nat.div_add_mod 144 n; omega
  have hq0 : 0 < 144 / n := by
    rcases Nat.eq_zero_or_pos (144 / n) with h | h
    · rw [h] at hn'
      omega
    · exact h
  constructor
  · intro heq k h1 h2 w hw
    obtain ⟨rows, r1, r2⟩ := C38_place nempty nlinks hn0 hn hl evs hP
    obtain ⟨rows', r1', r2'⟩ := C38_place nempty nlinks hn0 hn hl evs' (by rw [← hlen]; exact hP)
    rw [r1, r1'] at heq
    injection heq with heq
    subst heq
    obtain ⟨row, a1, a2⟩ := r2 _ _ (C38_stream _ _ evs k h1).1 w hw
    obtain ⟨row', b1, b2⟩ := r2' _ _ (C38_stream _ _ evs' k h2).1 w hw
    rw [a1] at b1
    injection b1 with b1
    subst b1
    rw [a2] at b2
    injection b2
  · intro h
    have f1 := mp7_file_eq nempty nlinks hn0 hn hl evs hP
    have f2 := mp7_file_eq nempty nlinks hn0 hn hl evs' (by rw [← hlen]; exact hP)
    have hnl : (if nlinks ≠ 0 then nlinks else 144 / n) ≤ 144 := by
      split
      · exact hl
      · exact Nat.div_le_self _ _
    generalize (if nlinks ≠ 0 then nlinks else 144 / n) = nl at *
    have hrow : ∀ r, rowWords n nl (stream nempty.natAbs (decide (nempty < 0)) evs) r =
        rowWords n nl (stream nempty.natAbs (decide (nempty < 0)) evs') r := by
      intro r
      unfold rowWords
      apply List.map_congr_left
      intro i hi
      have hi' := List.mem_range.mp hi
      apply evWord_congr hlen
      intro k hk h1 h2 hw
      refine h k h1 h2 ⟨_, hw⟩ ?_
      rw [← hk]
      have hin : i / (144 / n) < n := by
        rw [Nat.div_lt_iff_lt_mul hq0, hn']
        omega
      have e1 : ((r / n) * n + i / (144 / n)) % n = i / (144 / n) := by
        rw [Nat.mul_comm, Nat.mul_add_mod, Nat.mod_eq_of_lt hin]
      have e2 : ((i % (144 / n)) * n + r % n) / n = i % (144 / n) := by
        rw [Nat.mul_comm, Nat.mul_add_div hn0, Nat.div_eq_of_lt (Nat.mod_lt r hn0), Nat.add_zero]
      dsimp only
      rw [e1, e2]
      have := Nat.div_add_mod i (144 / n)
      rw [Nat.mul_comm] at this
      omega
    rw [f1, f2]
    simp only [hrow, stream_length, hlen]

/-- **C40**, a case: with `nmux = 2` and one empty frame after each event the default number of links keeps every event. -/
example (a b a' b' : MP7Event) : mp7_file 2 1 0 [a, b] = mp7_file 2 1 0 [a', b'] ↔ a = a' ∧ b = b' := by
  rw [C40_exact 1 0 (by decide) (by decide) (by decide) [a, b] [a', b'] rfl (by simp)]
  constructor
  · intro h
    refine ⟨funext fun w => h 0 (by simp) (by simp) w ?_, funext fun w => h 1 (by simp) (by simp) w ?_⟩ <;>
    · have := w.isLt
      simp
      omega
  · rintro ⟨rfl, rfl⟩ k h1 h2 w _
    rfl

end Verif
