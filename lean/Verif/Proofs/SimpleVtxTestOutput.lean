import Verif.Spec.SimpleVtxTestOutput
import Verif.Proofs.VertexTestOutput
import Mathlib.Algebra.Order.Archimedean.Basic
/-! # Lemmas: numbers printed like `%g` -/
namespace Verif
open Spec

/-! ## Digits -/

/-- A decimal digit. -/
def IsDigit (c : Char) : Prop := ∃ d, d < 10 ∧ c = Nat.digitChar d

def Digits (s : List Char) : Prop := ∀ c ∈ s, IsDigit c

/-- The value of a list of digits. -/
def dval (s : List Char) : Nat := s.foldl (fun n c => 10 * n + (digitVal c).getD 0) 0

theorem IsDigit.zero : IsDigit '0' := ⟨0, by omega, rfl⟩

theorem digits_toDigits (n : Nat) : Digits (Nat.toDigits 10 n) := by
  induction n using Nat.strongRecOn with
  | _ n ih =>
    intro c hc
    rw [Nat.toDigits_eq_if (by omega)] at hc
    split at hc
    · rw [List.mem_singleton] at hc; exact ⟨_, by omega, hc⟩
    · rcases List.mem_append.mp hc with h | h
      · exact ih _ (by omega) c h
      · rw [List.mem_singleton] at h
        exact ⟨_, Nat.mod_lt _ (by omega), h⟩

theorem fold_digits {s : List Char} (h : Digits s) (n : Nat) :
    s.foldlM (digitStep 10) n = some (s.foldl (fun n c => 10 * n + (digitVal c).getD 0) n) := by
  induction s generalizing n with
  | nil => rfl
  | cons c cs ih =>
    obtain ⟨d, hd, rfl⟩ := h c (by simp)
    rw [List.foldlM_cons, digitStep_char hd (by omega)]
    simp only [Option.bind_eq_bind, Option.bind_some, List.foldl_cons, digitVal_digitChar (show d < 16 by omega), Option.getD_some]
    exact ih (fun c hc => h c (List.mem_cons_of_mem _ hc)) _

theorem number_digits {s : List Char} (h : Digits s) (hn : s ≠ []) : number 10 s = some (dval s) := by
  rw [number_eq 10 hn, fold_digits h]
  rfl

theorem dval_from (s : List Char) (n : Nat) : s.foldl (fun n c => 10 * n + (digitVal c).getD 0) n = n * 10 ^ s.length + dval s := by
  induction s generalizing n with
  | nil => simp [dval]
  | cons c cs ih =>
    have h1 := ih (10 * n + (digitVal c).getD 0)
    have h2 := ih (10 * 0 + (digitVal c).getD 0)
    unfold dval
    rw [List.foldl_cons, List.foldl_cons, h1, h2, List.length_cons, pow_succ]
    ring

theorem dval_append (a b : List Char) : dval (a ++ b) = dval a * 10 ^ b.length + dval b := by
  unfold dval
  rw [List.foldl_append, dval_from]
  rfl

theorem dval_zeros (k : Nat) : dval (List.replicate k '0') = 0 := by
  induction k with
  | zero => rfl
  | succ k ih => rw [List.replicate_succ', dval_append, ih]; simp; decide

theorem dval_toDigits (n : Nat) : dval (Nat.toDigits 10 n) = n := by
  have h := number_digits (digits_toDigits n) Nat.toDigits_ne_nil
  rw [number_eq 10 Nat.toDigits_ne_nil, fold_toDigits (by omega) (by omega)] at h
  exact (Option.some.inj h).symm

theorem digits_ne {c x : Char} (h : IsDigit c) (hx : ∀ d : Fin 10, Nat.digitChar d.val ≠ x) : c ≠ x := by
  obtain ⟨d, hd, rfl⟩ := h
  exact hx ⟨d, hd⟩

/-! ## Trailing zeros -/

theorem strip_split (s : List Char) : ∃ k, s = stripZeros s ++ List.replicate k '0' := by
  refine ⟨(s.reverse.takeWhile (· == '0')).length, ?_⟩
  have h := List.takeWhile_append_dropWhile (p := (· == '0')) (l := s.reverse)
  have h2 : s.reverse.takeWhile (· == '0') = List.replicate (s.reverse.takeWhile (· == '0')).length '0' := by
    refine List.eq_replicate_of_mem fun c hc => ?_
    have := List.mem_takeWhile_imp hc
    simpa using this
  unfold stripZeros
  conv_lhs => rw [← List.reverse_reverse s, ← h, List.reverse_append]
  congr 1
  rw [h2, List.reverse_replicate, List.length_replicate]

theorem strip_zeros (k : Nat) : stripZeros (List.replicate k '0') = [] := by
  unfold stripZeros
  rw [List.reverse_replicate, List.dropWhile_eq_nil_iff.mpr, List.reverse_nil]
  intro c hc
  rw [List.eq_of_mem_replicate hc]
  rfl

theorem strip_digits {s : List Char} (h : Digits s) : Digits (stripZeros s) := by
  obtain ⟨k, e⟩ := strip_split s
  intro c hc
  exact h c (by rw [e]; exact List.mem_append_left _ hc)

theorem value_strip (s : List Char) : (dval s : ℚ) / 10 ^ s.length = (dval (stripZeros s) : ℚ) / 10 ^ (stripZeros s).length := by
  obtain ⟨k, e⟩ := strip_split s
  have h1 : dval s = dval (stripZeros s) * 10 ^ k := by
    conv_lhs => rw [e]
    rw [dval_append, dval_zeros, List.length_replicate, Nat.add_zero]
  have h2 : s.length = (stripZeros s).length + k := by
    conv_lhs => rw [e]
    rw [List.length_append, List.length_replicate]
  rw [h1, h2, pow_add]
  push_cast
  rw [mul_div_mul_right _ _ (by positivity)]

theorem split_digits {s : List Char} (h : Digits s) {x : Char} (hx : ∀ d : Fin 10, Nat.digitChar d.val ≠ x) : ∀ c ∈ s, (c == x) = false := by
  intro c hc
  rw [beq_eq_false_iff_ne]
  exact digits_ne (h c hc) hx

theorem fixedPoint_withPoint {a b : List Char} (ha : Digits a) (hb : Digits b) (hn : a ≠ []) :
    fixedPoint (withPoint a b) = some ((dval a : ℚ) + dval b / 10 ^ b.length) := by
  rw [value_strip]
  unfold fixedPoint withPoint
  by_cases h : stripZeros b = []
  · rw [if_pos h, List.append_nil, split_last (split_digits ha (by decide))]
    simp only [number_digits ha hn, Option.map_some]
    rw [h]
    simp [dval]
  · rw [if_neg h, split_append (split_digits ha (by decide)) (by decide), split_last (split_digits (strip_digits hb) (by decide))]
    simp only [number_digits ha hn, number_digits (strip_digits hb) h, Option.bind_eq_bind, Option.bind_some]

theorem withPoint_mem {a b : List Char} (ha : Digits a) (hb : Digits b) : ∀ c ∈ withPoint a b, IsDigit c ∨ c = '.' := by
  intro c hc
  unfold withPoint at hc
  rcases List.mem_append.mp hc with h | h
  · exact .inl (ha c h)
  · split at h
    · cases h
    · rcases List.mem_cons.mp h with h | h
      · exact .inr h
      · exact .inl (strip_digits hb c h)

/-! ## `%g` -/

theorem length_six {m : Nat} (h1 : 10 ^ 5 ≤ m) (h2 : m < 10 ^ 6) : (Nat.toDigits 10 m).length = 6 := by
  have a := (Nat.length_toDigits_le_iff (b := 10) (n := m) (k := 6) (by omega) (by omega)).mpr h2
  have b : ¬ (Nat.toDigits 10 m).length ≤ 5 := fun h => by
    have := (Nat.length_toDigits_le_iff (b := 10) (n := m) (k := 5) (by omega) (by omega)).mp h
    omega
  omega

theorem value_split (s : List Char) (k : Nat) :
    (dval (s.take k) : ℚ) + dval (s.drop k) / 10 ^ (s.drop k).length = dval s / 10 ^ (s.length - k) := by
  have h : dval s = dval (s.take k) * 10 ^ (s.drop k).length + dval (s.drop k) := by
    conv_lhs => rw [← List.take_append_drop k s]
    exact dval_append _ _
  rw [h, List.length_drop]
  push_cast
  field_simp

theorem fmtG_value {m : Nat} (h1 : 10 ^ 5 ≤ m) (h2 : m < 10 ^ 6) (e : Int) :
    scientific (fmtG m e) = some (m * (10 : ℚ) ^ (e - 5)) ∧ (∃ c s, fmtG m e = c :: s ∧ IsDigit c) ∧
      ∀ c ∈ fmtG m e, IsDigit c ∨ c = '.' ∨ c = 'e' ∨ c = '-' ∨ c = '+' := by
  have hl := length_six h1 h2
  have hd := digits_toDigits m
  have hv := dval_toDigits m
  have hsub : ∀ k, Digits ((Nat.toDigits 10 m).take k) ∧ Digits ((Nat.toDigits 10 m).drop k) :=
    fun k => ⟨fun c hc => hd c (List.mem_of_mem_take hc), fun c hc => hd c (List.mem_of_mem_drop hc)⟩
  have hne : ∀ k, 0 < k → (Nat.toDigits 10 m).take k ≠ [] := fun k hk h => by
    have := congrArg List.length h
    rw [List.length_take, hl] at this
    simp at this
    omega
  have hwp : ∀ {a b : List Char}, Digits a → Digits b → a ≠ [] →
      scientific (withPoint a b) = some ((dval a : ℚ) + dval b / 10 ^ b.length) ∧ (∃ c s, withPoint a b = c :: s ∧ IsDigit c) ∧ ∀ c ∈ withPoint a b, IsDigit c ∨ c = '.' := by
    intro a b ha hb hn
    refine ⟨?_, ?_, withPoint_mem ha hb⟩
    · unfold scientific
      rw [split_last]
      · exact fixedPoint_withPoint ha hb hn
      · intro c hc
        rw [beq_eq_false_iff_ne]
        rcases withPoint_mem ha hb c hc with h | h
        · exact digits_ne h (by decide)
        · rw [h]; decide
    · obtain ⟨x, l, rfl⟩ := List.exists_cons_of_ne_nil hn
      exact ⟨x, _, rfl, ha x (by simp)⟩
  unfold fmtG
  dsimp only
  split
  · rename_i he
    split
    · rename_i h0
      obtain ⟨a, b, c⟩ := hwp (hsub (e.toNat + 1)).1 (hsub (e.toNat + 1)).2 (hne _ (by omega))
      refine ⟨?_, b, fun x hx => (c x hx).imp_right .inl⟩
      rw [a, value_split, hv, hl]
      obtain ⟨n, rfl⟩ := Int.eq_ofNat_of_zero_le h0
      congr 1
      rw [show ((n : Int) - 5) = -((6 - (Int.toNat (n : Int) + 1) : Nat) : Int) by omega, zpow_neg, zpow_natCast]
      rfl
    · rename_i h0
      have hz : Digits (List.replicate ((-e).toNat - 1) '0' ++ Nat.toDigits 10 m) := by
        intro c hc
        rcases List.mem_append.mp hc with h | h
        · rw [List.eq_of_mem_replicate h]; exact IsDigit.zero
        · exact hd c h
      obtain ⟨a, b, c⟩ := hwp (a := ['0']) (fun c hc => by rw [List.mem_singleton.mp hc]; exact IsDigit.zero) hz (by simp)
      refine ⟨?_, b, fun x hx => (c x hx).imp_right .inl⟩
      rw [a, dval_append, dval_zeros, hv, List.length_append, List.length_replicate, hl]
      congr 1
      rw [show e - 5 = -(((-e).toNat - 1 + 6 : Nat) : Int) by omega, zpow_neg, zpow_natCast, show dval ['0'] = 0 by decide]
      push_cast
      simp [div_eq_mul_inv]
  · obtain ⟨a, b, c⟩ := hwp (hsub 1).1 (hsub 1).2 (hne _ (by omega))
    have hse : ∀ x ∈ withPoint ((Nat.toDigits 10 m).take 1) ((Nat.toDigits 10 m).drop 1), (x == 'e') = false := by
      intro x hx
      rw [beq_eq_false_iff_ne]
      rcases c x hx with h | h
      · exact digits_ne h (by decide)
      · rw [h]; decide
    have hdz : Digits (fmtZ 10 2 e.natAbs) := by
      intro x hx
      unfold fmtZ at hx
      rcases List.mem_append.mp hx with h | h
      · rw [List.eq_of_mem_replicate h]; exact IsDigit.zero
      · exact digits_toDigits _ x h
    have hlast : ∀ x ∈ (if e < 0 then '-' else '+') :: fmtZ 10 2 e.natAbs, (x == 'e') = false := by
      intro x hx
      rw [beq_eq_false_iff_ne]
      rcases List.mem_cons.mp hx with h | h
      · rw [h]; split <;> decide
      · exact digits_ne (hdz x h) (by decide)
    have hint : int ((if e < 0 then '-' else '+') :: fmtZ 10 2 e.natAbs) = some e := by
      split
      · show (number 10 _).map _ = _
        rw [number_fmtZ (by omega) (by omega)]
        simp only [Option.map_some, Option.some.injEq]
        omega
      · show (number 10 _).map _ = _
        rw [number_fmtZ (by omega) (by omega)]
        simp only [Option.map_some, Option.some.injEq]
        omega
    obtain ⟨x0, s0, e0, d0⟩ := b
    refine ⟨?_, ⟨x0, _, by rw [e0]; rfl, d0⟩, fun x hx => ?_⟩
    · have hf := fixedPoint_withPoint (hsub 1).1 (hsub 1).2 (hne _ (by omega))
      unfold scientific
      rw [split_append hse (by decide), split_last hlast]
      simp only [hf, hint, Option.bind_eq_bind, Option.bind_some]
      rw [value_split, hv, hl, zpow_sub₀ (by norm_num)]
      congr 1
      norm_num
      ring
    · rcases List.mem_append.mp hx with h | h
      · exact (c x h).imp_right .inl
      · rcases List.mem_cons.mp h with h | h
        · exact .inr (.inr (.inl h))
        · rcases List.mem_cons.mp h with h | h
          · rw [h]
            split
            · exact .inr (.inr (.inr (.inl rfl)))
            · exact .inr (.inr (.inr (.inr rfl)))
          · exact .inl (hdz x h)

theorem fmtG_exponent {m : Nat} (h1 : 10 ^ 5 ≤ m) (h2 : m < 10 ^ 6) (e : Int) :
    'e' ∈ fmtG m e ↔ (m : ℚ) * 10 ^ (e - 5) < 1 / 10 ^ 4 ∨ 10 ^ 6 ≤ (m : ℚ) * 10 ^ (e - 5) := by
  have hd := digits_toDigits m
  have hw : ∀ {a b : List Char}, Digits a → Digits b → 'e' ∉ withPoint a b := by
    intro a b ha hb h
    rcases withPoint_mem ha hb _ h with h | h
    · exact digits_ne h (by decide) rfl
    · exact absurd h (by decide)
  have m1 : (10 : ℚ) ^ 5 ≤ m := by exact_mod_cast h1
  have m2 : (m : ℚ) < 10 ^ 6 := by exact_mod_cast h2
  have hp : (0 : ℚ) < 10 ^ (e - 5) := by positivity
  have e1 : e < -4 → (m : ℚ) * 10 ^ (e - 5) < 1 / 10 ^ 4 := fun h => by
    have : (10 : ℚ) ^ (e - 5) ≤ 10 ^ (-10 : ℤ) := zpow_le_zpow_right₀ (by norm_num) (by omega)
    calc (m : ℚ) * 10 ^ (e - 5) < 10 ^ 6 * 10 ^ (e - 5) := mul_lt_mul_of_pos_right m2 hp
      _ ≤ 10 ^ 6 * 10 ^ (-10 : ℤ) := mul_le_mul_of_nonneg_left this (by norm_num)
      _ = 1 / 10 ^ 4 := by norm_num
  have e2 : -4 ≤ e → 1 / 10 ^ 4 ≤ (m : ℚ) * 10 ^ (e - 5) := fun h => by
    have : (10 : ℚ) ^ (-9 : ℤ) ≤ 10 ^ (e - 5) := zpow_le_zpow_right₀ (by norm_num) (by omega)
    calc (1 : ℚ) / 10 ^ 4 = (10 : ℚ) ^ 5 * (10 : ℚ) ^ (-9 : ℤ) := by norm_num
      _ ≤ (m : ℚ) * 10 ^ (e - 5) := mul_le_mul m1 this (by positivity) (by positivity)
  have e3 : e < 6 → (m : ℚ) * 10 ^ (e - 5) < 10 ^ 6 := fun h => by
    have : (10 : ℚ) ^ (e - 5) ≤ 10 ^ (0 : ℤ) := zpow_le_zpow_right₀ (by norm_num) (by omega)
    calc (m : ℚ) * 10 ^ (e - 5) < 10 ^ 6 * 10 ^ (e - 5) := mul_lt_mul_of_pos_right m2 hp
      _ ≤ 10 ^ 6 * 10 ^ (0 : ℤ) := mul_le_mul_of_nonneg_left this (by norm_num)
      _ = 10 ^ 6 := by norm_num
  have e4 : 6 ≤ e → 10 ^ 6 ≤ (m : ℚ) * 10 ^ (e - 5) := fun h => by
    have : (10 : ℚ) ^ (1 : ℤ) ≤ 10 ^ (e - 5) := zpow_le_zpow_right₀ (by norm_num) (by omega)
    calc (10 : ℚ) ^ 6 = (10 : ℚ) ^ 5 * (10 : ℚ) ^ (1 : ℤ) := by norm_num
      _ ≤ (m : ℚ) * 10 ^ (e - 5) := mul_le_mul m1 this (by positivity) (by positivity)
  by_cases he : -4 ≤ e ∧ e < 6
  · refine iff_of_false ?_ (fun h => ?_)
    · unfold fmtG
      dsimp only
      rw [if_pos he]
      split
      · exact hw (fun c hc => hd c (List.mem_of_mem_take hc)) fun c hc => hd c (List.mem_of_mem_drop hc)
      · refine hw (fun c hc => by rw [List.mem_singleton.mp hc]; exact IsDigit.zero) fun c hc => ?_
        rcases List.mem_append.mp hc with h | h
        · rw [List.eq_of_mem_replicate h]; exact IsDigit.zero
        · exact hd c h
    · have := e2 he.1
      have := e3 he.2
      rcases h with h | h <;> linarith
  · refine iff_of_true ?_ ?_
    · unfold fmtG
      dsimp only
      rw [if_neg he]
      exact List.mem_append_right _ List.mem_cons_self
    · by_cases h : e < -4
      · exact .inl (e1 h)
      · exact .inr (e4 (by omega))

/-! ## As words -/

theorem digits_of_number {s : List Char} : ∀ {n m : Nat}, s.foldlM (digitStep 10) n = some m → Digits s := by
  induction s with
  | nil => intro n m _ c hc; cases hc
  | cons x s ih =>
    intro n m h
    rw [List.foldlM_cons] at h
    cases hx : digitStep 10 n x with
    | none => rw [hx] at h; cases h
    | some k =>
      rw [hx] at h
      intro c hc
      rcases List.mem_cons.mp hc with rfl | hc
      · unfold digitStep digitVal at hx
        cases hi : ("0123456789abcdef".toList.idxOf? c) with
        | none => rw [hi] at hx; cases hx
        | some d =>
          rw [hi] at hx
          by_cases hd : d < 10
          · obtain ⟨h1, h2⟩ := List.idxOf?_eq_some_iff.mp hi
            refine ⟨d, hd, ?_⟩
            have h3 : "0123456789abcdef".toList[d]? = some c := by rw [← h2.1]; exact List.getElem?_eq_getElem h1
            have : ∀ d : Fin 10, "0123456789abcdef".toList[d.val]? = some (Nat.digitChar d.val) := by decide
            exact Option.some.inj (h3.symm.trans (this ⟨d, hd⟩))
          · simp [hd] at hx
      · exact ih h c hc

theorem value_token {w : List Char} {x : Char} {s : List Char} (hw : w = x :: s) (hx : IsDigit x) {q : ℚ} (h : scientific w = some q) :
    (token w).value = some q := by
  have hi : int w = (number 10 w).map fun (n : Nat) => (n : Int) := by
    subst hw
    unfold int
    split
    · rename_i e; cases e; exact absurd rfl (digits_ne hx (x := '-') (by decide))
    · rename_i e; cases e; exact absurd rfl (digits_ne hx (x := '+') (by decide))
    · rfl
  unfold token
  rw [hi]
  cases hn : number 10 w with
  | none => exact h
  | some n =>
    have hd : Digits w := by
      rw [number_eq 10 (by rw [hw]; simp)] at hn
      exact digits_of_number hn
    unfold scientific at h
    rw [split_last (split_digits hd (by decide))] at h
    dsimp only at h
    unfold fixedPoint at h
    rw [split_last (split_digits hd (by decide))] at h
    dsimp only at h
    rw [hn] at h
    rw [← h]
    simp [Token.value]

theorem exponent_token {w : List Char} {x : Char} {s : List Char} (hw : w = x :: s) (hx : IsDigit x) :
    (token w).HasExponent ↔ 'e' ∈ w := by
  have hi : int w = (number 10 w).map fun (n : Nat) => (n : Int) := by
    subst hw
    unfold int
    split
    · rename_i e; cases e; exact absurd rfl (digits_ne hx (x := '-') (by decide))
    · rename_i e; cases e; exact absurd rfl (digits_ne hx (x := '+') (by decide))
    · rfl
  unfold token
  rw [hi]
  cases hn : number 10 w with
  | none => exact Iff.rfl
  | some n =>
    rw [number_eq 10 (by rw [hw]; simp)] at hn
    exact iff_of_false (fun h => h) fun h => digits_ne (digits_of_number hn _ h) (by decide) rfl

/-! ## Integers -/

theorem toDigits_zeros {n : Nat} (hn : 0 < n) (j : Nat) : Nat.toDigits 10 (n * 10 ^ j) = Nat.toDigits 10 n ++ List.replicate j '0' := by
  induction j with
  | zero => simp
  | succ j ih =>
    have hp : 0 < n * 10 ^ j := Nat.mul_pos hn (by positivity)
    have e : n * 10 ^ (j + 1) = 10 * (n * 10 ^ j) := by rw [pow_succ]; ring
    rw [e, Nat.toDigits_eq_if (by omega), if_neg (by omega), show 10 * (n * 10 ^ j) / 10 = n * 10 ^ j by omega,
      show 10 * (n * 10 ^ j) % 10 = 0 by omega, ih, List.append_assoc, List.replicate_succ']
    rfl

theorem six_unique {m m' : Nat} {e e' : Int} (h1 : 10 ^ 5 ≤ m) (h2 : m < 10 ^ 6) (h1' : 10 ^ 5 ≤ m') (h2' : m' < 10 ^ 6)
    (h : (m : ℝ) * 10 ^ (e - 5) = m' * 10 ^ (e' - 5)) : m = m' ∧ e = e' := by
  have key : ∀ {m m' : Nat} {e e' : Int}, 10 ^ 5 ≤ m' → m < 10 ^ 6 → e < e' → (m : ℝ) * 10 ^ (e - 5) < m' * 10 ^ (e' - 5) := by
    intro m m' e e' a b c
    have p : (0 : ℝ) < 10 ^ (e - 5) := by positivity
    have q : (10 : ℝ) ^ (e - 5) * 10 ≤ 10 ^ (e' - 5) := by
      rw [← zpow_add_one₀ (by norm_num)]
      exact zpow_le_zpow_right₀ (by norm_num) (by omega)
    have a' : (10 : ℝ) ^ 5 ≤ m' := by exact_mod_cast a
    have b' : (m : ℝ) < 10 ^ 6 := by exact_mod_cast b
    nlinarith
  have he : e = e' := by
    rcases lt_trichotomy e e' with c | c | c
    · exact absurd h (key h1' h2 c).ne
    · exact c
    · exact absurd h.symm (key h1 h2' c).ne
  subst he
  have p : (10 : ℝ) ^ (e - 5) ≠ 0 := by positivity
  exact ⟨by exact_mod_cast mul_right_cancel₀ p h, rfl⟩

theorem text_pos {F : CoutText} (A : PrintsSix F) {n : Nat} (h0 : 0 < n) (h6 : n < 10 ^ 6) :
    fmtG (F.six (n : ℝ)).1 (F.six (n : ℝ)).2 = Nat.toDigits 10 n := by
  obtain ⟨k, hk, hk1, hk2⟩ : ∃ k, k ≤ 5 ∧ 10 ^ k ≤ n ∧ n < 10 ^ (k + 1) := by
    have hlog := Nat.pow_log_le_self 10 (show n ≠ 0 by omega)
    have hlt := Nat.lt_pow_succ_log_self (b := 10) (by omega) n
    refine ⟨Nat.log 10 n, ?_, hlog, hlt⟩
    have := Nat.log_lt_of_lt_pow (b := 10) (by omega) h6
    omega
  have hx : (0 : ℝ) < n := by exact_mod_cast h0
  obtain ⟨d1, d2⟩ := A.digits n hx
  have e1 : 10 ^ 5 ≤ n * 10 ^ (5 - k) := by
    calc 10 ^ 5 = 10 ^ k * 10 ^ (5 - k) := by rw [← pow_add]; congr 1; omega
      _ ≤ _ := Nat.mul_le_mul_right _ hk1
  have e2 : n * 10 ^ (5 - k) < 10 ^ 6 := by
    calc n * 10 ^ (5 - k) < 10 ^ (k + 1) * 10 ^ (5 - k) := (Nat.mul_lt_mul_right (by positivity)).mpr hk2
      _ = 10 ^ 6 := by rw [← pow_add]; congr 1; omega
  have e3 : ((n * 10 ^ (5 - k) : Nat) : ℝ) * 10 ^ ((k : Int) - 5) = n := by
    rw [show ((k : Int) - 5) = -((5 - k : Nat) : Int) by omega, zpow_neg, zpow_natCast]
    push_cast
    field_simp
  have hs := A.nearest n hx n ⟨_, _, e1, e2, e3.symm⟩
  rw [sub_self, abs_zero] at hs
  have hs' := sub_eq_zero.mp (abs_eq_zero.mp (le_antisymm hs (abs_nonneg _)))
  obtain ⟨u1, u2⟩ := six_unique d1 d2 e1 e2 (hs'.trans e3.symm)
  rw [u1, u2]
  unfold fmtG
  have hlen : (Nat.toDigits 10 n).length = k + 1 := by
    have a := (Nat.length_toDigits_le_iff (b := 10) (n := n) (k := k + 1) (by omega) (by omega)).mpr hk2
    by_contra hne
    rcases Nat.eq_zero_or_pos k with rfl | hkp
    · have := List.length_pos_iff.mpr (Nat.toDigits_ne_nil (b := 10) (n := n)); omega
    · have := (Nat.length_toDigits_le_iff (b := 10) (n := n) (k := k) (by omega) (by omega)).mp (by omega)
      omega
  dsimp only
  rw [if_pos ⟨by omega, by omega⟩, if_pos (by omega), toDigits_zeros h0, Int.toNat_natCast, List.take_left' hlen, List.drop_left' hlen]
  unfold withPoint
  rw [strip_zeros, if_pos rfl, List.append_nil]

/-- An integer is printed as one. -/
theorem text_int {F : CoutText} (A : PrintsSix F) {n : Int} (h : n.natAbs < 10 ^ 6) : F.text (n : ℝ) = fmtN 0 n := by
  unfold CoutText.text fmtN fmtD
  dsimp only
  rcases lt_trichotomy n 0 with c | rfl | c
  · have c' : (n : ℝ) < 0 := by exact_mod_cast c
    rw [if_neg c'.ne, if_pos c', if_pos c]
    have e : -(n : ℝ) = (n.natAbs : ℝ) := by
      have : ((n.natAbs : Int) : ℝ) = ((-n : Int) : ℝ) := by congr 1; omega
      rw [Int.cast_natCast, Int.cast_neg] at this
      exact this.symm
    rw [e, text_pos A (by omega) h]
    simp
  · simp
  · have c' : (0 : ℝ) < n := by exact_mod_cast c
    rw [if_neg c'.ne', if_neg (by linarith), if_neg (by omega)]
    have e : (n : ℝ) = (n.natAbs : ℝ) := by
      have : ((n.natAbs : Int) : ℝ) = ((n : Int) : ℝ) := by congr 1; omega
      rw [Int.cast_natCast] at this
      exact this.symm
    rw [e, text_pos A (by omega) h]
    simp

/-! ## The closest number with six digits -/

theorem exists_six {x : ℝ} (hx : 0 < x) :
    ∃ q : ℝ, 0 < q ∧ IsSix q ∧ |q - x| ≤ x / 200000 ∧ ∀ y, IsSix y → |q - x| ≤ |y - x| := by
  obtain ⟨e, he⟩ := exists_mem_Ico_zpow hx (show (1 : ℝ) < 10 by norm_num)
  have hp : (0 : ℝ) < 10 ^ (e - 5) := by positivity
  have e5 : (10 : ℝ) ^ e = 10 ^ (e - 5) * 10 ^ 5 := by
    rw [← zpow_natCast, ← zpow_add₀ (by norm_num)]
    congr 1
    push_cast
    ring
  have e6 : (10 : ℝ) ^ (e + 1) = 10 ^ (e - 5) * 10 ^ 6 := by
    rw [← zpow_natCast, ← zpow_add₀ (by norm_num)]
    congr 1
    push_cast
    ring
  obtain ⟨u, hu⟩ : ∃ u, u = x / (10 : ℝ) ^ (e - 5) := ⟨_, rfl⟩
  have hxu : x = u * 10 ^ (e - 5) := by rw [hu]; field_simp
  have hlo : (10 : ℝ) ^ 5 ≤ u := by rw [hu, le_div_iff₀ hp, mul_comm, ← e5]; exact he.1
  have hhi : u < (10 : ℝ) ^ 6 := by rw [hu, div_lt_iff₀ hp, mul_comm, ← e6]; exact he.2
  have hr5 : (10 ^ 5 : ℤ) ≤ round u := by
    rw [round_eq]
    refine Int.le_floor.mpr ?_
    push_cast
    linarith
  have hr6 : round u ≤ (10 ^ 6 : ℤ) := by
    have h1 := abs_le.mp (abs_sub_round u)
    have h2 : (round u : ℝ) < ((10 ^ 6 + 1 : ℤ) : ℝ) := by push_cast; linarith
    have h3 : round u < 10 ^ 6 + 1 := by exact_mod_cast h2
    omega
  obtain ⟨m, hm⟩ : ∃ m : ℕ, (m : ℤ) = round u := ⟨(round u).toNat, Int.toNat_of_nonneg (by omega)⟩
  have hmr : (m : ℝ) = (round u : ℝ) := by exact_mod_cast congrArg (fun z : ℤ => (z : ℝ)) hm
  have hdist : ∀ v : ℝ, |v * 10 ^ (e - 5) - x| = |v - u| * 10 ^ (e - 5) := by
    intro v
    rw [hxu, ← sub_mul, abs_mul, abs_of_pos hp]
  have hint : ∀ z : ℤ, |(m : ℝ) - u| ≤ |(z : ℝ) - u| := by
    intro z
    rw [hmr, abs_sub_comm, abs_sub_comm (z : ℝ)]
    exact round_le u z
  have hq0 : (0 : ℝ) < m := by rw [hmr]; exact_mod_cast (by omega : (0 : ℤ) < round u)
  refine ⟨m * 10 ^ (e - 5), by positivity, ?_, ?_, ?_⟩
  · rcases Nat.lt_or_ge m (10 ^ 6) with c | c
    · exact ⟨m, e, by omega, c, rfl⟩
    · refine ⟨10 ^ 5, e + 1, by norm_num, by norm_num, ?_⟩
      rw [show m = 10 ^ 6 by omega, show e + 1 - 5 = (e - 5) + 1 by omega, zpow_add_one₀ (by norm_num)]
      push_cast
      ring
  · rw [hdist, hmr, abs_sub_comm]
    have h1 := abs_sub_round u
    rw [hxu]
    nlinarith
  · rintro y ⟨k, f, k1, k2, rfl⟩
    have k1' : (10 : ℝ) ^ 5 ≤ k := by exact_mod_cast k1
    have k2' : (k : ℝ) < 10 ^ 6 := by exact_mod_cast k2
    rcases lt_trichotomy f e with c | rfl | c
    · have hs : (10 : ℝ) ^ (f - 5) * 10 ≤ 10 ^ (e - 5) := by
        rw [← zpow_add_one₀ (by norm_num)]
        exact zpow_le_zpow_right₀ (by norm_num) (by omega)
      have hf : (0 : ℝ) < 10 ^ (f - 5) := by positivity
      have hy : (k : ℝ) * 10 ^ (f - 5) ≤ 10 ^ 5 * 10 ^ (e - 5) := by nlinarith
      have h1 := hint (10 ^ 5)
      rw [hdist]
      refine (mul_le_mul_of_nonneg_right h1 hp.le).trans ?_
      have hyx : (k : ℝ) * 10 ^ (f - 5) ≤ x := by rw [hxu]; nlinarith
      rw [abs_of_nonpos (sub_nonpos.mpr hyx)]
      push_cast
      rw [abs_of_nonpos (by linarith), hxu]
      nlinarith
    · rw [hdist, hdist]
      exact mul_le_mul_of_nonneg_right (by have := hint k; push_cast at this; exact this) hp.le
    · have hs : (10 : ℝ) ^ (e - 5) * 10 ≤ 10 ^ (f - 5) := by
        rw [← zpow_add_one₀ (by norm_num)]
        exact zpow_le_zpow_right₀ (by norm_num) (by omega)
      have hf : (0 : ℝ) < 10 ^ (f - 5) := by positivity
      have hy : 10 ^ 6 * (10 : ℝ) ^ (e - 5) ≤ (k : ℝ) * 10 ^ (f - 5) := by nlinarith
      have h1 := hint (10 ^ 6)
      rw [hdist]
      refine (mul_le_mul_of_nonneg_right h1 hp.le).trans ?_
      have hyx : x ≤ (k : ℝ) * 10 ^ (f - 5) := by rw [hxu]; nlinarith
      rw [abs_of_nonneg (sub_nonneg.mpr hyx)]
      push_cast
      rw [abs_of_nonneg (by linarith), hxu]
      nlinarith

end Verif
