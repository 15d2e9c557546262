import Verif.Model.Text
import Verif.Spec.Text
import Verif.Proofs.Basic
import Mathlib.Tactic.Tauto
/-! # Lemmas about printed numbers and about reading them back -/
namespace Verif
open Spec

theorem digitVal_digitChar {d : Nat} (h : d < 16) : digitVal (Nat.digitChar d) = some d := by
  have : ∀ d : Fin 16, digitVal (Nat.digitChar d.val) = some d.val := by decide
  exact this ⟨d, h⟩

/-- What a digit is not. -/
def NoDigit (c : Char) : Prop := c = ' ' ∨ c = ',' ∨ c = ':' ∨ c = '\n' ∨ c = '-' ∨ c = '+'

theorem digitChar_ne {d : Nat} (h : d < 16) {c : Char} (hc : NoDigit c) : Nat.digitChar d ≠ c := by
  have : ∀ d : Fin 16, Nat.digitChar d.val ≠ ' ' ∧ Nat.digitChar d.val ≠ ',' ∧ Nat.digitChar d.val ≠ ':' ∧
    Nat.digitChar d.val ≠ '\n' ∧ Nat.digitChar d.val ≠ '-' ∧ Nat.digitChar d.val ≠ '+' := by decide
  have := this ⟨d, h⟩
  rcases hc with rfl | rfl | rfl | rfl | rfl | rfl <;> tauto

theorem mem_toDigits {b : Nat} (hb : 1 < b) (hb' : b ≤ 16) (n : Nat) : ∀ c ∈ Nat.toDigits b n, ∃ d, d < 16 ∧ c = Nat.digitChar d := by
  induction n using Nat.strongRecOn with
  | _ n ih =>
    intro c hc
    rw [Nat.toDigits_eq_if hb] at hc
    split at hc
    · rename_i h
      rw [List.mem_singleton] at hc
      exact ⟨n, by omega, hc⟩
    · rename_i h
      rw [List.mem_append, List.mem_singleton] at hc
      rcases hc with hc | hc
      · exact ih _ (Nat.div_lt_self (by omega) hb) c hc
      · exact ⟨n % b, by have := Nat.mod_lt n (show b > 0 by omega); omega, hc⟩

theorem noDigit_toDigits {b : Nat} (hb : 1 < b) (hb' : b ≤ 16) (n : Nat) {c : Char} (hc : NoDigit c) : c ∉ Nat.toDigits b n := by
  intro h
  obtain ⟨d, hd, rfl⟩ := mem_toDigits hb hb' n c h
  exact digitChar_ne hd hc rfl

theorem zero_ne {c : Char} (hc : NoDigit c) : '0' ≠ c := by
  rcases hc with rfl | rfl | rfl | rfl | rfl | rfl <;> decide

theorem noDigit_fmtZ {b : Nat} (hb : 1 < b) (hb' : b ≤ 16) (w n : Nat) {c : Char} (hc : NoDigit c) : c ∉ fmtZ b w n := by
  unfold fmtZ
  simp only [List.mem_append, List.mem_replicate, not_or]
  exact ⟨fun h => zero_ne hc h.2.symm, noDigit_toDigits hb hb' n hc⟩

/-- The step of `number`. -/
def digitStep (b n : Nat) (c : Char) : Option Nat := do
  let d ← digitVal c
  if d < b then some (b * n + d) else none

theorem number_eq (b : Nat) {s : List Char} (h : s ≠ []) : number b s = s.foldlM (digitStep b) 0 := by
  cases s with
  | nil => exact absurd rfl h
  | cons c cs => rfl

theorem digitStep_char {b d : Nat} (h : d < b) (hb : b ≤ 16) (n : Nat) : digitStep b n (Nat.digitChar d) = some (b * n + d) := by
  unfold digitStep
  rw [digitVal_digitChar (by omega)]
  simp [h]

theorem fold_toDigits {b : Nat} (hb : 1 < b) (hb' : b ≤ 16) (n : Nat) : (Nat.toDigits b n).foldlM (digitStep b) 0 = some n := by
  induction n using Nat.strongRecOn with
  | _ n ih =>
    rw [Nat.toDigits_eq_if hb]
    split
    · rename_i h
      simp [digitStep_char h hb']
    · rename_i h
      rw [List.foldlM_append, ih _ (Nat.div_lt_self (by omega) hb)]
      simp only [Option.bind_eq_bind, Option.bind_some, List.foldlM_cons, List.foldlM_nil]
      rw [digitStep_char (Nat.mod_lt n (by omega)) hb']
      simp only [Option.bind_some]
      rw [Nat.div_add_mod]; rfl

theorem fold_zeros (b : Nat) (hb : 1 < b) (k : Nat) : (List.replicate k '0').foldlM (digitStep b) 0 = some 0 := by
  induction k with
  | zero => rfl
  | succ k ih =>
    rw [List.replicate_succ, List.foldlM_cons]
    have : digitStep b 0 '0' = some 0 := by
      unfold digitStep
      rw [show digitVal '0' = some 0 by decide]
      simp; omega
    rw [this]
    exact ih

theorem fmtZ_ne_nil (b w n : Nat) : fmtZ b w n ≠ [] := by
  unfold fmtZ
  simp only [ne_eq, List.append_eq_nil_iff, not_and]
  exact fun _ => Nat.toDigits_ne_nil

/-- A number printed with leading zeros reads back. -/
theorem number_fmtZ {b : Nat} (hb : 1 < b) (hb' : b ≤ 16) (w n : Nat) : number b (fmtZ b w n) = some n := by
  rw [number_eq b (fmtZ_ne_nil b w n)]
  unfold fmtZ
  simp only []
  rw [List.foldlM_append, fold_zeros b hb]
  exact fold_toDigits hb hb' n

/-- Its width. -/
theorem length_fmtZ {b : Nat} (hb : 1 < b) {w : Nat} (hw : 0 < w) {n : Nat} (h : n < b ^ w) : (fmtZ b w n).length = w := by
  have := (Nat.length_toDigits_le_iff hb hw).mpr h
  unfold fmtZ
  simp only [List.length_append, List.length_replicate]
  omega

theorem length_fmtZ_ge {b : Nat} (hb : 1 < b) {w : Nat} (hw : 0 < w) {n : Nat} (h : b ^ w ≤ n) : w < (fmtZ b w n).length := by
  have := mt (Nat.length_toDigits_le_iff (n := n) hb hw).mp (by omega)
  unfold fmtZ
  simp only [List.length_append, List.length_replicate]
  omega

/-! ## Splitting -/

theorem split_ne_nil (sep : Char → Bool) (s : List Char) : split sep s ≠ [] := by
  cases s with
  | nil => simp [split]
  | cons c cs =>
    unfold split
    split
    · simp
    · split <;> simp

theorem split_cons (sep : Char → Bool) (c : Char) (cs : List Char) : split sep (c :: cs) =
    if sep c then [] :: split sep cs else match split sep cs with | [] => [[c]] | w :: ws => (c :: w) :: ws := rfl

theorem split_append {sep : Char → Bool} {a : List Char} (ha : ∀ c ∈ a, sep c = false) {x : Char} (hx : sep x = true) (b : List Char) :
    split sep (a ++ x :: b) = a :: split sep b := by
  induction a with
  | nil => simp [split, hx]
  | cons c cs ih =>
    have h1 := ha c (by simp)
    have h2 := ih fun d hd => ha d (by simp [hd])
    show split sep (c :: (cs ++ x :: b)) = _
    rw [split_cons, h1, h2]
    rfl

theorem split_last {sep : Char → Bool} {a : List Char} (ha : ∀ c ∈ a, sep c = false) : split sep a = [a] := by
  induction a with
  | nil => rfl
  | cons c cs ih =>
    have h1 := ha c (by simp)
    have h2 := ih fun d hd => ha d (by simp [hd])
    rw [split_cons, h1, h2]
    rfl

/-- Splitting at a given separator. -/
theorem split_at {sep : Char → Bool} (a : List Char) {x : Char} (hx : sep x = true) (b : List Char) :
    split sep (a ++ x :: b) = split sep a ++ split sep b := by
  induction a with
  | nil => simp [split, hx]
  | cons c cs ih =>
    show split sep (c :: (cs ++ x :: b)) = split sep (c :: cs) ++ _
    rw [split_cons, split_cons]
    split
    · rw [ih]; rfl
    · rw [ih]
      cases h : split sep cs with
      | nil => exact absurd h (split_ne_nil _ _)
      | cons w ws => rfl

theorem split_flatMap {A : Type} {sep : Char → Bool} {x : Char} (hx : sep x = true) (f : A → List Char) (hf : ∀ r c, c ∈ f r → sep c = false)
    (rs : List A) : split sep (rs.flatMap fun r => f r ++ [x]) = rs.map f ++ [[]] := by
  induction rs with
  | nil => rfl
  | cons r rs ih =>
    rw [List.flatMap_cons, List.append_assoc, List.singleton_append, split_append (hf r) hx, ih]
    rfl

theorem split_words {A : Type} {sep : Char → Bool} {x : Char} (hx : sep x = true) (f : A → List Char) (hf : ∀ r c, c ∈ f r → sep c = false)
    (ws : List A) : ∀ a : List Char, (∀ c ∈ a, sep c = false) → split sep (a ++ ws.flatMap fun w => x :: f w) = a :: ws.map f := by
  induction ws with
  | nil => intro a ha; simp only [List.flatMap_nil, List.append_nil, List.map_nil]; exact split_last ha
  | cons w ws ih =>
    intro a ha
    rw [List.flatMap_cons, List.cons_append, split_append ha hx, ih (f w) (hf w)]
    rfl

/-! ## Integers in a text -/

theorem ints_at (a : List Char) {x : Char} (hx : isSep x = true) (b : List Char) : ints (a ++ x :: b) = ints a ++ ints b := by
  unfold ints
  rw [split_at a hx, List.filterMap_append]

theorem ints_sep {x : Char} (hx : isSep x = true) (b : List Char) : ints (x :: b) = ints b := by
  have := ints_at [] hx b
  rwa [show ints [] = [] by decide] at this

theorem ints_nil : ints [] = [] := by decide

/-- A text that begins with a separator can be read by itself. -/
theorem ints_append_left (a : List Char) {b : List Char} (hb : b = [] ∨ ∃ x t, b = x :: t ∧ isSep x = true) : ints (a ++ b) = ints a ++ ints b := by
  rcases hb with rfl | ⟨x, t, rfl, hx⟩
  · simp [ints_nil]
  · rw [ints_at a hx, ints_sep hx]

/-- So can a text after one that ends with a separator. -/
theorem ints_append_right {a : List Char} (ha : ∃ t x, a = t ++ [x] ∧ isSep x = true) (b : List Char) : ints (a ++ b) = ints a ++ ints b := by
  obtain ⟨t, x, rfl, hx⟩ := ha
  rw [List.append_assoc, List.singleton_append, ints_at t hx, ints_at t hx, ints_nil, List.append_nil]

theorem int_digits (n : Nat) : int (Nat.toDigits 10 n) = some (n : Int) := by
  have h1 := noDigit_toDigits (b := 10) (by omega) (by omega) n (c := '-') (by unfold NoDigit; tauto)
  have h2 := noDigit_toDigits (b := 10) (by omega) (by omega) n (c := '+') (by unfold NoDigit; tauto)
  have h3 := fold_toDigits (b := 10) (by omega) (by omega) n
  rw [← number_eq 10 Nat.toDigits_ne_nil] at h3
  unfold int
  split
  · rename_i h; rw [h] at h1; simp at h1
  · rename_i h; rw [h] at h2; simp at h2
  · rw [h3]; rfl

theorem sep_cases {c : Char} (h : isSep c = true) : NoDigit c := by
  unfold isSep at h
  unfold NoDigit
  simp only [Bool.or_eq_true, beq_iff_eq] at h
  tauto

theorem digits_noSep (n : Nat) : ∀ c ∈ Nat.toDigits 10 n, isSep c = false := by
  intro c hc
  cases h : isSep c with
  | false => rfl
  | true => exact absurd hc (noDigit_toDigits (by omega) (by omega) n (sep_cases h))

theorem ints_word {s : List Char} (hs : ∀ c ∈ s, isSep c = false) {x : Int} (h : int s = some x) : ints s = [x] := by
  unfold ints
  rw [split_last hs]
  simp [h]

theorem ints_digits (n : Nat) : ints (Nat.toDigits 10 n) = [(n : Int)] := ints_word (digits_noSep n) (int_digits n)

theorem ints_spaces (k : Nat) (s : List Char) : ints (List.replicate k ' ' ++ s) = ints s := by
  induction k with
  | zero => rfl
  | succ k ih => rw [List.replicate_succ, List.cons_append, ints_sep (by decide), ih]

/-- A printed integer reads back. -/
theorem ints_fmtD {plus : List Char} (hp : plus = [] ∨ plus = [' '] ∨ plus = ['+']) (w : Nat) (x : Int) : ints (fmtD plus w x) = [x] := by
  unfold fmtD
  simp only []
  rw [ints_spaces]
  have hnum : number 10 (Nat.toDigits 10 x.natAbs) = some x.natAbs := by
    rw [number_eq 10 Nat.toDigits_ne_nil]; exact fold_toDigits (by omega) (by omega) _
  split
  · rename_i h
    refine ints_word ?_ ?_
    · intro c hc
      rw [List.singleton_append, List.mem_cons] at hc
      rcases hc with rfl | hc
      · decide
      · exact digits_noSep _ c hc
    · rw [List.singleton_append]; simp only [int]
      rw [hnum]
      simp only [Option.map_some, Option.some.injEq]
      omega
  · rename_i h
    have hx : ((x.natAbs : Nat) : Int) = x := by omega
    rcases hp with rfl | rfl | rfl
    · rw [List.nil_append, ints_digits, hx]
    · rw [List.singleton_append, ints_sep (by decide), ints_digits, hx]
    · refine ints_word ?_ ?_
      · intro c hc
        rw [List.singleton_append, List.mem_cons] at hc
        rcases hc with rfl | hc
        · decide
        · exact digits_noSep _ c hc
      · rw [List.singleton_append]; simp only [int]
        rw [hnum]
        simp only [Option.map_some, Option.some.injEq]
        omega

theorem ints_fmtZ (w n : Nat) : ints (fmtZ 10 w n) = [(n : Int)] := by
  have hne : ∀ c ∈ fmtZ 10 w n, isSep c = false := by
    intro c hc
    cases h : isSep c with
    | false => rfl
    | true => exact absurd hc (noDigit_fmtZ (by omega) (by omega) w n (sep_cases h))
  refine ints_word hne ?_
  have h1 := noDigit_fmtZ (b := 10) (by omega) (by omega) w n (c := '-') (by unfold NoDigit; tauto)
  have h2 := noDigit_fmtZ (b := 10) (by omega) (by omega) w n (c := '+') (by unfold NoDigit; tauto)
  have h3 := number_fmtZ (b := 10) (by omega) (by omega) w n
  unfold int
  split
  · rename_i h; rw [h] at h1; simp at h1
  · rename_i h; rw [h] at h2; simp at h2
  · rw [h3]; rfl

/-- No plus sign unless asked for, and no end of line. -/
theorem clean_fmtD {plus : List Char} (hp : plus = [] ∨ plus = [' ']) {c : Char} (hc : c = '+' ∨ c = '\n') (w : Nat) (x : Int) :
    c ∉ fmtD plus w x := by
  unfold fmtD
  simp only [List.mem_append, List.mem_replicate, not_or]
  refine ⟨fun h => ?_, ?_, noDigit_toDigits (by omega) (by omega) _ (by unfold NoDigit; tauto)⟩
  · rcases hc with rfl | rfl <;> exact absurd h.2 (by decide)
  · split
    · rcases hc with rfl | rfl <;> decide
    · rcases hp with rfl | rfl <;> rcases hc with rfl | rfl <;> decide

end Verif
