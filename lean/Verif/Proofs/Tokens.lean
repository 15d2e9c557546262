import Verif.Model.PFTestOutput
import Verif.Spec.PFTestOutput
import Verif.Proofs.Text
import Mathlib.Data.List.Basic
/-! # Lemmas: reading lines of words and numbers -/
namespace Verif
open Spec

theorem tokens_at (a : List Char) {x : Char} (hx : isGap x = true) (b : List Char) : tokens (a ++ x :: b) = tokens a ++ tokens b := by
  unfold tokens
  rw [split_at a hx, List.filter_append, List.map_append]

theorem tokens_nil : tokens [] = [] := by decide

theorem tokens_gap {x : Char} (hx : isGap x = true) (b : List Char) : tokens (x :: b) = tokens b := by
  have := tokens_at [] hx b
  rwa [tokens_nil] at this

theorem tokens_left (a : List Char) {b : List Char} (hb : b = [] ∨ ∃ x t, b = x :: t ∧ isGap x = true) : tokens (a ++ b) = tokens a ++ tokens b := by
  rcases hb with rfl | ⟨x, t, rfl, hx⟩
  · simp [tokens_nil]
  · rw [tokens_at a hx, tokens_gap hx]

theorem tokens_lit {lit : List Char} (h1 : isGap (lit.getLastD 'x') = true) (rest : List Char) : tokens (lit ++ rest) = tokens lit ++ tokens rest := by
  have hne : lit ≠ [] := by rintro rfl; exact absurd h1 (by decide)
  rw [List.getLastD_eq_getLast?, List.getLast?_eq_getLast_of_ne_nil hne, Option.getD_some] at h1
  rw [← List.dropLast_append_getLast hne, List.append_assoc, List.singleton_append, tokens_at _ h1, tokens_at _ h1, tokens_nil, List.append_nil]

theorem gap_cases {c : Char} (h : isGap c = true) : ∀ n, c ∉ Nat.toDigits 10 n := by
  intro n hc
  obtain ⟨d, hd, rfl⟩ := mem_toDigits (b := 10) (by omega) (by omega) n _ hc
  have : ∀ d : Fin 16, isGap (Nat.digitChar d.val) = false := by decide
  rw [this ⟨d, hd⟩] at h
  cases h

theorem digits_noGap (n : Nat) : ∀ c ∈ Nat.toDigits 10 n, isGap c = false := by
  intro c hc
  cases h : isGap c with
  | false => rfl
  | true => exact absurd hc (gap_cases h n)

theorem tokens_word {s : List Char} (hs : ∀ c ∈ s, isGap c = false) (hn : s ≠ []) : tokens s = [token s] := by
  unfold tokens
  rw [split_last hs, List.filter_cons_of_pos (by simpa using hn)]
  rfl

theorem tokens_int {s : List Char} (hs : ∀ c ∈ s, isGap c = false) (hn : s ≠ []) {x : Int} (h : int s = some x) : tokens s = [.num x] := by
  rw [tokens_word hs hn]
  unfold token
  rw [h]

theorem tokens_spaces (k : Nat) (s : List Char) : tokens (List.replicate k ' ' ++ s) = tokens s := by
  induction k with
  | zero => rfl
  | succ k ih => rw [List.replicate_succ, List.cons_append, tokens_gap (by decide), ih]

theorem tokens_fmtD {plus : List Char} (hp : plus = [] ∨ plus = [' '] ∨ plus = ['+']) (w : Nat) (x : Int) : tokens (fmtD plus w x) = [.num x] := by
  unfold fmtD
  simp only []
  rw [tokens_spaces]
  have hnum : number 10 (Nat.toDigits 10 x.natAbs) = some x.natAbs := by
    rw [number_eq 10 Nat.toDigits_ne_nil]; exact fold_toDigits (by omega) (by omega) _
  have hd : ∀ c, isGap c = false → ∀ y ∈ [c] ++ Nat.toDigits 10 x.natAbs, isGap y = false := by
    intro c h y hy
    rw [List.singleton_append, List.mem_cons] at hy
    rcases hy with rfl | hy
    · exact h
    · exact digits_noGap _ y hy
  split
  · rename_i h
    refine tokens_int (hd _ (by decide)) (by simp) ?_
    rw [List.singleton_append]; simp only [int]
    rw [hnum]
    simp only [Option.map_some, Option.some.injEq]
    omega
  · rename_i h
    have hx : ((x.natAbs : Nat) : Int) = x := by omega
    have hdig : tokens (Nat.toDigits 10 x.natAbs) = [.num x] := tokens_int (digits_noGap _) Nat.toDigits_ne_nil (by rw [int_digits, hx])
    rcases hp with rfl | rfl | rfl
    · exact hdig
    · rw [List.singleton_append, tokens_gap (by decide), hdig]
    · refine tokens_int (hd _ (by decide)) (by simp) ?_
      rw [List.singleton_append]; simp only [int]
      rw [hnum]
      simp only [Option.map_some, Option.some.injEq]
      omega

theorem tokens_num {plus : List Char} (hp : plus = [] ∨ plus = [' '] ∨ plus = ['+']) {lit : List Char} (h : isGap (lit.headD 'x') = true)
    (w : Nat) (x : Int) (rest : List Char) : tokens (fmtD plus w x ++ (lit ++ rest)) = .num x :: tokens (lit ++ rest) := by
  rw [tokens_left, tokens_fmtD hp]
  · rfl
  · cases lit with
    | nil => exact absurd h (by decide)
    | cons c cs => exact .inr ⟨c, cs ++ rest, rfl, h⟩

theorem tokens_num' {plus : List Char} (hp : plus = [] ∨ plus = [' '] ∨ plus = ['+']) {lit : List Char} (h : isGap (lit.headD 'x') = true)
    (w : Nat) (x : Int) : tokens (fmtD plus w x ++ lit) = .num x :: tokens lit := by
  have := tokens_num hp h w x []
  rwa [List.append_nil] at this

/-! ## Lines -/

/-- The text `t` is the lines `ls`, whatever follows. -/
def Says (t : List Char) (ls : List (List Token)) : Prop := ∀ rest, report (t ++ rest) = ls ++ report rest

theorem Says.nil : Says [] [] := fun _ => rfl

theorem Says.append {t u : List Char} {ls ms : List (List Token)} (h : Says t ls) (h' : Says u ms) : Says (t ++ u) (ls ++ ms) := by
  intro rest
  rw [List.append_assoc, h, h', List.append_assoc]

theorem Says.report {t : List Char} {ls : List (List Token)} (h : Says t ls) : report t = ls := by
  have := h []
  rw [List.append_nil] at this
  rw [this, show Spec.report [] = [] by decide, List.append_nil]

theorem Says.flatMap {A : Type} {f : A → List Char} {g : A → List (List Token)} (h : ∀ a, Says (f a) (g a)) (l : List A) : Says (l.flatMap f) (l.flatMap g) := by
  induction l with
  | nil => exact Says.nil
  | cons a l ih =>
    rw [List.flatMap_cons, List.flatMap_cons]
    exact (h a).append ih

/-- A text with one end of line, at its end. -/
theorem Says.line {t : List Char} (h1 : t.count '\n' = 1) (h2 : t.getLast? = some '\n') {ls : List Token} (h3 : tokens t = ls) : Says t [ls] := by
  have hne : t ≠ [] := by rintro rfl; cases h2
  have hl : t.getLast hne = '\n' := by
    rw [List.getLast?_eq_getLast_of_ne_nil hne] at h2
    exact Option.some.inj h2
  have e : t = t.dropLast ++ ['\n'] := by rw [← hl, List.dropLast_append_getLast]
  generalize t.dropLast = a at e
  subst e
  have hc : '\n' ∉ a := by
    rw [List.count_append] at h1
    have : List.count '\n' ['\n'] = 1 := by decide
    exact List.count_eq_zero.mp (by omega)
  intro rest
  unfold Spec.report lines
  rw [List.append_assoc, List.singleton_append, split_append (fun c hc' => by simpa using fun (he : c = '\n') => hc (he ▸ hc')) (by decide)]
  rw [tokens_at _ (by decide), tokens_nil, List.append_nil] at h3
  have hd : ∀ (x : List Char) (l : List (List Char)), l ≠ [] → (x :: l).dropLast = x :: l.dropLast := by
    intro x l hl
    cases l with
    | nil => exact absurd rfl hl
    | cons y l => rfl
  rw [hd _ _ (split_ne_nil _ _), List.map_cons, h3]
  rfl

theorem count_fmtD {plus : List Char} (hp : plus = [] ∨ plus = [' '] ∨ plus = ['+']) (w : Nat) (x : Int) : (fmtD plus w x).count '\n' = 0 := by
  rw [List.count_eq_zero]
  unfold fmtD
  simp only [List.mem_append, List.mem_replicate, not_or]
  refine ⟨fun h => absurd h.2 (by decide), ?_, noDigit_toDigits (by omega) (by omega) _ (by unfold NoDigit; simp)⟩
  split
  · decide
  · rcases hp with rfl | rfl | rfl <;> decide

theorem getLast_lit {a lit : List Char} (h : lit.getLast? = some '\n') : (a ++ lit).getLast? = some '\n' := by
  rw [List.getLast?_append, h]
  rfl

end Verif
