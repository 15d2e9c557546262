import Verif.Spec.PFTrace
import Verif.Proofs.VertexTestOutput
import Verif.Props.Discrete2
/-! # Lemmas: reading the debugging text of the reference -/
namespace Verif
open Spec

/-! ## Numbers with two decimals -/

theorem plain_signed {sign : List Char} (hs : sign = [] ∨ sign = ['-'] ∨ sign = ['+']) (n : Nat) : Plain (sign ++ fmtF2 n) := by
  have hg : ∀ c ∈ fmtF2 n, isGap c = false := by
    intro c hc
    unfold fmtF2 at hc
    rcases List.mem_append.mp hc with h | h
    · exact digits_noGap _ c h
    · rcases List.mem_cons.mp h with rfl | h
      · decide
      · unfold fmtZ at h
        rcases List.mem_append.mp h with h | h
        · rw [(List.mem_replicate.mp h).2]; decide
        · exact digits_noGap _ c h
  have hdot : '.' ∈ fmtF2 n := by unfold fmtF2; simp
  refine ⟨by rcases hs with rfl | rfl | rfl <;> simp [fmtF2], ?_, ?_⟩
  · intro c hc
    rcases List.mem_append.mp hc with h | h
    · rcases hs with rfl | rfl | rfl
      · cases h
      · rw [List.mem_singleton.mp h]; decide
      · rw [List.mem_singleton.mp h]; decide
    · exact hg c h
  · rcases hs with rfl | rfl | rfl
    · rw [List.nil_append]
      unfold fmtF2
      obtain ⟨x, s, e⟩ : ∃ x s, Nat.toDigits 10 (n / 100) = x :: s := List.exists_cons_of_ne_nil Nat.toDigits_ne_nil
      rw [e, List.cons_append]
      exact int_none (c := '.') (by decide) (by simp)
    · exact int_none (c := '.') (by decide) hdot
    · exact int_none (c := '.') (by decide) hdot

theorem decimal_fmtF2 (n : Nat) : decimal (fmtF2 n) = some (n / 100 : ℚ) := by
  have hdot : ∀ m, '.' ∉ Nat.toDigits 10 m := by
    intro m hc
    obtain ⟨d, hd, e⟩ := mem_toDigits (b := 10) (by omega) (by omega) m _ hc
    have : ∀ d : Fin 16, '.' ≠ Nat.digitChar d.val := by decide
    exact this ⟨d, hd⟩ e
  have h1 : ∀ c ∈ Nat.toDigits 10 (n / 100), (c == '.') = false := fun c hc => by
    rw [beq_eq_false_iff_ne]; rintro rfl; exact hdot _ hc
  have h2 : ∀ c ∈ fmtZ 10 2 (n % 100), (c == '.') = false := fun c hc => by
    rw [beq_eq_false_iff_ne]
    rintro rfl
    unfold fmtZ at hc
    rcases List.mem_append.mp hc with h | h
    · exact absurd (List.mem_replicate.mp h).2 (by decide)
    · exact hdot _ h
  have h3 : number 10 (Nat.toDigits 10 (n / 100)) = some (n / 100) := by
    rw [number_eq 10 Nat.toDigits_ne_nil]; exact fold_toDigits (by omega) (by omega) _
  unfold decimal fmtF2
  rw [split_append h1 (by decide), split_last h2]
  simp only [h3, number_fmtZ (b := 10) (by omega) (by omega), length_fmtZ (b := 10) (w := 2) (by omega) (by omega) (show n % 100 < 10 ^ 2 by omega),
    Option.bind_eq_bind, Option.bind_some, Option.some.injEq]
  have h4 : ((n / 100 : Nat) : ℚ) * 100 + ((n % 100 : Nat) : ℚ) = n := by exact_mod_cast Nat.div_add_mod' n 100
  rw [← h4]
  push_cast
  ring

theorem signedDecimal_fmtF2 (n : Nat) : signedDecimal (fmtF2 n) = some (n / 100 : ℚ) := by
  rw [← decimal_fmtF2]
  have hc : ∀ c, c ∈ Nat.toDigits 10 (n / 100) → c ≠ '-' ∧ c ≠ '+' := by
    intro c hc
    obtain ⟨d, hd, e⟩ := mem_toDigits (b := 10) (by omega) (by omega) (n / 100) _ hc
    have : ∀ d : Fin 16, Nat.digitChar d.val ≠ '-' ∧ Nat.digitChar d.val ≠ '+' := by decide
    rw [e]
    exact this ⟨d, hd⟩
  unfold fmtF2
  obtain ⟨x, s, e⟩ : ∃ x s, Nat.toDigits 10 (n / 100) = x :: s := List.exists_cons_of_ne_nil Nat.toDigits_ne_nil
  have hx := hc x (by rw [e]; simp)
  rw [e, List.cons_append]
  unfold signedDecimal
  split
  · rename_i h; cases h; exact absurd rfl hx.1
  · rename_i h; cases h; exact absurd rfl hx.2
  · rfl

/-- The word of a number, without the spaces before it. -/
noncomputable def DebugText.word (F : DebugText) (plus : List Char) (x : ℝ) : List Char :=
  (if x < 0 then ['-'] else plus) ++ fmtF2 (F.hundredths |x|)

theorem DebugText.plain_word (F : DebugText) {plus : List Char} (hp : plus = [] ∨ plus = ['+']) (x : ℝ) : Plain (F.word plus x) := by
  unfold DebugText.word
  split
  · exact plain_signed (.inr (.inl rfl)) _
  · rcases hp with rfl | rfl
    · exact plain_signed (.inl rfl) _
    · exact plain_signed (.inr (.inr rfl)) _

/-- The value of the word. -/
noncomputable def DebugText.cents (F : DebugText) (x : ℝ) : ℤ := if x < 0 then -(F.hundredths |x| : ℤ) else F.hundredths |x|

theorem DebugText.value_word (F : DebugText) {plus : List Char} (hp : plus = [] ∨ plus = ['+']) (x : ℝ) :
    signedDecimal (F.word plus x) = some (F.cents x / 100 : ℚ) := by
  unfold DebugText.word DebugText.cents
  split
  · show (decimal (fmtF2 _)).map _ = _
    rw [decimal_fmtF2, Option.map_some]
    push_cast
    congr 1
    ring
  · rcases hp with rfl | rfl
    · rw [List.nil_append, signedDecimal_fmtF2, Int.cast_natCast]
    · show decimal (fmtF2 _) = _
      rw [decimal_fmtF2, Int.cast_natCast]

theorem Spec.PrintsCents.near {F : DebugText} (A : PrintsCents F) (x : ℝ) : |(F.cents x : ℝ) - 100 * x| ≤ 1 / 2 := by
  have h := A.nearest |x| (abs_nonneg x)
  unfold DebugText.cents
  split
  · rename_i hx
    rw [abs_of_neg hx] at h ⊢
    push_cast
    rw [← abs_neg]
    convert h using 2
    ring
  · rename_i hx
    rw [abs_of_nonneg (not_lt.mp hx)] at h ⊢
    exact_mod_cast h

theorem Spec.PrintsCents.cents {F : DebugText} (A : PrintsCents F) {plus : List Char} (hp : plus = [] ∨ plus = ['+']) {x y tol : ℝ}
    (h : |x - y| ≤ tol) : Cents (F.word plus x) y (1 / 200 + tol) := by
  refine ⟨F.cents x, F.value_word hp x, ?_⟩
  have h1 := A.near x
  generalize (F.cents x : ℝ) = c at h1 ⊢
  rw [abs_le] at *
  constructor <;> linarith [h.1, h.2, h1.1, h1.2]

/-- A number of quarters prints exactly. -/
theorem Spec.PrintsCents.quarter {F : DebugText} (A : PrintsCents F) {plus : List Char} (hp : plus = [] ∨ plus = ['+']) (n : ℤ) :
    Cents (F.word plus ((n : ℝ) / 4)) (n / 4) 0 := by
  refine ⟨F.cents (n / 4), F.value_word hp _, ?_⟩
  have h1 := A.near ((n : ℝ) / 4)
  have h2 : |((F.cents ((n : ℝ) / 4) - 25 * n : ℤ) : ℝ)| < 1 := by
    push_cast
    have e : (F.cents ((n : ℝ) / 4) : ℝ) - 100 * (n / 4) = F.cents ((n : ℝ) / 4) - 25 * n := by ring
    rw [e] at h1
    linarith
  have h3 : |F.cents ((n : ℝ) / 4) - 25 * n| < 1 := by exact_mod_cast h2
  have h4 : F.cents ((n : ℝ) / 4) = 25 * n := by
    have := Int.abs_lt_one_iff.mp h3
    omega
  rw [h4]
  push_cast
  rw [show (25 * (n : ℝ) / 100 - n / 4) = 0 by ring]
  simp

theorem pt_cents {F : DebugText} (A : PrintsCents F) {plus : List Char} (hp : plus = [] ∨ plus = ['+']) (w : BitVec 16) :
    Cents (F.word plus (F.R.floatPt w)) (w.toInt / 4) 0 := by
  rw [(C61_pt_roundtrip A.ieee w).1]
  exact A.quarter hp _

theorem angle_cents {F : DebugText} (A : PrintsCents F) {plus : List Char} (hp : plus = [] ∨ plus = ['+']) (w : BitVec 16) (h : |w.toInt| ≤ 512) :
    Cents (F.word plus (F.R.floatEtaPhi w)) (w.toInt * quarterDegree) (1 / 200 + 1 / 10 ^ 6) := by
  refine A.cents hp ((reads_etaphi A.ieee w).trans ?_)
  have h2 : |(w.toInt : ℝ)| ≤ 512 := by exact_mod_cast h
  have hq : (0 : ℝ) < quarterDegree ∧ quarterDegree ≤ 1 / 200 := by
    unfold quarterDegree
    exact ⟨by have := Real.pi_pos; positivity, by linarith [Real.pi_lt_d4]⟩
  rw [abs_mul, abs_of_pos hq.1]
  have : |(w.toInt : ℝ)| * quarterDegree ≤ 512 * (1 / 200) := mul_le_mul h2 hq.2 hq.1.le (by norm_num)
  norm_num at this ⊢
  linarith

/-- The root of an integer of 31 bits, in `float`. -/
theorem root_near {R : Rounding} (A : IEEE R) {n : ℤ} (h0 : 0 ≤ n) (h1 : n ≤ 2 ^ 31) : 0 ≤ R.f32 (√(R.f32 n)) ∧ |R.f32 (√(R.f32 n)) - √n| ≤ √n / 2 ^ 22 := by
  rcases eq_or_lt_of_le h0 with z | z
  · rw [← z]
    have e : R.f32 ((0 : ℤ) : ℝ) = ((0 : ℤ) : ℝ) := A.f32_int 0 (by simp)
    rw [e]
    have e2 : √(((0 : ℤ) : ℝ)) = ((0 : ℤ) : ℝ) := by simp
    rw [e2, e]
    simp
  · have hn1 : (1 : ℝ) ≤ n := by exact_mod_cast z
    have hn2 : (n : ℝ) ≤ 2 ^ 31 := by exact_mod_cast h1
    have ha : |(n : ℝ)| = n := abs_of_nonneg (by linarith)
    have hx : |(n : ℝ)| ≤ 2 ^ 127 := by rw [ha]; exact hn2.trans (pow_le_pow_right₀ (by norm_num) (by norm_num))
    have e1 := A.rel32 hx (by rw [ha]; exact le_trans (by norm_num) hn1)
    rw [ha] at e1
    have p1 : 1 / 2 ≤ R.f32 n := by
      have := (abs_le.mp e1).1
      have h3 : (n : ℝ) / 2 ^ 24 ≤ n / 2 := div_le_div_of_nonneg_left (by linarith) (by norm_num) (by norm_num)
      linarith
    have m2 : R.f32 n ≤ 2 ^ 32 := by
      have := (abs_le.mp e1).2
      have h3 : (n : ℝ) / 2 ^ 24 ≤ n := div_le_self (by linarith) (by norm_num)
      have : (2 : ℝ) ^ 32 = 2 ^ 31 + 2 ^ 31 := by norm_num
      linarith
    have u0 := Real.sqrt_nonneg (R.f32 n)
    have u2 := Real.sq_sqrt (show 0 ≤ R.f32 n by linarith)
    have v0 := Real.sqrt_nonneg (n : ℝ)
    have v2 := Real.sq_sqrt (show (0 : ℝ) ≤ n by linarith)
    have v1 : 1 ≤ √(n : ℝ) := by rw [Real.one_le_sqrt]; exact hn1
    have u1 : 1 / 2 ≤ √(R.f32 n) := by
      refine Real.le_sqrt_of_sq_le ?_
      norm_num
      linarith
    have um : √(R.f32 n) ≤ 2 ^ 32 := by
      rw [Real.sqrt_le_left (by norm_num)]
      exact m2.trans (by norm_num)
    have e2 : |R.f32 (√(R.f32 n)) - √(R.f32 n)| ≤ √(R.f32 n) / 2 ^ 24 := by
      have := A.rel32 (x := √(R.f32 n)) (by rw [abs_of_nonneg u0]; exact um.trans (pow_le_pow_right₀ (by norm_num) (by norm_num)))
        (by rw [abs_of_nonneg u0]; exact le_trans (by norm_num) u1)
      rwa [abs_of_nonneg u0] at this
    have e3 : |√(R.f32 n) - √n| ≤ √n / 2 ^ 24 := by
      generalize √(R.f32 n) = u at *
      generalize √(n : ℝ) = v at *
      rw [← u2, ← v2, show u ^ 2 - v ^ 2 = (u - v) * (u + v) by ring, abs_mul, abs_of_pos (by linarith : 0 < u + v)] at e1
      have h4 : |u - v| * v ≤ |u - v| * (u + v) := mul_le_mul_of_nonneg_left (by linarith) (abs_nonneg _)
      have h5 : |u - v| * v ≤ v / 2 ^ 24 * v := by
        have e : v / 2 ^ 24 * v = v ^ 2 / 2 ^ 24 := by ring
        rw [e]; linarith
      exact le_of_mul_le_mul_right h5 (by linarith)
    generalize √(R.f32 n) = u at *
    generalize √(n : ℝ) = v at *
    generalize R.f32 u = y at *
    have hu : u ≤ v * 2 := by
      have := (abs_le.mp e3).2
      have h3 : v / 2 ^ 24 ≤ v := div_le_self v0 (by norm_num)
      linarith
    have f1 := abs_le.mp e2
    have f2 := abs_le.mp e3
    norm_num at f1 f2 ⊢
    constructor
    · linarith
    · rw [abs_le]; constructor <;> linarith [f1.1, f1.2, f2.1, f2.2]

theorem root_cents {F : DebugText} (A : PrintsCents F) {n : ℤ} (h0 : 0 ≤ n) (h1 : n ≤ 2 ^ 31) :
    Cents (F.word [] (F.sqrt n)) (1 * √n) (1 / 200 + √n / 2 ^ 22) := by
  rw [one_mul]
  exact A.cents (.inl rfl) (root_near A.ieee h0 h1).2

theorem root_cents_neg {F : DebugText} (A : PrintsCents F) {n : ℤ} (h0 : 0 ≤ n) (h1 : n ≤ 2 ^ 31) :
    Plain ('-' :: F.word [] (F.sqrt n)) ∧ Cents ('-' :: F.word [] (F.sqrt n)) (-1 * √n) (1 / 200 + √n / 2 ^ 22) ∧
    ('+' :: F.word [] (F.sqrt n)) = F.word ['+'] (F.sqrt n) := by
  obtain ⟨p', e⟩ := root_near A.ieee h0 h1
  have p : 0 ≤ F.sqrt n := p'
  have hw : F.word [] (F.sqrt n) = fmtF2 (F.hundredths |F.sqrt n|) := by
    unfold DebugText.word; rw [if_neg (not_lt.mpr p)]; rfl
  have hc : F.cents (F.sqrt n) = F.hundredths |F.sqrt n| := by unfold DebugText.cents; rw [if_neg (not_lt.mpr p)]
  refine ⟨?_, ⟨-F.cents (F.sqrt n), ?_, ?_⟩, ?_⟩
  · rw [hw]; exact plain_signed (sign := ['-']) (.inr (.inl rfl)) _
  · rw [hw, hc]
    show (decimal (fmtF2 _)).map _ = _
    rw [decimal_fmtF2, Option.map_some]
    push_cast
    congr 1
    ring
  · have h1 := A.near (F.sqrt n)
    unfold DebugText.sqrt at *
    push_cast
    generalize (F.cents (F.R.f32 (√(F.R.f32 n))) : ℝ) = c at h1 ⊢
    rw [abs_le] at *
    constructor <;> linarith [e.1, e.2, h1.1, h1.2]
  · rw [hw]; unfold DebugText.word; rw [if_neg (not_lt.mpr p)]; rfl

end Verif
