import Verif.Proofs.SimpleVtxTestOutput
import Verif.Props.SimpleVtxTest
/-! # C76: what the simple vertex test bench prints -/
namespace Verif
open Spec Rounding

/-- A `float` times 20 is exact as a `double`. -/
theorem double20 {R : Rounding} (A : IEEE R) {z : ℝ} (h0 : 0 ≤ z) (h8 : z ≤ 8) (hf : IsFloat z) : R.f64 (z * 20) = 20 * z := by
  obtain ⟨m, e, hm, h1, h2, hz⟩ := hf
  have hd : IsDouble (z * 20) := by
    refine ⟨20 * m, e, ?_, by omega, by omega, ?_⟩
    · rw [abs_mul]
      have : |(20 : ℤ)| = 20 := rfl
      rw [this]
      norm_num at hm ⊢
      omega
    · rw [hz]; push_cast; ring
  have hb : |z * 20| ≤ 2 ^ 1023 := by
    rw [abs_of_nonneg (by linarith)]
    refine le_trans ?_ (pow_le_pow_right₀ (by norm_num) (by norm_num) : (2 : ℝ) ^ 10 ≤ 2 ^ 1023)
    norm_num
    linarith
  have h := (A.f64 _ hb).2 _ hd
  rw [sub_self, abs_zero] at h
  rw [sub_eq_zero.mp (abs_eq_zero.mp (le_antisymm h (abs_nonneg _))), mul_comm]

theorem text_value {F : CoutText} (A : PrintsSix F) {x : ℝ} (hx : 0 ≤ x) :
    ∃ (t : Token) (q : ℚ), tokens (F.text x) = [t] ∧ t.value = some q ∧ SixDigits q x ∧
      (t.HasExponent ↔ (0 < q ∧ q < 1 / 10 ^ 4) ∨ 10 ^ 6 ≤ q) ∧ F.text x ≠ [] ∧ (F.text x).count '\n' = 0 := by
  unfold CoutText.text
  by_cases h : x = 0
  · rw [if_pos h]
    exact ⟨.num 0, 0, by decide, rfl, .inl ⟨by norm_num, h⟩, iff_of_false (fun h => h) (by norm_num), by simp, by decide⟩
  · have hp : 0 < x := lt_of_le_of_ne hx (Ne.symm h)
    rw [if_neg h, if_neg (by linarith)]
    obtain ⟨d1, d2⟩ := A.digits x hp
    obtain ⟨v, ⟨c, s, e, hc⟩, hm⟩ := fmtG_value d1 d2 (F.six x).2
    have gap : ∀ c ∈ fmtG (F.six x).1 (F.six x).2, isGap c = false := by
      intro c hc
      rcases hm c hc with ⟨d, hd, rfl⟩ | rfl | rfl | rfl | rfl
      · have : ∀ d : Fin 10, isGap (Nat.digitChar d.val) = false := by decide
        exact this ⟨d, hd⟩
      all_goals decide
    have hne : fmtG (F.six x).1 (F.six x).2 ≠ [] := by rw [e]; simp
    refine ⟨_, _, tokens_word gap hne, value_token e hc v, .inr ⟨⟨_, _, d1, d2, by push_cast; rfl⟩, fun y hy => ?_⟩, ?_, hne, ?_⟩
    · have := A.nearest x hp y hy
      push_cast
      exact this
    · rw [exponent_token e hc, fmtG_exponent d1 d2]
      have : (0 : ℚ) < ((F.six x).1 : ℚ) * 10 ^ ((F.six x).2 - 5) := mul_pos (by exact_mod_cast (by omega : 0 < (F.six x).1)) (by positivity)
      exact or_congr_left (iff_and_self.mpr fun _ => this)
    · rw [List.count_eq_zero]
      intro hc
      exact absurd (gap _ hc) (by decide)

theorem says_vtx {F : CoutText} (A : PrintsSix F) {N NPV : ℕ} {l : SvLine N} (h : SvLineOK NPV l) :
    ∃ line, IsVtxLine l line ∧ Says (F.line l) [line] := by
  obtain ⟨z0, z8, zf⟩ := h.zPV
  have hx := double20 A.ieee z0 z8 zf
  obtain ⟨t, q, ht, hv, hq, hx2, hne, hc⟩ := text_value A (x := 20 * l.zPV) (by linarith)
  have hz : ∀ z : Z0, z.toInt.natAbs < 10 ^ 6 := fun z => by
    have := BitVec.toInt_lt (x := z)
    have := BitVec.le_toInt (x := z)
    omega
  refine ⟨_, ⟨t, q, rfl, hv, hq, hx2⟩, ?_⟩
  unfold CoutText.line
  rw [hx, text_int A (hz _), text_int A (hz _)]
  refine Says.line ?_ ?_ ?_
  · simp (discharger := decide) only [List.count_append, count_fmtD, hc]; decide
  · simp only [← List.append_assoc]; exact getLast_lit (by decide)
  · rw [tokens_lit (by decide), tokens_num (by decide) (by decide), tokens_lit (by decide), tokens_num (by decide) (by decide), tokens_lit (by decide),
      tokens_left (b := "\n".toList) _ (.inr ⟨'\n', [], rfl, by decide⟩), ht]
    have e1 : tokens "====>  hardware dZ:".toList = say "====> hardware dZ" := by decide +kernel
    have e2 : tokens " -- emulated dZ: ".toList = say "-- emulated dZ" := by decide +kernel
    have e3 : tokens " -- True dZ: ".toList = say "-- True dZ" := by decide +kernel
    have e4 : tokens "\n".toList = [] := by decide
    rw [e1, e2, e3, e4]
    simp

/-- **C76.** The standard output of the bench: for every `rand()` one line per test, with the two positions as integers, which agree and
are the centre of the bin with the highest sum (C62), and the position that was drawn as one of the closest numbers with six
significant digits. -/
theorem C76_output {F : CoutText} (A : PrintsSix F) {D : Rand} (h0 : 0 < D.max) (h31 : D.max ≤ 2147483647) (hD : ∀ k, D.draw k ≤ D.max)
    {NPOW NPV : ℕ} (hP : NPOW ≤ 6) (h1 : 0 < NPV) (hN : NPV + 2 ≤ 2 ^ NPOW) {z0bin : Z0 → BitVec 5} {convertZ0 : Z0 → Z0}
    (ht : SvTables z0bin convertZ0) (NTEST : ℕ) (track0 : Arr (2 ^ NPOW) TkObj) (out0 : VtxObj) :
    ∃ text lines, svBenchMain F D NTEST NPV z0bin convertZ0 track0 out0 = .ok text ∧
      F.R.svMain D NTEST NPV z0bin convertZ0 track0 out0 = .ok lines ∧ lines.length = NTEST ∧ (∀ l ∈ lines, SvLineOK NPV l) ∧
      List.Forall₂ IsVtxLine lines (report text) := by
  obtain ⟨lines, e, hl, hok⟩ := C62_bench A.ieee h0 h31 hD hP h1 hN ht NTEST track0 out0
  refine ⟨_, lines, by unfold svBenchMain; rw [e, Run.ok_bind], e, hl, hok, ?_⟩
  have key : ∀ ls : List (SvLine (2 ^ NPOW)), (∀ l ∈ ls, SvLineOK NPV l) → ∃ rs, List.Forall₂ IsVtxLine ls rs ∧ Says (ls.flatMap F.line) rs := by
    intro ls
    induction ls with
    | nil => exact fun _ => ⟨[], .nil, Says.nil⟩
    | cons l ls ih =>
      intro h
      obtain ⟨rs, r1, r2⟩ := ih fun x hx => h x (List.mem_cons_of_mem _ hx)
      obtain ⟨line, s1, s2⟩ := says_vtx A (h l (by simp))
      exact ⟨line :: rs, .cons s1 r1, s2.append r2⟩
  obtain ⟨rs, r1, r2⟩ := key lines hok
  rw [r2.report]
  exact r1

/-- **C76.** Six significant digits: the number printed is within a part in 200000 of the number. -/
theorem C76_six {q x : ℝ} (hx : 0 ≤ x) (h : SixDigits q x) : |q - x| ≤ x / 200000 := by
  rcases h with ⟨rfl, rfl⟩ | ⟨hq, h⟩
  · simp
  · rcases hx.eq_or_lt with rfl | hx
    · obtain ⟨m, e, h1, h2, rfl⟩ := hq
      have hm : (10 : ℝ) ^ 5 ≤ m := by exact_mod_cast h1
      have hp : (0 : ℝ) < 10 ^ (e - 5) := by positivity
      have h' := h (10 ^ 5 * (10 : ℝ) ^ ((e - 1) - 5)) ⟨10 ^ 5, e - 1, by norm_num, by norm_num, by norm_num⟩
      have e1 : (10 : ℝ) ^ ((e - 1) - 5) = 10 ^ (e - 5) / 10 := by
        rw [show (e - 1) - 5 = (e - 5) - 1 by omega, zpow_sub_one₀ (by norm_num)]
        rfl
      rw [e1, sub_zero, sub_zero, abs_of_pos (by positivity), abs_of_pos (by positivity)] at h'
      nlinarith
    · obtain ⟨q0, -, h1, h3, -⟩ := exists_six hx
      exact (h _ h1).trans h3

/-- Such a library exists, with any rounding of the types. -/
example : ∃ F : CoutText, PrintsSix F := by
  obtain ⟨R, hR⟩ := C61_rounding_exists
  have h : ∀ x : ℝ, ∃ p : ℕ × ℤ, 0 < x → 10 ^ 5 ≤ p.1 ∧ p.1 < 10 ^ 6 ∧ ∀ y, IsSix y → |(p.1 : ℝ) * 10 ^ (p.2 - 5) - x| ≤ |y - x| := by
    intro x
    by_cases hx : 0 < x
    · obtain ⟨q, -, hq, -, hc⟩ := exists_six hx
      obtain ⟨m, e, h1, h2, rfl⟩ := hq
      exact ⟨(m, e), fun _ => ⟨h1, h2, hc⟩⟩
    · exact ⟨(0, 0), fun h => absurd h hx⟩
  choose six hsix using h
  exact ⟨⟨R, six⟩, hR, fun x hx => ⟨(hsix x hx).1, (hsix x hx).2.1⟩, fun x hx => (hsix x hx).2.2⟩

/-- The texts of some numbers: 123.456, 80, 0.05, 3.72529e-08. -/
example : fmtG 123456 2 = "123.456".toList ∧ fmtG 800000 1 = "80".toList ∧ fmtG 500000 (-2) = "0.05".toList ∧
    fmtG 372529 (-8) = "3.72529e-08".toList := by decide +kernel

end Verif
