import Verif.Proofs.Text
import Verif.Spec.TextFields
import Verif.Props.Serializer
import Verif.Props.RegionizerFiles
/-! # C64, C65: the text of the files -/
namespace Verif
open Spec

/-! ## C64: pattern files -/

theorem hexWord_fmtZ (a b : Char) (w : Word) : hexWord a b (a :: b :: fmtZ 16 8 w.toNat) = some w.toNat := by
  simp only [hexWord]
  rw [length_fmtZ (by omega) (by omega) (by have := w.isLt; omega)]
  simp [number_fmtZ (b := 16) (by omega) (by omega)]

theorem mapM_map_some {A B C : Type} (f : B → Option C) (g : A → B) (k : A → C) (h : ∀ a, f (g a) = some (k a)) (l : List A) :
    (l.map g).mapM f = some (l.map k) := by
  induction l with
  | nil => rfl
  | cons a l ih => rw [List.map_cons, List.mapM_cons, h, ih]; rfl

private theorem notSpace {b w n : Nat} (hb : 1 < b) (hb' : b ≤ 16) : ∀ c ∈ fmtZ b w n, (c == ' ') = false := by
  intro c hc
  rw [beq_eq_false_iff_ne]
  rintro rfl
  exact noDigit_fmtZ hb hb' w n (by unfold NoDigit; tauto) hc

private theorem notEol {b w n : Nat} (hb : 1 < b) (hb' : b ≤ 16) : ∀ c ∈ fmtZ b w n, (c == '\n') = false := by
  intro c hc
  rw [beq_eq_false_iff_ne]
  rintro rfl
  exact noDigit_fmtZ hb hb' w n (by unfold NoDigit; tauto) hc

theorem mp7Row_line (r : PatRow) : mp7Row (mp7_rowLine r) = some (r.1.toNat, r.2.map (·.toNat)) := by
  have hs : split (· == ' ') (mp7_rowLine r) =
      "Frame".toList :: fmtZ 10 4 r.1.toNat :: ":".toList :: r.2.map fun w => '1' :: 'v' :: fmtZ 16 8 w.toNat := by
    have e : mp7_rowLine r = "Frame".toList ++ ' ' :: (fmtZ 10 4 r.1.toNat ++ ' ' :: (":".toList ++
        r.2.flatMap fun w => ' ' :: ('1' :: 'v' :: fmtZ 16 8 w.toNat))) := by
      unfold mp7_rowLine
      simp
    rw [e, split_append (by decide) (by decide), split_append (notSpace (by omega) (by omega)) (by decide),
      split_words (by decide) (fun w : Word => '1' :: 'v' :: fmtZ 16 8 w.toNat) _ _ _ (by decide)]
    intro w c hc
    simp only [List.mem_cons] at hc
    rcases hc with rfl | rfl | hc
    · decide
    · decide
    · exact notSpace (by omega) (by omega) c hc
  unfold mp7Row
  rw [hs]
  simp only [and_self, if_true]
  rw [number_fmtZ (by omega) (by omega), mapM_map_some _ _ (fun w : Word => w.toNat) fun w => hexWord_fmtZ '1' 'v' w]
  rfl

theorem ctp7Row_line (r : PatRow) : ctp7Row (ctp7_rowLine r) = some (r.1.toNat, r.2.map (·.toNat)) := by
  have hs : split (· == ' ') (ctp7_rowLine r) =
      ('0' :: 'x' :: fmtZ 16 5 r.1.toNat) :: r.2.map fun w => '0' :: 'x' :: fmtZ 16 8 w.toNat := by
    have e : ctp7_rowLine r = ('0' :: 'x' :: fmtZ 16 5 r.1.toNat) ++ r.2.flatMap fun w => ' ' :: ('0' :: 'x' :: fmtZ 16 8 w.toNat) := by
      unfold ctp7_rowLine
      simp
    rw [e, split_words (by decide) (fun w : Word => '0' :: 'x' :: fmtZ 16 8 w.toNat)]
    · intro w c hc
      simp only [List.mem_cons] at hc
      rcases hc with rfl | rfl | hc
      · decide
      · decide
      · exact notSpace (by omega) (by omega) c hc
    · intro c hc
      simp only [List.mem_cons] at hc
      rcases hc with rfl | rfl | hc
      · decide
      · decide
      · exact notSpace (by omega) (by omega) c hc
  unfold ctp7Row
  rw [hs]
  simp only []
  rw [number_fmtZ (by omega) (by omega), mapM_map_some _ _ (fun w : Word => w.toNat) fun w => hexWord_fmtZ '0' 'x' w]
  rfl

/-- No end of line inside. -/
private theorem noEol_append {a b : List Char} (ha : ∀ c ∈ a, (c == '\n') = false) (hb : ∀ c ∈ b, (c == '\n') = false) :
    ∀ c ∈ a ++ b, (c == '\n') = false := by
  intro c hc
  rw [List.mem_append] at hc
  exact hc.elim (ha c) (hb c)

private theorem noEol_flatMap {A : Type} {l : List A} {f : A → List Char} (h : ∀ a, ∀ c ∈ f a, (c == '\n') = false) :
    ∀ c ∈ l.flatMap f, (c == '\n') = false := by
  intro c hc
  rw [List.mem_flatMap] at hc
  obtain ⟨a, _, hc⟩ := hc
  exact h a c hc

private theorem noEol_fmtN (w : Nat) (x : Int) : ∀ c ∈ fmtN w x, (c == '\n') = false := by
  intro c hc
  unfold fmtN fmtD at hc
  simp only [List.mem_append, List.mem_replicate] at hc
  rw [beq_eq_false_iff_ne]
  rintro rfl
  rcases hc with h | h | h
  · exact absurd h.2 (by decide)
  · split at h <;> simp at h
  · exact noDigit_toDigits (by omega) (by omega) _ (by unfold NoDigit; tauto) h

theorem mp7_lines (board : List Char) (hboard : '\n' ∉ board) (n : Nat) (rows : List PatRow) :
    lines (mp7_boardLine board ++ ['\n'] ++ mp7_quadLine n ++ ['\n'] ++ mp7_linkLine n ++ ['\n'] ++ rows.flatMap fun r => mp7_rowLine r ++ ['\n']) =
      mp7_boardLine board :: mp7_quadLine n :: mp7_linkLine n :: rows.map mp7_rowLine := by
  unfold lines
  have e : ∀ a b c d : List Char, a ++ ['\n'] ++ b ++ ['\n'] ++ c ++ ['\n'] ++ d = a ++ '\n' :: (b ++ '\n' :: (c ++ '\n' :: d)) := by
    intro a b c d; simp
  rw [e, split_append _ (by decide), split_append _ (by decide), split_append _ (by decide), split_flatMap (by decide) mp7_rowLine]
  · exact List.dropLast_concat (l₁ := mp7_boardLine board :: mp7_quadLine n :: mp7_linkLine n :: rows.map mp7_rowLine)
  · intro r
    refine noEol_append (noEol_append (noEol_append (by decide) (notEol (by omega) (by omega))) (by decide)) (noEol_flatMap fun w => ?_)
    exact noEol_append (by decide) (notEol (by omega) (by omega))
  · exact noEol_append (by decide) (noEol_flatMap fun i => noEol_append (notEol (by omega) (by omega)) (by decide))
  · refine noEol_append (by decide) (noEol_flatMap fun i => ?_)
    exact noEol_append (noEol_append (noEol_append (noEol_append (by decide) (notEol (by omega) (by omega))) (by decide)) (noEol_fmtN _ _)) (by decide)
  · refine noEol_append (by decide) fun c hc => ?_
    rw [beq_eq_false_iff_ne]
    rintro rfl
    exact hboard hc

theorem ctp7_lines (isInput : Bool) (n : Nat) (rows : List PatRow) :
    lines (ctp7_ruler ++ ['\n'] ++ ctp7_linkLine isInput n ++ ['\n'] ++ ctp7_ruler ++ ['\n'] ++ rows.flatMap fun r => ctp7_rowLine r ++ ['\n']) =
      ctp7_ruler :: ctp7_linkLine isInput n :: ctp7_ruler :: rows.map ctp7_rowLine := by
  unfold lines
  have e : ∀ a b c d : List Char, a ++ ['\n'] ++ b ++ ['\n'] ++ c ++ ['\n'] ++ d = a ++ '\n' :: (b ++ '\n' :: (c ++ '\n' :: d)) := by
    intro a b c d; simp
  have hr : ∀ c ∈ ctp7_ruler, (c == '\n') = false := by
    intro c hc
    rw [List.eq_of_mem_replicate hc]
    decide
  rw [e, split_append hr (by decide), split_append _ (by decide), split_append hr (by decide), split_flatMap (by decide) ctp7_rowLine]
  · exact List.dropLast_concat (l₁ := ctp7_ruler :: ctp7_linkLine isInput n :: ctp7_ruler :: rows.map ctp7_rowLine)
  · intro r
    refine noEol_append (noEol_append (by decide) (notEol (by omega) (by omega))) (noEol_flatMap fun w => ?_)
    exact noEol_append (by decide) (notEol (by omega) (by omega))
  · refine noEol_append ?_ (noEol_flatMap fun i => noEol_append (noEol_append (by decide) (notEol (by omega) (by omega))) (by decide))
    cases isInput <;> decide

/-- **C64.** The text of an MP7 pattern file reads back to exactly the rows the serializer produced: frame numbers and all
words, for any events, multiplexing and fillers and a board name that is one line. -/
theorem C64_mp7 (board : List Char) (hboard : '\n' ∉ board) (nmux : Nat) (nempty : Int) (nlinks : Nat) (events : List MP7Event)
    (rows : List PatRow) (h : mp7_file nmux nempty nlinks events = .ok rows) :
    ∃ t, mp7_text board nmux nempty nlinks events = .ok t ∧ mp7Read t = some (rows.map fun r => (r.1.toNat, r.2.map (·.toNat))) := by
  have h' := h
  unfold mp7_file at h'
  obtain ⟨⟨c, s⟩, hc, _⟩ := Run.bind_eq_ok.mp h'
  refine ⟨mp7_boardLine board ++ ['\n'] ++ mp7_quadLine c.nlinks ++ ['\n'] ++ mp7_linkLine c.nlinks ++ ['\n'] ++
    rows.flatMap fun r => mp7_rowLine r ++ ['\n'], ?_, ?_⟩
  · unfold mp7_text
    rw [hc, h]
    rfl
  · unfold mp7Read
    rw [mp7_lines board hboard]
    simp only [List.drop_succ_cons, List.drop_zero]
    exact mapM_map_some _ _ _ mp7Row_line rows

/-- **C64.** Two MP7 pattern files with the same text have the same rows. -/
theorem C64_mp7_injective (board board' : List Char) (hb : '\n' ∉ board) (hb' : '\n' ∉ board') (nmux nmux' : Nat) (nempty nempty' : Int)
    (nlinks nlinks' : Nat) (events events' : List MP7Event) (t : List Char)
    (h : mp7_text board nmux nempty nlinks events = .ok t) (h' : mp7_text board' nmux' nempty' nlinks' events' = .ok t) :
    mp7_file nmux nempty nlinks events = mp7_file nmux' nempty' nlinks' events' := by
  have get : ∀ (board : List Char) (nmux : Nat) (nempty : Int) (nlinks : Nat) (events : List MP7Event) (t : List Char),
      mp7_text board nmux nempty nlinks events = .ok t → ∃ rows, mp7_file nmux nempty nlinks events = .ok rows := by
    intro board nmux nempty nlinks events t h
    unfold mp7_text at h
    obtain ⟨c, _, h⟩ := Run.bind_eq_ok.mp h
    obtain ⟨rows, hr, _⟩ := Run.bind_eq_ok.mp h
    exact ⟨rows, hr⟩
  obtain ⟨rows, hr⟩ := get _ _ _ _ _ _ h
  obtain ⟨rows', hr'⟩ := get _ _ _ _ _ _ h'
  obtain ⟨u, hu, ru⟩ := C64_mp7 board hb _ _ _ _ _ hr
  obtain ⟨u', hu', ru'⟩ := C64_mp7 board' hb' _ _ _ _ _ hr'
  rw [h] at hu
  rw [h'] at hu'
  cases hu; cases hu'
  rw [ru, Option.some.injEq] at ru'
  rw [hr, hr', Except.ok.injEq]
  refine List.map_injective_iff.mpr ?_ ru'
  rintro ⟨a, b⟩ ⟨c, d⟩ h
  simp only [Prod.mk.injEq] at h
  refine Prod.ext (BitVec.eq_of_toNat_eq h.1) (List.map_injective_iff.mpr (fun x y hxy => BitVec.eq_of_toNat_eq hxy) h.2)

/-- **C64.** The text of a CTP7 pattern file reads back to exactly its rows. -/
theorem C64_ctp7 (nchann_max : Nat) (isInput : Bool) (nmux : Nat) (events : List (MP7Event × Nat)) (rows : List PatRow)
    (h : ctp7_file nmux events = .ok rows) :
    ∃ t, ctp7_text nchann_max isInput nmux events = .ok t ∧ ctp7Read t = some (rows.map fun r => (r.1.toNat, r.2.map (·.toNat))) := by
  refine ⟨ctp7_ruler ++ ['\n'] ++ ctp7_linkLine isInput nchann_max ++ ['\n'] ++ ctp7_ruler ++ ['\n'] ++
    rows.flatMap fun r => ctp7_rowLine r ++ ['\n'], ?_, ?_⟩
  · unfold ctp7_text
    rw [h]
    rfl
  · unfold ctp7Read
    rw [ctp7_lines]
    simp only [List.drop_succ_cons, List.drop_zero]
    exact mapM_map_some _ _ _ ctp7Row_line rows

/-- **C64**, a case: two events of four links, the second row of the text. -/
example : (mp7_text "b".toList 1 0 4 [fun _ => 0xdeadbeef#32, fun j => BitVec.ofNat 32 j.val]).map (fun t => (lines t)[4]?) =
    .ok (some "Frame 0001 : 1v00000000 1v00000001 1v00000002 1v00000003".toList) := by decide +kernel
example : (ctp7_text 2 true 1 [(fun _ => 0xdeadbeef#32, 2)]).map (fun t => (lines t)[3]?) =
    .ok (some "0x00000 0xdeadbeef 0xdeadbeef".toList) := by decide +kernel

/-! ### Where things stand in a line -/

theorem at_flatMap_range (pre : List Char) (f : Nat → List Char) {i n : Nat} (h : i < n) :
    At (pre ++ (List.range n).flatMap f) (pre.length + ((List.range i).flatMap f).length) (f i) := by
  have e : List.range n = List.range i ++ i :: (List.range (n - i - 1)).map (i + 1 + ·) := by
    have := List.range_add (n := i) (m := n - i)
    rw [Nat.add_sub_cancel' (by omega)] at this
    rw [this, show n - i = (n - i - 1) + 1 by omega, List.range_succ_eq_map]
    simp only [List.map_cons, List.map_map, Nat.add_zero, Nat.add_sub_cancel]
    congr 2
    apply List.map_congr_left
    intro a _
    simp only [Function.comp]
    omega
  unfold At
  rw [← List.drop_drop, List.drop_left, e, List.flatMap_append, List.drop_left, List.flatMap_cons]
  exact List.prefix_append _ _

theorem length_flatMap_range (f : Nat → List Char) (L : Nat) (i : Nat) (h : ∀ j < i, (f j).length = L) :
    ((List.range i).flatMap f).length = L * i := by
  induction i with
  | zero => rfl
  | succ i ih =>
    rw [List.range_succ, List.flatMap_append, List.length_append, ih fun j hj => h j (by omega), List.flatMap_singleton, h i (by omega)]
    rw [Nat.mul_succ]

/-- The width of an entry of the `Link` line. -/
theorem link_width {j : Nat} (h : j < 1000) : (fmtZ 10 2 j ++ "         ".toList).length = 11 + if j < 100 then 0 else 1 := by
  rw [List.length_append]
  split
  · rw [length_fmtZ (by omega) (by omega) (by omega)]; rfl
  · have h1 := length_fmtZ_ge (b := 10) (w := 2) (n := j) (by omega) (by omega) (by omega)
    have h2 := (Nat.length_toDigits_le_iff (b := 10) (k := 3) (n := j) (by omega) (by omega)).mpr (by omega)
    have h3 : (fmtZ 10 2 j).length = max 2 (Nat.toDigits 10 j).length := by
      unfold fmtZ
      simp only [List.length_append, List.length_replicate]
      omega
    rw [show "         ".toList.length = 9 by decide]
    omega

theorem link_columns (i : Nat) (hi : i ≤ 1000) :
    ((List.range i).flatMap fun i => fmtZ 10 2 i ++ "         ".toList).length = 11 * i + (i - 100) := by
  induction i with
  | zero => rfl
  | succ i ih =>
    rw [List.range_succ, List.flatMap_append, List.length_append, ih (by omega), List.flatMap_singleton, link_width (by omega)]
    split <;> omega

/-- **C64.** The headers: the board name of an MP7 file; the direction and the numbers of the links of a CTP7 file. -/
theorem C64_headers :
    (∀ (board : List Char) (nmux : Nat) (nempty : Int) (nlinks : Nat) (events : List MP7Event) (t : List Char), '\n' ∉ board →
      mp7_text board nmux nempty nlinks events = .ok t → mp7Board t = some board) ∧
    (∀ (n : Nat) (isInput : Bool) (nmux : Nat) (events : List (MP7Event × Nat)) (t : List Char),
      ctp7_text n isInput nmux events = .ok t → ctp7Header t = some (isInput, List.range n)) := by
  constructor
  · intro board nmux nempty nlinks events t hb h
    unfold mp7_text at h
    obtain ⟨⟨c, s⟩, _, h⟩ := Run.bind_eq_ok.mp h
    obtain ⟨rows, _, h⟩ := Run.bind_eq_ok.mp h
    cases h
    unfold mp7Board
    rw [mp7_lines board hb]
    dsimp only
    unfold mp7_boardLine
    rw [if_pos (by rw [List.isPrefixOf_iff_prefix]; exact List.prefix_append _ _)]
    rw [show 6 = "Board ".toList.length by decide, List.drop_left]
  · intro n isInput nmux events t h
    unfold ctp7_text at h
    obtain ⟨rows, _, h⟩ := Run.bind_eq_ok.mp h
    cases h
    unfold ctp7Header
    rw [ctp7_lines]
    dsimp only
    rw [if_pos ⟨rfl, rfl⟩]
    have hsp : ∀ d : List Char, (∀ c ∈ d, (c == ' ') = false) →
        split (· == ' ') (d ++ ' ' :: (List.range n).flatMap fun i => "LINK_".toList ++ fmtZ 10 2 i ++ " ".toList) =
          d :: ((List.range n).map (fun i => "LINK_".toList ++ fmtZ 10 2 i) ++ [[]]) := by
      intro d hd
      rw [split_append hd (by decide)]
      congr 1
      exact split_flatMap (sep := (· == ' ')) (x := ' ') (by decide) (fun i => "LINK_".toList ++ fmtZ 10 2 i) (by
        intro i c hc
        rw [List.mem_append] at hc
        rcases hc with hc | hc
        · exact (by decide : ∀ c ∈ "LINK_".toList, (c == ' ') = false) c hc
        · exact notSpace (by omega) (by omega) c hc) (List.range n)
    have hm : ((List.range n).map (fun i => "LINK_".toList ++ fmtZ 10 2 i)).mapM (label "LINK_".toList) = some ((List.range n).map id) := by
      apply mapM_map_some
      intro i
      unfold label
      rw [if_pos (by rw [List.isPrefixOf_iff_prefix]; exact List.prefix_append _ _), List.drop_left, number_fmtZ (by omega) (by omega)]
      rfl
    cases isInput
    · have e : ctp7_linkLine false n = "Output".toList ++ ' ' :: (List.range n).flatMap fun i => "LINK_".toList ++ fmtZ 10 2 i ++ " ".toList := rfl
      rw [e, hsp _ (by decide)]
      dsimp only
      rw [List.dropLast_concat, hm, List.map_id]
      rfl
    · have e : ctp7_linkLine true n = "Input".toList ++ ' ' :: (List.range n).flatMap fun i => "LINK_".toList ++ fmtZ 10 2 i ++ " ".toList := rfl
      rw [e, hsp _ (by decide)]
      dsimp only
      rw [List.dropLast_concat, hm, List.map_id]
      rfl

/-- **C64.** In rows with frame numbers below 10000 word `i` fills the eleven columns from `12 + 11 i` on. -/
theorem C64_word_columns (r : PatRow) (hf : r.1.toNat < 10000) (i : Nat) (w : Word) (hw : r.2[i]? = some w) :
    ∃ s, At (mp7_rowLine r) (12 + 11 * i) (" 1v".toList ++ s) ∧ s.length = 8 ∧ number 16 s = some w.toNat := by
  refine ⟨fmtZ 16 8 w.toNat, ?_, length_fmtZ (by omega) (by omega) (by have := w.isLt; omega), number_fmtZ (by omega) (by omega) _ _⟩
  obtain ⟨hi, hw'⟩ := List.getElem?_eq_some_iff.mp hw
  have hlen : ∀ l : List Word, (l.flatMap fun w => " 1v".toList ++ fmtZ 16 8 w.toNat).length = 11 * l.length := by
    intro l
    induction l with
    | nil => rfl
    | cons a l ih =>
      rw [List.flatMap_cons, List.length_append, ih, List.length_append, length_fmtZ (by omega) (by omega) (by have := a.isLt; omega)]
      rw [show " 1v".toList.length = 3 by decide, List.length_cons]
      omega
  have hpre : ("Frame ".toList ++ fmtZ 10 4 r.1.toNat ++ " :".toList).length = 12 := by
    rw [List.length_append, List.length_append, length_fmtZ (by omega) (by omega) (by omega)]
    decide
  have hsplit : r.2 = r.2.take i ++ w :: r.2.drop (i + 1) := by
    rw [← hw', List.getElem_cons_drop hi, List.take_append_drop]
  unfold At mp7_rowLine
  rw [← List.drop_drop, ← hpre, List.drop_left]
  conv_rhs => rw [hsplit]
  rw [List.flatMap_append]
  have := hlen (r.2.take i)
  rw [List.length_take, Nat.min_eq_left (by omega)] at this
  rw [← this, List.drop_left, List.flatMap_cons]
  exact List.prefix_append _ _

/-- **C64.** The quad and channel of link `i` stand above its word, for all links. -/
theorem C64_quad_columns (n i : Nat) (hi : i < n) (hn : n ≤ 400) :
    ∃ q c, At (mp7_quadLine n) (16 + 11 * i) ("q".toList ++ q ++ "c".toList ++ c) ∧ q.length = 2 ∧ number 10 q = some (i / 4) ∧
      number 10 c = some (i % 4) ∧ 12 + 11 * i ≤ 16 + 11 * i ∧ 16 + 11 * i < 12 + 11 * (i + 1) := by
  have hc : ∀ j, j % 4 < 4 := fun j => Nat.mod_lt j (by omega)
  have hd : ∀ j : Nat, fmtN 1 (j % 4 : Nat) = Nat.toDigits 10 (j % 4) := by
    intro j
    have : ∀ k : Fin 4, fmtN 1 (k.val : Nat) = Nat.toDigits 10 k.val := by decide
    exact this ⟨j % 4, hc j⟩
  refine ⟨fmtZ 10 2 (i / 4), fmtN 1 (i % 4 : Nat), ?_, length_fmtZ (by omega) (by omega) (by omega), number_fmtZ (by omega) (by omega) _ _, ?_, by omega, by omega⟩
  · have h1 := at_flatMap_range " Quad/Chan :    ".toList (fun i =>
      "q".toList ++ fmtZ 10 2 (i / 4) ++ "c".toList ++ fmtN 1 (i % 4 : Nat) ++ "      ".toList) hi
    rw [length_flatMap_range _ 11] at h1
    · rw [show " Quad/Chan :    ".toList.length = 16 by decide] at h1
      exact List.IsPrefix.trans (List.prefix_append _ _) h1
    · intro j hj
      simp only [List.length_append]
      rw [length_fmtZ (by omega) (by omega) (by omega), hd]
      have : ∀ k : Fin 4, (Nat.toDigits 10 k.val).length = 1 := by decide
      rw [this ⟨j % 4, hc j⟩]
      decide
  · rw [hd, number_eq 10 Nat.toDigits_ne_nil]
    exact fold_toDigits (by omega) (by omega) _

/-- **C64.** The number of link `i` stands at column `17 + 11 i + (i - 100)`: labels are printed with two digits, and from 100
on they have three.  It is above the word of the link exactly for the links up to 105; in the files of all 144 links
(without multiplexing) the numbers of links 106 to 143 are above later words. -/
theorem C64_link_columns (n i : Nat) (hi : i < n) (hn : n ≤ 1000) :
    ∃ s, At (mp7_linkLine n) (17 + 11 * i + (i - 100)) (s ++ " ".toList) ∧ number 10 s = some i ∧
      ((12 + 11 * i ≤ 17 + 11 * i + (i - 100) ∧ 17 + 11 * i + (i - 100) < 12 + 11 * (i + 1)) ↔ i ≤ 105) := by
  refine ⟨fmtZ 10 2 i, ?_, number_fmtZ (by omega) (by omega) _ _, by omega⟩
  have h1 := at_flatMap_range "      Link :     ".toList (fun i => fmtZ 10 2 i ++ "         ".toList) hi
  rw [link_columns i (by omega), show "      Link :     ".toList.length = 17 by decide] at h1
  rw [← Nat.add_assoc] at h1
  have h2 : fmtZ 10 2 i ++ " ".toList <+: fmtZ 10 2 i ++ "         ".toList := by
    rw [List.prefix_append_right_inj]
    decide
  exact h2.trans h1

/-- **C64.** All rows of a CTP7 file with `n` words have the same width. -/
theorem C64_ctp7_width (r : PatRow) (hf : r.1.toNat < 1024) : (ctp7_rowLine r).length = 7 + 11 * r.2.length := by
  have hlen : ∀ l : List Word, (l.flatMap fun w => " 0x".toList ++ fmtZ 16 8 w.toNat).length = 11 * l.length := by
    intro l
    induction l with
    | nil => rfl
    | cons a l ih =>
      rw [List.flatMap_cons, List.length_append, ih, List.length_append, length_fmtZ (by omega) (by omega) (by have := a.isLt; omega)]
      rw [show " 0x".toList.length = 3 by decide, List.length_cons]
      omega
  unfold ctp7_rowLine
  rw [List.length_append, List.length_append, hlen, length_fmtZ (by omega) (by omega) (by omega)]
  rfl

/-! ## C65: printed numbers -/

section
variable {NT NC NE NM NS : Nat} {sz : RegSizes}

theorem ints_lit {lit : List Char} (h1 : isSep (lit.getLastD 'x') = true) (h2 : ints lit = []) (rest : List Char) : ints (lit ++ rest) = ints rest := by
  rw [ints_append_right ?_ rest, h2, List.nil_append]
  have hne : lit ≠ [] := by rintro rfl; exact absurd h1 (by decide)
  refine ⟨lit.dropLast, lit.getLast hne, (List.dropLast_append_getLast hne).symm, ?_⟩
  rwa [List.getLastD_eq_getLast?, List.getLast?_eq_getLast_of_ne_nil hne, Option.getD_some] at h1

private theorem headSep {lit : List Char} (h : isSep (lit.headD 'x') = true) (rest : List Char) :
    lit ++ rest = [] ∨ ∃ x t, lit ++ rest = x :: t ∧ isSep x = true := by
  cases lit with
  | nil => exact absurd h (by decide)
  | cons c cs => exact .inr ⟨c, cs ++ rest, rfl, h⟩

theorem ints_num {plus : List Char} (hp : plus = [] ∨ plus = [' '] ∨ plus = ['+']) {lit : List Char} (h : isSep (lit.headD 'x') = true)
    (w : Nat) (x : Int) (rest : List Char) : ints (fmtD plus w x ++ (lit ++ rest)) = x :: ints (lit ++ rest) := by
  rw [ints_append_left _ (headSep h rest), ints_fmtD hp]
  rfl

theorem ints_num' {plus : List Char} (hp : plus = [] ∨ plus = [' '] ∨ plus = ['+']) {lit : List Char} (h : isSep (lit.headD 'x') = true)
    (w : Nat) (x : Int) : ints (fmtD plus w x ++ lit) = x :: ints lit := by
  have := ints_num hp h w x []
  rwa [List.append_nil] at this

theorem ints_had (i : Nat) (o : HadCaloObj) : ints (hr_had i o) =
    [(i : Int), o.hwPt.toInt, o.hwEmPt.toInt, o.hwEta.toInt, o.hwPhi.toInt, if o.hwIsEM then 1 else 0] := by
  unfold hr_had
  simp (discharger := decide) only [List.append_assoc, ints_lit, ints_num, ints_fmtD, b2i]

theorem ints_em (i : Nat) (o : EmCaloObj) : ints (hr_em i o) = [(i : Int), o.hwPt.toInt, o.hwPtErr.toInt, o.hwEta.toInt, o.hwPhi.toInt] := by
  unfold hr_em
  simp (discharger := decide) only [List.append_assoc, ints_lit, ints_num, ints_fmtD]

theorem ints_track (i : Nat) (o : TkObj) :
    ints (hr_track i o) = [(i : Int), o.hwPt.toInt, o.hwPtErr.toInt, o.hwEta.toInt, o.hwPhi.toInt, o.hwZ0.toInt] := by
  unfold hr_track
  simp (discharger := decide) only [List.append_assoc, ints_lit, ints_num, ints_fmtD]

theorem ints_mu (i : Nat) (o : MuObj) : ints (hr_mu i o) = [(i : Int), o.hwPt.toInt, o.hwPtErr.toInt, o.hwEta.toInt, o.hwPhi.toInt] := by
  unfold hr_mu
  simp (discharger := decide) only [List.append_assoc, ints_lit, ints_num, ints_fmtD]

theorem ints_ch (i : Nat) (o : PFChargedObj) :
    ints (hr_ch i o) = [(i : Int), o.hwPt.toInt, o.hwEta.toInt, o.hwPhi.toInt, o.hwId.toNat, o.hwZ0.toInt] := by
  unfold hr_ch
  simp (discharger := decide) only [List.append_assoc, ints_lit, ints_num, ints_fmtD]

theorem ints_pho (i : Nat) (o : PFNeutralObj) :
    ints (hr_ne "photon ".toList i o) = [(i : Int), o.hwPt.toInt, o.hwEta.toInt, o.hwPhi.toInt, o.hwId.toNat] := by
  unfold hr_ne
  simp (discharger := decide) only [List.append_assoc, ints_lit, ints_num, ints_fmtD]

theorem ints_ne (i : Nat) (o : PFNeutralObj) :
    ints (hr_ne "neutral".toList i o) = [(i : Int), o.hwPt.toInt, o.hwEta.toInt, o.hwPhi.toInt, o.hwId.toNat] := by
  have e : hr_ne "neutral".toList i o = "   neutral pf ".toList ++ (fmtN 3 i ++ (", hwPt ".toList ++ (fmtS 7 o.hwPt.toInt ++
      ("   hwEta ".toList ++ (fmtP 7 o.hwEta.toInt ++ ("   hwPhi ".toList ++ (fmtP 7 o.hwPhi.toInt ++ ("   hwId ".toList ++
      fmtN 1 o.hwId.toNat)))))))) := by
    unfold hr_ne
    simp
  rw [e]
  simp (discharger := decide) only [ints_lit, ints_num, ints_fmtD]

theorem ints_pfmu (i : Nat) (o : PFChargedObj) :
    ints (hr_pfmu i o) = [(i : Int), o.hwPt.toInt, o.hwEta.toInt, o.hwPhi.toInt, o.hwId.toNat] := by
  unfold hr_pfmu
  simp (discharger := decide) only [List.append_assoc, ints_lit, ints_num, ints_fmtD]

theorem ints_lines {A : Type} (l : List A) (f : A → List Char) (rest : List Char) :
    ints ((l.flatMap fun a => f a ++ ['\n']) ++ rest) = (l.flatMap fun a => ints (f a)) ++ ints rest := by
  induction l with
  | nil => rfl
  | cons a l ih =>
    rw [List.flatMap_cons, List.flatMap_cons, List.append_assoc, List.append_assoc, List.singleton_append, ints_at _ (by decide), ih, List.append_assoc]

theorem ints_hrLines {N : Nat} {T : Type} (line : Nat → T → List Char) (fields : T → List Int)
    (h : ∀ i o, ints (line i o) = (i : Int) :: fields o) (a : Arr N T) (rest : List Char) :
    ints (hrLines line a ++ rest) = objs fields a ++ ints rest := by
  unfold hrLines objs
  rw [ints_lines]
  simp only [h]

theorem ints_event (k : BitVec 32) (inp : PFInputs NT NC NE NM) (out : PFOutputs NT NE NS NM) (rest : List Char) :
    ints (hr_event k inp out ++ rest) = (k.toNat : Int) :: (inputNumbers inp ++ outputNumbers out) ++ ints rest := by
  unfold hr_event hr_inputs hr_outputs inputNumbers outputNumbers
  simp only [List.append_assoc]
  rw [ints_lit (by decide) (by decide), ints_append_left _ (headSep (lit := ":\n".toList) (by decide) _), ints_fmtZ,
    ints_lit (by decide) (by decide), ints_hrLines _ _ ints_had, ints_hrLines _ _ ints_em, ints_hrLines _ _ ints_track,
    ints_hrLines _ _ ints_mu, ints_hrLines _ _ ints_ch, ints_hrLines _ _ ints_pho, ints_hrLines _ _ ints_ne, ints_hrLines _ _ ints_pfmu]
  simp only [List.append_assoc, List.cons_append, List.nil_append]
  rw [ints_sep (by decide)]

/-- **C65.** The integers in the human-readable file are, for each event in turn, its number, and for each object of the inputs
and outputs its index and its members (all but the muons' `hwZ0` and the PUPPI pt). -/
theorem C65_human_readable (events : List (PFInputs NT NC NE NM × PFOutputs NT NE NS NM)) (hn : events.length ≤ 2 ^ 32) :
    ints (hr_file events) = events.zipIdx.flatMap fun e => (e.2 : Int) :: (inputNumbers e.1.1 ++ outputNumbers e.1.2) := by
  have key : ∀ (evs : List (PFInputs NT NC NE NM × PFOutputs NT NE NS NM)) (k : Nat) (pre : List Char), k + evs.length ≤ 2 ^ 32 →
      (∃ t x, pre = t ++ [x] ∧ isSep x = true) →
      ints ((evs.foldl (fun (st : BitVec 32 × List Char) e => (st.1 + 1, st.2 ++ hr_event st.1 e.1 e.2)) (BitVec.ofNat 32 k, pre)).2) =
        ints pre ++ (evs.zipIdx k).flatMap fun e => (e.2 : Int) :: (inputNumbers e.1.1 ++ outputNumbers e.1.2) := by
    intro evs
    induction evs with
    | nil => intro k pre _ _; simp
    | cons e evs ih =>
      intro k pre hk hpre
      rw [List.length_cons] at hk
      have hk' : (BitVec.ofNat 32 k).toNat = k := by rw [BitVec.toNat_ofNat]; omega
      rw [List.foldl_cons]
      have := ih (k + 1) (pre ++ hr_event (BitVec.ofNat 32 k) e.1 e.2) (by omega) ⟨pre ++ ("Frame ".toList ++ fmtZ 10 4 (BitVec.ofNat 32 k).toNat ++
        ":\n".toList ++ hr_inputs e.1 ++ hr_outputs e.2), '\n', by unfold hr_event; simp only [List.append_assoc], by decide⟩
      rw [show BitVec.ofNat 32 k + 1 = BitVec.ofNat 32 (k + 1) by apply BitVec.eq_of_toNat_eq; simp, this, ints_append_right hpre]
      have h2 := ints_event (BitVec.ofNat 32 k) e.1 e.2 []
      rw [List.append_nil, ints_nil, List.append_nil, hk'] at h2
      rw [h2, List.zipIdx_cons, List.flatMap_cons, List.append_assoc]
  cases events with
  | nil => exact ints_nil
  | cons e evs =>
    have := key (e :: evs) 0 ['\n'] (by omega) ⟨[], '\n', rfl, by decide⟩
    have h2 : ∀ (evs : List (PFInputs NT NC NE NM × PFOutputs NT NE NS NM)) (k : BitVec 32) (pre : List Char),
        (evs.foldl (fun (st : BitVec 32 × List Char) e => (st.1 + 1, st.2 ++ hr_event st.1 e.1 e.2)) (k, '\n' :: pre)).2 =
          '\n' :: (evs.foldl (fun (st : BitVec 32 × List Char) e => (st.1 + 1, st.2 ++ hr_event st.1 e.1 e.2)) (k, pre)).2 := by
      intro evs
      induction evs with
      | nil => intro k pre; rfl
      | cons e evs ih => intro k pre; rw [List.foldl_cons, List.foldl_cons, List.cons_append, ih]
    rw [h2, ints_sep (by decide), show ints ['\n'] = [] by decide, List.nil_append] at this
    exact this

/-! ### The dumps of the benches -/

/-- A piece of text that stands for a list of numbers: it begins with a separator and has no plus sign and no end of line. -/
structure Chunk (t : List Char) (ns : List Int) : Prop where
  head : t = [] ∨ ∃ u, t = ' ' :: u
  ints : Spec.ints t = ns
  clean : ∀ c, c = '+' ∨ c = '\n' → c ∉ t

theorem Chunk.sep {t : List Char} {ns : List Int} (h : Chunk t ns) : t = [] ∨ ∃ x u, t = x :: u ∧ isSep x = true :=
  h.head.imp id fun ⟨u, hu⟩ => ⟨' ', u, hu, by decide⟩

theorem Chunk.append {t u : List Char} {ns ms : List Int} (h : Chunk t ns) (h' : Chunk u ms) : Chunk (t ++ u) (ns ++ ms) := by
  refine ⟨?_, by rw [ints_append_left _ h'.sep, h.ints, h'.ints], fun c hc => ?_⟩
  · rcases h.head with rfl | ⟨v, rfl⟩
    · exact h'.head
    · exact .inr ⟨v ++ u, rfl⟩
  · simp only [List.mem_append, not_or]
    exact ⟨h.clean c hc, h'.clean c hc⟩

private theorem clean_N {c : Char} (hc : c = '+' ∨ c = '\n') (w : Nat) (x : Int) : c ∉ fmtN w x := clean_fmtD (.inl rfl) hc w x
private theorem clean_S {c : Char} (hc : c = '+' ∨ c = '\n') (w : Nat) (x : Int) : c ∉ fmtS w x := clean_fmtD (.inr rfl) hc w x
private theorem clean_Z {c : Char} (hc : c = '+' ∨ c = '\n') (w n : Nat) : c ∉ fmtZ 10 w n :=
  noDigit_fmtZ (by omega) (by omega) w n (by unfold NoDigit; tauto)
private theorem clean_lit {c : Char} (hc : c = '+' ∨ c = '\n') {s : List Char} (h : '+' ∉ s ∧ '\n' ∉ s) : c ∉ s := by
  rcases hc with rfl | rfl
  · exact h.1
  · exact h.2

/-- A text for each object. -/
def DumpText {T : Type} (text : T → List Char) (fields : T → List Int) : Prop := ∀ o, Chunk (text o) (fields o)

theorem hadText_ok : DumpText hadText hadFields := by
  refine fun o => ⟨.inr ⟨_, rfl⟩, ?_, fun c hc => ?_⟩
  · unfold hadText hadFields
    simp (discharger := decide) only [List.append_assoc, ints_lit, ints_num, ints_fmtD, b2i]
  · unfold hadText
    simp only [List.mem_append, not_or]
    and_intros
    all_goals first | exact clean_N hc _ _ | exact clean_S hc _ _ | exact clean_lit hc (by decide)

theorem emText_ok : DumpText emText emFields := by
  refine fun o => ⟨.inr ⟨_, rfl⟩, ?_, fun c hc => ?_⟩
  · unfold emText emFields
    simp (discharger := decide) only [List.append_assoc, ints_lit, ints_num, ints_fmtD]
  · unfold emText
    simp only [List.mem_append, not_or]
    and_intros
    all_goals first | exact clean_N hc _ _ | exact clean_S hc _ _ | exact clean_lit hc (by decide)

theorem tkText_ok : DumpText tkText tkFields := by
  refine fun o => ⟨.inr ⟨_, rfl⟩, ?_, fun c hc => ?_⟩
  · unfold tkText tkFields
    simp (discharger := decide) only [List.append_assoc, ints_lit, ints_num, ints_fmtD]
  · unfold tkText
    simp only [List.mem_append, not_or]
    and_intros
    all_goals first | exact clean_N hc _ _ | exact clean_S hc _ _ | exact clean_lit hc (by decide)

theorem muText_ok : DumpText muText muFields := by
  refine fun o => ⟨.inr ⟨_, rfl⟩, ?_, fun c hc => ?_⟩
  · unfold muText muFields
    simp (discharger := decide) only [List.append_assoc, ints_lit, ints_num, ints_fmtD]
  · unfold muText
    simp only [List.mem_append, not_or]
    and_intros
    all_goals first | exact clean_N hc _ _ | exact clean_S hc _ _ | exact clean_lit hc (by decide)

/-- Two runs that print the same numbers, one as numbers and one as text. -/
def Same (a : Run (List Int)) (b : Run (List Char)) : Prop := ∀ ns, a = .ok ns → ∃ t, b = .ok t ∧ Chunk t ns

theorem same_dumpObj {N : Nat} {T : Type} {text : T → List Char} {fields : T → List Int} (h : DumpText text fields) (clear : T) (a : Arr N T)
    (i limit : Nat) (send : Bool) : Same (dumpObj fields clear a i limit send) (dumpObj text clear a i limit send) := by
  intro ns hns
  unfold dumpObj at hns ⊢
  split at hns
  · rename_i hc
    rw [if_pos hc]
    obtain ⟨o, ho, hns⟩ := Run.bind_eq_ok.mp hns
    cases hns
    exact ⟨text o, by rw [ho]; rfl, h o⟩
  · rename_i hc
    rw [if_neg hc]
    cases hns
    exact ⟨_, rfl, h clear⟩

theorem same_dumpSlot {K N : Nat} {T : Type} {text : T → List Char} {fields : T → List Int} (h : DumpText text fields) (clear : T)
    (a : Arr K (Arr N T)) (ic : Nat) (i : Fin N) : Same (dumpSlot fields clear a ic i) (dumpSlot text clear a ic i) := by
  intro ns hns
  unfold dumpSlot at hns ⊢
  split at hns
  · rename_i hc
    rw [if_pos hc]
    obtain ⟨o, ho, hns⟩ := Run.bind_eq_ok.mp hns
    cases hns
    exact ⟨text (o i), by rw [ho]; rfl, h (o i)⟩
  · rename_i hc
    rw [if_neg hc]
    cases hns
    exact ⟨_, rfl, h clear⟩

theorem same_append {a a' : Run (List Int)} {b b' : Run (List Char)} (h : Same a b) (h' : Same a' b') :
    Same (do let x ← a; let y ← a'; .ok (x ++ y)) (do let x ← b; let y ← b'; .ok (x ++ y)) := by
  intro ns hns
  obtain ⟨x, hx, hns⟩ := Run.bind_eq_ok.mp hns
  obtain ⟨y, hy, hns⟩ := Run.bind_eq_ok.mp hns
  cases hns
  obtain ⟨t, ht, c⟩ := h x hx
  obtain ⟨u, hu, c'⟩ := h' y hy
  exact ⟨t ++ u, by rw [ht, hu]; rfl, c.append c'⟩

theorem same_printLoop {n : Nat} {f : Fin n → Run (List Int)} {g : Fin n → Run (List Char)} (h : ∀ i, Same (f i) (g i)) :
    Same (printLoop f) (printLoop g) := by
  unfold printLoop
  suffices ∀ (n : Nat) (f : Fin n → Run (List Int)) (g : Fin n → Run (List Char)), (∀ i, Same (f i) (g i)) →
      ∀ ns ms t, Chunk t ms → loopM (fun i out => do let x ← f i; .ok (out ++ x)) ms = .ok ns →
        ∃ u, loopM (fun i out => do let x ← g i; .ok (out ++ x)) t = .ok u ∧ Chunk u ns by
    intro ns hns
    exact this n f g h ns [] [] ⟨.inl rfl, ints_nil, by simp⟩ hns
  intro n
  induction n with
  | zero =>
    intro f g _ ns ms t ht h
    rw [loopM_zero] at h ⊢
    cases h
    exact ⟨t, rfl, ht⟩
  | succ n ih =>
    intro f g hfg ns ms t ht h
    rw [loopM_succ] at h ⊢
    obtain ⟨x, hx, h⟩ := Run.bind_eq_ok.mp h
    obtain ⟨u, hu, cu⟩ := ih (fun i => f i.castSucc) (fun i => g i.castSucc) (fun i => hfg _) _ _ _ ht hx
    obtain ⟨y, hy, h⟩ := Run.bind_eq_ok.mp h
    cases h
    obtain ⟨v, hv, cv⟩ := hfg _ y hy
    exact ⟨u ++ v, by rw [hu]; show (do let x ← g (Fin.last n); .ok (u ++ x)) = _; rw [hv]; rfl, cu.append cv⟩

/-- A line made of a beginning and chunks. -/
private theorem line_ok {pre t : List Char} {ps ns : List Int} (hp : ∀ u : List Char, (u = [] ∨ ∃ x v, u = x :: v ∧ isSep x = true) → ints (pre ++ u) = ps ++ ints u)
    (hc : ∀ c, c = '+' ∨ c = '\n' → c ∉ pre) (h : Chunk t ns) :
    ints (pre ++ t ++ ['\n']) = ps ++ ns ∧ '+' ∉ pre ++ t ++ ['\n'] ∧ lines (pre ++ t ++ ['\n']) = [pre ++ t] := by
  refine ⟨?_, ?_, ?_⟩
  · rw [ints_at _ (by decide), ints_nil, List.append_nil, hp t h.sep, h.ints]
  · simp only [List.mem_append, not_or]
    exact ⟨⟨hc _ (.inl rfl), h.clean _ (.inl rfl)⟩, by decide⟩
  · unfold lines
    rw [split_append _ (by decide)]
    · rfl
    · intro c hcm
      rw [beq_eq_false_iff_ne]
      rintro rfl
      rw [List.mem_append] at hcm
      exact hcm.elim (hc _ (.inr rfl)) (h.clean _ (.inr rfl))

/-- **C65.** A line of `dump_in.txt` reads back as the numbers of C59, is one line, and has no plus sign (the comment in the
source says that the VHDL reader does not accept one). -/
theorem C65_dump_in (frame test : Nat) (d : RegRecord sz NC NE NT NM) (ic : Fin N_CLOCKS) (ns : List Int)
    (h : dumpInLine frame test d ic = .ok ns) :
    ∃ l, dumpInText frame test d ic = .ok (l ++ ['\n']) ∧ ints (l ++ ['\n']) = ns ∧ '+' ∉ l ∧ lines (l ++ ['\n']) = [l] := by
  unfold dumpInLine at h
  obtain ⟨calo, h1, h⟩ := Run.bind_eq_ok.mp h
  obtain ⟨em, h2, h⟩ := Run.bind_eq_ok.mp h
  obtain ⟨track, h3, h⟩ := Run.bind_eq_ok.mp h
  obtain ⟨mu, h4, h⟩ := Run.bind_eq_ok.mp h
  cases h
  obtain ⟨t1, g1, c1⟩ := same_printLoop (fun is => same_dumpObj hadText_ok _ _ _ _ _) _ h1
  obtain ⟨t2, g2, c2⟩ := same_printLoop (fun is => same_dumpObj emText_ok _ _ _ _ _) _ h2
  obtain ⟨t3, g3, c3⟩ := same_printLoop (fun is => same_append (same_dumpObj tkText_ok _ _ _ _ _) (same_dumpObj tkText_ok _ _ _ _ _)) _ h3
  obtain ⟨t4, g4, c4⟩ := same_printLoop (fun is => same_dumpObj muText_ok _ _ _ _ _) _ h4
  obtain ⟨e1, e2, e3⟩ := line_ok (pre := "Frame ".toList ++ fmtZ 10 4 frame ++ " : ".toList ++ fmtN 2 test ++ " ".toList ++ fmtN 2 (ic.val / 2 : Nat))
    (ps := [(frame : Int), (test : Int), (ic.val / 2 : Nat)]) (fun u hu => by
      simp only [List.append_assoc]
      rw [ints_lit (by decide) (by decide), ints_append_left _ (headSep (lit := " : ".toList) (by decide) _), ints_fmtZ,
        ints_lit (by decide) (by decide), ints_num (.inl rfl) (by decide), ints_lit (by decide) (by decide), ints_append_left _ hu,
        ints_fmtD (.inl rfl)]
      rfl) (fun c hc => by
      simp only [List.mem_append, not_or]
      and_intros
      all_goals first | exact clean_N hc _ _ | exact clean_Z hc _ _ | exact clean_lit hc (by decide))
    (((c1.append c2).append c3).append c4)
  refine ⟨_, ?_, ?_, fun hm => e2 (by rw [List.mem_append]; exact .inl hm), e3⟩
  · unfold dumpInText
    dsimp only
    rw [g1]
    simp only [Run.ok_bind]
    rw [g2]
    simp only [Run.ok_bind]
    rw [g3]
    simp only [Run.ok_bind]
    rw [g4]
    simp only [Run.ok_bind, List.append_assoc]
  · rw [e1]
    simp only [List.append_assoc]

/-- **C65.** The same for `dump_out.txt`. -/
theorem C65_dump_out (frame : Nat) (d : RegRecord sz NC NE NT NM) (ic : Fin N_CLOCKS) (ns : List Int) (h : dumpOutLine frame d ic = .ok ns) :
    ∃ l, dumpOutText frame d ic = .ok (l ++ ['\n']) ∧ ints (l ++ ['\n']) = ns ∧ '+' ∉ l ∧ lines (l ++ ['\n']) = [l] := by
  unfold dumpOutLine at h
  obtain ⟨calo, h1, h⟩ := Run.bind_eq_ok.mp h
  obtain ⟨em, h2, h⟩ := Run.bind_eq_ok.mp h
  obtain ⟨track, h3, h⟩ := Run.bind_eq_ok.mp h
  obtain ⟨mu, h4, h⟩ := Run.bind_eq_ok.mp h
  cases h
  obtain ⟨t1, g1, c1⟩ := same_printLoop (fun i => same_dumpSlot hadText_ok _ _ _ i) _ h1
  obtain ⟨t2, g2, c2⟩ := same_printLoop (fun i => same_dumpSlot emText_ok _ _ _ i) _ h2
  obtain ⟨t3, g3, c3⟩ := same_printLoop (fun i => same_dumpSlot tkText_ok _ _ _ i) _ h3
  obtain ⟨t4, g4, c4⟩ := same_printLoop (fun i => same_dumpSlot muText_ok _ _ _ i) _ h4
  have c5 : Chunk ("       ".toList ++ fmtN 0 1) [1] := ⟨.inr ⟨_, rfl⟩, by decide, fun c hc => clean_lit hc (by decide)⟩
  obtain ⟨e1, e2, e3⟩ := line_ok (pre := "Frame ".toList ++ fmtZ 10 4 frame ++ " :".toList)
    (ps := [(frame : Int)]) (fun u hu => by
      simp only [List.append_assoc]
      rw [ints_lit (by decide) (by decide), ints_append_left _ (headSep (lit := " :".toList) (by decide) _), ints_fmtZ,
        ints_lit (by decide) (by decide)]) (fun c hc => by
      simp only [List.mem_append, not_or]
      and_intros
      all_goals first | exact clean_Z hc _ _ | exact clean_lit hc (by decide))
    ((((c1.append c2).append c3).append c4).append c5)
  refine ⟨_, ?_, ?_, fun hm => e2 (by rw [List.mem_append]; exact .inl hm), e3⟩
  · unfold dumpOutText
    rw [g1]
    simp only [Run.ok_bind]
    rw [g2]
    simp only [Run.ok_bind]
    rw [g3]
    simp only [Run.ok_bind]
    rw [g4]
    simp only [Run.ok_bind, List.append_assoc]
  · rw [e1]
    simp only [List.append_assoc]

/-- **C65.** The lines of the vertex bench and of the PF+PUPPI bench read back as the numbers given to `printf`. -/
theorem C65_other_lines :
    (∀ a b c d : Int, ints (bhvInText a b c d) = [a, b, c, d]) ∧ (∀ a b c d : Int, ints (bhvOutText a b c d) = [a, b, c, d]) ∧
    ∀ l : PuppiLine, ints (puppiText l) = [l.hwPt, l.hwPtPuppi, l.hwPtPuppiRef] := by
  refine ⟨fun a b c d => ?_, fun a b c d => ?_, fun l => ?_⟩
  · unfold bhvInText
    simp (discharger := decide) only [List.append_assoc, ints_lit, ints_num, ints_num']
    rw [show ints ['\n'] = [] by decide]
  · unfold bhvOutText
    simp (discharger := decide) only [List.append_assoc, ints_lit, ints_num, ints_num']
    rw [show ints ['\n'] = [] by decide]
  · unfold puppiText
    simp (discharger := decide) only [List.append_assoc, ints_lit, ints_num, ints_num']
    rw [show ints " \n".toList = [] by decide]

/-- **C65**, a case: one track of the human-readable file, and one calorimeter object of the dumps. -/
example : hr_track 3 ⟨-5, 2, 100, -7, 0, true⟩ =
    "   track   3, hwPt      -5   hwPtErr       2    hwEta    +100   hwPhi      -7     hwZ0      +0".toList := by decide +kernel
example : hadText ⟨1234, -7, 100, 5, true⟩ = "       1234   -7  100   5 1".toList := by decide +kernel

end
end Verif
