import Verif.Proofs.PFTrace
/-! # Lemmas: the lines of the debugging text -/
namespace Verif
open Spec

variable {NT NC NE NM NS : Nat}

/-! ## Reading a line -/

theorem rd_nil {lit : List Char} (h : tokens lit = []) : LineReads [] (tokens lit) := h

theorem rd_last {lit : List Char} {s : String} (h : tokens lit = say s) : LineReads [.say s] (tokens lit) :=
  ⟨[], by rw [h, List.append_nil], rfl⟩

theorem rd_gap {lit rest : List Char} {ps : List Piece} (h1 : isGap (lit.getLastD 'x') = true) (h : tokens lit = []) (hr : LineReads ps (tokens rest)) :
    LineReads ps (tokens (lit ++ rest)) := by
  rw [tokens_lit h1, h, List.nil_append]; exact hr

theorem rd_say {lit rest : List Char} {s : String} {ps : List Piece} (h1 : isGap (lit.getLastD 'x') = true) (h : tokens lit = say s)
    (hr : LineReads ps (tokens rest)) : LineReads (.say s :: ps) (tokens (lit ++ rest)) :=
  ⟨_, by rw [tokens_lit h1, h], hr⟩

theorem rd_int {plus : List Char} (hp : plus = [] ∨ plus = [' '] ∨ plus = ['+']) {lit rest : List Char} (h : isGap (lit.headD 'x') = true)
    (w : Nat) {x : Int} {ps : List Piece} (hr : LineReads ps (tokens (lit ++ rest))) : LineReads (.int x :: ps) (tokens (fmtD plus w x ++ (lit ++ rest))) :=
  ⟨_, tokens_num hp h w x rest, hr⟩

theorem rd_int' {plus : List Char} (hp : plus = [] ∨ plus = [' '] ∨ plus = ['+']) {lit : List Char} (h : isGap (lit.headD 'x') = true)
    (w : Nat) {x : Int} {ps : List Piece} (hr : LineReads ps (tokens lit)) : LineReads (.int x :: ps) (tokens (fmtD plus w x ++ lit)) :=
  ⟨_, tokens_num' hp h w x, hr⟩

theorem rd_dec {F : DebugText} {plus : List Char} (hp : plus = [] ∨ plus = ['+']) {lit rest : List Char} (h : isGap (lit.headD 'x') = true)
    (w : Nat) {x y tol : ℝ} {ps : List Piece} (hc : Cents (F.word plus x) y tol) (hr : LineReads ps (tokens (lit ++ rest))) :
    LineReads (.dec y tol :: ps) (tokens (F.fmtF plus w x ++ (lit ++ rest))) := by
  refine ⟨F.word plus x, tokens (lit ++ rest), ?_, hc, hr⟩
  show tokens ((List.replicate _ ' ' ++ F.word plus x) ++ (lit ++ rest)) = _
  rw [List.append_assoc, tokens_spaces, (F.plain_word hp x).tokens_append (gapHead h rest)]

theorem rd_dec' {F : DebugText} {plus : List Char} (hp : plus = [] ∨ plus = ['+']) {lit : List Char} (h : isGap (lit.headD 'x') = true)
    (w : Nat) {x y tol : ℝ} {ps : List Piece} (hc : Cents (F.word plus x) y tol) (hr : LineReads ps (tokens lit)) :
    LineReads (.dec y tol :: ps) (tokens (F.fmtF plus w x ++ lit)) := by
  have := rd_dec (rest := []) hp h w hc (by rwa [List.append_nil])
  rwa [List.append_nil] at this

theorem count_fmtF {F : DebugText} {plus : List Char} (hp : plus = [] ∨ plus = ['+']) (w : Nat) (x : ℝ) : (F.fmtF plus w x).count '\n' = 0 := by
  show (List.replicate _ ' ' ++ F.word plus x).count '\n' = 0
  rw [List.count_append, (F.plain_word hp x).count, List.count_eq_zero.mpr]
  rw [List.mem_replicate]
  exact fun h => absurd h.2 (by decide)

/-! ## Lines -/

/-- The text is the lines of the trace, whatever follows. -/
def Traces (t : List Char) (ls : List (List Piece)) : Prop := ∃ ms, Says t ms ∧ List.Forall₂ LineReads ls ms

theorem Traces.nil : Traces [] [] := ⟨[], Says.nil, .nil⟩

theorem Traces.append {t u : List Char} {ls ms : List (List Piece)} (h : Traces t ls) (h' : Traces u ms) : Traces (t ++ u) (ls ++ ms) := by
  obtain ⟨a, a1, a2⟩ := h
  obtain ⟨b, b1, b2⟩ := h'
  exact ⟨a ++ b, a1.append b1, List.rel_append a2 b2⟩

theorem Traces.flatMap {A : Type} {f : A → List Char} {g : A → List (List Piece)} (h : ∀ a, Traces (f a) (g a)) (l : List A) :
    Traces (l.flatMap f) (l.flatMap g) := by
  induction l with
  | nil => exact Traces.nil
  | cons a l ih =>
    rw [List.flatMap_cons, List.flatMap_cons]
    exact (h a).append ih

theorem Traces.forAll {n : Nat} {f : Fin n → List Char} {g : Fin n → List (List Piece)} (h : ∀ a, Traces (f a) (g a)) :
    Traces ((List.finRange n).flatMap f) (Spec.forAll n g) := Traces.flatMap h _

theorem Traces.line {t : List Char} (h1 : t.count '\n' = 1) (h2 : t.getLast? = some '\n') {ls : List Piece} (h3 : LineReads ls (tokens t)) : Traces t [ls] :=
  ⟨[tokens t], Says.line h1 h2 rfl, .cons h3 .nil⟩

theorem Traces.reads {t : List Char} {ls : List (List Piece)} (h : Traces t ls) : TextReads ls t := by
  obtain ⟨a, a1, a2⟩ := h
  unfold TextReads
  rw [a1.report]
  exact a2

theorem lineIf_pos {p : Prop} (h : p) (l : List Piece) : lineIf p l = [l] := if_pos h
theorem lineIf_neg {p : Prop} (h : ¬ p) (l : List Piece) : lineIf p l = [] := if_neg h

/-- Lines for the only index, if any. -/
theorem forAll_unique {n : Nat} {P : Fin n → Prop} {o : Option (Fin n)} (h : ∀ j, o = some j ↔ P j) (f : Fin n → List Piece) :
    forAll n (fun j => lineIf (P j) (f j)) = o.elim [] fun j => [f j] := by
  cases o with
  | none =>
    show (List.finRange n).flatMap _ = []
    rw [List.flatMap_eq_nil_iff]
    intro j _
    exact lineIf_neg (fun hp => by have := (h j).mpr hp; cases this) _
  | some i =>
    have e : (fun j => lineIf (P j) (f j)) = fun j => if j = i then [f j] else [] := by
      funext j
      by_cases hj : j = i
      · rw [if_pos hj, lineIf_pos ((h j).mp (by rw [hj]))]
      · rw [if_neg hj, lineIf_neg (fun hp => hj (Option.some.inj ((h j).mpr hp)).symm)]
    unfold Spec.forAll
    rw [e]
    have key : ∀ l : List (Fin n), l.Nodup → l.flatMap (fun j => if j = i then [f j] else []) = if i ∈ l then [f i] else [] := by
      intro l
      induction l with
      | nil => intro _; rfl
      | cons a l ih =>
        intro hn
        rw [List.flatMap_cons, ih (List.nodup_cons.mp hn).2]
        by_cases ha : a = i
        · subst ha
          rw [if_pos rfl, if_neg (List.nodup_cons.mp hn).1, if_pos List.mem_cons_self]
          rfl
        · rw [if_neg ha, List.nil_append]
          by_cases hl : i ∈ l
          · rw [if_pos hl, if_pos (List.mem_cons_of_mem _ hl)]
          · rw [if_neg hl, if_neg]
            intro hm
            rcases List.mem_cons.mp hm with rfl | hm
            · exact ha rfl
            · exact hl hm
    rw [key _ (List.nodup_finRange n), if_pos (List.mem_finRange i)]
    rfl

/-- Reads a line. -/
macro "read_line" : tactic => `(tactic| (
  refine Traces.line (by simp (discharger := decide) only [List.count_append, count_fmtD, count_fmtF]; decide)
    (by simp only [← List.append_assoc]; exact getLast_lit (by decide)) ?_
  try simp only [List.cons_append, List.nil_append, ptPieces, anglePieces, rootPiece]
  repeat' first
    | refine rd_gap (by decide) (by decide +kernel) ?_
    | refine rd_say (by decide) (by decide +kernel) ?_
    | refine rd_int (by decide) (by decide) _ ?_
    | refine rd_int' (by decide) (by decide) _ ?_
    | refine rd_dec (by decide) (by decide) _ ?_ ?_
    | refine rd_dec' (by decide) (by decide) _ ?_ ?_
    | exact rd_nil (by decide +kernel)
    | exact rd_last (by decide +kernel)))

/-! ## Inputs -/

theorem conv16 (x : BitVec 16) : (reg 16 x.toInt).toInt = x.toInt := by
  have h1 := x.toInt_lt
  have h2 := x.le_toInt
  norm_num at h1 h2
  exact reg16_toInt (by omega) (by omega)

theorem conv10 (x : BitVec 10) : (reg 16 x.toInt).toInt = x.toInt ∧ |(reg 16 x.toInt).toInt| ≤ 512 := by
  have h1 := x.toInt_lt
  have h2 := x.le_toInt
  norm_num at h1 h2
  have e := reg16_toInt (x := x.toInt) (by omega) (by omega)
  rw [e]
  exact ⟨rfl, abs_le.mpr ⟨by omega, by omega⟩⟩

theorem pt_cents' {F : DebugText} (A : PrintsCents F) {plus : List Char} (hp : plus = [] ∨ plus = ['+']) (x : BitVec 16) :
    Cents (F.word plus (F.R.floatPt (reg 16 x.toInt))) (x.toInt / 4) 0 := by
  have := pt_cents A hp (reg 16 x.toInt)
  rwa [conv16] at this

theorem angle_cents' {F : DebugText} (A : PrintsCents F) {plus : List Char} (hp : plus = [] ∨ plus = ['+']) (x : BitVec 10) :
    Cents (F.word plus (F.R.floatEtaPhi (reg 16 x.toInt))) (x.toInt * quarterDegree) (1 / 200 + 1 / 10 ^ 6) := by
  have := angle_cents A hp (reg 16 x.toInt) (conv10 x).2
  rwa [(conv10 x).1] at this

theorem flag_b2i (b : Bool) : (b2i b : Int) = flag (b = true) := by
  unfold flag b2i
  cases b <;> simp

theorem trace_track {F : DebugText} (A : PrintsCents F) (i : Nat) (o : TkObj) (j : PropagatedTrack) :
    Traces (F.track i (dpf_track o j))
      [[.say "FW \t track", .int i, .say "pt"] ++ ptPieces o.hwPt.toInt ++ [.say "calo eta"] ++ anglePieces o.hwEta.toInt ++
      [.say "calo phi"] ++ anglePieces o.hwPhi.toInt ++ [.say "calo ptErr"] ++ ptPieces o.hwPtErr.toInt] := by
  unfold DebugText.track dpf_track
  simp only [conv16, (conv10 _).1]
  read_line
  · exact pt_cents' A (.inl rfl) _
  · exact angle_cents' A (.inr rfl) _
  · exact angle_cents' A (.inr rfl) _
  · exact pt_cents' A (.inl rfl) _

theorem trace_em {F : DebugText} (A : PrintsCents F) (i : Nat) (o : EmCaloObj) (j : CaloCluster) :
    Traces (F.em i (dpf_em o j))
      [[.say "FW \t EM", .int i, .say "pt"] ++ ptPieces o.hwPt.toInt ++ [.say "calo eta"] ++ anglePieces o.hwEta.toInt ++
      [.say "calo phi"] ++ anglePieces o.hwPhi.toInt ++ [.say "calo ptErr"] ++ ptPieces o.hwPtErr.toInt] := by
  unfold DebugText.em dpf_em
  simp only [conv16, (conv10 _).1]
  read_line
  · exact pt_cents' A (.inl rfl) _
  · exact angle_cents' A (.inr rfl) _
  · exact angle_cents' A (.inr rfl) _
  · exact pt_cents' A (.inl rfl) _

theorem trace_had {F : DebugText} (A : PrintsCents F) (i : Nat) (o : HadCaloObj) (j : CaloCluster) :
    Traces (F.had i (dpf_had o j))
      [[.say "FW \t calo", .int i, .say "pt"] ++ ptPieces o.hwPt.toInt ++ [.say "calo eta"] ++ anglePieces o.hwEta.toInt ++
      [.say "calo phi"] ++ anglePieces o.hwPhi.toInt ++ [.say "calo emPt"] ++ ptPieces o.hwEmPt.toInt ++
      [.say "isEM", .int (flag (o.hwIsEM = true))]] := by
  unfold DebugText.had dpf_had
  simp only [conv16, (conv10 _).1, flag_b2i]
  read_line
  · exact pt_cents' A (.inl rfl) _
  · exact angle_cents' A (.inr rfl) _
  · exact angle_cents' A (.inr rfl) _
  · exact pt_cents' A (.inl rfl) _

theorem trace_mu {F : DebugText} (A : PrintsCents F) (i : Nat) (o : MuObj) (j : Muon) :
    Traces (F.mu i (dpf_mu o j))
      [[.say "FW \t muon", .int i, .say "pt"] ++ ptPieces o.hwPt.toInt ++ [.say "muon eta"] ++ anglePieces o.hwEta.toInt ++
      [.say "muon phi"] ++ anglePieces o.hwPhi.toInt] := by
  unfold DebugText.mu dpf_mu
  simp only [conv16, (conv10 _).1]
  read_line
  · exact pt_cents' A (.inl rfl) _
  · exact angle_cents' A (.inr rfl) _
  · exact angle_cents' A (.inr rfl) _

theorem trace_if {p : Prop} [Decidable p] {t : List Char} {l : List Piece} (h : Traces t [l]) : Traces (if p then [] else t) (lineIf (¬ p) l) := by
  by_cases hp : p
  · rw [if_pos hp, lineIf_neg (fun h => h hp)]; exact Traces.nil
  · rw [if_neg hp, lineIf_pos hp]; exact h

theorem trace_inputs {F : DebugText} (A : PrintsCents F) (junk : DebugJunk NT NC NE NM) (inp : PFInputs NT NC NE NM) :
    Traces (F.inputs junk inp) (inputTrace inp) := by
  unfold DebugText.inputs inputTrace
  refine Traces.append (Traces.append (Traces.append ?_ ?_) ?_) ?_
  · exact Traces.forAll fun i => trace_if (trace_track A _ _ _)
  · exact Traces.forAll fun i => trace_if (trace_em A _ _ _)
  · exact Traces.forAll fun i => trace_if (trace_had A _ _ _)
  · exact Traces.forAll fun i => trace_if (trace_mu A _ _ _)

end Verif
