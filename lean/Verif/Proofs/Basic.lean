import Verif.Model.Ap
/-! # Lemmas about loops, arrays and runs -/
namespace Verif

theorem finRange_succ_last (n : Nat) :
    List.finRange (n + 1) = (List.finRange n).map Fin.castSucc ++ [Fin.last n] := by
  simp [List.finRange_succ_last]

section Loops
variable {σ : Type}

theorem loop_zero (body : Fin 0 → σ → σ) (s : σ) : loop body s = s := by
  simp [loop]

theorem loop_succ {n : Nat} (body : Fin (n + 1) → σ → σ) (s : σ) :
    loop body s = body (Fin.last n) (loop (fun i => body i.castSucc) s) := by
  simp [loop, finRange_succ_last, List.foldl_append, List.foldl_map]

theorem loopM_zero (body : Fin 0 → σ → Run σ) (s : σ) : loopM body s = .ok s := by
  simp [loopM]; rfl

theorem loopM_succ {n : Nat} (body : Fin (n + 1) → σ → Run σ) (s : σ) :
    loopM body s = (loopM (fun i => body i.castSucc) s) >>= body (Fin.last n) := by
  simp [loopM, finRange_succ_last, List.foldlM_append, List.foldlM_map]

theorem loop_induct (P : Nat → σ → Prop) {n : Nat} (body : Fin n → σ → σ) (s : σ)
    (h0 : P 0 s) (hs : ∀ (i : Fin n) s, P i s → P (i + 1) (body i s)) : P n (loop body s) := by
  induction n with
  | zero => rw [loop_zero]; exact h0
  | succ n ih =>
    rw [loop_succ]
    exact hs (Fin.last n) _ (ih (fun i => body i.castSucc) (fun i s h => hs i.castSucc s h))

theorem loopM_induct (P : Nat → σ → Prop) {n : Nat} (body : Fin n → σ → Run σ) (s : σ)
    (h0 : P 0 s) (hs : ∀ (i : Fin n) s, P i s → ∃ s', body i s = .ok s' ∧ P (i + 1) s') :
    ∃ s', loopM body s = .ok s' ∧ P n s' := by
  induction n with
  | zero => exact ⟨s, loopM_zero _ _, h0⟩
  | succ n ih =>
    obtain ⟨s1, h1, p1⟩ := ih (fun i => body i.castSucc) (fun i s h => hs i.castSucc s h)
    obtain ⟨s2, h2, p2⟩ := hs (Fin.last n) s1 p1
    exact ⟨s2, by rw [loopM_succ, h1]; exact h2, p2⟩

/-- Partial-correctness version: if the loop succeeds then the invariant holds at the end. -/
theorem loopM_induct_ok (P : Nat → σ → Prop) {n : Nat} (body : Fin n → σ → Run σ) (s s' : σ)
    (h0 : P 0 s) (hs : ∀ (i : Fin n) s s1, P i s → body i s = .ok s1 → P (i + 1) s1)
    (h : loopM body s = .ok s') : P n s' := by
  induction n generalizing s' with
  | zero => rw [loopM_zero] at h; cases h; exact h0
  | succ n ih =>
    rw [loopM_succ] at h
    cases h1 : loopM (fun i => body i.castSucc) s with
    | error e => rw [h1] at h; cases h
    | ok s1 =>
      rw [h1] at h
      exact hs (Fin.last n) s1 s' (ih _ _ (fun i s s1 p q => hs i.castSucc s s1 p q) h1) h

theorem loop_congr {n : Nat} {b1 b2 : Fin n → σ → σ} (h : ∀ i s, b1 i s = b2 i s) (s : σ) :
    loop b1 s = loop b2 s := by
  have : b1 = b2 := by funext i s; exact h i s
  rw [this]

theorem loopM_pure {n : Nat} (b : Fin n → σ → σ) (s : σ) :
    loopM (fun i s => .ok (b i s)) s = .ok (loop b s) := by
  induction n with
  | zero => rw [loopM_zero, loop_zero]
  | succ n ih => rw [loopM_succ, loop_succ, ih]; rfl

end Loops

theorem buildM_eq_ok {α : Type} {n : Nat} {f : Fin n → Run α} {a : Arr n α} :
    buildM f = .ok a ↔ ∀ i, f i = .ok (a i) := by
  induction n with
  | zero =>
    constructor
    · intro _ i; exact i.elim0
    · intro _; simp only [buildM]; congr 1; funext i; exact i.elim0
  | succ n ih =>
    constructor
    · intro h
      rw [buildM] at h
      cases h0 : f 0 with
      | error e => rw [h0] at h; cases h
      | ok x =>
        rw [h0] at h
        cases h1 : buildM (fun i => f i.succ) with
        | error e => simp only [h1] at h; cases h
        | ok t =>
          simp only [h1] at h
          injection h with h
          subst h
          intro i
          refine Fin.cases ?_ ?_ i
          · simpa using h0
          · intro j; simpa using (ih.mp h1) j
    · intro h
      rw [buildM, h 0]
      have := (ih (f := fun i => f i.succ) (a := fun i => a i.succ)).mpr (fun i => h i.succ)
      simp only [this]
      show Except.ok _ = Except.ok _
      congr 1
      funext i
      refine Fin.cases ?_ ?_ i <;> simp

theorem buildM_ok {α : Type} {n : Nat} {f : Fin n → Run α} (g : Fin n → α)
    (h : ∀ i, f i = .ok (g i)) : buildM f = .ok g := buildM_eq_ok.mpr h

theorem buildM_exists {α : Type} {n : Nat} {f : Fin n → Run α} (h : ∀ i, ∃ x, f i = .ok x) :
    ∃ a, buildM f = .ok a := by
  exact ⟨fun i => Classical.choose (h i), buildM_ok _ (fun i => Classical.choose_spec (h i))⟩

theorem buildM_exists_imp {α : Type} {n : Nat} {f : Fin n → Run α} {a} (h : buildM f = .ok a) (i) :
    f i = .ok (a i) := buildM_eq_ok.mp h i

@[simp] theorem Arr.set_same {n : Nat} {α : Type} (a : Arr n α) (i : Fin n) (x : α) :
    a.set i x i = x := by simp [Arr.set]

theorem Arr.set_ne {n : Nat} {α : Type} (a : Arr n α) {i j : Fin n} (x : α) (h : j ≠ i) :
    a.set i x j = a j := by simp [Arr.set, h]

theorem Run.bind_eq_ok {α β : Type} {x : Run α} {f : α → Run β} {b : β} :
    (x >>= f) = .ok b ↔ ∃ a, x = .ok a ∧ f a = .ok b := by
  cases x with
  | error e => constructor
               · intro h; cases h
               · rintro ⟨a, h, _⟩; cases h
  | ok a => constructor
            · intro h; exact ⟨a, rfl, h⟩
            · rintro ⟨a', h, h2⟩; cases h; exact h2

@[simp] theorem Run.ok_bind {α β : Type} (a : α) (f : α → Run β) :
    ((Except.ok a : Run α) >>= f) = f a := rfl

@[simp] theorem Run.error_bind {α β : Type} (e : Fault) (f : α → Run β) :
    ((Except.error e : Run α) >>= f) = .error e := rfl

/-- The fault of a run, if any (for evaluating concrete runs). -/
def Run.fault? {α : Type} : Run α → Option Fault
  | .ok _ => none
  | .error f => some f

theorem Run.eq_error_of_fault {α : Type} {x : Run α} {f : Fault} (h : Run.fault? x = some f) :
    x = .error f := by
  cases x with
  | ok a => cases h
  | error g => injection h with h; rw [h]

theorem cint_eq_ok {x y : Int} : cint x = .ok y ↔ (-2147483648 ≤ x ∧ x ≤ 2147483647) ∧ y = x := by
  unfold cint
  split
  · rename_i h
    constructor
    · intro e; injection e with e; exact ⟨h, e.symm⟩
    · rintro ⟨_, rfl⟩; rfl
  · rename_i h
    constructor
    · intro e; cases e
    · rintro ⟨h', _⟩; exact absurd h' h

theorem cint_ok {x : Int} (h1 : -2147483648 ≤ x) (h2 : x ≤ 2147483647) : cint x = .ok x :=
  cint_eq_ok.mpr ⟨⟨h1, h2⟩, rfl⟩

theorem Arr.read_ok {n : Nat} {α : Type} (a : Arr n α) {k : Nat} (h : k < n) :
    a.read k = .ok (a ⟨k, h⟩) := by simp [Arr.read, h]

theorem Arr.write_ok {n : Nat} {α : Type} (a : Arr n α) {k : Nat} (x : α) (h : k < n) :
    a.write k x = .ok (a.set ⟨k, h⟩ x) := by simp [Arr.write, h]

end Verif
