import Verif.Spec.Hardware
import Verif.Proofs.Insert
import Mathlib.Data.List.Perm.Subperm
import Verif.Proofs.SimpleVtx
/-! # Clocked registers, adders and pipelined memories -/
namespace Verif
open Spec

theorem Arr.set_eq_self {n : Nat} {α : Type} (a : Arr n α) (i : Fin n) : a.set i (a i) = a := by
  funext j
  by_cases h : j = i
  · rw [h, Arr.set_same]
  · rw [Arr.set_ne _ _ h]

/-- A descending loop whose step `i` writes cell `i` from cells `i` and `i - 1` is one clock edge. -/
theorem loopDown_tick {X T : Type} {n : Nat} (cell : X → T → Option T → T) (x : X) (step : Fin n → Arr n T → Arr n T)
    (hstep : ∀ i a, step i a = a.set i (cell x (a i) (if h : i.val = 0 then none else some (a ⟨i.val - 1, by omega⟩))))
    (a : Arr n T) : loopDown step a = tick cell x a := by
  apply loopDown_pointwise
  · intro i a j hj
    rw [hstep]
    exact Arr.set_ne _ _ hj
  · intro i a b hab
    rw [hstep, Arr.set_same]
    unfold tick
    rw [hab i (le_refl _)]
    by_cases h : i.val = 0
    · rw [dif_pos h, dif_pos h]
    · rw [dif_neg h, dif_neg h, hab ⟨i.val - 1, by omega⟩ (by simp only []; omega)]

/-! ### Adders -/

theorem adders_output {n w : Nat} (f : Fin n → BitVec w) (t : Adders n) :
    t.output f = (t.inputs.map f).foldr (· + ·) 0 := by
  have app : ∀ l r : List (BitVec w), (l ++ r).foldr (· + ·) 0 = l.foldr (· + ·) 0 + r.foldr (· + ·) 0 := by
    intro l r
    induction l with
    | nil => simp
    | cons x l ih => simp only [List.cons_append, List.foldr_cons, ih, BitVec.add_assoc]
  induction t with
  | input i => simp [Adders.output, Adders.inputs]
  | add l r hl hr => rw [Adders.output, Adders.inputs, List.map_append, app, hl, hr]

theorem foldr_add_perm {w : Nat} {l l' : List (BitVec w)} (h : l.Perm l') : l.foldr (· + ·) 0 = l'.foldr (· + ·) 0 := by
  induction h with
  | nil => rfl
  | cons x _ ih => simp only [List.foldr_cons, ih]
  | swap x y l => simp only [List.foldr_cons]; rw [← BitVec.add_assoc, ← BitVec.add_assoc, BitVec.add_comm y x]
  | trans _ _ h1 h2 => exact h1.trans h2

theorem foldl_add_foldr {w : Nat} (l : List (BitVec w)) (z : BitVec w) : l.foldl (· + ·) z = z + l.foldr (· + ·) 0 := by
  induction l generalizing z with
  | nil => simp
  | cons x l ih => simp only [List.foldl_cons, List.foldr_cons, ih, BitVec.add_assoc]

theorem reg_add {w : Nat} (a b : BitVec w) : reg w (a.toInt + b.toInt) = a + b := by
  unfold reg
  rw [BitVec.ofInt_add, BitVec.ofInt_toInt, BitVec.ofInt_toInt]

/-- A loop that accumulates in a register is any complete tree of adders. -/
theorem loop_adders {n w : Nat} (body : Fin n → BitVec w → BitVec w) (f : Fin n → BitVec w)
    (hb : ∀ i s, body i s = s + f i) (t : Adders n) (ht : t.Complete) : loop body 0 = t.output f := by
  rw [adders_output, foldr_add_perm (ht.map f)]
  unfold loop
  rw [show (fun s i => body i s) = (fun s i => s + f i) from funext fun s => funext fun i => hb i s]
  rw [← List.foldl_map (f := f) (g := (· + ·)), foldl_add_foldr]
  exact BitVec.zero_add _

/-! ### Pipelines -/

variable {n : Nat} {T : Type}

theorem written_spec {II lat k j : Nat} (hj : j < k) (h : written II lat k ≤ j) : II * k ≤ II * j + lat := by
  by_contra hc
  have hsub : List.range (j + 1) ⊆ (List.range k).filter (fun j => decide (II * j + lat < II * k)) := by
    intro i hi
    have hi : i < j + 1 := List.mem_range.mp hi
    rw [List.mem_filter]
    refine ⟨List.mem_range.mpr (by omega), decide_eq_true ?_⟩
    have : II * i ≤ II * j := Nat.mul_le_mul_left _ (by omega)
    omega
  have := (List.subperm_of_subset (List.nodup_range (n := j + 1)) hsub).length_le
  rw [List.length_range] at this
  unfold written at h
  omega

theorem pipeline_skip {II lat : Nat} {calls : List (Option (Access n T))} {h : Fin n → T} {b : Fin n} {m m' : Nat} (hm : m' ≤ m)
    (hno : ∀ j c, m' ≤ j → j < m → calls[j]? = some (some c) → c.addr ≠ b) :
    pipeline II lat calls h m b = pipeline II lat calls h m' b := by
  induction m with
  | zero => rw [show m' = 0 by omega]
  | succ m ih =>
    by_cases e : m' = m + 1
    · rw [e]
    · rw [← ih (by omega) (fun j c h1 h2 => hno j c h1 (by omega))]
      rw [pipeline]
      split
      · rename_i c hc
        exact if_neg (fun h => hno m c (by omega) (by omega) hc h.symm)
      · rfl

/-- If no two calls in flight together touch the same address, the pipeline does what the program says. -/
theorem pipeline_sequential {II lat : Nat} {calls : List (Option (Access n T))} (h : Fin n → T)
    (hz : ∀ j k c d, Overlap II lat j k → calls[j]? = some (some c) → calls[k]? = some (some d) → c.addr ≠ d.addr) :
    pipeline II lat calls h calls.length = sequential calls h := by
  have key : ∀ m, m ≤ calls.length → pipeline II lat calls h m = sequential (calls.take m) h := by
    intro m
    induction m with
    | zero => intro _; rw [pipeline]; rfl
    | succ m ih =>
      intro hm
      have ih := ih (by omega)
      have hget : calls[m]? = some calls[m] := List.getElem?_eq_getElem (by omega)
      rw [List.take_succ, hget]
      unfold sequential
      rw [List.foldl_append]
      show _ = access (sequential (calls.take m) h) calls[m]
      rw [← ih]
      funext b
      rw [pipeline]
      cases hc : calls[m] with
      | none => rw [hget, hc]; rfl
      | some c =>
        rw [hget, hc]
        show (if b = c.addr then _ else _) = if b = c.addr then c.f (pipeline II lat calls h m c.addr) else _
        rw [pipeline_skip (b := c.addr) (m := m) (m' := min m (written II lat m)) (Nat.min_le_left _ _)]
        intro j d h1 h2 hd
        exact hz j m d c ⟨h2, written_spec h2 (by omega)⟩ hd (by rw [hget, hc])
  rw [key _ (le_refl _), List.take_length]

/-! ### The reduction of the vertex finder -/

theorem level_edge {N k P : Nat} (hN : N = 2 ^ P) (hkP : k < P) (hk : k ≤ 5) (rows : Arr N VtxHist) :
    ∃ rows', vtx_level k rows = .ok rows' ∧ ∀ i : Fin N,
      (∀ h : i.val + 2 ^ k < N, 2 ^ (k + 1) ∣ i.val → rows' i = fun j =>
        ((rows i j).1 + (rows ⟨i.val + 2 ^ k, h⟩ j).1, (rows i j).2 + (rows ⟨i.val + 2 ^ k, h⟩ j).2)) ∧
      (2 ^ (k + 1) ∣ i.val → i.val + 2 ^ k < N) ∧ (¬ 2 ^ (k + 1) ∣ i.val → rows' i = rows i) := by
  have hp : (reg 7 ((2 ^ k : Nat) : Int)).toInt = ((2 ^ k : Nat) : Int) := by
    have : k < 6 := by omega
    interval_cases k <;> rfl
  have hc : cint ((2 ^ k : Nat) : Int) = .ok ((2 ^ k : Nat) : Int) := by
    have : k < 6 := by omega
    interval_cases k <;> rfl
  have h1 : 0 < 2 ^ k := Nat.two_pow_pos k
  have hdvd : 2 ^ (k + 1) ∣ N := by rw [hN]; exact Nat.pow_dvd_pow 2 (by omega)
  obtain ⟨q, hq⟩ := hdvd
  have hpk : 2 ^ (k + 1) = 2 ^ k * 2 := pow_succ 2 k
  have hin : ∀ t, 2 ^ (k + 1) * t < N → 2 ^ (k + 1) * t + 2 ^ k < N := by
    intro t ht
    have htq : t < q := Nat.lt_of_mul_lt_mul_left (lt_of_lt_of_eq ht hq)
    have : 2 ^ (k + 1) * (t + 1) ≤ 2 ^ (k + 1) * q := Nat.mul_le_mul_left _ htq
    rw [← hq, Nat.mul_add, hpk] at this
    rw [hpk]
    omega
  have hodd : ∀ t t', 2 ^ (k + 1) * t + 2 ^ k ≠ 2 ^ (k + 1) * t' := by
    intro t t' e
    rw [hpk] at e
    have : 2 ^ k * (2 * t + 1) = 2 ^ k * (2 * t') := by
      rw [Nat.mul_add, ← Nat.mul_assoc, Nat.mul_one, ← Nat.mul_assoc]; exact e
    have := Nat.eq_of_mul_eq_mul_left h1 this
    omega
  obtain ⟨rows', e1, e2, e3⟩ := loopM_induct (n := N)
    (fun m (r : Arr N VtxHist) =>
      (∀ i : Fin N, ∀ t, i.val = 2 ^ (k + 1) * t → t < m → ∀ h : i.val + 2 ^ k < N, r i = fun j =>
        ((rows i j).1 + (rows ⟨i.val + 2 ^ k, h⟩ j).1, (rows i j).2 + (rows ⟨i.val + 2 ^ k, h⟩ j).2)) ∧
      (∀ i : Fin N, (∀ t, i.val = 2 ^ (k + 1) * t → m ≤ t) → r i = rows i))
    (fun (m : Fin N) r =>
      if (m.val : Int) * ((reg 7 ((2 ^ k : Nat) : Int)).toInt * 2) < N then
        vtx_add_row r ((m.val : Int) * ((reg 7 ((2 ^ k : Nat) : Int)).toInt * 2)) (reg 7 ((2 ^ k : Nat) : Int)).toInt
      else .ok r) rows
    ⟨fun _ t _ ht => absurd ht (by omega), fun _ _ => rfl⟩
    (by
      rintro m r ⟨g1, g2⟩
      rw [hp]
      have hidx : (m.val : Int) * (((2 ^ k : Nat) : Int) * 2) = ((2 ^ (k + 1) * m.val : Nat) : Int) := by
        rw [hpk]; push_cast; ring
      rw [hidx]
      by_cases hlt : ((2 ^ (k + 1) * m.val : Nat) : Int) < N
      · rw [if_pos hlt]
        have hlt' : 2 ^ (k + 1) * m.val < N := by exact_mod_cast hlt
        rw [add_row_ok r (hin _ hlt')]
        refine ⟨_, rfl, ?_, ?_⟩
        · intro i t hit htm hh
          by_cases e : i = ⟨2 ^ (k + 1) * m.val, by omega⟩
          · subst e
            rw [Arr.set_same]
            have a1 : r ⟨2 ^ (k + 1) * m.val, hlt'⟩ = rows ⟨2 ^ (k + 1) * m.val, hlt'⟩ :=
              g2 _ (fun t' ht' => le_of_eq (Nat.eq_of_mul_eq_mul_left (Nat.two_pow_pos _) ht'))
            have a2 : r ⟨2 ^ (k + 1) * m.val + 2 ^ k, hh⟩ = rows ⟨2 ^ (k + 1) * m.val + 2 ^ k, hh⟩ :=
              g2 _ (fun t' ht' => absurd ht' (hodd _ _))
            funext j
            rw [a1, a2, reg_add, reg_add]
          · rw [Arr.set_ne _ _ e]
            have : t ≠ m.val := fun ht => e (Fin.ext (by rw [hit, ht]))
            exact g1 i t hit (by omega) hh
        · intro i ht
          have e : i ≠ ⟨2 ^ (k + 1) * m.val, by omega⟩ := by
            intro e
            have := ht m.val (by rw [e])
            omega
          rw [Arr.set_ne _ _ e]
          exact g2 i (fun t' ht' => by have := ht t' ht'; omega)
      · rw [if_neg hlt]
        have hge : N ≤ 2 ^ (k + 1) * m.val := by
          by_contra hcon
          exact hlt (by exact_mod_cast Nat.lt_of_not_le hcon)
        refine ⟨r, rfl, ?_, ?_⟩
        · intro i t hit htm hh
          have : t ≠ m.val := by
            intro e
            have := i.isLt
            rw [hit, e] at this
            omega
          exact g1 i t hit (by omega) hh
        · intro i ht
          exact g2 i (fun t' ht' => by have := ht t' ht'; omega))
  refine ⟨rows', ?_, fun i => ⟨?_, ?_, ?_⟩⟩
  · unfold vtx_level
    rw [hc, Run.ok_bind]
    exact e1
  · rintro h ⟨t, ht⟩
    refine e2 i t ht ?_ h
    have h2 : t ≤ 2 ^ (k + 1) * t := Nat.le_mul_of_pos_left _ (Nat.two_pow_pos _)
    have := i.isLt
    omega
  · rintro ⟨t, ht⟩
    have := i.isLt
    rw [ht] at this ⊢
    exact hin t this
  · intro hn
    exact e3 i (fun t ht => absurd ⟨t, ht⟩ hn)

end Verif
