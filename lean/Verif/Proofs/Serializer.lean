import Verif.Spec.Pattern
import Verif.Proofs.Basic
import Mathlib.Data.BitVec
import Mathlib.Tactic.Ring
import Mathlib.Tactic.IntervalCases
/-! # Pattern files -/
namespace Verif
open Spec

/-! ### Fillers -/

theorem filler_eq (magic : Bool) (p k : Nat) : mp7_filler magic (BitVec.ofNat 32 p) k = filler magic p k := by
  funext j
  unfold mp7_filler filler
  cases magic with
  | false => rfl
  | true =>
    simp only [if_true]
    apply BitVec.eq_of_getLsbD_eq
    intro i hi
    have hi' : i < 32 := hi
    simp only [BitVec.getLsbD_or, BitVec.getLsbD_and, BitVec.getLsbD_shiftLeft, BitVec.getLsbD_append, BitVec.getLsbD_ofNat]
    interval_cases i <;> simp [Nat.testBit]

/-! ### Words -/

theorem evWord_append_left {P : List MP7Event} {ev : MP7Event} {e w : Nat} (h : e < P.length) :
    evWord (P ++ [ev]) e w = evWord P e w := by
  unfold evWord
  rw [List.getElem?_append_left h]

theorem evWord_append_ne {P : List MP7Event} {ev : MP7Event} {e w : Nat} (h : e ≠ P.length) :
    evWord (P ++ [ev]) e w = evWord P e w := by
  rcases Nat.lt_or_gt_of_ne h with h | h
  · exact evWord_append_left h
  · unfold evWord
    rw [List.getElem?_eq_none (by simp; omega), List.getElem?_eq_none (by omega)]

theorem evWord_append_eq {P : List MP7Event} {ev : MP7Event} {w : Nat} (h : w < 144) :
    evWord (P ++ [ev]) P.length w = ev ⟨w, h⟩ := by
  unfold evWord
  rw [List.getElem?_append_right (le_refl _), Nat.sub_self]
  simp only [List.getElem?_cons_zero]
  rw [dif_pos h]

theorem evWord_none {P : List MP7Event} {e w : Nat} (h : P.length ≤ e) : evWord P e w = 0 := by
  unfold evWord
  rw [List.getElem?_eq_none h]

section
variable {n : Nat}

theorem mp7_print_ok (c : MP7Conf) (hl : c.nlinks ≤ 144) (f : BitVec 32) (ev : MP7Event) (s : MP7State n) :
    mp7_print c f ev s = .ok { s with rows := s.rows ++ [(f, (List.range c.nlinks).map
      fun i => if h : i < 144 then ev ⟨i, h⟩ else 0)] } := by
  unfold mp7_print
  rw [buildM_ok (fun i : Fin c.nlinks => ev ⟨i.val, lt_of_lt_of_le i.isLt hl⟩)
    (fun i => Arr.read_ok ev (lt_of_lt_of_le i.isLt hl)), Run.ok_bind]
  congr 5
  apply List.ext_getElem
  · simp
  · intro i h1 h2
    rw [List.length_ofFn] at h1
    rw [List.getElem_ofFn, List.getElem_map, List.getElem_range, dif_pos (lt_of_lt_of_le h1 hl)]

theorem mp7_print_oob (c : MP7Conf) (hl : 144 < c.nlinks) (f : BitVec 32) (ev : MP7Event) (s : MP7State n) :
    ∀ s', mp7_print c f ev s ≠ .ok s' := by
  intro s' h
  unfold mp7_print at h
  obtain ⟨w, h1, _⟩ := Run.bind_eq_ok.mp h
  have := buildM_exists_imp h1 ⟨144, hl⟩
  unfold Arr.read at this
  rw [dif_neg (by simp)] at this
  cases this

theorem mp7_flush_ok (c : MP7Conf) (hl : c.nlinks ≤ 144) (s : MP7State n) :
    mp7_flush c s = .ok { ipattern := s.ipattern, buffer := fun _ _ => 0, rows := s.rows ++
      (List.finRange n).map fun im => (s.ipattern - BitVec.ofNat 32 n + 1 + BitVec.ofNat 32 im.val,
        (List.range c.nlinks).map fun i => if h : i < 144 then s.buffer im ⟨i, h⟩ else 0) } := by
  obtain ⟨s', e1, e2, e3, e4⟩ := loopM_induct (n := n)
    (fun m (t : MP7State n) => t.ipattern = s.ipattern ∧ t.buffer = s.buffer ∧ t.rows = s.rows ++
      ((List.finRange n).take m).map fun im => (s.ipattern - BitVec.ofNat 32 n + 1 + BitVec.ofNat 32 im.val,
        (List.range c.nlinks).map fun i => if h : i < 144 then s.buffer im ⟨i, h⟩ else 0))
    (fun (im : Fin n) (s : MP7State n) =>
      mp7_print c (s.ipattern - BitVec.ofNat 32 n + 1 + BitVec.ofNat 32 im.val) (s.buffer im) s) s
    ⟨rfl, rfl, by simp⟩
    (by
      rintro i t ⟨h1, h2, h3⟩
      refine ⟨_, mp7_print_ok c hl _ _ _, h1, h2, ?_⟩
      show t.rows ++ _ = _
      rw [h3, List.take_succ_eq_append_getElem (by rw [List.length_finRange]; exact i.isLt), List.map_append,
        List.append_assoc, h1, h2]
      simp)
  unfold mp7_flush
  rw [e1, Run.ok_bind, e2, e4, List.take_of_length_le (by simp)]

/-- Filling the buffer. -/
theorem mp7_fill (nch imux : Nat) (hn : n * nch = 144) (him : imux < n) (ev : MP7Event) (b0 : Arr n MP7Event) :
    ∃ st : Arr n MP7Event × Nat, loopM (fun (ic : Fin nch) (st : Arr n MP7Event × Nat) =>
      loopM (fun (im : Fin n) (st : Arr n MP7Event × Nat) => do
        let x ← ev.read st.2
        let row ← (st.1 im).write (imux * nch + ic.val) x
        .ok (st.1.set im row, st.2 + 1)) st) (b0, 0) = .ok st ∧
      ∀ (a : Fin n) (j : Fin 144), st.1 a j =
        if j.val / nch = imux then (if h : (j.val % nch) * n + a.val < 144 then ev ⟨_, h⟩ else 0) else b0 a j := by
  let I : Nat → Nat → Arr n MP7Event × Nat → Prop := fun c m st => st.2 = c * n + m ∧
    ∀ (a : Fin n) (j : Fin 144), st.1 a j =
      if j.val / nch = imux ∧ (j.val % nch < c ∨ j.val % nch = c ∧ a.val < m) then
        (if h : (j.val % nch) * n + a.val < 144 then ev ⟨_, h⟩ else 0) else b0 a j
  obtain ⟨st, e1, e2, e3⟩ := loopM_induct (n := nch) (fun c st => I c 0 st)
    (fun (ic : Fin nch) (st : Arr n MP7Event × Nat) =>
      loopM (fun (im : Fin n) (st : Arr n MP7Event × Nat) => do
        let x ← ev.read st.2
        let row ← (st.1 im).write (imux * nch + ic.val) x
        .ok (st.1.set im row, st.2 + 1)) st) (b0, 0)
    ⟨by simp, fun a j => by rw [if_neg (by omega)]⟩
    (by
      intro ic st hst
      obtain ⟨st', f1, f2, f3⟩ := loopM_induct (n := n) (fun m st => I ic.val m st)
        (fun (im : Fin n) (st : Arr n MP7Event × Nat) => do
          let x ← ev.read st.2
          let row ← (st.1 im).write (imux * nch + ic.val) x
          .ok (st.1.set im row, st.2 + 1)) st hst
        (by
          rintro im st ⟨h1, h2⟩
          have hb : ic.val * n + im.val < 144 := by
            have hi := ic.isLt
            have hm := im.isLt
            calc ic.val * n + im.val < ic.val * n + n := by omega
              _ = (ic.val + 1) * n := by ring
              _ ≤ nch * n := Nat.mul_le_mul_right _ hi
              _ = 144 := by rw [Nat.mul_comm]; exact hn
          have hw : imux * nch + ic.val < 144 := by
            have hi := ic.isLt
            calc imux * nch + ic.val < imux * nch + nch := by omega
              _ = (imux + 1) * nch := by ring
              _ ≤ n * nch := Nat.mul_le_mul_right _ him
              _ = 144 := hn
          have hi := ic.isLt
          have hdiv : (imux * nch + ic.val) / nch = imux := by
            rw [Nat.mul_comm, Nat.mul_add_div (by omega), Nat.div_eq_of_lt hi, Nat.add_zero]
          have hmod : (imux * nch + ic.val) % nch = ic.val := by
            rw [Nat.mul_comm, Nat.mul_add_mod, Nat.mod_eq_of_lt hi]
          rw [h1, Arr.read_ok ev hb, Run.ok_bind, Arr.write_ok _ _ hw, Run.ok_bind]
          refine ⟨_, rfl, by simp only []; omega, fun a j => ?_⟩
          simp only []
          by_cases ha : a = im
          · subst ha
            rw [Arr.set_same]
            by_cases hj : j.val = imux * nch + ic.val
            · have : j = ⟨imux * nch + ic.val, hw⟩ := Fin.ext hj
              rw [this, Arr.set_same, if_pos ⟨hdiv, Or.inr ⟨hmod, by omega⟩⟩]
              simp only [hmod]
              rw [dif_pos hb]
            · rw [Arr.set_ne _ _ (fun x => hj (congrArg Fin.val x)), h2]
              by_cases hc : j.val / nch = imux ∧ j.val % nch = ic.val
              · exfalso
                apply hj
                have := Nat.div_add_mod j.val nch
                rw [hc.1, hc.2, Nat.mul_comm] at this
                exact this.symm
              · congr 1
                apply propext
                constructor
                · rintro ⟨p, q⟩; exact ⟨p, by omega⟩
                · rintro ⟨p, q⟩
                  refine ⟨p, ?_⟩
                  rcases q with q | q
                  · exact Or.inl q
                  · exact absurd ⟨p, q.1⟩ hc
          · have hav : a.val ≠ im.val := fun x => ha (Fin.ext x)
            rw [Arr.set_ne _ _ ha, h2]
            congr 1
            apply propext
            constructor <;> rintro ⟨p, q⟩ <;> exact ⟨p, by omega⟩)
      refine ⟨st', f1, ?_, fun a j => ?_⟩
      · rw [f2]; ring
      · rw [f3]
        have := a.isLt
        congr 1
        apply propext
        constructor <;> rintro ⟨p, q⟩ <;> exact ⟨p, by omega⟩)
  refine ⟨st, e1, fun a j => ?_⟩
  rw [e3]
  congr 1
  have : 0 < nch := by
    rcases Nat.eq_zero_or_pos nch with h | h
    · rw [h] at hn; omega
    · exact h
  have := Nat.mod_lt j.val this
  apply propext
  constructor
  · exact fun h => h.1
  · exact fun h => ⟨h, Or.inl (by assumption)⟩

/-- The state after writing the events `P`. -/
structure MP7Inv (c : MP7Conf) (P : List MP7Event) (s : MP7State n) : Prop where
  ip : s.ipattern = BitVec.ofNat 32 P.length
  buf : c.nmux ≠ 1 → ∀ (a : Fin n) (j : Fin 144), s.buffer a j =
    evWord P (P.length / n * n + j.val / (144 / n)) ((j.val % (144 / n)) * n + a.val)
  rows : s.rows = (List.range (P.length / n * n)).map fun r => (BitVec.ofNat 32 r, rowWords n c.nlinks P r)

theorem rowWords_append {nl : Nat} (hn : n * (144 / n) = 144) (hl : nl ≤ 144) (P : List MP7Event) (ev : MP7Event) (r : Nat)
    (hr : (r / n + 1) * n ≤ P.length) : rowWords n nl (P ++ [ev]) r = rowWords n nl P r := by
  unfold rowWords
  apply List.map_congr_left
  intro i hi
  have hi' := List.mem_range.mp hi
  have : i / (144 / n) < n := by
    apply Nat.div_lt_of_lt_mul
    rw [Nat.mul_comm, hn]; omega
  apply evWord_append_left
  calc r / n * n + i / (144 / n) < r / n * n + n := by omega
    _ = (r / n + 1) * n := by ring
    _ ≤ P.length := hr

theorem rows_append {nl : Nat} (hn : n * (144 / n) = 144) (hl : nl ≤ 144) (P : List MP7Event) (ev : MP7Event) :
    (List.range (P.length / n * n)).map (fun r => (BitVec.ofNat 32 r, rowWords n nl (P ++ [ev]) r)) =
      (List.range (P.length / n * n)).map fun r => (BitVec.ofNat 32 r, rowWords n nl P r) := by
  apply List.map_congr_left
  intro r hr
  have hr' := List.mem_range.mp hr
  rw [rowWords_append hn hl]
  calc (r / n + 1) * n ≤ (P.length / n) * n := Nat.mul_le_mul_right _ (Nat.div_lt_of_lt_mul (by rw [Nat.mul_comm]; exact hr'))
    _ ≤ P.length := Nat.div_mul_le_self _ _

theorem succ_div_cases (L : Nat) (hn0 : 0 < n) :
    (L % n = n - 1 ∧ L = L / n * n + (n - 1) ∧ (L + 1) / n = L / n + 1) ∨
    (L % n ≠ n - 1 ∧ L % n + 1 < n ∧ (L + 1) / n = L / n) := by
  have hm := Nat.mod_lt L hn0
  have hd := Nat.div_add_mod L n
  by_cases h : L % n = n - 1
  · left
    refine ⟨h, ?_, ?_⟩
    · rw [← h, Nat.mul_comm]; exact hd.symm
    · have : L + 1 = n * (L / n + 1) := by rw [Nat.mul_add, Nat.mul_one]; rw [h] at hd; omega
      rw [this, Nat.mul_div_cancel_left _ hn0]
  · right
    refine ⟨h, by omega, ?_⟩
    have : L + 1 = n * (L / n) + (L % n + 1) := by omega
    rw [this, Nat.mul_add_div hn0, Nat.div_eq_of_lt (show L % n + 1 < n by omega), Nat.add_zero]

theorem mp7_emit_ok (c : MP7Conf) (hc : c.nmux = n) (hc2 : c.nchann = 144 / n) (hn0 : 0 < n) (hn : n * (144 / n) = 144)
    (hl : c.nlinks ≤ 144) {P : List MP7Event} {s : MP7State n} (hs : MP7Inv c P s) (hP : P.length < 2 ^ 32) (ev : MP7Event) :
    ∃ s', mp7_emit c ev s = .ok s' ∧ MP7Inv c (P ++ [ev]) s' := by
  have hip : ∀ x : BitVec 32, x = BitVec.ofNat 32 P.length → x + 1 = BitVec.ofNat 32 (P ++ [ev]).length := by
    intro x hx
    rw [hx, List.length_append, List.length_singleton, BitVec.ofNat_add]
    rfl
  unfold mp7_emit
  by_cases h1 : c.nmux = 1
  · rw [if_pos h1, mp7_print_ok c hl, Run.ok_bind]
    refine ⟨_, rfl, hip _ hs.ip, fun h => absurd h1 h, ?_⟩
    have hn1 : n = 1 := by omega
    show s.rows ++ _ = _
    have hra := rows_append (nl := c.nlinks) hn hl P ev
    subst hn1
    rw [hs.rows, ← hra, List.length_append, List.length_singleton, Nat.div_one, Nat.mul_one, Nat.div_one, Nat.mul_one,
      List.range_succ, List.map_append, List.map_singleton, hs.ip]
    congr 3
    unfold rowWords
    apply List.map_congr_left
    intro i hi
    have hi' := List.mem_range.mp hi
    rw [dif_pos (show i < 144 by omega)]
    have e1 : P.length / 1 * 1 + i / (144 / 1) = P.length := by
      rw [Nat.div_one, Nat.div_one, Nat.div_eq_of_lt (by omega)]; omega
    have e2 : i % (144 / 1) * 1 + P.length % 1 = i := by
      rw [Nat.div_one, Nat.mod_eq_of_lt (by omega)]; omega
    rw [e1, e2, evWord_append_eq (by omega)]
  · rw [if_neg h1]
    unfold mp7_push
    have htn : s.ipattern.toNat = P.length := by rw [hs.ip, BitVec.toNat_ofNat, Nat.mod_eq_of_lt hP]
    have hmux : P.length % n < n := Nat.mod_lt _ hn0
    obtain ⟨st, f1, f2⟩ := mp7_fill c.nchann (P.length % n) (by rw [hc2]; exact hn) hmux ev s.buffer
    simp only [htn]
    rw [f1, Run.ok_bind]
    rw [hc2] at f2
    have hlen : (P ++ [ev]).length = P.length + 1 := by simp
    -- the new buffer
    have hbuf : ∀ (a : Fin n) (j : Fin 144), st.1 a j =
        evWord (P ++ [ev]) (P.length / n * n + j.val / (144 / n)) ((j.val % (144 / n)) * n + a.val) := by
      intro a j
      rw [f2 a j]
      have hdm := Nat.div_add_mod P.length n
      have hnc : 0 < 144 / n := by
        rcases Nat.eq_zero_or_pos (144 / n) with h | h
        · rw [h] at hn; omega
        · exact h
      have hw : (j.val % (144 / n)) * n + a.val < 144 := by
        have h1 := Nat.mod_lt j.val hnc
        have h2 := a.isLt
        calc (j.val % (144 / n)) * n + a.val < (j.val % (144 / n)) * n + n := by omega
          _ = (j.val % (144 / n) + 1) * n := by ring
          _ ≤ (144 / n) * n := Nat.mul_le_mul_right _ h1
          _ = 144 := by rw [Nat.mul_comm]; exact hn
      by_cases hj : j.val / (144 / n) = P.length % n
      · rw [if_pos hj, dif_pos hw, hj]
        have : P.length / n * n + P.length % n = P.length := by rw [Nat.mul_comm]; exact hdm
        rw [this, evWord_append_eq hw]
      · rw [if_neg hj, hs.buf h1 a j, evWord_append_ne]
        rw [Nat.mul_comm]; omega
    rcases succ_div_cases P.length hn0 with ⟨h2, h3, h4⟩ | ⟨h2, h3, h4⟩
    · rw [if_pos h2, mp7_flush_ok c hl, Run.ok_bind]
      have hfull : (P ++ [ev]).length / n * n = P.length / n * n + n := by
        rw [hlen, h4]; ring
      refine ⟨_, rfl, hip _ hs.ip, fun _ a j => ?_, ?_⟩
      · show (0 : Word) = _
        rw [evWord_none]
        rw [hfull, hlen]
        exact le_trans (by omega) (Nat.le_add_right _ _)
      · show s.rows ++ _ = _
        rw [hfull, List.range_add, List.map_append, rows_append hn hl, ← hs.rows, List.map_map]
        congr 1
        apply List.ext_getElem
        · simp
        · intro im i1 i2
          have him : im < n := by simpa using i1
          rw [List.getElem_map, List.getElem_map, List.getElem_range]
          simp only [List.getElem_finRange, Fin.cast_mk, Function.comp]
          refine Prod.ext ?_ ?_
          · show s.ipattern - BitVec.ofNat 32 n + 1 + BitVec.ofNat 32 im = BitVec.ofNat 32 (P.length / n * n + im)
            have e1 : BitVec.ofNat 32 P.length + 1 = BitVec.ofNat 32 (P.length / n * n) + BitVec.ofNat 32 n := by
              rw [← BitVec.ofNat_add]
              have : P.length / n * n + n = P.length + 1 := by omega
              rw [this, BitVec.ofNat_add]; rfl
            rw [hs.ip, BitVec.ofNat_add]
            have e2 : BitVec.ofNat 32 P.length - BitVec.ofNat 32 n + 1 = BitVec.ofNat 32 P.length + 1 - BitVec.ofNat 32 n := by ring
            rw [e2, e1]; ring
          · show List.map _ _ = rowWords n c.nlinks _ _
            unfold rowWords
            apply List.map_congr_left
            intro i hi
            have hi' := List.mem_range.mp hi
            have e1 : (P.length / n * n + im) / n = P.length / n := by
              rw [Nat.mul_comm, Nat.mul_add_div hn0, Nat.div_eq_of_lt him, Nat.add_zero]
            have e2 : (P.length / n * n + im) % n = im := by
              rw [Nat.mul_comm, Nat.mul_add_mod, Nat.mod_eq_of_lt him]
            rw [dif_pos (show i < 144 by omega), hbuf, e1, e2]
    · rw [if_neg h2, Run.ok_bind]
      have hfull : (P ++ [ev]).length / n * n = P.length / n * n := by rw [hlen, h4]
      refine ⟨_, rfl, hip _ hs.ip, fun _ a j => ?_, ?_⟩
      · rw [hfull]; exact hbuf a j
      · show s.rows = _
        rw [hfull, rows_append hn hl, hs.rows]

end

/-! ### Streams with fillers -/

theorem stream_nil (m : Nat) (magic : Bool) : stream m magic [] = [] := by
  unfold stream; simp

theorem stream_length (m : Nat) (magic : Bool) (evs : List MP7Event) :
    (stream m magic evs).length = evs.length * (m + 1) := by
  unfold stream; simp

theorem stream_snoc (m : Nat) (magic : Bool) (evs : List MP7Event) (ev : MP7Event) :
    stream m magic (evs ++ [ev]) = stream m magic evs ++ ev ::
      (List.range m).map (fun k => filler magic (evs.length * (m + 1) + 1 + k) k) := by
  unfold stream
  rw [List.length_append, List.length_singleton, Nat.add_mul, Nat.one_mul, List.range_add, List.map_append]
  congr 1
  · apply List.map_congr_left
    intro p hp
    have hp' := List.mem_range.mp hp
    congr 1
    rw [List.getD_eq_getElem?_getD, List.getElem?_append_left (Nat.div_lt_of_lt_mul (by rw [Nat.mul_comm]; exact hp')),
      ← List.getD_eq_getElem?_getD]
  · rw [List.map_map, List.range_succ_eq_map, List.map_cons]
    congr 1
    · simp only [Function.comp, Nat.add_zero, Nat.mul_mod_left, if_true]
      rw [Nat.mul_div_cancel _ (by omega), List.getD_eq_getElem?_getD, List.getElem?_append_right (le_refl _),
        Nat.sub_self]
      rfl
    · rw [List.map_map]
      apply List.map_congr_left
      intro k hk
      have hk' := List.mem_range.mp hk
      simp only [Function.comp]
      have e : (evs.length * (m + 1) + k.succ) % (m + 1) = k + 1 := by
        rw [Nat.mul_comm, Nat.mul_add_mod, Nat.mod_eq_of_lt (by omega)]
      rw [e, if_neg (by omega), Nat.add_sub_cancel]
      congr 1
      omega

section
variable {n : Nat}

theorem mp7_call_ok (c : MP7Conf) (hc : c.nmux = n) (hc2 : c.nchann = 144 / n) (hn0 : 0 < n) (hn : n * (144 / n) = 144)
    (hl : c.nlinks ≤ 144) {evs : List MP7Event} {s : MP7State n} (hs : MP7Inv c (stream c.nempty c.fillmagic evs) s)
    (ev : MP7Event) (hP : (evs.length + 1) * (c.nempty + 1) ≤ 2 ^ 32) :
    ∃ s', mp7_call c ev s = .ok s' ∧ MP7Inv c (stream c.nempty c.fillmagic (evs ++ [ev])) s' := by
  have hP' : evs.length * (c.nempty + 1) + (c.nempty + 1) ≤ 2 ^ 32 := by rw [← Nat.succ_mul]; exact hP
  obtain ⟨s1, e1, e2⟩ := mp7_emit_ok c hc hc2 hn0 hn hl hs (by rw [stream_length]; omega) ev
  unfold mp7_call
  rw [e1, Run.ok_bind]
  obtain ⟨s2, f1, f2⟩ := loopM_induct (n := c.nempty)
    (fun m s => MP7Inv c (stream c.nempty c.fillmagic evs ++ [ev] ++
      (List.range m).map (fun k => filler c.fillmagic (evs.length * (c.nempty + 1) + 1 + k) k)) s)
    (fun (iempty : Fin c.nempty) (s : MP7State n) =>
      mp7_emit c (mp7_filler c.fillmagic s.ipattern iempty.val) s) s1 (by simpa using e2)
    (by
      intro k s hs
      have hk := k.isLt
      have hlen : (stream c.nempty c.fillmagic evs ++ [ev] ++
          (List.range k.val).map (fun k => filler c.fillmagic (evs.length * (c.nempty + 1) + 1 + k) k)).length =
          evs.length * (c.nempty + 1) + 1 + k.val := by simp [stream_length]; omega
      obtain ⟨s', g1, g2⟩ := mp7_emit_ok c hc hc2 hn0 hn hl hs (by rw [hlen]; omega)
        (mp7_filler c.fillmagic s.ipattern k.val)
      refine ⟨s', g1, ?_⟩
      rw [hs.ip, hlen, filler_eq] at g2
      rw [List.range_succ, List.map_append, List.map_singleton, ← List.append_assoc]
      exact g2)
  refine ⟨s2, f1, ?_⟩
  rw [stream_snoc]
  simpa using f2

theorem mp7_calls_ok (c : MP7Conf) (hc : c.nmux = n) (hc2 : c.nchann = 144 / n) (hn0 : 0 < n) (hn : n * (144 / n) = 144)
    (hl : c.nlinks ≤ 144) (more : List MP7Event) : ∀ {evs : List MP7Event} {s : MP7State n},
    MP7Inv c (stream c.nempty c.fillmagic evs) s → (evs.length + more.length) * (c.nempty + 1) ≤ 2 ^ 32 →
    ∃ s', more.foldlM (fun s e => mp7_call c e s) s = .ok s' ∧
      MP7Inv c (stream c.nempty c.fillmagic (evs ++ more)) s' := by
  induction more with
  | nil => intro evs s hs _; exact ⟨s, rfl, by rw [List.append_nil]; exact hs⟩
  | cons e more ih =>
    intro evs s hs hP
    have hle : (evs.length + 1) * (c.nempty + 1) ≤ 2 ^ 32 :=
      le_trans (Nat.mul_le_mul_right _ (by rw [List.length_cons]; omega)) hP
    obtain ⟨s1, e1, e2⟩ := mp7_call_ok c hc hc2 hn0 hn hl hs e hle
    obtain ⟨s2, f1, f2⟩ := ih e2 (by rw [List.length_append, List.length_singleton]; rw [List.length_cons] at hP; rw [show evs.length + 1 + more.length = evs.length + (more.length + 1) by omega]; exact hP)
    refine ⟨s2, ?_, by rw [List.append_assoc] at f2; exact f2⟩
    rw [List.foldlM_cons, e1, Run.ok_bind]
    exact f1

/-- The complete file. -/
theorem mp7_file_eq (nempty : Int) (nlinks : Nat) (hn0 : 0 < n) (hn : 144 % n = 0)
    (hl : nlinks ≤ 144) (evs : List MP7Event) (hP : evs.length * (nempty.natAbs + 1) < 2 ^ 32) :
    let P := stream nempty.natAbs (decide (nempty < 0)) evs
    let nl := if nlinks ≠ 0 then nlinks else 144 / n
    mp7_file n nempty nlinks evs = .ok ((List.range (P.length / n * n)).map (fun r => (BitVec.ofNat 32 r, rowWords n nl P r)) ++
      if P.length % n ≠ 0 then (List.range n).map (fun t =>
        (BitVec.ofNat 32 P.length - BitVec.ofNat 32 n + 1 + BitVec.ofNat 32 t, rowWords n nl P (P.length / n * n + t)))
      else []) := by
  intro P nl
  have hn' : n * (144 / n) = 144 := by have := Nat.div_add_mod 144 n; omega
  have hnl : nl ≤ 144 := by
    show (if nlinks ≠ 0 then nlinks else 144 / n) ≤ 144
    split
    · exact hl
    · exact Nat.div_le_self _ _
  let c : MP7Conf := { nlinks := nl, nmux := n, nchann := 144 / n, nempty := nempty.natAbs, fillmagic := decide (nempty < 0) }
  have hnew : mp7_new n nempty nlinks = .ok (c, { ipattern := 0, buffer := fun _ _ => 0, rows := [] }) := by
    unfold mp7_new
    rw [if_neg (by omega)]
    simp only []
    split
    · unfold cassert
      rw [if_pos (decide_eq_true hn)]; rfl
    · rfl
  have h0 : MP7Inv c (stream c.nempty c.fillmagic []) ({ ipattern := 0, buffer := fun _ _ => 0, rows := [] } : MP7State n) := by
    rw [stream_nil]
    refine ⟨rfl, fun _ a j => ?_, by simp⟩
    rw [evWord_none (by simp)]
  obtain ⟨s, e1, e2⟩ := mp7_calls_ok c rfl rfl hn0 hn' hnl evs h0 (by simp only [List.length_nil]; rw [Nat.zero_add]; exact le_of_lt hP)
  rw [List.nil_append] at e2
  unfold mp7_file
  rw [hnew, Run.ok_bind]
  simp only []
  rw [e1, Run.ok_bind]
  unfold mp7_close
  have hlen : P.length < 2 ^ 32 := by show (stream _ _ _).length < _; rw [stream_length]; exact hP
  have htn : s.ipattern.toNat = P.length := by rw [e2.ip, BitVec.toNat_ofNat]; exact Nat.mod_eq_of_lt hlen
  rw [htn]
  by_cases hr : P.length % n ≠ 0
  · have hn1 : n > 1 := by
      by_contra hc
      have : n = 1 := by omega
      rw [this] at hr
      omega
    rw [if_pos ⟨hn1, hr⟩, if_pos hr, mp7_flush_ok c hnl, Run.ok_bind]
    show Except.ok (s.rows ++ _) = _
    congr 1
    rw [e2.rows]
    congr 1
    apply List.ext_getElem
    · simp
    · intro im i1 i2
      have him : im < n := by simpa using i1
      rw [List.getElem_map, List.getElem_map, List.getElem_range]
      simp only [List.getElem_finRange, Fin.cast_mk]
      refine Prod.ext ?_ ?_
      · show s.ipattern - _ + 1 + _ = _
        rw [e2.ip]
      · show List.map _ _ = rowWords n nl P _
        unfold rowWords
        apply List.map_congr_left
        intro i hi
        have hi' := List.mem_range.mp hi
        have e1 : (P.length / n * n + im) / n = P.length / n := by
          rw [Nat.mul_comm, Nat.mul_add_div hn0, Nat.div_eq_of_lt him, Nat.add_zero]
        have e3 : (P.length / n * n + im) % n = im := by
          rw [Nat.mul_comm, Nat.mul_add_mod, Nat.mod_eq_of_lt him]
        rw [dif_pos (lt_of_lt_of_le hi' hnl), e2.buf (show n ≠ 1 by omega), e1, e3]
  · rw [if_neg (fun h => hr h.2), if_neg hr, Run.ok_bind, List.append_nil]
    show Except.ok s.rows = _
    rw [e2.rows]

end

end Verif

namespace Verif
open Spec

/-! ### CTP7 -/

theorem bv_gt_1023 {m : Nat} (hm : m ≤ 1024) : (BitVec.ofNat 32 m > 1023) ↔ 1023 < m := by
  show (1023 : BitVec 32) < BitVec.ofNat 32 m ↔ _
  rw [BitVec.lt_def, BitVec.toNat_ofNat, Nat.mod_eq_of_lt (by omega)]
  rfl

theorem bv_succ (m : Nat) : BitVec.ofNat 32 m + 1 = BitVec.ofNat 32 (m + 1) := by
  rw [BitVec.ofNat_add]; rfl

theorem ctp7_empties_eq (n : Nat) (j : Nat) : ∀ (m : Nat) (rows : List PatRow), m + 1 ≤ 1024 →
    (ctp7_empties n j ({ ipattern := BitVec.ofNat 32 (m + 1), rows := rows }, BitVec.ofNat 32 m)).1 =
      { ipattern := BitVec.ofNat 32 (min (m + 1 + j) 1024), rows := rows ++
          (List.range (min (m + 1 + j) 1024 - (m + 1))).map (fun t => (BitVec.ofNat 32 (m + 1 + t), List.replicate n 0)) } := by
  induction j with
  | zero =>
    intro m rows hm
    unfold ctp7_empties
    rw [Nat.add_zero, Nat.min_eq_left hm, Nat.sub_self]
    simp
  | succ j ih =>
    intro m rows hm
    unfold ctp7_empties
    simp only [bv_gt_1023 hm]
    split
    · have : m + 1 = 1024 := by omega
      rw [this, Nat.min_eq_right (by omega), Nat.sub_self]
      simp
    · rw [bv_succ, bv_succ, ih (m + 1) _ (by omega)]
      have e1 : m + 1 + 1 + j = m + 1 + (j + 1) := by omega
      rw [e1]
      congr 1
      have e2 : min (m + 1 + (j + 1)) 1024 - (m + 1) = (min (m + 1 + (j + 1)) 1024 - (m + 1 + 1)) + 1 := by omega
      rw [e2, List.range_succ_eq_map, List.map_cons, List.append_assoc, List.singleton_append, List.map_map]
      congr 3
      funext t
      simp only [Function.comp]
      rw [show m + 1 + t.succ = m + 1 + 1 + t by omega]

theorem ctp7_call_ok {E : List (MP7Event × Nat)} {s : CTP7State}
    (h1 : s.ipattern = BitVec.ofNat 32 (min (6 * E.length) 1024))
    (h2 : s.rows = (List.range (min (6 * E.length) 1024)).map (fun i => (BitVec.ofNat 32 i, ctpRow E i)))
    (e : MP7Event × Nat) (he : e.2 ≤ 144) :
    ∃ s', ctp7_call 1 e.1 e.2 s = .ok s' ∧ s'.ipattern = BitVec.ofNat 32 (min (6 * (E ++ [e]).length) 1024) ∧
      s'.rows = (List.range (min (6 * (E ++ [e]).length) 1024)).map (fun i => (BitVec.ofNat 32 i, ctpRow (E ++ [e]) i)) := by
  have hlen : (E ++ [e]).length = E.length + 1 := by simp
  have hold : ∀ k, k ≤ 6 * E.length → (List.range k).map (fun i => (BitVec.ofNat 32 i, ctpRow (E ++ [e]) i)) =
      (List.range k).map (fun i => (BitVec.ofNat 32 i, ctpRow E i)) := by
    intro k hk
    apply List.map_congr_left
    intro i hi
    have hi' := List.mem_range.mp hi
    unfold ctpRow
    rw [List.getElem?_append_left (by omega)]
  unfold ctp7_call
  rw [h1]
  simp only [bv_gt_1023 (Nat.min_le_right _ _)]
  by_cases hr : 1023 < min (6 * E.length) 1024
  · rw [if_pos hr]
    have e1 : min (6 * E.length) 1024 = 1024 := by omega
    have e2 : min (6 * (E ++ [e]).length) 1024 = 1024 := by omega
    refine ⟨s, rfl, by rw [h1, e1, e2], ?_⟩
    rw [e2, h2, e1, hold _ (by omega)]
  · have hm : min (6 * E.length) 1024 = 6 * E.length := by omega
    rw [if_neg hr, if_pos trivial]
    unfold ctp7_print
    rw [h1]
    simp only [bv_gt_1023 (Nat.min_le_right (6 * E.length) 1024)]
    rw [if_neg hr, buildM_ok (fun i : Fin e.2 => e.1 ⟨i.val, lt_of_lt_of_le i.isLt he⟩)
      (fun i => Arr.read_ok e.1 (lt_of_lt_of_le i.isLt he)), Run.ok_bind]
    refine ⟨_, rfl, ?_, ?_⟩
    all_goals
      simp only [bv_succ]
      rw [hm, ctp7_empties_eq e.2 5 (6 * E.length) _ (by omega)]
    · simp only []
      rw [hlen, show 6 * E.length + 1 + 5 = 6 * (E.length + 1) by omega]
    · simp only []
      have e1 : 6 * E.length + 1 + 5 = 6 * (E ++ [e]).length := by omega
      rw [e1, h2, hm, ← hold _ (le_refl _)]
      have e2 : min (6 * (E ++ [e]).length) 1024 = 6 * E.length + ((min (6 * (E ++ [e]).length) 1024 - (6 * E.length + 1)) + 1) := by
        omega
      have e3 : ∀ t, t ≤ min (6 * (E ++ [e]).length) 1024 - (6 * E.length + 1) → t < 6 := by
        intro t ht; omega
      generalize hq : min (6 * (E ++ [e]).length) 1024 - (6 * E.length + 1) = q at *
      rw [e2, List.range_add, List.map_append, List.append_assoc, List.range_succ_eq_map]
      congr 1
      have hget : (E ++ [e])[E.length]? = some e := by simp
      simp only [List.map_cons, List.map_map, List.singleton_append]
      congr 1
      · refine Prod.ext rfl ?_
        unfold ctpRow
        rw [Nat.add_zero, Nat.mul_div_cancel_left _ (by omega), hget]
        simp only [Nat.mul_mod_right, if_true]
        apply List.ext_getElem
        · simp
        · intro i i1 i2
          rw [List.length_ofFn] at i1
          rw [List.getElem_ofFn, List.getElem_map, List.getElem_range, dif_pos (lt_of_lt_of_le i1 he)]
      · apply List.map_congr_left
        intro t ht
        have ht' := List.mem_range.mp ht
        have h6 := e3 (t + 1) (by omega)
        simp only [Function.comp]
        refine Prod.ext ?_ ?_
        · show BitVec.ofNat 32 _ = BitVec.ofNat 32 _
          congr 1; omega
        · unfold ctpRow
          rw [show (6 * E.length + t.succ) / 6 = E.length by omega, hget]
          simp only []
          rw [if_neg (by omega)]

theorem ctp7_file_eq (E : List (MP7Event × Nat)) (hE : ∀ e ∈ E, e.2 ≤ 144) :
    ctp7_file 1 E = .ok ((List.range (min (6 * E.length) 1024)).map fun i => (BitVec.ofNat 32 i, ctpRow E i)) := by
  have key : ∀ (more : List (MP7Event × Nat)) (E : List (MP7Event × Nat)) (s : CTP7State),
      s.ipattern = BitVec.ofNat 32 (min (6 * E.length) 1024) →
      s.rows = (List.range (min (6 * E.length) 1024)).map (fun i => (BitVec.ofNat 32 i, ctpRow E i)) →
      (∀ e ∈ more, e.2 ≤ 144) →
      ∃ s', more.foldlM (fun s e => ctp7_call 1 e.1 e.2 s) s = .ok s' ∧
        s'.rows = (List.range (min (6 * (E ++ more).length) 1024)).map (fun i => (BitVec.ofNat 32 i, ctpRow (E ++ more) i)) := by
    intro more
    induction more with
    | nil => intro E s h1 h2 _; exact ⟨s, rfl, by rw [List.append_nil]; exact h2⟩
    | cons e more ih =>
      intro E s h1 h2 h3
      obtain ⟨s1, a1, a2, a3⟩ := ctp7_call_ok h1 h2 e (h3 e List.mem_cons_self)
      obtain ⟨s2, b1, b2⟩ := ih (E ++ [e]) s1 a2 a3 (fun x hx => h3 x (List.mem_cons_of_mem _ hx))
      refine ⟨s2, ?_, ?_⟩
      · rw [List.foldlM_cons, a1, Run.ok_bind]; exact b1
      · rw [List.append_assoc, List.singleton_append] at b2; exact b2
  obtain ⟨s, h1, h2⟩ := key E [] { ipattern := 0, rows := [] } rfl (by simp) hE
  unfold ctp7_file
  rw [h1, Run.ok_bind, h2, List.nil_append]

theorem ctp7_file_other (nmux : Nat) (h : nmux ≠ 1) (E : List (MP7Event × Nat)) : ctp7_file nmux E = .ok [] := by
  have : ∀ (E : List (MP7Event × Nat)), E.foldlM (fun s e => ctp7_call nmux e.1 e.2 s) { ipattern := 0, rows := [] } =
      (.ok { ipattern := 0, rows := [] } : Run CTP7State) := by
    intro E
    induction E with
    | nil => rfl
    | cons e E ih =>
      rw [List.foldlM_cons]
      have : ctp7_call nmux e.1 e.2 { ipattern := 0, rows := [] } = .ok { ipattern := 0, rows := [] } := by
        unfold ctp7_call
        rw [if_neg (by decide), if_neg h]
      rw [this, Run.ok_bind, ih]
  unfold ctp7_file
  rw [this, Run.ok_bind]

/-- An event of more than 144 channels, while there is room, is read out of bounds. -/
theorem ctp7_call_oob {m : Nat} {s : CTP7State} (hm : m ≤ 1023) (h1 : s.ipattern = BitVec.ofNat 32 m)
    (ev : MP7Event) (n : Nat) (hn : 144 < n) : ∀ s', ctp7_call 1 ev n s ≠ .ok s' := by
  intro s' h
  unfold ctp7_call at h
  have hg : ¬ (s.ipattern > 1023) := by rw [h1, bv_gt_1023 (by omega)]; omega
  rw [if_neg hg, if_pos rfl] at h
  unfold ctp7_print at h
  rw [if_neg hg] at h
  obtain ⟨w, h2, _⟩ := Run.bind_eq_ok.mp h
  have := buildM_exists_imp h2 ⟨144, hn⟩
  unfold Arr.read at this
  rw [dif_neg (by simp)] at this
  cases this

end Verif
