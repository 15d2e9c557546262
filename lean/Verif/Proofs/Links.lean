import Verif.Proofs.Geometry
import Verif.Spec.PF
/-! # Link bits are first arg-mins -/
namespace Verif
open Spec

theorem loop_and {n : Nat} (i : Fin n) (A B : Fin n → Bool) (b : Bool) :
    loop (fun j link => if i.val ≤ j.val then link && A j else link && B j) b = true ↔
      b = true ∧ ∀ j : Fin n, (i ≤ j → A j = true) ∧ (j < i → B j = true) := by
  have h := loop_induct (n := n) (fun m (s : Bool) => s = true ↔
      b = true ∧ ∀ j : Fin n, j.val < m → (i ≤ j → A j = true) ∧ (j < i → B j = true))
    (fun j link => if i.val ≤ j.val then link && A j else link && B j) b
    (by constructor
        · intro h; exact ⟨h, fun j hj => absurd hj (Nat.not_lt_zero _)⟩
        · rintro ⟨h, _⟩; exact h)
    (by
      intro k s ih
      constructor
      · intro h
        have hs : s = true ∧ ((i ≤ k → A k = true) ∧ (k < i → B k = true)) := by
          split at h
          · rename_i hik
            rw [Bool.and_eq_true] at h
            exact ⟨h.1, fun _ => h.2, fun hk => absurd hik (by have : k.val < i.val := hk; omega)⟩
          · rename_i hik
            rw [Bool.and_eq_true] at h
            exact ⟨h.1, fun hk => absurd hk hik, fun _ => h.2⟩
        obtain ⟨hb, hall⟩ := ih.mp hs.1
        refine ⟨hb, fun j hj => ?_⟩
        by_cases hjk : j = k
        · subst hjk; exact hs.2
        · exact hall j (by have : j.val ≠ k.val := fun e => hjk (Fin.ext e); omega)
      · rintro ⟨hb, hall⟩
        have hs := ih.mpr ⟨hb, fun j hj => hall j (by omega)⟩
        have hk := hall k (by omega)
        split
        · rename_i hik; rw [hs, hk.1 hik]; rfl
        · rename_i hik
          rw [hs, hk.2 (by show k.val < i.val; omega)]; rfl)
  rw [h]
  exact ⟨fun ⟨a, b⟩ => ⟨a, fun j => b j j.isLt⟩, fun ⟨a, b⟩ => ⟨a, fun j _ => b j⟩⟩

/-- A first arg-min is unique. -/
theorem firstMin_unique {n : Nat} {P : Fin n → Prop} {f : Fin n → Int} {i j : Fin n}
    (hi : FirstMin P f i) (hj : FirstMin P f j) : i = j := by
  rcases lt_trichotomy i j with h | h | h
  · have h1 := (hi.2 j hj.1).1
    have h2 := (hj.2 i hi.1).2 h
    omega
  · exact h
  · have h1 := (hi.2 j hj.1).2 h
    have h2 := (hj.2 i hi.1).1
    omega

/-- A first arg-min exists as soon as some index qualifies. -/
theorem firstMin_exists {n : Nat} {P : Fin n → Prop} {f : Fin n → Int} (h : ∃ i, P i) :
    ∃ i, FirstMin P f i := by
  classical
  let S : Finset (Fin n) := Finset.univ.filter P
  have hS : S.Nonempty := by
    obtain ⟨i, hi⟩ := h
    exact ⟨i, by simp [S, hi]⟩
  obtain ⟨m, hm, hmin⟩ := Finset.exists_min_image S f hS
  let R : Finset (Fin n) := S.filter (fun i => f i = f m)
  have hR : R.Nonempty := ⟨m, by simp [R, hm]⟩
  refine ⟨R.min' hR, ?_⟩
  have hin := Finset.min'_mem R hR
  have hin2 : P (R.min' hR) ∧ f (R.min' hR) = f m := by
    have := hin
    simp only [R, S, Finset.mem_filter, Finset.mem_univ, true_and] at this
    exact this
  refine ⟨hin2.1, fun j hj => ?_⟩
  have hjS : j ∈ S := by simp [S, hj]
  have hle := hmin j hjS
  refine ⟨by rw [hin2.2]; exact hle, fun hlt => ?_⟩
  rw [hin2.2]
  refine lt_of_le_of_ne hle fun e => ?_
  have : j ∈ R := by simp [R, hjS, e]
  exact absurd (Finset.min'_le R j this) (not_le.mpr hlt)

theorem firstMin_congr {n : Nat} {P Q : Fin n → Prop} {f g : Fin n → Int} (i : Fin n)
    (hPQ : ∀ j, P j ↔ Q j) (hfg : ∀ j, P j → f j = g j) : FirstMin P f i ↔ FirstMin Q g i := by
  have key : ∀ {P Q : Fin n → Prop} {f g : Fin n → Int}, (∀ j, P j ↔ Q j) →
      (∀ j, P j → f j = g j) → FirstMin P f i → FirstMin Q g i := by
    intro P Q f g hPQ hfg h
    refine ⟨(hPQ i).mp h.1, fun j hj => ?_⟩
    have hj' := (hPQ j).mpr hj
    rw [← hfg i h.1, ← hfg j hj']
    exact h.2 j hj'
  exact ⟨key hPQ hfg, key (fun j => (hPQ j).symm) (fun j hj => (hfg j ((hPQ j).mpr hj)).symm)⟩

/-- `pick_closest` marks exactly the first arg-min. -/
theorem pick_closest_iff {NTK NCA NB : Nat} (DR2MAX : Nat) (drval : Arr NTK (Arr NCA (BitVec NB)))
    (it : Fin NTK) (c : Fin NCA) (P : Fin NCA → Prop) (f : Fin NCA → Int)
    (hP : ∀ j, P j → ((drval it j).toNat : Int) = f j ∧ f j < ((reg NB DR2MAX).toNat : Int))
    (hnP : ∀ j, ¬ P j → drval it j = reg NB DR2MAX) :
    pick_closest DR2MAX drval it c = true ↔ FirstMin P f c := by
  classical
  unfold pick_closest
  simp only []
  rw [loop_and c (fun j => decide ((drval it j).toNat ≥ (drval it c).toNat))
    (fun j => decide ((drval it j).toNat > (drval it c).toNat))]
  simp only [decide_eq_true_eq]
  constructor
  · rintro ⟨hne, hall⟩
    have hPc : P c := by
      by_contra h
      exact hne (hnP c h)
    refine ⟨hPc, fun j hj => ?_⟩
    have h1 := (hP c hPc).1
    have h2 := (hP j hj).1
    have h3 := hall j
    constructor
    · rcases le_or_gt c j with h | h
      · have := h3.1 h; omega
      · have := h3.2 h; omega
    · intro h; have := h3.2 h; omega
  · rintro ⟨hPc, hall⟩
    have hc := hP c hPc
    refine ⟨fun e => ?_, fun j => ?_⟩
    · rw [e] at hc; omega
    · by_cases hj : P j
      · have h1 := hP j hj
        have h2 := hall j hj
        refine ⟨fun _ => ?_, fun h => ?_⟩
        · omega
        · have := h2.2 h; omega
      · have h1 := hnP j hj
        rw [h1]
        refine ⟨fun _ => ?_, fun h => ?_⟩ <;> omega

theorem dr2_int_eq_dist2 (e1 p1 e2 p2 : EtaPhi) : dr2_int e1 p1 e2 p2 = dist2 e1 p1 e2 p2 := by
  unfold dr2_int dist2 circ
  simp only [reg_toInt]
  ring

theorem dist2_nonneg (e1 p1 e2 p2 : EtaPhi) : 0 ≤ dist2 e1 p1 e2 p2 := by
  rw [← dr2_int_eq_dist2]; exact dr2_int_nonneg ..

theorem tk2em_link_iff {NT NE : Nat} (calo : Arr NE EmCaloObj) (track : Arr NT TkObj)
    (isMu : Arr NT Bool) (t : Fin NT) (c : Fin NE) :
    tk2em_link calo track isMu t c = true ↔
      isMu t = false ∧
      FirstMin (fun c => dist2 (track t).hwEta (track t).hwPhi (calo c).hwEta (calo c).hwPhi < 84)
        (fun c => dist2 (track t).hwEta (track t).hwPhi (calo c).hwEta (calo c).hwPhi) c := by
  unfold tk2em_link
  cases hmu : isMu t with
  | true =>
    simp only [Bool.true_eq_false, false_and, iff_false, Bool.not_eq_true]
    rw [← Bool.not_eq_true]
    rw [pick_closest_iff (P := fun _ => False) (f := fun _ => 0)]
    · exact fun h => h.1
    · intro j h; exact h.elim
    · intro j _; simp [tk2em_drvals, hmu]
  | false =>
    simp only [true_and]
    have hmax : ((reg 7 (PFALGO3_DR2MAX_TK_EM : Int) : BitVec 7).toNat : Int) = 84 := by decide
    apply pick_closest_iff
    · intro j hj
      rw [hmax]
      refine ⟨?_, hj⟩
      simp only [tk2em_drvals, hmu, Bool.false_eq_true, if_false]
      rw [dr2_int_cap_toNat, dr2_int_eq_dist2, hmax]
      exact min_eq_left (le_of_lt hj)
    · intro j hj
      simp only [tk2em_drvals, hmu, Bool.false_eq_true, if_false]
      apply BitVec.eq_of_toNat_eq
      have := dr2_int_cap_toNat (track t).hwEta (track t).hwPhi (calo j).hwEta (calo j).hwPhi
        (reg 7 (PFALGO3_DR2MAX_TK_EM : Int) : BitVec 7)
      rw [dr2_int_eq_dist2, hmax, min_eq_right (not_lt.mp hj)] at this
      rw [← hmax] at this
      exact_mod_cast this

theorem em2calo_link_iff {NE NC : Nat} (emcalo : Arr NE EmCaloObj) (hadcalo : Arr NC HadCaloObj)
    (e : Fin NE) (h : Fin NC) :
    em2calo_link emcalo hadcalo e h = true ↔
      FirstMin (fun h => (emcalo e).hwPt.toInt / 2 < (hadcalo h).hwEmPt.toInt ∧
          dist2 (emcalo e).hwEta (emcalo e).hwPhi (hadcalo h).hwEta (hadcalo h).hwPhi < 525)
        (fun h => dist2 (emcalo e).hwEta (emcalo e).hwPhi (hadcalo h).hwEta (hadcalo h).hwPhi) h := by
  unfold em2calo_link
  have hmax : ((reg 10 (PFALGO3_DR2MAX_EM_CALO : Int) : BitVec 10).toNat : Int) = 525 := by decide
  have hhalf : (reg 16 (shr (emcalo e).hwPt.toInt 1)).toInt = (emcalo e).hwPt.toInt / 2 := by
    have := pt_range (emcalo e).hwPt
    have : shr (emcalo e).hwPt.toInt 1 = (emcalo e).hwPt.toInt / 2 := rfl
    rw [this, reg16_toInt (by omega) (by omega)]
  apply pick_closest_iff
  · intro j hj
    rw [hmax]
    refine ⟨?_, hj.2⟩
    simp only [em2calo_drvals, hhalf]
    rw [if_pos (by exact hj.1), dr2_int_cap_toNat, dr2_int_eq_dist2, hmax]
    exact min_eq_left (le_of_lt hj.2)
  · intro j hj
    simp only [em2calo_drvals, hhalf]
    split
    · rename_i hpt
      apply BitVec.eq_of_toNat_eq
      have := dr2_int_cap_toNat (emcalo e).hwEta (emcalo e).hwPhi (hadcalo j).hwEta (hadcalo j).hwPhi
        (reg 10 (PFALGO3_DR2MAX_EM_CALO : Int) : BitVec 10)
      rw [dr2_int_eq_dist2, hmax, min_eq_right (not_lt.mp fun h => hj ⟨hpt, h⟩)] at this
      rw [← hmax] at this
      exact_mod_cast this
    · rfl

end Verif
