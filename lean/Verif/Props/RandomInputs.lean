import Verif.Proofs.RandomInputs
import Verif.Props.Discrete2
/-! # C63: the random regions of `RandomPFInputs` -/
namespace Verif
open Spec Rounding

private theorem halfDraw_eq (D : Rand) (k : ℕ) {m : ℕ} (hm : 0 < m) :
    halfDraw D k m = .ok ((D.draw k % m / 2 + m / 2 : ℕ) : ℤ) := by
  unfold halfDraw
  rw [if_neg (by omega)]
  congr 1

private theorem loopM_pair {σ τ : Type} (P : ℕ → σ → τ → Prop) {n : ℕ} (f : Fin n → σ → Run σ) (g : Fin n → τ → Run τ) (s : σ) (t : τ)
    (h0 : P 0 s t) (hs : ∀ (i : Fin n) s t, P i s t → ∃ s' t', f i s = .ok s' ∧ g i t = .ok t' ∧ P (i + 1) s' t') :
    ∃ s' t', loopM f s = .ok s' ∧ loopM g t = .ok t' ∧ P n s' t' := by
  induction n with
  | zero => exact ⟨s, t, loopM_zero _ _, loopM_zero _ _, h0⟩
  | succ n ih =>
    obtain ⟨s1, t1, e1, e2, p1⟩ := ih (fun i => f i.castSucc) (fun i => g i.castSucc) (fun i s t h => hs i.castSucc s t h)
    obtain ⟨s2, t2, e3, e4, p2⟩ := hs (Fin.last n) s1 t1 p1
    exact ⟨s2, t2, by rw [loopM_succ, e1]; exact e3, by rw [loopM_succ, e2]; exact e4, p2⟩

private theorem reg16_add (c : Pt) (x : ℤ) : reg 16 (c.toInt + x) = c + reg 16 x := by
  unfold reg
  rw [BitVec.ofInt_add, BitVec.ofInt_toInt]

/-- What a track adds to the pt of a cluster does not depend on the cluster. -/
private theorem riDeposit_add (R : Rounding) (D : Rand) (k : ℕ) :
    ∃ x : Pt, ∀ c : CaloObj, (R.riDeposit D k c).hwPt = c.hwPt + x := by
  unfold Rounding.riDeposit
  dsimp only
  split
  · exact ⟨_, fun c => reg16_add _ _⟩
  · exact ⟨0, fun c => by simp⟩

/-- `nch`, the number of tracks drawn. -/
private def nch (D : Rand) (NT k : ℕ) : ℕ := D.draw k % NT / 2 + NT / 2

private theorem nch_lt (D : Rand) {NT : ℕ} (k : ℕ) (h : 0 < NT) : NT / 2 ≤ nch D NT k ∧ nch D NT k < NT := by
  unfold nch
  have := Nat.mod_lt (D.draw k) h
  omega

/-- One track, made without a fault. -/
private theorem riCharged_eq (R : Rounding) (D : Rand) {NT NC : ℕ} (hNC : 0 < NC) (zPV : ℝ) (i : Fin NT) (st : Arr NT TkObj × Arr NC CaloObj × ℕ) :
    R.riCharged D zPV i.val st = .ok (st.1.set i (R.riTrack D zPV i st.2.2 (st.1 i)),
      if i.val % 3 = 1 then (st.2.1, st.2.2 + 5) else
        (st.2.1.set ⟨D.draw (st.2.2 + 4) % NC, Nat.mod_lt _ hNC⟩ (R.riDeposit D st.2.2 (st.2.1 ⟨D.draw (st.2.2 + 4) % NC, Nat.mod_lt _ hNC⟩)), st.2.2 + 8)) := by
  have hlt := Nat.mod_lt (D.draw (st.2.2 + 4)) hNC
  unfold Rounding.riCharged
  dsimp only
  rw [Arr.read_ok _ i.isLt, Run.ok_bind, Arr.write_ok _ _ i.isLt, Run.ok_bind, if_neg (by omega)]
  by_cases h3 : i.val % 3 = 1
  · rw [if_pos (Or.inl h3), if_pos h3]
  · rw [if_neg (by omega), if_neg h3, Arr.read_ok _ hlt, Run.ok_bind, Arr.write_ok _ _ hlt, Run.ok_bind]

/-- **C63.** Whatever the rounding and whatever `rand()` returns: two calls from the same draw on different arrays both end, make the
same vertex, muons and tracks (but for the quality bit, which is never written), use the same number of draws, and what the clusters
held before is still in their pts: a cluster which is not one of the neutral ones differs by exactly what it differed before. -/
theorem C63_leftover (R : Rounding) (D : Rand) {NT NC NM : ℕ} (hT : 0 < NT) (hC : 2 ≤ NC) (calo0 calo0' : Arr NC CaloObj)
    (track0 track0' : Arr NT TkObj) (mu0 mu0' : Arr NM MuObj) (k0 : ℕ) :
    ∃ calo calo' track track' mu z k, R.riRegion D calo0 track0 mu0 k0 = .ok (calo, track, mu, z, k) ∧
      R.riRegion D calo0' track0' mu0' k0 = .ok (calo', track', mu, z, k) ∧
      (∀ i : Fin NT, i.val < D.draw k0 % NT / 2 + NT / 2 →
        track i = { track' i with hwTightQuality := (track0 i).hwTightQuality } ∧ (track' i).hwTightQuality = (track0' i).hwTightQuality) ∧
      (∀ i : Fin NT, D.draw k0 % NT / 2 + NT / 2 ≤ i.val → track i = track0 i ∧ track' i = track0' i) ∧
      ∀ i : Fin NC, (calo i).hwPt - (calo' i).hwPt =
        if i.val % 2 = 1 ∧ i.val < D.draw (k0 + 1) % (3 * NC / 4) then 0 else (calo0 i).hwPt - (calo0' i).hwPt := by
  set nne := D.draw (k0 + 1) % (3 * NC / 4) with hnne
  have hn := nch_lt D (NT := NT) k0 hT
  change ∃ calo calo' track track' mu z k, _ ∧ _ ∧ (∀ i : Fin NT, i.val < nch D NT k0 → _) ∧ (∀ i : Fin NT, nch D NT k0 ≤ i.val → _) ∧ _
  unfold Rounding.riRegion
  rw [halfDraw_eq D k0 hT]
  change ∃ calo calo' track track' mu z k, (Except.ok ((nch D NT k0 : ℕ) : ℤ) >>= _) = _ ∧ (Except.ok ((nch D NT k0 : ℕ) : ℤ) >>= _) = _ ∧ _
  simp only [Run.ok_bind, if_neg (show ¬ 3 * NC / 4 = 0 by omega)]
  rw [show min ((nch D NT k0 : ℕ) : ℤ).toNat NT = nch D NT k0 by rw [Int.toNat_natCast]; exact Nat.min_eq_left hn.2.le]
  obtain ⟨⟨c1, k1⟩, ⟨c1', k1'⟩, e1, e1', hk, p1⟩ := loopM_pair
    (fun n (s t : Arr NC CaloObj × ℕ) => s.2 = t.2 ∧ ∀ i : Fin NC, (s.1 i).hwPt - (t.1 i).hwPt =
      if (i.val % 2 = 1 ∧ i.val < nne) ∧ i.val < n then 0 else (calo0 i).hwPt - (calo0' i).hwPt)
    (fun (i : Fin NC) (st : Arr NC CaloObj × ℕ) => (if i.val % 2 = 1 ∧ i.val < nne then .ok (st.1.set i (R.riNeutral D st.2), st.2 + 3) else .ok st : Run _))
    (fun (i : Fin NC) (st : Arr NC CaloObj × ℕ) => (if i.val % 2 = 1 ∧ i.val < nne then .ok (st.1.set i (R.riNeutral D st.2), st.2 + 3) else .ok st : Run _))
    (calo0, k0 + 2) (calo0', k0 + 2) ⟨rfl, fun i => by simp⟩
    (by
      rintro i ⟨s, k⟩ ⟨t, k'⟩ ⟨rfl, p⟩
      by_cases h : i.val % 2 = 1 ∧ i.val < nne
      · refine ⟨_, _, if_pos h, if_pos h, rfl, fun j => ?_⟩
        by_cases hj : j = i
        · subst hj
          dsimp only
          rw [Arr.set_same, Arr.set_same, if_pos ⟨h, by omega⟩]
          exact BitVec.sub_self _
        · dsimp only
          rw [Arr.set_ne _ _ hj, Arr.set_ne _ _ hj, p j]
          have : j.val ≠ i.val := fun e => hj (Fin.ext e)
          congr 1
          apply propext
          omega
      · refine ⟨_, _, if_neg h, if_neg h, rfl, fun j => ?_⟩
        dsimp only at p ⊢
        rw [p j]
        by_cases hj : j = i
        · subst hj
          rw [if_neg (fun q => h q.1), if_neg (fun q => h q.1)]
        · have : j.val ≠ i.val := fun e => hj (Fin.ext e)
          congr 1
          apply propext
          omega)
  dsimp only at hk p1
  subst hk
  simp only [← hnne, e1, e1', Run.ok_bind]
  set zPV := R.linDraw D 20 (-10) k1
  obtain ⟨⟨t2, c2, k2⟩, ⟨t2', c2', k2'⟩, e2, e2', hk, p2, p3, p4⟩ := loopM_pair
    (fun n (s t : Arr NT TkObj × Arr NC CaloObj × ℕ) => s.2.2 = t.2.2 ∧
      (∀ i : Fin NT, i.val < n → s.1 i = { t.1 i with hwTightQuality := (track0 i).hwTightQuality } ∧ (t.1 i).hwTightQuality = (track0' i).hwTightQuality) ∧
      (∀ i : Fin NT, n ≤ i.val → s.1 i = track0 i ∧ t.1 i = track0' i) ∧
      ∀ i : Fin NC, (s.2.1 i).hwPt - (t.2.1 i).hwPt = (c1 i).hwPt - (c1' i).hwPt)
    (fun (i : Fin (nch D NT k0)) (st : Arr NT TkObj × Arr NC CaloObj × ℕ) => R.riCharged D zPV i.val st)
    (fun (i : Fin (nch D NT k0)) (st : Arr NT TkObj × Arr NC CaloObj × ℕ) => R.riCharged D zPV i.val st)
    (track0, c1, k1 + 1) (track0', c1', k1 + 1) ⟨rfl, by simp, by simp, by simp⟩
    (by
      rintro i ⟨s, c, k⟩ ⟨t, c', k'⟩ ⟨hk, q1, q2, q3⟩
      dsimp only at hk q1 q2 q3
      subst hk
      have hi : i.val < NT := by have := i.isLt; omega
      have e := riCharged_eq R D (by omega : 0 < NC) zPV ⟨i.val, hi⟩ (s, c, k)
      have e' := riCharged_eq R D (by omega : 0 < NC) zPV ⟨i.val, hi⟩ (t, c', k)
      refine ⟨_, _, e, e', ?_, ?_, ?_, ?_⟩
      · dsimp only; split <;> rfl
      · intro j hj
        by_cases hji : j = ⟨i.val, hi⟩
        · subst hji
          dsimp only
          rw [Arr.set_same, Arr.set_same, (q2 ⟨i.val, hi⟩ le_rfl).1, (q2 ⟨i.val, hi⟩ le_rfl).2]
          exact ⟨rfl, rfl⟩
        · dsimp only
          rw [Arr.set_ne _ _ hji, Arr.set_ne _ _ hji]
          have : j.val ≠ i.val := fun e => hji (Fin.ext e)
          exact q1 j (by omega)
      · intro j hj
        have hji : j ≠ ⟨i.val, hi⟩ := fun e => by rw [e] at hj; dsimp only at hj; omega
        dsimp only
        rw [Arr.set_ne _ _ hji, Arr.set_ne _ _ hji]
        exact q2 j (by omega)
      · intro j
        dsimp only
        split
        · exact q3 j
        · dsimp only
          obtain ⟨x, hx⟩ := riDeposit_add R D k
          by_cases hj : j = ⟨D.draw (k + 4) % NC, Nat.mod_lt _ (by omega)⟩
          · rw [← hj, Arr.set_same, Arr.set_same, hx, hx, ← q3 j]
            rw [BitVec.add_comm _ x, BitVec.add_comm _ x, BitVec.sub_eq_add_neg, BitVec.sub_eq_add_neg]
            apply BitVec.eq_of_toInt_eq
            simp only [BitVec.toInt_add, BitVec.toInt_neg]
            simp only [Int.bmod_add_bmod, Int.add_bmod_bmod, Int.bmod_neg_bmod]
            rw [Int.add_bmod_bmod.symm]
            simp
            congr 1
            ring
          · rw [Arr.set_ne _ _ hj, Arr.set_ne _ _ hj]
            exact q3 j)
  dsimp only at hk p2 p3 p4
  subst hk
  simp only [e2, e2', Run.ok_bind]
  obtain ⟨⟨m3, k3⟩, ⟨m3', k3'⟩, e3, e3', hk, p5⟩ := loopM_pair
    (fun n (s t : Arr NM MuObj × ℕ) => s.2 = t.2 ∧ ∀ i : Fin NM, i.val < n → s.1 i = t.1 i)
    (fun (i : Fin NM) (st : Arr NM MuObj × ℕ) => (.ok (st.1.set i (R.riMuon D st.2), st.2 + 3) : Run _))
    (fun (i : Fin NM) (st : Arr NM MuObj × ℕ) => (.ok (st.1.set i (R.riMuon D st.2), st.2 + 3) : Run _))
    (mu0, k2) (mu0', k2) ⟨rfl, by simp⟩
    (by
      rintro i ⟨s, k⟩ ⟨t, k'⟩ ⟨rfl, q⟩
      refine ⟨_, _, rfl, rfl, rfl, fun j hj => ?_⟩
      by_cases hji : j = i
      · subst hji; dsimp only; rw [Arr.set_same, Arr.set_same]
      · dsimp only
        rw [Arr.set_ne _ _ hji, Arr.set_ne _ _ hji]
        have : j.val ≠ i.val := fun e => hji (Fin.ext e)
        exact q j (by omega))
  dsimp only at hk p5
  subst hk
  obtain rfl : m3 = m3' := funext fun i => p5 i i.isLt
  simp only [e3, e3', Run.ok_bind]
  refine ⟨c2, c2', t2, t2', m3, _, k3, rfl, rfl, p2, p3, fun i => ?_⟩
  rw [p4 i, p1 i]
  simp [i.isLt]

/-- **C63.** A region is made exactly when there is room for a track and for two clusters: otherwise `rand()` is taken modulo 0. -/
theorem C63_defined (R : Rounding) (D : Rand) {NT NC NM : ℕ} (calo0 : Arr NC CaloObj) (track0 : Arr NT TkObj) (mu0 : Arr NM MuObj) (k0 : ℕ) :
    ((∃ r, R.riRegion D calo0 track0 mu0 k0 = .ok r) ↔ 0 < NT ∧ 2 ≤ NC) ∧
      ((NT = 0 ∨ NC ≤ 1) → R.riRegion D calo0 track0 mu0 k0 = .error .divByZero) := by
  have bad : (NT = 0 ∨ NC ≤ 1) → R.riRegion D calo0 track0 mu0 k0 = .error .divByZero := by
    intro h
    unfold Rounding.riRegion
    by_cases hT : NT = 0
    · subst hT
      rfl
    · rw [halfDraw_eq D k0 (by omega), Run.ok_bind, if_pos (by omega)]
  refine ⟨⟨fun ⟨r, h⟩ => ?_, fun ⟨h1, h2⟩ => ?_⟩, bad⟩
  · by_contra hc
    rw [bad (by omega)] at h
    cases h
  · obtain ⟨_, _, _, _, _, _, _, e, -⟩ := C63_leftover R D h1 h2 calo0 calo0 track0 track0 mu0 mu0 k0
    exact ⟨_, e⟩

/-- **C63.** The ranges, for every rounding to nearest and every `rand()`: if the pts of the clusters are between 0 and `B` before,
nothing wraps.  At least half and not all of the tracks are drawn and in the ranges of the generator, those with an even number
within 8 counts of the vertex; the others are as they were.  All muons are drawn.  Each cluster is either as it was, or within 275
counts of eta and phi; no pt is negative or grows by more than 300 per track. -/
theorem C63_region {R : Rounding} (A : IEEE R) {D : Rand} (h0 : 0 < D.max) (h31 : D.max ≤ 2147483647) (hD : ∀ k, D.draw k ≤ D.max)
    {NT NC NM : ℕ} (hT : 0 < NT) (hC : 2 ≤ NC) {B : ℤ} (hB : 324 ≤ B) (hB2 : B + 300 * NT ≤ 32767) (calo0 : Arr NC CaloObj)
    (hcalo : ∀ i, 0 ≤ (calo0 i).hwPt.toInt ∧ (calo0 i).hwPt.toInt ≤ B) (track0 : Arr NT TkObj) (mu0 : Arr NM MuObj) (k0 : ℕ) :
    ∃ calo track mu z k n nne, R.riRegion D calo0 track0 mu0 k0 = .ok (calo, track, mu, z, k) ∧ NT / 2 ≤ n ∧ n < NT ∧ nne < 3 * NC / 4 ∧
      |z.toInt| ≤ 200 ∧ (∀ i : Fin NT, i.val < n → RiTrack z.toInt i (track i)) ∧ (∀ i : Fin NT, n ≤ i.val → track i = track0 i) ∧
      (∀ i, Spec.RiMuon (mu i)) ∧
      ∀ i : Fin NC, 0 ≤ (calo i).hwPt.toInt ∧ (calo i).hwPt.toInt ≤ B + 300 * n ∧
        (calo i = calo0 i ∨ |(calo i).hwEta.toInt| ≤ 275 ∧ |(calo i).hwPhi.toInt| ≤ 275) ∧
        (i.val % 2 = 1 → i.val < nne → 4 ≤ (calo i).hwPt.toInt ∧ |(calo i).hwEta.toInt| ≤ 275 ∧ |(calo i).hwPhi.toInt| ≤ 275) := by
  set nne := D.draw (k0 + 1) % (3 * NC / 4) with hnne
  have hnn : nne < 3 * NC / 4 := Nat.mod_lt _ (by omega)
  have hn := nch_lt D (NT := NT) k0 hT
  unfold Rounding.riRegion
  rw [halfDraw_eq D k0 hT]
  change ∃ calo track mu z k n nne, (Except.ok ((nch D NT k0 : ℕ) : ℤ) >>= _) = _ ∧ _
  simp only [Run.ok_bind, if_neg (show ¬ 3 * NC / 4 = 0 by omega)]
  rw [show min ((nch D NT k0 : ℕ) : ℤ).toNat NT = nch D NT k0 by rw [Int.toNat_natCast]; exact Nat.min_eq_left hn.2.le]
  obtain ⟨⟨c1, k1⟩, e1, p1⟩ := loopM_induct
    (fun n (s : Arr NC CaloObj × ℕ) => ∀ i : Fin NC, 0 ≤ (s.1 i).hwPt.toInt ∧ (s.1 i).hwPt.toInt ≤ B ∧
      (s.1 i = calo0 i ∨ |(s.1 i).hwEta.toInt| ≤ 275 ∧ |(s.1 i).hwPhi.toInt| ≤ 275) ∧
      (i.val % 2 = 1 → i.val < nne → i.val < n → 4 ≤ (s.1 i).hwPt.toInt ∧ |(s.1 i).hwEta.toInt| ≤ 275 ∧ |(s.1 i).hwPhi.toInt| ≤ 275))
    (fun (i : Fin NC) (st : Arr NC CaloObj × ℕ) => (if i.val % 2 = 1 ∧ i.val < nne then .ok (st.1.set i (R.riNeutral D st.2), st.2 + 3) else .ok st : Run _))
    (calo0, k0 + 2) (fun i => ⟨(hcalo i).1, (hcalo i).2, Or.inl rfl, fun _ _ h => absurd h (by omega)⟩)
    (by
      rintro i ⟨s, k⟩ p
      by_cases h : i.val % 2 = 1 ∧ i.val < nne
      · refine ⟨_, if_pos h, fun j => ?_⟩
        by_cases hj : j = i
        · subst hj
          dsimp only
          rw [Arr.set_same]
          obtain ⟨q1, q2, q3, q4⟩ := riNeutral_ok A h0 h31 hD k
          exact ⟨by omega, by omega, Or.inr ⟨by omega, by omega⟩, fun _ _ _ => ⟨q1, by omega, by omega⟩⟩
        · dsimp only
          rw [Arr.set_ne _ _ hj]
          have : j.val ≠ i.val := fun e => hj (Fin.ext e)
          obtain ⟨q1, q2, q3, q4⟩ := p j
          exact ⟨q1, q2, q3, fun a b c => q4 a b (by omega)⟩
      · refine ⟨_, if_neg h, fun j => ?_⟩
        obtain ⟨q1, q2, q3, q4⟩ := p j
        refine ⟨q1, q2, q3, fun a b c => q4 a b ?_⟩
        by_contra hc
        exact h ⟨by rwa [show i.val = j.val by omega], by omega⟩)
  simp only [← hnne, e1, Run.ok_bind]
  dsimp only at p1
  obtain ⟨z1, z2⟩ := zPV_box A h0 h31 hD k1
  set zPV := R.linDraw D 20 (-10) k1
  obtain ⟨⟨t2, c2, k2⟩, e2, p2, p3, p4⟩ := loopM_induct
    (fun n (s : Arr NT TkObj × Arr NC CaloObj × ℕ) =>
      (∀ i : Fin NT, i.val < n → RiTrack (R.store 10 zPV 20).toInt i (s.1 i)) ∧ (∀ i : Fin NT, n ≤ i.val → s.1 i = track0 i) ∧
      ∀ i : Fin NC, 0 ≤ (s.2.1 i).hwPt.toInt ∧ (s.2.1 i).hwPt.toInt ≤ B + 300 * n ∧
        (s.2.1 i = calo0 i ∨ |(s.2.1 i).hwEta.toInt| ≤ 275 ∧ |(s.2.1 i).hwPhi.toInt| ≤ 275) ∧
        (i.val % 2 = 1 → i.val < nne → 4 ≤ (s.2.1 i).hwPt.toInt ∧ |(s.2.1 i).hwEta.toInt| ≤ 275 ∧ |(s.2.1 i).hwPhi.toInt| ≤ 275))
    (fun (i : Fin (nch D NT k0)) (st : Arr NT TkObj × Arr NC CaloObj × ℕ) => R.riCharged D zPV i.val st)
    (track0, c1, k1 + 1) ⟨by simp, by simp, fun i => by
      obtain ⟨q1, q2, q3, q4⟩ := p1 i
      exact ⟨q1, by push_cast; omega, q3, fun a b => q4 a b i.isLt⟩⟩
    (by
      rintro i ⟨s, c, k⟩ ⟨q1, q2, q3⟩
      dsimp only at q1 q2 q3
      have hi : i.val < NT := by have := i.isLt; omega
      refine ⟨_, riCharged_eq R D (by omega : 0 < NC) zPV ⟨i.val, hi⟩ (s, c, k), ?_, ?_, ?_⟩
      · intro j hj
        by_cases hji : j = ⟨i.val, hi⟩
        · subst hji
          dsimp only
          rw [Arr.set_same]
          exact riTrack_ok A h0 h31 hD z1 z2 _ _ _
        · dsimp only
          rw [Arr.set_ne _ _ hji]
          have : j.val ≠ i.val := fun e => hji (Fin.ext e)
          exact q1 j (by omega)
      · intro j hj
        have hji : j ≠ ⟨i.val, hi⟩ := fun e => by rw [e] at hj; dsimp only at hj; omega
        dsimp only
        rw [Arr.set_ne _ _ hji]
        exact q2 j (by omega)
      · intro j
        obtain ⟨r1, r2, r3, r4⟩ := q3 j
        have keep : 0 ≤ (c j).hwPt.toInt ∧ (c j).hwPt.toInt ≤ B + 300 * ((i.val + 1 : ℕ) : ℤ) ∧
          (c j = calo0 j ∨ |(c j).hwEta.toInt| ≤ 275 ∧ |(c j).hwPhi.toInt| ≤ 275) ∧
          (j.val % 2 = 1 → j.val < nne → 4 ≤ (c j).hwPt.toInt ∧ |(c j).hwEta.toInt| ≤ 275 ∧ |(c j).hwPhi.toInt| ≤ 275) :=
          ⟨r1, by push_cast; omega, r3, r4⟩
        dsimp only
        split
        · exact keep
        · dsimp only
          by_cases hj : j = ⟨D.draw (k + 4) % NC, Nat.mod_lt _ (by omega)⟩
          · rw [← hj, Arr.set_same]
            rcases riDeposit_ok A h0 h31 hD k (c j) with h | ⟨x, x1, x2, x3, x4, x5⟩
            · rw [h]; exact keep
            · have hv : (R.riDeposit D k (c j)).hwPt.toInt = (c j).hwPt.toInt + x := by
                rw [x3, reg_toInt16 (by omega) (by omega)]
              rw [hv]
              exact ⟨by omega, by push_cast; omega, Or.inr ⟨x4, x5⟩, fun a b => ⟨by have := (r4 a b).1; omega, x4, x5⟩⟩
          · rw [Arr.set_ne _ _ hj]
            exact keep)
  dsimp only at p2 p3 p4
  simp only [e2, Run.ok_bind]
  obtain ⟨⟨m3, k3⟩, e3, p5⟩ := loopM_induct
    (fun n (s : Arr NM MuObj × ℕ) => ∀ i : Fin NM, i.val < n → Spec.RiMuon (s.1 i))
    (fun (i : Fin NM) (st : Arr NM MuObj × ℕ) => (.ok (st.1.set i (R.riMuon D st.2), st.2 + 3) : Run _))
    (mu0, k2) (by simp)
    (by
      rintro i ⟨s, k⟩ q
      refine ⟨_, rfl, fun j hj => ?_⟩
      by_cases hji : j = i
      · subst hji; dsimp only; rw [Arr.set_same]; exact riMuon_ok A h0 h31 hD _
      · dsimp only
        rw [Arr.set_ne _ _ hji]
        have : j.val ≠ i.val := fun e => hji (Fin.ext e)
        exact q j (by omega))
  dsimp only at p5
  simp only [e3, Run.ok_bind]
  refine ⟨c2, t2, m3, _, k3, nch D NT k0, nne, rfl, hn.1, hn.2, hnn, ?_, p2, p3, fun i => p5 i i.isLt, p4⟩
  have b := A.box32 (a := -200) (b := 200) (x := zPV * 20) (by norm_num) (by norm_num) (by push_cast; linarith) (by push_cast; linarith)
  have c := ctrunc_box b.1 b.2
  unfold Rounding.store
  rw [reg_toInt10 (by omega) (by omega), abs_le]
  exact c

/-- The default sizes of firmware/data.h, cleared clusters and a generator: the hypotheses can be met. -/
example (track0 : Arr 7 TkObj) (mu0 : Arr 2 MuObj) : ∃ (R : Rounding) (D : Rand) (r : _), IEEE R ∧
    R.riRegion (NC := 5) D (fun _ => ⟨0, 0, 0⟩) track0 mu0 0 = .ok r ∧ ∀ i, (r.1 i).hwPt.toInt ≤ 2424 := by
  obtain ⟨R, hR⟩ := C61_rounding_exists
  obtain ⟨calo, track, mu, z, k, n, nne, e, -, hn, -, -, -, -, -, hc⟩ := C63_region hR
    (D := ⟨2147483647, fun k => 1103515245 * k % 2147483648⟩) (by norm_num)
    (by norm_num) (fun k => by have := Nat.mod_lt (1103515245 * k) (show 0 < 2147483648 by norm_num); dsimp only; omega)
    (NT := 7) (NC := 5) (NM := 2) (by norm_num) (by norm_num) (B := 324) (by norm_num) (by norm_num) (fun _ => ⟨0, 0, 0⟩)
    (fun i => ⟨by decide, by decide⟩) track0 mu0 0
  exact ⟨R, _, _, hR, e, fun i => by have := (hc i).2.1; dsimp only; omega⟩

end Verif
