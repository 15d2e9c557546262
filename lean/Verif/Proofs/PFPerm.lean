import Verif.Proofs.PFFacts
import Mathlib.Algebra.BigOperators.Group.Finset.Basic
/-! # Permuting the tracks of an event without muons -/
open scoped BigOperators
namespace Verif
open Spec
variable {NT NC NE NM NS : Nat}

/-- The event with its tracks listed in another order. -/
def permTracks (inp : PFInputs NT NC NE NM) (σ : Equiv.Perm (Fin NT)) : PFInputs NT NC NE NM :=
  { inp with track := fun t => inp.track (σ t) }

theorem fwMu_none (inp : PFInputs NT NC NE NM) (old : PFOutputs NT NE NS NM)
    (hmu : ∀ m, (inp.mu m).hwPt.toInt ≤ 0) :
    (∀ t, (fwMu inp old).2 t = false) ∧ (∀ m, (fwMu inp old).1 m = nullCharged) := by
  obtain ⟨_, h2, h3⟩ := mualgo_spec inp.mu inp.track (spfph_mutrk_link inp.mu inp.track) old.outmu
    (fun _ => false) (fun m i j => mutrk_link_unique inp.mu inp.track m i j)
  refine ⟨fun t => ?_, fun m => h2 m (Or.inl (by have := hmu m; omega))⟩
  rw [← Bool.not_eq_true]
  intro h
  rcases (h3 t).mp h with h | ⟨m, hp, _⟩
  · cases h
  · have := hmu m; omega

/-- If the accumulation succeeds the total fits and the result is the pair of sums. -/
theorem loopM_errsum_ok {n : Nat} (c : Fin n → Bool) (p x : Fin n → Int)
    {r : BitVec 16 × Int}
    (h : loopM (fun it (s : BitVec 16 × Int) =>
        if c it then do
          let sumerr ← cint (s.2 + x it)
          .ok (reg 16 (s.1.toInt + p it), sumerr)
        else .ok s) ((0 : BitVec 16), (0 : Int)) = .ok r) :
    (∑ i, if c i then x i else 0) ≤ 2147483647 := by
  have := loopM_induct_ok (fun k (s : BitVec 16 × Int) =>
      s.2 = prefixSum k (fun i => if c i then x i else 0) ∧ s.2 ≤ 2147483647) _ _ r
    (by simp [prefixSum]) (by
      intro i s s1 ih hb
      rw [prefixSum_succ]
      cases hc : c i with
      | false =>
        rw [hc] at hb
        simp only [Bool.false_eq_true, if_false] at hb ⊢
        injection hb with hb
        rw [← hb]
        exact ⟨by omega, ih.2⟩
      | true =>
        rw [hc] at hb
        simp only [if_true] at hb ⊢
        obtain ⟨e, he, hb⟩ := Run.bind_eq_ok.mp hb
        obtain ⟨h1, h2⟩ := cint_eq_ok.mp he
        injection hb with hb
        rw [← hb]
        simp only
        omega) h
  rw [prefixSum_full] at this
  omega

theorem fwEmLink_perm (inp : PFInputs NT NC NE NM) (old : PFOutputs NT NE NS NM) (σ : Equiv.Perm (Fin NT))
    (hmu : ∀ m, (inp.mu m).hwPt.toInt ≤ 0) (t : Fin NT) (c : Fin NE) :
    fwEmLink (permTracks inp σ) old t c = fwEmLink inp old (σ t) c := by
  have h1 := (fwMu_none inp old hmu).1
  have h2 := (fwMu_none (permTracks inp σ) old hmu).1
  rw [Bool.eq_iff_iff]
  unfold fwEmLink
  rw [tk2em_link_iff, tk2em_link_iff, h1, h2]
  exact Iff.rfl

theorem fwSumEm_perm (inp : PFInputs NT NC NE NM) (old : PFOutputs NT NE NS NM) (σ : Equiv.Perm (Fin NT))
    (hmu : ∀ m, (inp.mu m).hwPt.toInt ≤ 0) :
    fwSumEm (permTracks inp σ) old = fwSumEm inp old := by
  funext c
  unfold fwSumEm tk2em_sumtk
  rw [loop_regsum (fun t => fwEmLink (permTracks inp σ) old t c)
      (fun t => ((permTracks inp σ).track t).hwPt.toInt),
    loop_regsum (fun t => fwEmLink inp old t c) (fun t => (inp.track t).hwPt.toInt)]
  refine congrArg (reg 16) ?_
  simp only [fwEmLink_perm inp old σ hmu]
  exact Equiv.sum_comp σ (fun t => if fwEmLink inp old t c then (inp.track t).hwPt.toInt else 0)

theorem fwEle_perm (inp : PFInputs NT NC NE NM) (old : PFOutputs NT NE NS NM) (σ : Equiv.Perm (Fin NT))
    (hmu : ∀ m, (inp.mu m).hwPt.toInt ≤ 0) (em : Arr NE (Bool × Pt)) (t : Fin NT) :
    fwEle (permTracks inp σ) old em t = fwEle inp old em (σ t) := by
  unfold fwEle tk2em_elealgo
  apply loop_congr
  intro i s
  rw [fwEmLink_perm inp old σ hmu]

theorem calolink_perm (calo : Arr NC HadCaloObj) (track : Arr NT TkObj) (σ : Equiv.Perm (Fin NT))
    {link : Arr NT (Arr NC Bool)} (h : tk2calo_link_drdpt calo track = .ok link) :
    tk2calo_link_drdpt calo (fun t => track (σ t)) = .ok (fun t => link (σ t)) := by
  unfold tk2calo_link_drdpt at h ⊢
  obtain ⟨dr, hd, h⟩ := Run.bind_eq_ok.mp h
  injection h with h
  have : tk2calo_drdptvals PFALGO3_DR2MAX_TK_CALO calo (fun t => track (σ t)) =
      .ok (fun t => dr (σ t)) := by
    unfold tk2calo_drdptvals at hd ⊢
    exact buildM_ok _ (fun t => buildM_eq_ok.mp hd (σ t))
  rw [this, ← h]
  rfl

theorem calosum_perm (track : Arr NT TkObj) (isEle isMu : Arr NT Bool) (link : Arr NT (Arr NC Bool))
    (σ : Equiv.Perm (Fin NT)) {sums : Arr NC (Pt × Int)}
    (h : tk2calo_sumtk track isEle isMu (tk2calo_tkerr2 track) link = .ok sums) :
    tk2calo_sumtk (fun t => track (σ t)) (fun t => isEle (σ t)) (fun t => isMu (σ t))
      (tk2calo_tkerr2 fun t => track (σ t)) (fun t => link (σ t)) = .ok sums := by
  unfold tk2calo_sumtk at h ⊢
  refine buildM_ok _ (fun ic => ?_)
  have h := buildM_eq_ok.mp h ic
  let c : Fin NT → Bool := fun t => !isEle t && link t ic && !isMu t
  have hb := loopM_errsum_ok c (fun t => (track t).hwPt.toInt) (tk2calo_tkerr2 track) h
  have h1 := loopM_errsum c (fun t => (track t).hwPt.toInt) (tk2calo_tkerr2 track)
    (fun t => mul_self_nonneg _) hb
  have e1 : (∑ t, if c (σ t) then tk2calo_tkerr2 track (σ t) else 0) =
      ∑ t, if c t then tk2calo_tkerr2 track t else 0 :=
    Equiv.sum_comp σ (fun t => if c t then tk2calo_tkerr2 track t else 0)
  have e2 : (∑ t, if c (σ t) then (track (σ t)).hwPt.toInt else 0) =
      ∑ t, if c t then (track t).hwPt.toInt else 0 :=
    Equiv.sum_comp σ (fun t => if c t then (track t).hwPt.toInt else 0)
  have h2 := loopM_errsum (fun t => c (σ t)) (fun t => (track (σ t)).hwPt.toInt)
    (fun t => tk2calo_tkerr2 track (σ t)) (fun t => mul_self_nonneg _) (by rw [e1]; exact hb)
  rw [e1, e2, ← h1] at h2
  exact h2.trans h

theorem pfalgo3_full_perm (inp : PFInputs NT NC NE NM) (old : PFOutputs NT NE NS NM)
    (mem : PFScratch NC NS) (σ : Equiv.Perm (Fin NT)) (hmu : ∀ m, (inp.mu m).hwPt.toInt ≤ 0)
    {out : PFOutputs NT NE NS NM} (h : pfalgo3_full inp old mem = .ok out) :
    pfalgo3_full (permTracks inp σ) old mem = .ok { out with outch := fun t => out.outch (σ t) } := by
  obtain ⟨em, link, sums, ne, h1, h2, h3, h4, rfl⟩ := (pfalgo3_full_ok_iff inp old mem out).mp h
  have m1 := fwMu_none inp old hmu
  have m2 := fwMu_none (permTracks inp σ) old hmu
  refine (pfalgo3_full_ok_iff _ _ _ _).mpr ⟨em, fun t => link (σ t), sums, ne, ?_, ?_, ?_, h4, ?_⟩
  · rw [fwSumEm_perm inp old σ hmu]; exact h1
  · exact calolink_perm (fwSub inp em) inp.track σ h2
  · have e1 : fwEle (permTracks inp σ) old em = fun t => fwEle inp old em (σ t) := by
      funext t; exact fwEle_perm inp old σ hmu em t
    have e2 : (fwMu (permTracks inp σ) old).2 = fun t => (fwMu inp old).2 (σ t) := by
      funext t; rw [m1.1, m2.1]
    rw [e1, e2]
    exact calosum_perm inp.track _ _ link σ h3
  · have e : (fwMu (permTracks inp σ) old).1 = (fwMu inp old).1 := by
      funext m; rw [m1.2, m2.2]
    have e' : tk2calo_tkalgo (permTracks inp σ).track (fwEle (permTracks inp σ) old em)
        (fwMu (permTracks inp σ) old).2 (fun t => link (σ t)) =
        fun t => tk2calo_tkalgo inp.track (fwEle inp old em) (fwMu inp old).2 link (σ t) := by
      funext t
      unfold tk2calo_tkalgo
      simp only [fwEle_perm inp old σ hmu, m1.1, m2.1]
      rfl
    rw [e, e']
    rfl

end Verif
