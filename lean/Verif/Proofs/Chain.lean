import Verif.Spec.Chain
import Verif.Proofs.RegionizerFiles
/-! # Reading the words of objects -/
namespace Verif
open Spec
variable {NT NC NE NM N : Nat}

theorem extract_pt {w : Word} {pt err : Pt} (h : w.toNat = ptErrWord pt err) : w.extractLsb 15 0 = pt := by
  apply BitVec.eq_of_toNat_eq
  rw [BitVec.extractLsb_toNat, h]
  unfold ptErrWord
  have := pt.isLt
  simp
  omega

theorem extract_err {w : Word} {pt err : Pt} (h : w.toNat = ptErrWord pt err) : w.extractLsb 31 16 = err := by
  apply BitVec.eq_of_toNat_eq
  rw [BitVec.extractLsb_toNat, h, Nat.shiftRight_eq_div_pow]
  unfold ptErrWord
  have := pt.isLt
  have := err.isLt
  simp
  omega

theorem extract_eta {w : Word} {eta phi : EtaPhi} {x : Nat} (h : w.toNat = etaPhiWord eta phi + 2 ^ 20 * x) : w.extractLsb 9 0 = eta := by
  apply BitVec.eq_of_toNat_eq
  rw [BitVec.extractLsb_toNat, h]
  unfold etaPhiWord
  have := eta.isLt
  simp
  omega

theorem extract_phi {w : Word} {eta phi : EtaPhi} {x : Nat} (h : w.toNat = etaPhiWord eta phi + 2 ^ 20 * x) : w.extractLsb 19 10 = phi := by
  apply BitVec.eq_of_toNat_eq
  rw [BitVec.extractLsb_toNat, h, Nat.shiftRight_eq_div_pow]
  unfold etaPhiWord
  have := eta.isLt
  have := phi.isLt
  simp
  omega

theorem extract_flag {w : Word} {eta phi : EtaPhi} {b : Bool} (h : w.toNat = etaPhiWord eta phi + 2 ^ 20 * b.toNat) : w.getLsbD 20 = b := by
  have e : w.getLsbD 20 = w.toNat.testBit 20 := rfl
  rw [e, h, Nat.testBit_eq_decide_div_mod_eq]
  unfold etaPhiWord
  have := eta.isLt
  have := phi.isLt
  cases b
  · simp; omega
  · simp; omega

theorem extract_z0 {w : Word} {eta phi : EtaPhi} {z : Z0} {q : Bool}
    (h : w.toNat = etaPhiWord eta phi + 2 ^ 20 * z.toNat + 2 ^ 30 * q.toNat) : w.extractLsb 29 20 = z := by
  apply BitVec.eq_of_toNat_eq
  rw [BitVec.extractLsb_toNat, h, Nat.shiftRight_eq_div_pow]
  unfold etaPhiWord
  have := eta.isLt
  have := phi.isLt
  have := z.isLt
  simp
  omega

theorem extract_quality {w : Word} {eta phi : EtaPhi} {z : Z0} {q : Bool}
    (h : w.toNat = etaPhiWord eta phi + 2 ^ 20 * z.toNat + 2 ^ 30 * q.toNat) : w.getLsbD 30 = q := by
  have e : w.getLsbD 30 = w.toNat.testBit 30 := rfl
  rw [e, h, Nat.testBit_eq_decide_div_mod_eq]
  unfold etaPhiWord
  have := eta.isLt
  have := phi.isLt
  have := z.isLt
  cases q
  · simp; omega
  · simp; omega

theorem unpack_em_of {OFFS : Nat} {data : Arr N Word} (f : Arr NE EmCaloObj) (x : Fin NE → Nat)
    (h : ∀ i, WordsAt data (2 * i.val + OFFS) ((emWords (f i)).1, (emWords (f i)).2 + 2 ^ 20 * x i)) :
    mp7_unpack_em OFFS data = .ok f := by
  unfold mp7_unpack_em
  apply buildM_ok
  intro i
  obtain ⟨⟨h0, e0⟩, ⟨h1, e1⟩⟩ := h i
  have h0' : 2 * i.val + 0 + OFFS < N := h0
  change (data ⟨2 * i.val + 0 + OFFS, h0'⟩).toNat = ptErrWord (f i).hwPt (f i).hwPtErr at e0
  have h1' : 2 * i.val + 1 + OFFS < N := by omega
  have i1 : (⟨2 * i.val + OFFS + 1, h1⟩ : Fin N) = ⟨2 * i.val + 1 + OFFS, h1'⟩ := Fin.ext (by simp only []; omega)
  rw [i1] at e1
  rw [Arr.read_ok data h0', Run.ok_bind, Arr.read_ok data h1', Run.ok_bind]
  rw [extract_pt e0, extract_err e0, extract_eta e1, extract_phi e1]

theorem unpack_had_of {OFFS : Nat} {data : Arr N Word} (f : Arr NC HadCaloObj)
    (h : ∀ i, WordsAt data (2 * i.val + OFFS) (hadWords (f i))) : mp7_unpack_had OFFS data = .ok f := by
  unfold mp7_unpack_had
  apply buildM_ok
  intro i
  obtain ⟨⟨h0, e0⟩, ⟨h1, e1⟩⟩ := h i
  have h0' : 2 * i.val + 0 + OFFS < N := h0
  change (data ⟨2 * i.val + 0 + OFFS, h0'⟩).toNat = ptErrWord (f i).hwPt (f i).hwEmPt at e0
  have h1' : 2 * i.val + 1 + OFFS < N := by omega
  have i1 : (⟨2 * i.val + OFFS + 1, h1⟩ : Fin N) = ⟨2 * i.val + 1 + OFFS, h1'⟩ := Fin.ext (by simp only []; omega)
  rw [i1] at e1
  rw [Arr.read_ok data h0', Run.ok_bind, Arr.read_ok data h1', Run.ok_bind]
  rw [extract_pt e0, extract_err e0, extract_eta e1, extract_phi e1, extract_flag e1]

theorem unpack_tk_of {OFFS : Nat} {data : Arr N Word} (f : Arr NT TkObj)
    (h : ∀ i, WordsAt data (2 * i.val + OFFS) (tkWords (f i))) : mp7_unpack_tk OFFS data = .ok f := by
  unfold mp7_unpack_tk
  apply buildM_ok
  intro i
  obtain ⟨⟨h0, e0⟩, ⟨h1, e1⟩⟩ := h i
  have h0' : 2 * i.val + 0 + OFFS < N := h0
  change (data ⟨2 * i.val + 0 + OFFS, h0'⟩).toNat = ptErrWord (f i).hwPt (f i).hwPtErr at e0
  have h1' : 2 * i.val + 1 + OFFS < N := by omega
  have i1 : (⟨2 * i.val + OFFS + 1, h1⟩ : Fin N) = ⟨2 * i.val + 1 + OFFS, h1'⟩ := Fin.ext (by simp only []; omega)
  rw [i1] at e1
  have e2 : (data ⟨2 * i.val + 1 + OFFS, h1'⟩).toNat =
      etaPhiWord (f i).hwEta (f i).hwPhi + 2 ^ 20 * ((f i).hwZ0.toNat + 2 ^ 10 * (f i).hwTightQuality.toNat) := by
    rw [e1]; show _ + _ + _ = _; omega
  rw [Arr.read_ok data h0', Run.ok_bind, Arr.read_ok data h1', Run.ok_bind]
  rw [extract_pt e0, extract_err e0, extract_eta e2, extract_phi e2, extract_z0 e1, extract_quality e1]

theorem unpack_mu_of {OFFS : Nat} {data : Arr N Word} (f : Arr NM MuObj)
    (h : ∀ i, WordsAt data (2 * i.val + OFFS) (muWords (f i))) : mp7_unpack_mu OFFS data = .ok f := by
  unfold mp7_unpack_mu
  apply buildM_ok
  intro i
  obtain ⟨⟨h0, e0⟩, ⟨h1, e1⟩⟩ := h i
  have h0' : 2 * i.val + 0 + OFFS < N := h0
  change (data ⟨2 * i.val + 0 + OFFS, h0'⟩).toNat = ptErrWord (f i).hwPt (f i).hwPtErr at e0
  have h1' : 2 * i.val + 1 + OFFS < N := by omega
  have i1 : (⟨2 * i.val + OFFS + 1, h1⟩ : Fin N) = ⟨2 * i.val + 1 + OFFS, h1'⟩ := Fin.ext (by simp only []; omega)
  rw [i1] at e1
  have e2 : (data ⟨2 * i.val + 1 + OFFS, h1'⟩).toNat = etaPhiWord (f i).hwEta (f i).hwPhi + 2 ^ 20 * 0 := e1
  rw [Arr.read_ok data h0', Run.ok_bind, Arr.read_ok data h1', Run.ok_bind]
  rw [extract_pt e0, extract_err e0, extract_eta e2, extract_phi e2]

/-- Unpacking a frame of 72 links, from what the links carry. -/
theorem unpack_in_of {data : MP7Event} (inp : PFInputs NT NC NE NM) (hfit : NC + NE + NT + NM ≤ 72) (x : Fin NE → Nat)
    (hem : ∀ i : Fin NE, chan data i.val (by omega) = ((emWords (inp.emcalo i)).1, (emWords (inp.emcalo i)).2 + 2 ^ 20 * x i))
    (hhad : ∀ i : Fin NC, chan data (NE + i.val) (by omega) = hadWords (inp.hadcalo i))
    (htk : ∀ i : Fin NT, chan data (NC + NE + i.val) (by omega) = tkWords (inp.track i))
    (hmu : ∀ i : Fin NM, chan data (NC + NE + NT + i.val) (by omega) = muWords (inp.mu i)) :
    mp7wrapped_unpack_in data = .ok inp := by
  have key : ∀ {c k : Nat} (hc : c < 72) {w}, chan data c hc = w → k = 2 * c → WordsAt data k w := by
    intro c k hc w h hk
    subst hk
    exact ⟨⟨by omega, congrArg Prod.fst h⟩, ⟨by omega, congrArg Prod.snd h⟩⟩
  unfold mp7wrapped_unpack_in
  rw [show cassert (decide (2 * NE + 2 * NT + 2 * NC + 2 * NM ≤ MP7_NCHANN)) = .ok () by
    exact cassert_true (decide_eq_true (show _ ≤ 144 by omega))]
  rw [Run.ok_bind, unpack_em_of inp.emcalo x (fun i => key _ (hem i) rfl), Run.ok_bind,
    unpack_had_of inp.hadcalo (fun i => key _ (hhad i) (by omega)), Run.ok_bind,
    unpack_tk_of inp.track (fun i => key _ (htk i) (by omega)), Run.ok_bind,
    unpack_mu_of inp.mu (fun i => key _ (hmu i) (by omega)), Run.ok_bind]

end Verif
