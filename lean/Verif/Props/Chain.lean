import Verif.Proofs.Chain
import Verif.Props.PFAgree
/-! # C79: the regionizer's output links and the particle-flow input links

The bench of the regionizer sends a region as calorimeter clusters, EM clusters, tracks, muons. The wrapper of the
particle-flow firmware reads EM clusters, calorimeter clusters, tracks, muons. -/
namespace Verif
open Spec
variable {sz : RegSizes} {NC NE NT NM : Nat}

theorem outLink_seen (hfit : NC + NE + NT + NM ≤ 72) (d : RegRecord sz NC NE NT NM) (ir : Fin 18) (all : MP7Event)
    (h : ∀ c hc, chan all c hc = outLink d ir c) : mp7wrapped_unpack_in all = .ok (seenInputs d ir) := by
  apply unpack_in_of (seenInputs d ir) hfit
    (fun i => if h : i.val < NC then (d.calo ir ⟨i.val, h⟩).hwIsEM.toNat else 0)
  · intro i
    rw [h]
    unfold outLink seenInputs
    by_cases hi : i.val < NC
    · simp only [dif_pos hi]; rfl
    · simp only [dif_neg hi, dif_pos (show i.val < NC + NE by omega)]; rfl
  · intro i
    rw [h]
    unfold outLink seenInputs
    by_cases hi : NE + i.val < NC
    · simp only [dif_pos hi]
    · simp only [dif_neg hi, dif_pos (show NE + i.val < NC + NE by omega)]; rfl
  · intro i
    rw [h]
    unfold outLink seenInputs
    simp only [dif_neg (show ¬NC + NE + i.val < NC by omega), dif_neg (show ¬NC + NE + i.val < NC + NE by omega),
      dif_pos (show NC + NE + i.val < NC + NE + NT by omega), Nat.add_sub_cancel_left]
  · intro i
    rw [h]
    unfold outLink seenInputs
    simp only [dif_neg (show ¬NC + NE + NT + i.val < NC by omega), dif_neg (show ¬NC + NE + NT + i.val < NC + NE by omega),
      dif_neg (show ¬NC + NE + NT + i.val < NC + NE + NT by omega),
      dif_pos (show NC + NE + NT + i.val < NC + NE + NT + NM by omega), Nat.add_sub_cancel_left]

/-- **C79.** What particle flow reads from a region sent by the regionizer's bench, for every region and every content:
tracks and muons are right; the EM slots hold the first links, that is calorimeter clusters with their EM pt taken for a
pt error and their EM flag lost, and the calorimeter slots hold what is left of them and then EM clusters with their pt
error taken for an EM pt. -/
theorem C79_frames (hfit : NC + NE + NT + NM ≤ 72) (d : RegRecord sz NC NE NT NM) (ir : Fin (N_CLOCKS / 2)) :
    ∃ all calo track mu, mp7OutFrames d ir = .ok (all, calo, track, mu) ∧
      mp7wrapped_unpack_in all = .ok (seenInputs d ir) := by
  obtain ⟨all, calo, track, mu, h1, h2, _⟩ := mp7OutFrames_ok hfit d ir
  exact ⟨all, calo, track, mu, h1, outLink_seen hfit d ir all h2⟩

/-- **C79.** With as many EM as calorimeter clusters, the two collections are exchanged; so particle flow reads the region
right exactly when cluster number `i` of each collection is the image of cluster number `i` of the other. -/
theorem C79_exchanged {N : Nat} (hfit : N + N + NT + NM ≤ 72) (d : RegRecord sz N N NT NM) (ir : Fin (N_CLOCKS / 2)) :
    ∃ all calo track mu, mp7OutFrames d ir = .ok (all, calo, track, mu) ∧
      mp7wrapped_unpack_in all =
        .ok ⟨fun i => emOfHad (d.calo ir i), fun i => hadOfEm (d.em ir i), d.track ir, d.mu ir⟩ ∧
      (mp7wrapped_unpack_in all = .ok (boardInputs d ir) ↔ ∀ i, d.calo ir i = hadOfEm (d.em ir i)) := by
  obtain ⟨all, calo, track, mu, h1, h2⟩ := C79_frames hfit d ir
  have e : seenInputs d ir = ⟨fun i => emOfHad (d.calo ir i), fun i => hadOfEm (d.em ir i), d.track ir, d.mu ir⟩ := by
    unfold seenInputs
    congr 1
    · funext i; rw [dif_pos i.isLt]
    · funext i
      rw [dif_neg (by omega)]
      congr 2
      exact Fin.ext (by simp)
  rw [e] at h2
  refine ⟨all, calo, track, mu, h1, h2, ?_⟩
  rw [h2]
  constructor
  · intro h i
    have := congrFun (congrArg PFInputs.hadcalo (Except.ok.inj h)) i
    exact this.symm
  · intro h
    unfold boardInputs
    congr 2
    · funext i; rw [h i]; rfl
    · funext i; exact (h i).symm

/-- The frame with the two blocks of clusters exchanged. -/
def exchangeBlocks (NC NE : Nat) (hfit : NC + NE ≤ 72) (all : MP7Event) : MP7Event := fun k =>
  if k.val < 2 * NE then all ⟨(2 * NC + k.val) % 144, by omega⟩
  else if k.val < 2 * NE + 2 * NC then all ⟨k.val - 2 * NE, by omega⟩
  else all k

theorem chan_exchange (hfit : NC + NE ≤ 72) (all : MP7Event) (c : Nat) (hc : c < 72) :
    chan (exchangeBlocks NC NE hfit all) c hc =
      if h : c < NE then chan all (NC + c) (by omega)
      else if h : c < NE + NC then chan all (c - NE) (by omega) else chan all c hc := by
  have e : ∀ {i j : Fin 144}, i.val = j.val → (all i).toNat = (all j).toNat := fun h => by rw [Fin.ext h]
  unfold chan exchangeBlocks
  by_cases h1 : c < NE
  · simp only [dif_pos h1, if_pos (show 2 * c < 2 * NE by omega), if_pos (show 2 * c + 1 < 2 * NE by omega)]
    exact Prod.ext (e (by simp only []; omega)) (e (by simp only []; omega))
  · by_cases h2 : c < NE + NC
    · simp only [dif_neg h1, dif_pos h2, if_neg (show ¬2 * c < 2 * NE by omega), if_neg (show ¬2 * c + 1 < 2 * NE by omega),
        if_pos (show 2 * c < 2 * NE + 2 * NC by omega), if_pos (show 2 * c + 1 < 2 * NE + 2 * NC by omega)]
      exact Prod.ext (e (by simp only []; omega)) (e (by simp only []; omega))
    · simp only [dif_neg h1, dif_neg h2, if_neg (show ¬2 * c < 2 * NE by omega), if_neg (show ¬2 * c + 1 < 2 * NE by omega),
        if_neg (show ¬2 * c < 2 * NE + 2 * NC by omega), if_neg (show ¬2 * c + 1 < 2 * NE + 2 * NC by omega)]

/-- **C79.** Nothing else is wrong: after exchanging the two blocks of links, particle flow reads exactly the region. -/
theorem C79_reordered (hfit : NC + NE + NT + NM ≤ 72) (d : RegRecord sz NC NE NT NM) (ir : Fin (N_CLOCKS / 2)) :
    ∃ all calo track mu, mp7OutFrames d ir = .ok (all, calo, track, mu) ∧
      mp7wrapped_unpack_in (exchangeBlocks NC NE (by omega) all) = .ok (boardInputs d ir) := by
  obtain ⟨all, calo, track, mu, h1, h2, _⟩ := mp7OutFrames_ok hfit d ir
  refine ⟨all, calo, track, mu, h1, unpack_in_of (boardInputs d ir) hfit (fun _ => 0) ?_ ?_ ?_ ?_⟩
  · intro i
    rw [chan_exchange, dif_pos i.isLt, h2]
    unfold outLink boardInputs
    simp only [dif_neg (show ¬NC + i.val < NC by omega), dif_pos (show NC + i.val < NC + NE by omega), Nat.add_sub_cancel_left]
    rfl
  · intro i
    rw [chan_exchange, dif_neg (by omega), dif_pos (by omega), h2]
    unfold outLink boardInputs
    simp only [Nat.add_sub_cancel_left, dif_pos i.isLt]
  · intro i
    rw [chan_exchange, dif_neg (by omega), dif_neg (by omega), h2]
    unfold outLink boardInputs
    simp only [dif_neg (show ¬NC + NE + i.val < NC by omega), dif_neg (show ¬NC + NE + i.val < NC + NE by omega),
      dif_pos (show NC + NE + i.val < NC + NE + NT by omega), Nat.add_sub_cancel_left]
  · intro i
    rw [chan_exchange, dif_neg (by omega), dif_neg (by omega), h2]
    unfold outLink boardInputs
    simp only [dif_neg (show ¬NC + NE + NT + i.val < NC by omega), dif_neg (show ¬NC + NE + NT + i.val < NC + NE by omega),
      dif_neg (show ¬NC + NE + NT + i.val < NC + NE + NT by omega),
      dif_pos (show NC + NE + NT + i.val < NC + NE + NT + NM by omega), Nat.add_sub_cancel_left]

/-- A region with a charged pion (a track of pt 100 and the cluster it makes) and a neutral hadron far from it. -/
def pionRecord : RegRecord .source 2 2 1 1 where
  inp := ⟨fun _ _ => HadCaloObj.clear, fun _ _ => EmCaloObj.clear, fun _ _ => TkObj.clear, fun _ _ => MuObj.clear⟩
  mu_in := fun _ _ => MuObj.clear
  calo := fun ir i => if ir = 6 then (if i = 0 then ⟨98, 10, 5, 20, false⟩ else ⟨60, 150, 5, 8, false⟩) else HadCaloObj.clear
  em := fun _ _ => EmCaloObj.clear
  track := fun ir _ => if ir = 6 then ⟨100, 10, 10, 5, 3, false⟩ else TkObj.clear
  mu := fun _ _ => MuObj.clear

/-- **C79**, what it does to an event: on the region itself the firmware gives a charged hadron (id 0) and one neutral
hadron of pt 60; on what it reads from the links, an electron (id 3) and a photon of pt 60. -/
theorem C79_concrete : Physical (boardInputs pionRecord 6) ∧ Physical (seenInputs pionRecord 6) ∧
    boardInputs pionRecord 6 ≠ seenInputs pionRecord 6 ∧
    (pfalgo3_full (boardInputs pionRecord 6) (old0 1 2 2 1) (mem0 2 2)).map
      (fun o => ((o.outch 0).hwPt, (o.outch 0).hwId, (o.outne 0).hwPt, (o.outpho 0).hwPt, (o.outpho 1).hwPt)) = .ok (100, 0, 60, 0, 0) ∧
    (pfalgo3_full (seenInputs pionRecord 6) (old0 1 2 2 1) (mem0 2 2)).map
      (fun o => ((o.outch 0).hwPt, (o.outch 0).hwId, (o.outne 0).hwPt, (o.outpho 0).hwPt, (o.outpho 1).hwPt)) = .ok (100, 3, 0, 0, 60) := by
  refine ⟨⟨by decide, by decide, by decide, by decide, by decide, by decide, by decide, by decide, by decide, by decide⟩,
    ⟨by decide, by decide, by decide, by decide, by decide, by decide, by decide, by decide, by decide, by decide⟩,
    fun h => ?_, by decide +kernel, by decide +kernel⟩
  have := congrArg (fun x => (x.emcalo 0).hwPt) h
  revert this
  decide

end Verif
