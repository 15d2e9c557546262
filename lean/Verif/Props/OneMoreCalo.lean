import Verif.Proofs.OneMoreCalo
import Verif.Props.OneMore
/-! # One more calorimeter cluster: property C94 -/
namespace Verif
open Spec
variable {NT NC NE NM NS : Nat}

/-- What never changes when a calorimeter cluster is added: muons and photons stay, and no charged candidate is lost or changed. -/
structure CaloAdded (out out' : PFOutputs NT NE NS NM) : Prop where
  muon : out'.outmu = out.outmu
  photon : ∀ c, seen (out'.outpho c) = seen (out.outpho c)
  charged : ∀ t, (out.outch t).hwPt ≠ 0 → out'.outch t = out.outch t

/-- The candidates of the two events are ordered if the new cluster attracts no EM cluster. -/
theorem neutralSeen_le {inp inp' : PFInputs NT NC NE NM} {h0 : Fin NC} {v : Variant} (H : OneMoreCalo inp inp' h0) (hv : Valid inp v) (hv' : Valid inp' v)
    (hno : ∀ e, ¬ HadMatch inp' e h0) (h : Fin NC) : (neutralSeen inp v h).1 ≤ (neutralSeen inp' v h).1 := by
  rw [neutralSeen_fst, neutralSeen_fst]
  by_cases hh : h = h0
  · subst hh
    have a := (neutralPt_bounds hv' h).1
    have b := (neutralPt_bounds hv h).2
    rw [OneMoreCalo.hadPt_free hv.emPt H.freePt] at b
    have c : 0 ≤ caloTrackPt inp v h := caloTk_nonneg hv h
    omega
  · exact H.neutralPt_le hv.emPt hno hv.trackPt hh (hadPt_bounds hv h).1

/-- **C94.** Firmware: one more calorimeter cluster costs no charged candidate; and if it attracts no EM cluster, no place of the neutral list loses. -/
theorem C94_one_more_calo {inp inp' : PFInputs NT NC NE NM} {h0 : Fin NC} (H : OneMoreCalo inp inp' h0) (hv : Valid inp fwVariant)
    (hv' : Valid inp' fwVariant) (old old' : PFOutputs NT NE NS NM) (mem mem' : PFScratch NC NS) :
    ∃ out out', pfalgo3_full inp old mem = .ok out ∧ pfalgo3_full inp' old' mem' = .ok out' ∧ CaloAdded out out' ∧
      ((∀ e, ¬ HadMatch inp' e h0) → ∀ i, (out.outne i).hwPt.toInt ≤ (out'.outne i).hwPt.toInt) := by
  obtain ⟨out, n, h1, hch, hpho, hmu, hne, hsort⟩ := fw_meets_spec inp old mem hv
  obtain ⟨out', n', h1', hch', hpho', hmu', hne', hsort'⟩ := fw_meets_spec inp' old' mem' hv'
  refine ⟨out, out', h1, h1', ⟨funext fun m => H.muOut (hmu m) (hmu' m), fun c => ?_, fun t ht => ?_⟩, fun hno i => ?_⟩
  · have a := (hpho' c).1
    rw [H.photonPt, H.em] at a
    exact (sameNeutral_iff _ _).mp (neutralOut_same a (hpho c).1)
  · rw [hch] at ht
    rw [hch, hch']
    exact H.chargedOut hv.emPt (fun h hh => H.hadPt_le hv.emPt rfl hh (hadPt_bounds hv' h).1) ht
  · have f : List.ofFn (fun i => seen (out.outne i)) = fit NS (neutralsByPt (neutralSeen inp fwVariant)) := by
      rw [hsort]
      exact outne_fit hv mem.tmp fun h => (hne h).1
    have f' : List.ofFn (fun i => seen (out'.outne i)) = fit NS (neutralsByPt (neutralSeen inp' fwVariant)) := by
      rw [hsort']
      exact outne_fit hv' mem'.tmp fun h => (hne' h).1
    refine outne_le (fun h => ?_) (fun h => neutralSeen_le H hv hv' hno h) f' f i
    rw [neutralSeen_fst]
    exact (neutralPt_bounds hv' h).1

/-- **C94** for the reference, if the new cluster attracts no EM cluster. -/
theorem C94_one_more_calo_ref {inp inp' : PFInputs NT NC NE NM} {h0 : Fin NC} (H : OneMoreCalo inp inp' h0) (hv : Valid inp refVariant)
    (hv' : Valid inp' refVariant) (hno : ∀ e, ¬ HadMatch inp' e h0) (old old' : PFOutputs NT NE NS NM) (mem mem' : Arr NC PFNeutralObj) :
    ∃ out out', pfalgo3_full_ref inp old mem = .ok out ∧ pfalgo3_full_ref inp' old' mem' = .ok out' ∧ CaloAdded out out' ∧
      ∀ i, (out.outne i).hwPt.toInt ≤ (out'.outne i).hwPt.toInt := by
  obtain ⟨out, n, h1, hch, hch0, hpho, hmu, hne, hsort⟩ := ref_meets_spec_all inp old mem hv
  obtain ⟨out', n', h1', hch', hch0', hpho', hmu', hne', hsort'⟩ := ref_meets_spec_all inp' old' mem' hv'
  refine ⟨out, out', h1, h1', ⟨funext fun m => H.muOut (hmu m) (hmu' m), fun c => ?_, fun t ht => ?_⟩, fun i => ?_⟩
  · have a := hpho' c
    rw [H.photonPt, H.em] at a
    exact (sameNeutral_iff _ _).mp (neutralOut_same a (hpho c))
  · rcases eq_or_lt_of_le (hv.trackPt t) with h | h
    · exact absurd (hch0 t h.symm) ht
    · rw [hch t h] at ht
      rw [hch t h, hch' t (by rw [H.track]; exact h)]
      exact H.chargedOut hv.emPt (fun h hh => le_of_eq (H.hadPt_eq hv.emPt hno hh).symm) ht
  · have f : List.ofFn (fun i => seen (out.outne i)) = fit NS (neutralsByPt (neutralSeen (noGhosts inp) refVariant)) := by
      rw [hsort, ← ptsort_eq]
      exact outne_fit (valid_noGhosts hv) _ hne
    have f' : List.ofFn (fun i => seen (out'.outne i)) = fit NS (neutralsByPt (neutralSeen (noGhosts inp') refVariant)) := by
      rw [hsort', ← ptsort_eq]
      exact outne_fit (valid_noGhosts hv') _ hne'
    refine outne_le (fun h => ?_) (fun h => neutralSeen_le H.noGhosts (valid_noGhosts hv) (valid_noGhosts hv') hno h) f' f i
    rw [neutralSeen_fst]
    exact (neutralPt_bounds (valid_noGhosts hv') h).1

/-- A cluster flagged as electromagnetic, whose EM energy is in an EM cluster; a second EM cluster, with a track of more pt; a track on the
rest of the first cluster; and a slot holding the given cluster. -/
def protector (h : HadCaloObj) : PFInputs 2 2 2 1 where
  hadcalo := fun i => if i = 0 then ⟨200, 0, 0, 100, true⟩ else h
  emcalo := fun i => if i = 0 then ⟨100, 1, 0, 0⟩ else ⟨10, 1, 20, 0⟩
  track := fun i => if i = 0 then ⟨90, 5, -15, 0, 0, true⟩ else ⟨50, 1, 20, 0, 0, true⟩
  mu := fun _ => ⟨0, 0, 0, 0⟩

/-- **C94**, a limit: the reference can lose a charged candidate of 22.5 GeV by one more calorimeter cluster of 3 GeV, which takes away the EM
cluster that protected the other. -/
theorem C94_ref_loses :
    Physical (protector ⟨0, 0, 0, 0, false⟩) ∧ Physical (protector ⟨12, 20, 0, 12, false⟩) ∧
    OneMoreCalo (protector ⟨0, 0, 0, 0, false⟩) (protector ⟨12, 20, 0, 12, false⟩) 1 ∧
    (pfalgo3_full_ref (protector ⟨0, 0, 0, 0, false⟩) (old0 2 2 2 1) (mem0 2 2).outne_all).map (fun o => (o.outch 0).hwPt) = .ok 90 ∧
    (pfalgo3_full_ref (protector ⟨12, 20, 0, 12, false⟩) (old0 2 2 2 1) (mem0 2 2).outne_all).map (fun o => (o.outch 0).hwPt) = .ok 0 := by
  refine ⟨?_, ?_, ⟨rfl, rfl, rfl, fun h hh => ?_, by decide, by decide⟩, by decide +kernel, by decide +kernel⟩
  · constructor <;> decide
  · constructor <;> decide
  · match h with
    | 0 => rfl
    | 1 => exact absurd rfl hh

/-- **C94**, non-vacuity: a track moves to a new cluster, and its old cluster becomes a larger neutral. -/
example : ∃ inp inp' : PFInputs 1 2 1 1, OneMoreCalo inp inp' 1 ∧ Physical inp ∧ Physical inp' ∧ (∀ e, ¬ HadMatch inp' e 1) ∧
    (pfalgo3_full inp (old0 1 1 2 1) (mem0 2 2)).map (fun o => ((o.outch 0).hwPt, (o.outne 0).hwPt)) = .ok (100, 60) ∧
    (pfalgo3_full inp' (old0 1 1 2 1) (mem0 2 2)).map (fun o => ((o.outch 0).hwPt, (o.outne 0).hwPt)) = .ok (100, 160) := by
  refine ⟨⟨fun _ => ⟨0, 0, 200, 200⟩, fun i => if i = 0 then ⟨160, 0, 0, 0, false⟩ else ⟨0, 0, 0, 0, false⟩, fun _ => ⟨100, 5, 15, 0, 0, true⟩,
    fun _ => ⟨0, 0, 0, 0⟩⟩, ⟨fun _ => ⟨0, 0, 200, 200⟩, fun i => if i = 0 then ⟨160, 0, 0, 0, false⟩ else ⟨110, 15, 0, 0, false⟩,
    fun _ => ⟨100, 5, 15, 0, 0, true⟩, fun _ => ⟨0, 0, 0, 0⟩⟩, ⟨rfl, rfl, rfl, fun h hh => ?_, by decide, by decide⟩, ?_, ?_, fun e he => ?_,
    by decide +kernel, by decide +kernel⟩
  · match h with
    | 0 => rfl
    | 1 => exact absurd rfl hh
  · constructor <;> decide
  · constructor <;> decide
  · have := he.1.1
    dsimp only at this
    exact absurd this (by decide)

end Verif
