import Verif.Proofs.OneMoreEm
import Verif.Props.OneMoreCalo
/-! # One more EM cluster: property C98 -/
namespace Verif
open Spec
variable {NT NC NE NM NS : Nat}

/-- What one more EM cluster, without tracks near it, does to the outputs. -/
structure EmAdded (inp inp' : PFInputs NT NC NE NM) (v : Variant) (c0 : Fin NE) (out out' : PFOutputs NT NE NS NM) : Prop where
  muon : out'.outmu = out.outmu
  /-- a photon with the pt and the position of the cluster -/
  newPhoton : NeutralOut (inp'.emcalo c0).hwPt.toInt (inp'.emcalo c0).hwEta (inp'.emcalo c0).hwPhi 2 (out'.outpho c0)
  noPhoton : (out.outpho c0).hwPt = 0
  photon : ∀ c, c ≠ c0 → seen (out'.outpho c) = seen (out.outpho c)
  /-- no charged candidate appears or changes -/
  noCharged : ∀ t, (out'.outch t).hwPt ≠ 0 → out'.outch t = out.outch t
  /-- only hadrons linked to the calorimeter cluster the new cluster belongs to may be lost -/
  charged : ∀ t, (∀ h, HadMatch inp' c0 h → ¬ HadronLink inp v t h) → (out'.outch t).hwPt = (out.outch t).hwPt
  /-- if there are none, the neutral hadrons only lose -/
  neutral : (∀ t h, 0 < (inp.track t).hwPt.toInt → HadMatch inp' c0 h → ¬ HadronLink inp v t h) →
    ∀ i, (out'.outne i).hwPt.toInt ≤ (out.outne i).hwPt.toInt
  /-- a cluster that belongs to no calorimeter cluster changes no neutral hadron -/
  apart : (∀ h, ¬ HadMatch inp' c0 h) → ∀ i, seen (out'.outne i) = seen (out.outne i)

theorem OneMoreEm.neutralSeen_le {inp inp' : PFInputs NT NC NE NM} {c0 : Fin NE} {v : Variant} (H : OneMoreEm inp inp' c0) (hv : Valid inp v) (hv' : Valid inp' v)
    (hsc : ∀ x, 0 ≤ v.scale x) (hno : ∀ t h, 0 < (inp.track t).hwPt.toInt → HadMatch inp' c0 h → ¬ HadronLink inp v t h) (h : Fin NC) :
    (neutralSeen inp' v h).1 ≤ (neutralSeen inp v h).1 := by
  have hs : ∀ h, 0 ≤ hadPt inp v h := fun h => (hadPt_bounds hv h).1
  rw [neutralSeen_fst, neutralSeen_fst]
  by_cases hm : HadMatch inp' c0 h
  · obtain ⟨a, b⟩ := H.neutralPt_this hs (hv'.emPt c0) hsc hno hm
    rw [a, b]
    exact H.hadPt_le (hv'.emPt c0) (hs h)
  · exact le_of_eq (H.neutralPt_other hs (hv'.emPt c0) hsc hno hm)

theorem OneMoreEm.neutralSeen_eq {inp inp' : PFInputs NT NC NE NM} {c0 : Fin NE} {v : Variant} (H : OneMoreEm inp inp' c0) (hv : Valid inp v) (hv' : Valid inp' v)
    (hsc : ∀ x, 0 ≤ v.scale x) (hno : ∀ h, ¬ HadMatch inp' c0 h) : neutralSeen inp' v = neutralSeen inp v := by
  funext h
  unfold neutralSeen
  rw [H.neutralPt_other (fun h => (hadPt_bounds hv h).1) (hv'.emPt c0) hsc (fun _ k _ hk => absurd hk (hno k)) (hno h), H.had]

theorem chargedOut_null {inp : PFInputs NT NC NE NM} {v : Variant} {t : Fin NT} (h : (inp.track t).hwPt.toInt = 0) : (chargedOut inp v t).hwPt = 0 := by
  unfold chargedOut
  split
  · exact pt_toInt_zero.mp h
  · rfl

/-- **C98.** Firmware: one more EM cluster without tracks near it. -/
theorem C98_one_more_em {inp inp' : PFInputs NT NC NE NM} {c0 : Fin NE} (H : OneMoreEm inp inp' c0) (hv : Valid inp fwVariant)
    (hv' : Valid inp' fwVariant) (old old' : PFOutputs NT NE NS NM) (mem mem' : PFScratch NC NS) :
    ∃ out out', pfalgo3_full inp old mem = .ok out ∧ pfalgo3_full inp' old' mem' = .ok out' ∧ EmAdded inp inp' fwVariant c0 out out' := by
  obtain ⟨out, n, h1, hch, hpho, hmu, hne, hsort⟩ := fw_meets_spec inp old mem hv
  obtain ⟨out', n', h1', hch', hpho', hmu', hne', hsort'⟩ := fw_meets_spec inp' old' mem' hv'
  have hs : ∀ h, 0 ≤ hadPt inp fwVariant h := fun h => (hadPt_bounds hv h).1
  have f : List.ofFn (fun i => seen (out.outne i)) = fit NS (neutralsByPt (neutralSeen inp fwVariant)) := by
    rw [hsort]
    exact outne_fit hv mem.tmp fun h => (hne h).1
  have f' : List.ofFn (fun i => seen (out'.outne i)) = fit NS (neutralsByPt (neutralSeen inp' fwVariant)) := by
    rw [hsort']
    exact outne_fit hv' mem'.tmp fun h => (hne' h).1
  refine ⟨out, out', h1, h1', ⟨funext fun m => H.muOut (hmu m) (hmu' m), ?_, ?_, fun c hc => ?_, fun t ht => ?_, fun t ht => ?_, fun hno i => ?_,
    fun hno => ofFn_seen_inj ?_⟩⟩
  · have a := (hpho' c0).1
    rwa [H.photonPt_new] at a
  · have a := (hpho c0).1.1
    rw [H.photonPt_free] at a
    exact pt_toInt_zero.mp a
  · have a := (hpho' c).1
    rw [H.photonPt hc, H.others c hc] at a
    exact (sameNeutral_iff _ _).mp (neutralOut_same a (hpho c).1)
  · rw [hch'] at ht ⊢
    rw [hch]
    by_cases k : 0 < (inp.track t).hwPt.toInt
    · exact H.chargedOut_of hs (hv'.emPt c0) k ht
    · exact absurd (chargedOut_null (by rw [H.track]; exact (H.freeTrack t k).1)) ht
  · rw [hch, hch']
    by_cases k : 0 < (inp.track t).hwPt.toInt
    · rw [H.chargedOut hs (hv'.emPt c0) fwVariant_nonneg k ht]
    · rw [chargedOut_null (by rw [H.track]; exact (H.freeTrack t k).1), chargedOut_null (H.freeTrack t k).1]
  · refine outne_le (fun h => ?_) (fun h => OneMoreEm.neutralSeen_le H hv hv' fwVariant_nonneg hno h) f f' i
    rw [neutralSeen_fst]
    exact (neutralPt_bounds hv h).1
  · rw [f, f', OneMoreEm.neutralSeen_eq H hv hv' fwVariant_nonneg hno]

/-- **C98** for the reference. -/
theorem C98_one_more_em_ref {inp inp' : PFInputs NT NC NE NM} {c0 : Fin NE} (H : OneMoreEm inp inp' c0) (hv : Valid inp refVariant)
    (hv' : Valid inp' refVariant) (old old' : PFOutputs NT NE NS NM) (mem mem' : Arr NC PFNeutralObj) :
    ∃ out out', pfalgo3_full_ref inp old mem = .ok out ∧ pfalgo3_full_ref inp' old' mem' = .ok out' ∧ EmAdded inp inp' refVariant c0 out out' := by
  obtain ⟨out, n, h1, hch, hch0, hpho, hmu, hne, hsort⟩ := ref_meets_spec_all inp old mem hv
  obtain ⟨out', n', h1', hch', hch0', hpho', hmu', hne', hsort'⟩ := ref_meets_spec_all inp' old' mem' hv'
  have hs : ∀ h, 0 ≤ hadPt inp refVariant h := fun h => (hadPt_bounds hv h).1
  have z : ∀ t, (inp.track t).hwPt.toInt = 0 → (inp.track t).hwPtErr.toInt = 0 := fun t ht => (H.freeTrack t (by omega)).2
  rw [noGhosts_id hv.trackPt z] at hne
  rw [noGhosts_id hv'.trackPt (by rw [H.track]; exact z)] at hne'
  have f : List.ofFn (fun i => seen (out.outne i)) = fit NS (neutralsByPt (neutralSeen inp refVariant)) := by
    rw [hsort, ← ptsort_eq]
    exact outne_fit hv _ hne
  have f' : List.ofFn (fun i => seen (out'.outne i)) = fit NS (neutralsByPt (neutralSeen inp' refVariant)) := by
    rw [hsort', ← ptsort_eq]
    exact outne_fit hv' _ hne'
  refine ⟨out, out', h1, h1', ⟨funext fun m => H.muOut (hmu m) (hmu' m), ?_, ?_, fun c hc => ?_, fun t ht => ?_, fun t ht => ?_, fun hno i => ?_,
    fun hno => ofFn_seen_inj ?_⟩⟩
  · have a := hpho' c0
    rwa [H.photonPt_new] at a
  · have a := (hpho c0).1
    rw [H.photonPt_free] at a
    exact pt_toInt_zero.mp a
  · have a := hpho' c
    rw [H.photonPt hc, H.others c hc] at a
    exact (sameNeutral_iff _ _).mp (neutralOut_same a (hpho c))
  · by_cases k : 0 < (inp.track t).hwPt.toInt
    · rw [hch' t (by rw [H.track]; exact k)] at ht ⊢
      rw [hch t k]
      exact H.chargedOut_of hs (hv'.emPt c0) k ht
    · exact absurd (hch0' t (by rw [H.track]; exact (H.freeTrack t k).1)) ht
  · by_cases k : 0 < (inp.track t).hwPt.toInt
    · rw [hch t k, hch' t (by rw [H.track]; exact k), H.chargedOut hs (hv'.emPt c0) refVariant_nonneg k ht]
    · rw [hch0 t (H.freeTrack t k).1, hch0' t (by rw [H.track]; exact (H.freeTrack t k).1)]
  · refine outne_le (fun h => ?_) (fun h => OneMoreEm.neutralSeen_le H hv hv' refVariant_nonneg hno h) f f' i
    rw [neutralSeen_fst]
    exact (neutralPt_bounds hv h).1
  · rw [f, f', OneMoreEm.neutralSeen_eq H hv hv' refVariant_nonneg hno]

/-- A track of 25 GeV on a calorimeter cluster of 30 GeV, a free track slot, and a slot holding the given EM cluster. -/
def overlapping (c : EmCaloObj) : PFInputs 2 1 1 1 where
  hadcalo := fun _ => ⟨120, 0, 0, 100, false⟩
  emcalo := fun _ => c
  track := fun i => if i = 0 then ⟨100, 5, 15, 0, 0, true⟩ else ⟨0, 0, 0, 0, 0, false⟩
  mu := fun _ => ⟨0, 0, 0, 0⟩

theorem overlapping_one : OneMoreEm (overlapping ⟨0, 0, 0, 0⟩) (overlapping ⟨100, 1, -10, 0⟩) 0 where
  had := rfl
  track := rfl
  mu := rfl
  others := fun c hc => absurd (Subsingleton.elim c 0) hc
  freePt := by decide
  noTrack := by decide
  noTrackFree := by decide
  freeTrack := by decide

/-- **C98**, a limit, and non-vacuity: an EM cluster of 25 GeV that is not near the track takes the energy of the calorimeter cluster the track was
linked to; the charged candidate of 25 GeV is lost, in firmware and reference. -/
theorem C98_vanish :
    Physical (overlapping ⟨0, 0, 0, 0⟩) ∧ Physical (overlapping ⟨100, 1, -10, 0⟩) ∧ OneMoreEm (overlapping ⟨0, 0, 0, 0⟩) (overlapping ⟨100, 1, -10, 0⟩) 0 ∧
    (pfalgo3_full (overlapping ⟨0, 0, 0, 0⟩) (old0 2 1 1 1) (mem0 1 1)).map (fun o => ((o.outch 0).hwPt, (o.outpho 0).hwPt)) = .ok (100, 0) ∧
    (pfalgo3_full (overlapping ⟨100, 1, -10, 0⟩) (old0 2 1 1 1) (mem0 1 1)).map (fun o => ((o.outch 0).hwPt, (o.outpho 0).hwPt)) = .ok (0, 100) ∧
    (pfalgo3_full_ref (overlapping ⟨0, 0, 0, 0⟩) (old0 2 1 1 1) (mem0 1 1).outne_all).map (fun o => ((o.outch 0).hwPt, (o.outpho 0).hwPt)) = .ok (100, 0) ∧
    (pfalgo3_full_ref (overlapping ⟨100, 1, -10, 0⟩) (old0 2 1 1 1) (mem0 1 1).outne_all).map (fun o => ((o.outch 0).hwPt, (o.outpho 0).hwPt)) = .ok (0, 100) := by
  refine ⟨?_, ?_, overlapping_one, by decide +kernel, by decide +kernel, by decide +kernel, by decide +kernel⟩
  · constructor <;> decide
  · constructor <;> decide

end Verif
