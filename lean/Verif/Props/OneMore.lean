import Verif.Proofs.OneMore
import Verif.Props.PFPart
import Verif.Proofs.PFGhosts
/-! # One more track: property C92 -/
namespace Verif
open Spec
variable {NT NC NE NM NS : Nat}

/-- What a further track in slot `t0` does to the outputs: the track is added to the charged candidates if it is kept, and no
place of the neutral list gets more pt than it had; nothing else changes. -/
structure TrackAdded (v : Variant) (inp' : PFInputs NT NC NE NM) (t0 : Fin NT) (out out' : PFOutputs NT NE NS NM) : Prop where
  muon : out'.outmu = out.outmu
  photon : ∀ c, seen (out'.outpho c) = seen (out.outpho c)
  charged : ∀ t, t ≠ t0 → (out'.outch t).hwPt = (out.outch t).hwPt ∧ ((out'.outch t).hwPt ≠ 0 → out'.outch t = out.outch t)
  before : (out.outch t0).hwPt = 0
  kept : lowPt inp' t0 ∨ (∃ h, CaloMatch inp' v t0 h) → 0 < (inp'.track t0).hwPt.toInt → out'.outch t0 =
    { hwPt := (inp'.track t0).hwPt, hwEta := (inp'.track t0).hwEta, hwPhi := (inp'.track t0).hwPhi, hwId := 0, hwZ0 := (inp'.track t0).hwZ0 }
  dropped : ¬ (lowPt inp' t0 ∨ ∃ h, CaloMatch inp' v t0 h) → (out'.outch t0).hwPt = 0
  neutral : ∀ i, (out'.outne i).hwPt.toInt ≤ (out.outne i).hwPt.toInt
  unlinked : (¬ ∃ h, CaloMatch inp' v t0 h) → ∀ i, seen (out'.outne i) = seen (out.outne i)

/-- The neutral lists of two events whose candidates are ordered. -/
theorem outne_le {s s' : Fin NC → Seen} (h0 : ∀ h, 0 ≤ (s h).1) (hle : ∀ h, (s' h).1 ≤ (s h).1) {ne ne' : Arr NS PFNeutralObj}
    (h : List.ofFn (fun i => seen (ne i)) = fit NS (neutralsByPt s)) (h' : List.ofFn (fun i => seen (ne' i)) = fit NS (neutralsByPt s'))
    (i : Fin NS) : (ne' i).hwPt.toInt ≤ (ne i).hwPt.toInt := by
  have l : (List.ofFn fun i => seen (ne i)).length = NS := List.length_ofFn
  have l' : (List.ofFn fun i => seen (ne' i)).length = NS := List.length_ofFn
  have e : (List.ofFn fun i => seen (ne i))[i.val]'(by rw [l]; exact i.2) = seen (ne i) := List.getElem_ofFn _
  have e' : (List.ofFn fun i => seen (ne' i))[i.val]'(by rw [l']; exact i.2) = seen (ne' i) := List.getElem_ofFn _
  have k := fit_le h0 hle NS i.val (by rw [← h', l']; exact i.2) (by rw [← h, l]; exact i.2)
  simp only [← h, ← h', e, e', seen_fst] at k
  exact k

theorem ofFn_seen_inj {ne ne' : Arr NS PFNeutralObj} (h : List.ofFn (fun i => seen (ne' i)) = List.ofFn (fun i => seen (ne i))) (i : Fin NS) :
    seen (ne' i) = seen (ne i) := congrFun (List.ofFn_injective h) i

/-- **C92.** Firmware: one more track, away from muons and EM clusters, adds at most itself, and takes from the neutrals. -/
theorem C92_one_more_track {inp inp' : PFInputs NT NC NE NM} {t0 : Fin NT} (H : OneMoreTrack inp inp' t0) (hv' : Valid inp' fwVariant)
    (old old' : PFOutputs NT NE NS NM) (mem mem' : PFScratch NC NS) :
    ∃ out out', pfalgo3_full inp old mem = .ok out ∧ pfalgo3_full inp' old' mem' = .ok out' ∧ TrackAdded fwVariant inp' t0 out out' := by
  have hv := H.valid hv'
  obtain ⟨out, n, h1, hch, hpho, hmu, hne, hsort⟩ := fw_meets_spec inp old mem hv
  obtain ⟨out', n', h1', hch', hpho', hmu', hne', hsort'⟩ := fw_meets_spec inp' old' mem' hv'
  have f : List.ofFn (fun i => seen (out.outne i)) = fit NS (neutralsByPt (neutralSeen inp fwVariant)) := by
    rw [hsort]
    exact outne_fit hv mem.tmp fun h => (hne h).1
  have f' : List.ofFn (fun i => seen (out'.outne i)) = fit NS (neutralsByPt (neutralSeen inp' fwVariant)) := by
    rw [hsort']
    exact outne_fit hv' mem'.tmp fun h => (hne' h).1
  refine ⟨out, out', h1, h1', funext fun m => H.muOut (hmu m) (hmu' m), fun c => ?_, fun t ht => ?_, ?_, fun hk hp => ?_, fun hk => ?_,
    fun i => ?_, fun hu => ofFn_seen_inj ?_⟩
  · have a := (hpho' c).1
    rw [H.photonPt, H.em] at a
    exact (sameNeutral_iff _ _).mp (neutralOut_same a (hpho c).1)
  · rw [hch, hch', H.chargedOut ht]
    exact ⟨rfl, fun _ => rfl⟩
  · rw [hch]
    unfold chargedOut
    split
    · exact BitVec.eq_of_toInt_eq H.freePt
    · rfl
  · rw [hch', H.chargedOut_new, if_pos hk]
  · rw [hch', H.chargedOut_new, if_neg hk]
  · refine outne_le (fun h => ?_) (fun h => ?_) f f' i
    · rw [neutralSeen_fst]
      exact (neutralPt_bounds hv h).1
    · rw [neutralSeen_fst, neutralSeen_fst]
      exact H.neutralPt_le hv'.trackPt h (hadPt_bounds hv h).1
  · rw [f, f']
    congr 2
    funext h
    unfold neutralSeen
    rw [H.neutralPt_eq fun hc => hu ⟨h, hc⟩, H.had]

/-- **C92** for the reference. -/
theorem C92_one_more_track_ref {inp inp' : PFInputs NT NC NE NM} {t0 : Fin NT} (H : OneMoreTrack inp inp' t0) (hv' : Valid inp' refVariant)
    (old old' : PFOutputs NT NE NS NM) (mem mem' : Arr NC PFNeutralObj) :
    ∃ out out', pfalgo3_full_ref inp old mem = .ok out ∧ pfalgo3_full_ref inp' old' mem' = .ok out' ∧ TrackAdded refVariant inp' t0 out out' := by
  have hv := H.valid hv'
  have G := H.noGhosts
  obtain ⟨out, n, h1, hch, hch0, hpho, hmu, hne, hsort⟩ := ref_meets_spec_all inp old mem hv
  obtain ⟨out', n', h1', hch', hch0', hpho', hmu', hne', hsort'⟩ := ref_meets_spec_all inp' old' mem' hv'
  have f : List.ofFn (fun i => seen (out.outne i)) = fit NS (neutralsByPt (neutralSeen (noGhosts inp) refVariant)) := by
    rw [hsort, ← ptsort_eq]
    exact outne_fit (valid_noGhosts hv) _ hne
  have f' : List.ofFn (fun i => seen (out'.outne i)) = fit NS (neutralsByPt (neutralSeen (noGhosts inp') refVariant)) := by
    rw [hsort', ← ptsort_eq]
    exact outne_fit (valid_noGhosts hv') _ hne'
  refine ⟨out, out', h1, h1', funext fun m => H.muOut (hmu m) (hmu' m), fun c => ?_, fun t ht => ?_, hch0 t0 H.freePt, fun hk hp => ?_,
    fun hk => ?_, fun i => ?_, fun hu => ofFn_seen_inj ?_⟩
  · have a := hpho' c
    rw [H.photonPt, H.em] at a
    exact (sameNeutral_iff _ _).mp (neutralOut_same a (hpho c))
  · rcases eq_or_lt_of_le (hv.trackPt t) with h | h
    · rw [hch0 t h.symm, hch0' t (by rw [H.others t ht]; exact h.symm)]
      exact ⟨rfl, fun h => absurd rfl h⟩
    · rw [hch t h, hch' t (by rw [H.others t ht]; exact h), H.chargedOut ht]
      exact ⟨rfl, fun _ => rfl⟩
  · rw [hch' t0 hp, H.chargedOut_new, if_pos hk]
  · rcases eq_or_lt_of_le (hv'.trackPt t0) with h | h
    · exact hch0' t0 h.symm
    · rw [hch' t0 h, H.chargedOut_new, if_neg hk]
  · refine outne_le (fun h => ?_) (fun h => ?_) f f' i
    · rw [neutralSeen_fst]
      exact (neutralPt_bounds (valid_noGhosts hv) h).1
    · rw [neutralSeen_fst, neutralSeen_fst]
      exact G.neutralPt_le (valid_noGhosts hv').trackPt h (hadPt_bounds (valid_noGhosts hv) h).1
  · rw [f, f']
    congr 2
    funext h
    unfold neutralSeen
    have e : ¬ CaloMatch (noGhosts inp') refVariant t0 h := fun hc =>
      hu ⟨h, (caloMatch_noGhosts hv'.trackPt hv'.trackErr (fun h => (hadPt_range hv'.toSane h).1) t0 h).mp hc⟩
    rw [G.neutralPt_eq e, G.had]

/-! ### Examples -/

/-- A calorimeter cluster of pt 100 with a track of pt 30 on it, another cluster, an EM cluster far away, and a free slot holding the
given track. -/
def roomFor (t : TkObj) : PFInputs 2 2 1 1 where
  hadcalo := fun h => if h = 0 then ⟨100, 0, 0, 0, false⟩ else ⟨60, 50, 50, 0, false⟩
  track := fun i => if i = 0 then ⟨30, 2, 1, 0, 5, true⟩ else t
  emcalo := fun _ => ⟨20, 1, 200, 0⟩
  mu := fun _ => ⟨100, 200, 200, 0⟩

/-- **C92**, non-vacuity: a second track of pt 40 on the cluster takes its pt from the neutral, which loses its place at the top. -/
example : OneMoreTrack (roomFor ⟨0, 0, 0, 0, 0, false⟩) (roomFor ⟨40, 3, 0, 2, 5, true⟩) 1 ∧ Physical (roomFor ⟨40, 3, 0, 2, 5, true⟩) ∧
    (pfalgo3_full (roomFor ⟨0, 0, 0, 0, 0, false⟩) (old0 2 1 2 1) (mem0 2 2)).map (fun o => ((o.outch 1).hwPt, (o.outne 0).hwPt, (o.outne 1).hwPt)) =
      .ok (0, 70, 60) ∧
    (pfalgo3_full (roomFor ⟨40, 3, 0, 2, 5, true⟩) (old0 2 1 2 1) (mem0 2 2)).map (fun o => ((o.outch 1).hwPt, (o.outne 0).hwPt, (o.outne 1).hwPt)) =
      .ok (40, 60, 30) := by
  refine ⟨⟨rfl, rfl, rfl, fun t ht => ?_, by decide, by decide, by decide, by decide⟩, ?_, by decide +kernel, by decide +kernel⟩
  · match t with
    | 0 => rfl
    | 1 => exact absurd rfl ht
  · constructor <;> decide

/-- A calorimeter cluster of pt 100, nearly all of it in an EM cluster, and a slot holding the given track. -/
def photonOr (t : TkObj) : PFInputs 1 1 1 0 where
  hadcalo := fun _ => ⟨100, 0, 0, 95, false⟩
  track := fun _ => t
  emcalo := fun _ => ⟨95, 1, 0, 0⟩
  mu := fun i => i.elim0

/-- **C92**, a limit: a track near an EM cluster can add neutral energy.  Here it turns the photon into a neutral hadron of more pt, and is
itself dropped. -/
theorem C92_near_em :
    Physical (photonOr ⟨0, 0, 0, 0, 0, false⟩) ∧ Physical (photonOr ⟨150, 2, 0, 0, 0, false⟩) ∧
    (pfalgo3_full (photonOr ⟨0, 0, 0, 0, 0, false⟩) (old0 1 1 1 0) (mem0 1 1)).map
      (fun o => ((o.outch 0).hwPt, (o.outpho 0).hwPt, (o.outne 0).hwPt)) = .ok (0, 95, 0) ∧
    (pfalgo3_full (photonOr ⟨150, 2, 0, 0, 0, false⟩) (old0 1 1 1 0) (mem0 1 1)).map
      (fun o => ((o.outch 0).hwPt, (o.outpho 0).hwPt, (o.outne 0).hwPt)) = .ok (0, 0, 100) ∧
    (pfalgo3_full_ref (photonOr ⟨0, 0, 0, 0, 0, false⟩) (old0 1 1 1 0) (mem0 1 1).outne_all).map
      (fun o => ((o.outch 0).hwPt, (o.outpho 0).hwPt, (o.outne 0).hwPt)) = .ok (0, 95, 0) ∧
    (pfalgo3_full_ref (photonOr ⟨150, 2, 0, 0, 0, false⟩) (old0 1 1 1 0) (mem0 1 1).outne_all).map
      (fun o => ((o.outch 0).hwPt, (o.outpho 0).hwPt, (o.outne 0).hwPt)) = .ok (0, 0, 100) := by
  refine ⟨?_, ?_, by decide +kernel, by decide +kernel, by decide +kernel, by decide +kernel⟩
  · constructor <;> decide
  · constructor <;> decide

end Verif
