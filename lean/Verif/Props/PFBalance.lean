import Verif.Props.PFAgree
/-! # C80: an electron that balances its cluster exactly is not an electron

Firmware and reference compare the pt of an EM cluster with the pt of its tracks by two strict inequalities
(simple_fullpfalgo.cpp:300, simple_fullpfalgo_ref.cpp:118), so that a difference of exactly zero falls through to the case
of a cluster with far less pt than its tracks. The two agree, so no comparison of the two can show it. -/
namespace Verif
open Spec
variable {NT NC NE NM NS : Nat} {inp : PFInputs NT NC NE NM}

open Classical in
theorem emTrackPt_pos {v : Variant} (hv : Sane inp v) {t : Fin NT} {c : Fin NE} (hm : EmMatch inp t c)
    (hp : 0 < (inp.track t).hwPt.toInt) : 0 < emTrackPt inp c := by
  unfold emTrackPt
  refine lt_of_lt_of_le hp ?_
  have e : (inp.track t).hwPt.toInt = if EmMatch inp t c then (inp.track t).hwPt.toInt else 0 := (if_pos hm).symm
  conv_lhs => rw [e]
  refine Finset.single_le_sum (f := fun t => if EmMatch inp t c then (inp.track t).hwPt.toInt else 0) (fun i _ => ?_) (Finset.mem_univ t)
  have := hv.trackPt i
  by_cases h : EmMatch inp i c
  · simp only [if_pos h]; exact this
  · simp only [if_neg h]; exact le_refl _

theorem isEle_iff {v : Variant} (hv : Sane inp v) {t : Fin NT} {c : Fin NE} (hm : EmMatch inp t c)
    (hp : 0 < (inp.track t).hwPt.toInt) :
    IsEle inp t ↔ (inp.emcalo c).hwPt.toInt ≠ emTrackPt inp c ∧
      (emTrackPt inp c < (inp.emcalo c).hwPt.toInt ∨
       (emTrackPt inp c - (inp.emcalo c).hwPt.toInt) ^ 2 < 4 * (inp.emcalo c).hwPtErr.toInt ^ 2) := by
  have h0 := emTrackPt_pos hv hm hp
  have hsq : (emTrackPt inp c - (inp.emcalo c).hwPt.toInt) ^ 2 = emDiff inp c ^ 2 := by unfold emDiff; ring
  have e : IsEle inp t ↔ IsEM inp c :=
    ⟨fun ⟨c', hc', h⟩ => firstMin_unique hc'.2 hm.2 ▸ h, fun h => ⟨c, hm, h⟩⟩
  rw [e, hsq]
  show _ ∨ _ ∨ _ ∧ _ < 4 * emErr2 inp c ↔ _ ∧ (_ ∨ _ < 4 * emErr2 inp c)
  have hd : emDiff inp c = (inp.emcalo c).hwPt.toInt - emTrackPt inp c := rfl
  generalize (emDiff inp c ^ 2 < 4 * emErr2 inp c) = P
  constructor
  · rintro (h | h | ⟨h, q⟩)
    · omega
    · exact ⟨by omega, Or.inl (by omega)⟩
    · exact ⟨by omega, Or.inr q⟩
  · rintro ⟨h, q | q⟩
    · exact Or.inr (Or.inl (by omega))
    · by_cases h' : 0 < emDiff inp c
      · exact Or.inr (Or.inl h')
      · exact Or.inr (Or.inr ⟨by omega, q⟩)

theorem chargedOut_ele {v : Variant} (t : Fin NT) : (chargedOut inp v t).hwId = 3 ↔ IsEle inp t := by
  unfold chargedOut
  by_cases he : IsEle inp t
  · rw [if_pos (show Kept inp v t from Or.inr (Or.inl he))]; simp [he]
  · by_cases hk : Kept inp v t
    · rw [if_pos hk]
      simp only [he, if_false, iff_false]
      by_cases hm : IsMu inp t <;> simp [hm]
    · rw [if_neg hk]; simp [he]

/-- **C80.** The window: a track of positive pt whose nearest EM cluster is `c` is identified as an electron exactly when
the pt of the cluster and the pt of all its tracks differ, and the tracks exceed the cluster by less than two errors. For
all valid events. -/
theorem C80_window (inp : PFInputs NT NC NE NM) (old : PFOutputs NT NE NS NM) (mem : PFScratch NC NS)
    (hv : Valid inp fwVariant) :
    ∃ out, pfalgo3_full inp old mem = .ok out ∧ ∀ t c, EmMatch inp t c → 0 < (inp.track t).hwPt.toInt →
      ((out.outch t).hwId = 3 ↔ (inp.emcalo c).hwPt.toInt ≠ emTrackPt inp c ∧
        (emTrackPt inp c < (inp.emcalo c).hwPt.toInt ∨
         (emTrackPt inp c - (inp.emcalo c).hwPt.toInt) ^ 2 < 4 * (inp.emcalo c).hwPtErr.toInt ^ 2)) := by
  obtain ⟨out, ne, h1, h2, _⟩ := fw_meets_spec inp old mem hv
  exact ⟨out, h1, fun t c hm hp => by rw [h2 t, chargedOut_ele, isEle_iff hv.toSane hm hp]⟩

/-- **C80.** The reference has the same window. -/
theorem C80_window_ref (inp : PFInputs NT NC NE NM) (old : PFOutputs NT NE NS NM) (mem : Arr NC PFNeutralObj)
    (hv : Valid inp refVariant) :
    ∃ out, pfalgo3_full_ref inp old mem = .ok out ∧ ∀ t c, EmMatch inp t c → 0 < (inp.track t).hwPt.toInt →
      ((out.outch t).hwId = 3 ↔ (inp.emcalo c).hwPt.toInt ≠ emTrackPt inp c ∧
        (emTrackPt inp c < (inp.emcalo c).hwPt.toInt ∨
         (emTrackPt inp c - (inp.emcalo c).hwPt.toInt) ^ 2 < 4 * (inp.emcalo c).hwPtErr.toInt ^ 2)) := by
  obtain ⟨out, ne, h1, h2, _⟩ := ref_meets_spec_all inp old mem hv
  exact ⟨out, h1, fun t c hm hp => by rw [h2 t hp, chargedOut_ele, isEle_iff hv.toSane hm hp]⟩

/-- **C80.** The hole in the window: when the tracks of an EM cluster balance it exactly there is no photon, and none of
them is an electron; one without a calorimeter cluster that is not below the pt threshold disappears, and with it all
trace of the electron. -/
theorem C80_hole (inp : PFInputs NT NC NE NM) (old : PFOutputs NT NE NS NM) (mem : PFScratch NC NS)
    (hv : Valid inp fwVariant) :
    ∃ out, pfalgo3_full inp old mem = .ok out ∧
      ∀ t c, EmMatch inp t c → 0 < (inp.track t).hwPt.toInt → (inp.emcalo c).hwPt.toInt = emTrackPt inp c →
        (out.outpho c).hwPt = 0 ∧ (out.outch t).hwId = 0 ∧
        (¬ lowPt inp t → (¬ ∃ h, CaloMatch inp fwVariant t h) → out.outch t = ⟨0, 0, 0, 0, 0⟩) := by
  obtain ⟨out, ne, h1, h2, h3, _⟩ := fw_meets_spec inp old mem hv
  refine ⟨out, h1, fun t c hm hp hb => ?_⟩
  have hne : ¬ IsEle inp t := fun h => ((isEle_iff hv.toSane hm hp).mp h).1 hb
  have hpt := (h3 c).1.1
  have h0 := emTrackPt_pos hv.toSane hm hp
  have hz : photonPt inp c = 0 := by
    unfold photonPt
    have hd : emDiff inp c = 0 := by unfold emDiff; omega
    rw [if_neg (by omega), if_neg (by rw [hd]; omega)]
  refine ⟨BitVec.eq_of_toInt_eq (by rw [hpt, hz]; rfl), ?_, fun hl hc => ?_⟩
  · rw [h2 t]
    unfold chargedOut
    by_cases hk : Kept inp fwVariant t
    · rw [if_pos hk]; simp [hne, hm.1]
    · rw [if_neg hk]
  · rw [h2 t]
    unfold chargedOut
    rw [if_neg]
    rintro (h | h | h | h)
    exacts [hm.1 h, hne h, hl h, hc h]

/-- An electron: a track of pt 100 with an EM cluster, and nothing else. -/
def electronEvent (pt : Pt) : PFInputs 1 1 1 1 where
  emcalo := fun _ => ⟨pt, 10, 10, 5⟩
  hadcalo := fun _ => HadCaloObj.clear
  track := fun _ => ⟨100, 8, 10, 5, 3, true⟩
  mu := fun _ => MuObj.clear

/-- pt and id of the charged particle, pt of the photon, of the neutral hadron and of the muon. -/
def particles (o : PFOutputs 1 1 1 1) : Pt × ParticleId × Pt × Pt × Pt :=
  ((o.outch 0).hwPt, (o.outch 0).hwId, (o.outpho 0).hwPt, (o.outne 0).hwPt, (o.outmu 0).hwPt)

/-- **C80**, on an event: an electron of pt 100 is found when its cluster has pt 99 or 101 and lost, with
nothing in the output, when it has pt 100; by firmware and reference alike. -/
theorem C80_concrete : Physical (electronEvent 99) ∧
    Physical (electronEvent 100) ∧
    Physical (electronEvent 101) ∧
    (pfalgo3_full (electronEvent 99) (old0 1 1 1 1) (mem0 1 1)).map particles = .ok (100, 3, 0, 0, 0) ∧
    (pfalgo3_full_ref (electronEvent 99) (old0 1 1 1 1) (mem0 1 1).outne_all).map particles = .ok (100, 3, 0, 0, 0) ∧
    (pfalgo3_full (electronEvent 100) (old0 1 1 1 1) (mem0 1 1)).map particles = .ok (0, 0, 0, 0, 0) ∧
    (pfalgo3_full_ref (electronEvent 100) (old0 1 1 1 1) (mem0 1 1).outne_all).map particles = .ok (0, 0, 0, 0, 0) ∧
    (pfalgo3_full (electronEvent 101) (old0 1 1 1 1) (mem0 1 1)).map particles = .ok (100, 3, 0, 0, 0) ∧
    (pfalgo3_full_ref (electronEvent 101) (old0 1 1 1 1) (mem0 1 1).outne_all).map particles = .ok (100, 3, 0, 0, 0) :=
  ⟨⟨by decide, by decide, by decide, by decide, by decide, by decide, by decide, by decide, by decide, by decide⟩,
    ⟨by decide, by decide, by decide, by decide, by decide, by decide, by decide, by decide, by decide, by decide⟩,
    ⟨by decide, by decide, by decide, by decide, by decide, by decide, by decide, by decide, by decide, by decide⟩,
    by decide +kernel,
    by decide +kernel,
    by decide +kernel,
    by decide +kernel,
    by decide +kernel,
    by decide +kernel⟩

end Verif
