import Verif.Proofs.PFAgree
import Verif.Proofs.PFGhosts
/-! # Firmware PF against reference PF: properties C02, C15 -/
open scoped BigOperators
namespace Verif
open Spec
variable {NT NC NE NM NS : Nat}

/-- **C02 (partial).** On valid inputs (non-negative values, sums in range, empty track slots with a
null error), if in addition the two known differences cannot show (`VariantsCoincide`), firmware and
reference are both defined and `pf_equals` accepts every slot of every output list; for all array
sizes and all previous memory contents.

Missing from C02: the events excluded by `VariantsCoincide`, on which C02 is false
(`C02_false_keep`, `C02_false_scale`). -/
theorem C02_fw_ref_agree_partial (inp : PFInputs NT NC NE NM) (old old' : PFOutputs NT NE NS NM)
    (mem : PFScratch NC NS) (mem' : Arr NC PFNeutralObj) (hv : Valid inp fwVariant)
    (hempty : ∀ t, (inp.track t).hwPt.toInt = 0 → (inp.track t).hwPtErr.toInt = 0)
    (hc : VariantsCoincide inp) :
    ∃ out out', pfalgo3_full inp old mem = .ok out ∧ pfalgo3_full_ref inp old' mem' = .ok out' ∧
      (∀ t, pf_equals_ch (out'.outch t) (out.outch t) = true) ∧
      (∀ c, pf_equals_ne (out'.outpho c) (out.outpho c) = true) ∧
      (∀ i, pf_equals_ne (out'.outne i) (out.outne i) = true) ∧
      (∀ m, pf_equals_ch (out'.outmu m) (out.outmu m) = true) :=
  fw_ref_agree inp old old' mem mem' hv hempty hc

/-- **C02 (partial).** The same from conditions that can be read off the inputs: `Physical` inputs, no
track with pt error exactly 1, no calorimeter cluster flagged EM. -/
theorem C02_fw_ref_agree_simple_partial (inp : PFInputs NT NC NE NM) (old old' : PFOutputs NT NE NS NM)
    (mem : PFScratch NC NS) (mem' : Arr NC PFNeutralObj) (hp : Physical inp)
    (hempty : ∀ t, (inp.track t).hwPt.toInt = 0 → (inp.track t).hwPtErr.toInt = 0)
    (herr : ∀ t, (inp.track t).hwPtErr.toInt ≠ 1) (hflag : ∀ h, (inp.hadcalo h).hwIsEM = false) :
    ∃ out out', pfalgo3_full inp old mem = .ok out ∧ pfalgo3_full_ref inp old' mem' = .ok out' ∧
      (∀ t, pf_equals_ch (out'.outch t) (out.outch t) = true) ∧
      (∀ c, pf_equals_ne (out'.outpho c) (out.outpho c) = true) ∧
      (∀ i, pf_equals_ne (out'.outne i) (out.outne i) = true) ∧
      (∀ m, pf_equals_ch (out'.outmu m) (out.outmu m) = true) :=
  fw_ref_agree inp old old' mem mem' (physical_valid inp hp fwVariant) hempty
    ⟨fun h _ he => absurd (he.symm.trans (hflag h)) (by decide), fun t ht => absurd ht (herr t)⟩

/-- What the two implementations do on the rest: each implements the specification, with its own
variant of the two rules. -/
theorem C02_fw_spec (inp : PFInputs NT NC NE NM) (old : PFOutputs NT NE NS NM)
    (mem : PFScratch NC NS) (hv : Valid inp fwVariant) :
    ∃ out ne, pfalgo3_full inp old mem = .ok out ∧
      (∀ t, out.outch t = chargedOut inp fwVariant t) ∧
      (∀ c, NeutralOut (photonPt inp c) (inp.emcalo c).hwEta (inp.emcalo c).hwPhi 2 (out.outpho c)) ∧
      (∀ m, MuOut inp m (out.outmu m)) ∧
      (∀ h, NeutralOut (neutralPt inp fwVariant h) (inp.hadcalo h).hwEta (inp.hadcalo h).hwPhi 1 (ne h)) ∧
      TopN key (List.ofFn ne ++ List.ofFn (zeros mem.tmp)) (List.ofFn out.outne) := by
  obtain ⟨out, ne, h1, h2, h3, h4, h5, h6⟩ := fw_meets_spec inp old mem hv
  exact ⟨out, ne, h1, h2, fun c => (h3 c).1, h4, fun h => (h5 h).1, h6 ▸ hwopt_topN_zeros mem.tmp ne⟩

/-- **C02.** The reference on every valid event, whatever its empty slots hold: the specification with its variant of
the rules, applied to the event without the errors of empty slots (they only enter the significance of a neutral
excess). -/
theorem C02_ref_spec (inp : PFInputs NT NC NE NM) (old : PFOutputs NT NE NS NM)
    (mem : Arr NC PFNeutralObj) (hv : Valid inp refVariant) :
    ∃ out ne, pfalgo3_full_ref inp old mem = .ok out ∧
      (∀ t, 0 < (inp.track t).hwPt.toInt → out.outch t = chargedOut inp refVariant t) ∧
      (∀ t, (inp.track t).hwPt.toInt = 0 → (out.outch t).hwPt = 0) ∧
      (∀ c, NeutralOut (photonPt inp c) (inp.emcalo c).hwEta (inp.emcalo c).hwPhi 2 (out.outpho c)) ∧
      (∀ m, MuOut inp m (out.outmu m)) ∧
      (∀ h, NeutralOut (neutralPt (noGhosts inp) refVariant h) (inp.hadcalo h).hwEta (inp.hadcalo h).hwPhi 1 (ne h)) ∧
      TopN key (List.ofFn ne ++ List.ofFn (zeros (fun i =>
        { old.outne i with hwPt := 0, hwEta := 0, hwPhi := 0, hwId := 0 }))) (List.ofFn out.outne) := by
  obtain ⟨out, ne, h1, h2, h3, h4, h5, h6, h7⟩ := ref_meets_spec_all inp old mem hv
  refine ⟨out, ne, h1, h2, h3, h4, h5, h6, ?_⟩
  rw [h7, ← ptsort_eq]
  exact hwopt_topN_zeros _ ne

/-- **C02.** The reference never looks at the pt error of an empty track slot: on every event whatever, the result
(candidates or undefined behaviour) is that on the event with those errors cleared. -/
theorem C02_ref_ghosts (inp : PFInputs NT NC NE NM) (old : PFOutputs NT NE NS NM) (mem : Arr NC PFNeutralObj) :
    pfalgo3_full_ref inp old mem = pfalgo3_full_ref (noGhosts inp) old mem :=
  ref_noGhosts inp old mem

/-- **C02.** On an event whose empty slots are clean nothing changes. -/
theorem C02_no_ghosts (inp : PFInputs NT NC NE NM) (hpt : ∀ t, 0 ≤ (inp.track t).hwPt.toInt)
    (hempty : ∀ t, (inp.track t).hwPt.toInt = 0 → (inp.track t).hwPtErr.toInt = 0) : noGhosts inp = inp :=
  noGhosts_id hpt hempty

/-! ### Witnesses -/

/-- An ordinary event: two tracks, one with an EM cluster (electron), one hadron with a calorimeter
cluster, one extra photon, one muon with its track. -/
def ordinary : PFInputs 3 2 2 1 where
  emcalo := fun i => if i = 0 then ⟨100, 6, 50, 50⟩ else ⟨80, 5, -100, 20⟩
  hadcalo := fun i => if i = 0 then ⟨300, 200, -60, 10, false⟩ else ⟨90, -100, 22, 85, false⟩
  track := fun i => if i = 0 then ⟨95, 4, 51, 48, 3, false⟩
    else if i = 1 then ⟨120, 10, 202, -58, 3, true⟩ else ⟨60, 3, -200, 300, 2, false⟩
  mu := fun _ => ⟨58, 0, -195, 296⟩

/-- Null memory for the examples. -/
def mem0 (NC NS : Nat) : PFScratch NC NS := ⟨fun _ => ⟨0, 0, 0, 0, 0⟩, fun _ => ⟨0, 0, 0, 0, 0⟩⟩
@[inherit_doc mem0] def old0 (NT NE NS NM : Nat) : PFOutputs NT NE NS NM :=
  ⟨fun _ => ⟨0, 0, 0, 0, 0⟩, fun _ => ⟨0, 0, 0, 0, 0⟩, fun _ => ⟨0, 0, 0, 0, 0⟩, fun _ => ⟨0, 0, 0, 0, 0⟩⟩

theorem ordinary_physical : Physical ordinary :=
  ⟨by decide, by decide, by decide, by decide, by decide, by decide, by decide, by decide,
   by decide, by decide⟩

/-- Non-vacuity of the partial theorems: the ordinary event satisfies their hypotheses and gives an
electron, a hadron, a muon, a photon and a neutral hadron. -/
example : Physical ordinary ∧
    (∀ t, (ordinary.track t).hwPt.toInt = 0 → (ordinary.track t).hwPtErr.toInt = 0) ∧
    (∀ t, (ordinary.track t).hwPtErr.toInt ≠ 1) ∧ (∀ h, (ordinary.hadcalo h).hwIsEM = false) ∧
    (pfalgo3_full ordinary (old0 3 2 2 1) (mem0 2 2)).map (fun o =>
      ((o.outch 0).hwId, (o.outch 1).hwId, (o.outch 2).hwId, (o.outpho 1).hwPt, (o.outne 0).hwPt,
       (o.outmu 0).hwPt)) = .ok (3, 0, 4, 80, 180, 60) :=
  ⟨ordinary_physical, by decide, by decide, by decide, by decide +kernel⟩

/-- An event on which the `keep` rule matters: a track of pt 100 on an EM cluster of pt 20 (so the EM
cluster is hadron-like), another EM cluster of pt 100, and a calorimeter cluster of pt 200 (EM part
100, flagged EM) around both. -/
def keepEvent : PFInputs 1 1 2 0 where
  emcalo := fun i => if i = 0 then ⟨20, 1, 0, 0⟩ else ⟨100, 5, 15, 0⟩
  hadcalo := fun _ => ⟨200, 5, 0, 100, true⟩
  track := fun _ => ⟨100, 10, 0, 0, 0, false⟩
  mu := fun i => i.elim0

/-- **C02 is false** without the `keep` condition: on a physical event the reference keeps the track
and the firmware drops it, because firmware line 240 assigns `keep = false` where the reference
(line 168) assigns `keep = true`. -/
theorem C02_false_keep :
    Physical keepEvent ∧
    (pfalgo3_full keepEvent (old0 1 2 1 0) (mem0 1 1)).map (fun o => (o.outch 0).hwPt) = .ok 0 ∧
    (pfalgo3_full_ref keepEvent (old0 1 2 1 0) (mem0 1 1).outne_all).map (fun o => (o.outch 0).hwPt)
      = .ok 100 :=
  ⟨⟨by decide, by decide, by decide, by decide, by decide, by decide, by decide, by decide,
   by decide, by decide⟩, by decide +kernel, by decide +kernel⟩

/-- The objects of a sector of the data in the repository: event 18834 of
regionizer/data/barrel_sectors_1x12_TTbar_PU140.dump, the sector with phi centre 0.785, as the dump reader gives them. -/
def dataEvent : PFInputs 4 7 5 0 where
  emcalo := fun i => [⟨188, 28, 325, -3⟩, ⟨23, 7, -250, -48⟩, ⟨29, 13, 331, -12⟩, ⟨9, 7, -40, 22⟩, ⟨6, 6, -24, 30⟩][i]
  hadcalo := fun i => [⟨57, -252, -50, 23, false⟩, ⟨13, -243, -16, 0, false⟩, ⟨11, -215, -30, 0, false⟩, ⟨38, -30, 30, 15, true⟩,
    ⟨13, 50, -10, 0, false⟩, ⟨30, 204, 36, 0, false⟩, ⟨288, 337, -10, 209, true⟩][i]
  track := fun i => [⟨11, 11, 86, 14, 32, false⟩, ⟨79, 38, 330, -9, -81, false⟩, ⟨9, 9, 26, -5, 115, false⟩, ⟨26, 20, 324, 20, -83, false⟩][i]
  mu := fun i => i.elim0

/-- **C02 is false** on real events too: on this sector the firmware drops the second track (20 GeV) and the reference
keeps it, for the reason given above. -/
theorem C02_false_data :
    Physical dataEvent ∧
    (pfalgo3_full dataEvent (old0 4 5 3 0) (mem0 7 3)).map (fun o => (o.outch 1).hwPt) = .ok 0 ∧
    (pfalgo3_full_ref dataEvent (old0 4 5 3 0) (mem0 7 3).outne_all).map (fun o => (o.outch 1).hwPt) = .ok 79 :=
  ⟨⟨by decide, by decide, by decide, by decide, by decide, by decide, by decide, by decide,
   by decide, by decide⟩, by decide +kernel, by decide +kernel⟩

/-- An event on which the cap of the scale matters: a track of pt 100 and pt error 1, a cluster of pt
99 at the same place and a cluster of pt 100 at distance² 601. -/
def scaleEvent : PFInputs 1 2 0 0 where
  emcalo := fun i => i.elim0
  hadcalo := fun i => if i = 0 then ⟨99, 0, 0, 0, false⟩ else ⟨100, 24, 5, 0, false⟩
  track := fun _ => ⟨100, 1, 0, 0, 0, false⟩
  mu := fun i => i.elim0

/-- **C02 is false** without the `scale` condition: for a pt error of 1 the firmware table is capped
to 17 bits, and the firmware links the track to the first cluster, the reference to the second; the
neutral lists differ (100 against 99). -/
theorem C02_false_scale :
    Physical scaleEvent ∧
    (pfalgo3_full scaleEvent (old0 1 0 2 0) (mem0 2 2)).map
      (fun o => ((o.outne 0).hwPt, (o.outne 0).hwEta)) = .ok (100, 24) ∧
    (pfalgo3_full_ref scaleEvent (old0 1 0 2 0) (mem0 2 2).outne_all).map
      (fun o => ((o.outne 0).hwPt, (o.outne 0).hwEta)) = .ok (99, 0) :=
  ⟨⟨by decide, by decide, by decide, by decide, by decide, by decide, by decide, by decide,
   by decide, by decide⟩, by decide +kernel, by decide +kernel⟩

/-- An empty track slot (pt 0) with a non-null error close to a track and its cluster. -/
def ghostEvent : PFInputs 2 1 0 0 where
  emcalo := fun i => i.elim0
  hadcalo := fun _ => ⟨200, 0, 0, 0, false⟩
  track := fun i => if i = 0 then ⟨100, 10, 0, 0, 0, false⟩ else ⟨0, 90, 0, 0, 0, false⟩
  mu := fun i => i.elim0

/-- The hypothesis on empty slots is needed: the firmware adds the squared error of a zero-pt track
to its cluster, the reference does not; here the neutral excess of 100 is lost in the firmware. -/
theorem C02_false_ghost :
    Physical ghostEvent ∧
    (pfalgo3_full ghostEvent (old0 2 0 1 0) (mem0 1 1)).map (fun o => (o.outne 0).hwPt) = .ok 0 ∧
    (pfalgo3_full_ref ghostEvent (old0 2 0 1 0) (mem0 1 1).outne_all).map
      (fun o => (o.outne 0).hwPt) = .ok 100 :=
  ⟨⟨by decide, by decide, by decide, by decide, by decide, by decide, by decide, by decide,
   by decide, by decide⟩, by decide +kernel, by decide +kernel⟩

/-! ### C15 -/

/-- **C15.** The reference protects: with a hadron-like EM cluster linked, the calorimeter cluster
survives exactly when more than 1/16 of its pt remains, whatever its EM flag and EM remainder.  What is missing is
the same for the firmware: there it is false (`C15_fw_counterexample`). -/
theorem C15_ref_protects_partial (inp : PFInputs NT NC NE NM) (hv : Valid inp refVariant)
    (old : Arr NE PFNeutralObj) (isMu : Arr NT Bool) (hmu : ∀ t, isMu t = true ↔ IsMu inp t)
    (h : Fin NC) (hprot : HasHadronicEM inp h) :
    ∃ em, pfalgo3_em_ref inp.emcalo inp.hadcalo inp.track isMu old = .ok em ∧
      ((em.hadcalo_out h).hwPt.toInt =
        if 16 * ((inp.hadcalo h).hwPt.toInt - emSub inp h) ≤ (inp.hadcalo h).hwPt.toInt then 0
        else (inp.hadcalo h).hwPt.toInt - emSub inp h) := by
  obtain ⟨em, h1, _, _, h4⟩ := ref_em_stage hv.toSane hv.emErr rfl hmu old
  refine ⟨em, h1, ?_⟩
  rw [(h4 h).1]
  unfold hadPt
  have : Removed inp refVariant h ↔
      16 * ((inp.hadcalo h).hwPt.toInt - emSub inp h) ≤ (inp.hadcalo h).hwPt.toInt := by
    unfold Removed
    constructor
    · rintro (h | ⟨_, _, h⟩)
      · exact h
      · exact absurd ⟨rfl, hprot⟩ h
    · exact Or.inl
  by_cases hr : 16 * ((inp.hadcalo h).hwPt.toInt - emSub inp h) ≤ (inp.hadcalo h).hwPt.toInt
  · rw [if_pos (this.mpr hr), if_pos hr]
  · rw [if_neg (fun hh => hr (this.mp hh)), if_neg hr]

/-- **C15.** The firmware never protects anything: its keep flag is false for every event. -/
theorem C15_fw_never_protects (emcalo : Arr NE EmCaloObj) (isEM : Arr NE Bool)
    (link : Arr NE (Arr NC Bool)) (h : Fin NC) : (em2calo_sumem emcalo isEM link h).2 = false := by
  unfold em2calo_sumem
  exact loop_induct (n := NE) (fun _ (s : Pt × Bool) => s.2 = false) _ _ rfl (by
    intro i s hs
    split
    · split
      · exact hs
      · rfl
    · exact hs)

/-- **C15 is false of the firmware**: in `keepEvent` a hadron-like EM cluster is linked to the
calorimeter cluster; the firmware removes that cluster (no neutral, and the track is dropped), the
reference keeps it with the remaining pt of 100. -/
theorem C15_fw_counterexample :
    em2calo_link keepEvent.emcalo keepEvent.hadcalo 0 0 = true ∧
    (tk2em_emalgo keepEvent.emcalo (tk2em_sumtk keepEvent.track
        (tk2em_link keepEvent.emcalo keepEvent.track (fun _ => false)))).map (fun em => (em 0).1)
      = .ok false ∧
    (pfalgo3_full keepEvent (old0 1 2 1 0) (mem0 1 1)).map (fun o => (o.outne 0).hwPt) = .ok 0 ∧
    (pfalgo3_em_ref keepEvent.emcalo keepEvent.hadcalo keepEvent.track (fun _ => false)
        (old0 1 2 1 0).outpho).map (fun em => (em.hadcalo_out 0).hwPt) = .ok 100 := by
  refine ⟨by decide +kernel, by decide +kernel, by decide +kernel, by decide +kernel⟩

theorem keepEvent_physical : Physical keepEvent := C02_false_keep.1

/-- Non-vacuity of `C15_ref_protects_partial`: `keepEvent` has a protected cluster. -/
example : Valid keepEvent refVariant ∧ HasHadronicEM keepEvent 0 := by
  refine ⟨physical_valid _ keepEvent_physical _, 0, ?_, ?_⟩
  · exact (em2calo_link_iff keepEvent.emcalo keepEvent.hadcalo 0 0).mp (by decide +kernel)
  · obtain ⟨em, h1, h2⟩ := fw_emalgo (inp := keepEvent) (old := old0 1 2 1 0)
      (physical_valid _ keepEvent_physical refVariant)
    intro hI
    have h3 := (h2 0).1.mpr hI
    have h4 : (tk2em_emalgo keepEvent.emcalo (fwSumEm keepEvent (old0 1 2 1 0))).map
      (fun em => (em 0).1) = .ok false := by decide +kernel
    rw [h1] at h4
    injection h4 with h4
    exact absurd (h3.symm.trans h4) (by decide)

end Verif
