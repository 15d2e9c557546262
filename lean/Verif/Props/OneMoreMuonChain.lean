import Verif.Spec.OneMoreMuonChain
import Verif.Props.OneMoreCaloChain
import Verif.Props.OneMoreMuonLink
import Verif.Props.WithoutMuons
/-! # One more muon, from the sectors to the candidates: property C101 -/
namespace Verif
open Spec
variable {NT NC NE NM NS : Nat}

theorem SameBut.trans {P : Fin NT → Prop} {a b c : PFOutputs NT NE NS NM} (h : SameBut P a b) (h' : SameBut P b c) : SameBut P a c where
  charged t ht := by
    obtain ⟨a1, a2⟩ := h.charged t ht
    obtain ⟨b1, b2⟩ := h'.charged t ht
    exact ⟨b1.trans a1, fun hn => (b2 hn).trans (a2 (b1 ▸ hn))⟩
  photon c := (h'.photon c).trans (h.photon c)
  neutral i := (h'.neutral i).trans (h.neutral i)

theorem SameBut.weaken {P Q : Fin NT → Prop} {a b : PFOutputs NT NE NS NM} (h : SameBut P a b) (hq : ∀ t, ¬ Q t → ¬ P t) : SameBut Q a b :=
  ⟨fun t ht => h.charged t (hq t ht), h.photon, h.neutral⟩

/-- The event with the muons in other slots. -/
def muonsMoved (inp : PFInputs NT NC NE NM) (σ : Equiv.Perm (Fin NM)) : PFInputs NT NC NE NM :=
  reorder inp (Equiv.refl _) (Equiv.refl _) (Equiv.refl _) σ

theorem moved_ordered (v : Variant) (inp : PFInputs NT NC NE NM) (σ : Equiv.Perm (Fin NM)) : Ordered v (muonsMoved inp σ) id id id where
  mu _ _ _ hab _ _ _ := le_of_lt hab
  em _ _ _ hab _ _ _ := le_of_lt hab
  had _ _ _ hab _ _ _ := le_of_lt hab
  calo _ _ _ hab _ _ _ := le_of_lt hab

theorem moved_part (v : Variant) (inp : PFInputs NT NC NE NM) (σ : Equiv.Perm (Fin NM)) : Part v inp (muonsMoved inp σ) id id id σ :=
  reorder_part v inp (Equiv.refl _) (Equiv.refl _) (Equiv.refl _) σ

theorem moved_neutral {σ : Equiv.Perm (Fin NM)} {s s' : Fin NC → Seen} {out om : PFOutputs NT NE NS NM} (A : PartAgrees id id id σ out om s s') (k : Fin NS) :
    seen (out.outne k) = seen (om.outne k) := by
  have h1 := A.neutral
  rw [show s = s' from funext A.cand, ← A.neutral'] at h1
  exact congrFun (List.ofFn_injective h1) k

theorem moved_fw (inp : PFInputs NT NC NE NM) (σ : Equiv.Perm (Fin NM)) (hv : Valid inp fwVariant) (old old' : PFOutputs NT NE NS NM) (mem mem' : PFScratch NC NS) :
    ∃ out om, pfalgo3_full inp old mem = .ok out ∧ pfalgo3_full (muonsMoved inp σ) old' mem' = .ok om ∧ SameBut (fun _ => False) out om ∧
      ∀ m, out.outmu (σ m) = om.outmu m := by
  obtain ⟨out, om, h1, h2, h3, h4⟩ := C68_part_alone inp (muonsMoved inp σ) _ _ _ _ (moved_part _ inp σ) (moved_ordered _ inp σ) hv old mem old' mem'
  refine ⟨out, om, h1, h2, ⟨fun t _ => ?_, fun c => (h4.photon c).symm, fun k => (moved_neutral h4 k).symm⟩, h4.muon⟩
  have e : out.outch t = om.outch t := h3 t
  rw [e]
  exact ⟨rfl, fun _ => rfl⟩

theorem moved_ref (inp : PFInputs NT NC NE NM) (σ : Equiv.Perm (Fin NM)) (hv : Valid inp refVariant)
    (old old' : PFOutputs NT NE NS NM) (mem mem' : Arr NC PFNeutralObj) :
    ∃ out om, pfalgo3_full_ref inp old mem = .ok out ∧ pfalgo3_full_ref (muonsMoved inp σ) old' mem' = .ok om ∧ SameBut (fun _ => False) out om ∧
      ∀ m, out.outmu (σ m) = om.outmu m := by
  obtain ⟨out, om, h1, h2, h3, h4⟩ := C68_part_alone_ref_all inp (muonsMoved inp σ) id id id σ (moved_part _ (noGhosts inp) σ)
    (moved_ordered _ (noGhosts inp) σ) hv old mem old' mem'
  refine ⟨out, om, h1, h2, ⟨fun t _ => ?_, fun c => (h4.photon c).symm, fun k => (moved_neutral h4 k).symm⟩, h4.muon⟩
  obtain ⟨a, b⟩ := h3 t
  exact ⟨a.symm, fun h => (b h).symm⟩

variable {inp inp' : PFInputs NT NC NE NM} {i j : Fin NM}

theorem muonPut_others (H : MuonPut inp inp' i j) {k : Fin NM} (hk : k ≠ j) : inp'.mu (slotMove i j k) = inp.mu k := by
  have hk' : k.val ≠ j.val := fun e => hk (Fin.ext e)
  unfold slotMove
  rw [if_neg hk]
  by_cases h1 : i ≤ k ∧ k < j
  · rw [dif_pos h1]
    exact H.moved k _ h1.1 h1.2 rfl
  · rw [dif_neg h1]
    have h1' : ¬ (i.val ≤ k.val ∧ k.val < j.val) := h1
    rcases Nat.lt_or_ge k.val i.val with h | h
    · exact H.before k h
    · exact H.after k (show j.val < k.val by omega)

theorem muonPut_oneMore (H : MuonPut inp inp' i j) : OneMoreMuon (muonsMoved inp (slotPerm i j H.le).symm) inp' i where
  had := H.had
  em := H.em
  track := H.track
  others m hm := by
    obtain ⟨k, rfl⟩ := (slotPerm i j H.le).surjective m
    have hk : k ≠ j := fun e => hm (by rw [e]; exact slotMove_at i j)
    refine (muonPut_others H hk).trans ?_
    show _ = inp.mu ((slotPerm i j H.le).symm (slotPerm i j H.le k))
    rw [Equiv.symm_apply_apply]
  free := by
    show (inp.mu ((slotPerm i j H.le).symm i)).hwPt.toInt ≤ 0
    rw [slotBack_at]
    exact H.free

/-- What a further muon does to the outputs, wherever it stands.  The muon candidates are those of before, with the matching track inserted if there
is one.  If no track matches, or the match is the track of another muon already, nothing else changes; if it is another track, the rest is as
if the track were not there.  `outd t` is the output for the event without track `t`. -/
structure MuonCandidate (inp inp' : PFInputs NT NC NE NM) (i : Fin NM) (out out' : PFOutputs NT NE NS NM) (outd : Fin NT → PFOutputs NT NE NS NM) : Prop where
  muons : ∃ a b, muonList out = a ++ b ∧ (∀ t, MuMatch inp' i t → muonList out' = a ++ muonOf (inp.track t) :: b) ∧
    ((¬ ∃ t, MuMatch inp' i t) → muonList out' = a ++ b)
  unmatched : (¬ ∃ t, MuMatch inp' i t) → SameBut (fun _ => False) out out'
  matched : ∀ t, MuMatch inp' i t → out'.outch t = muonOf (inp.track t)
  again : ∀ t, MuMatch inp' i t → IsMu inp t → SameBut (fun _ => False) out out'
  taken : ∀ t, MuMatch inp' i t → ¬ IsMu inp t → SameBut (· = t) (outd t) out'

theorem muonList_eq (out : PFOutputs NT NE NS NM) : muonList out = (List.ofFn fun k => shown (out.outmu k)).flatten := by
  unfold muonList
  rw [← flatMap_finRange, List.ofFn_eq_map]
  induction List.finRange NM with
  | nil => rfl
  | cons a l ih =>
    rw [List.map_cons, List.flatMap_cons, ← ih]
    unfold shown
    by_cases h : (out.outmu a).hwPt ≠ 0
    · rw [List.filter_cons_of_pos (by simpa using h), if_pos h]; rfl
    · rw [List.filter_cons_of_neg (by simpa using h), if_neg h]; rfl

theorem muonCandidate_of (H : MuonPut inp inp' i j) {out om out' : PFOutputs NT NE NS NM} {outd omd : Fin NT → PFOutputs NT NE NS NM}
    (S : SameBut (fun _ => False) out om) (hmu : ∀ m, out.outmu ((slotPerm i j H.le).symm m) = om.outmu m) (hj : out.outmu j = ⟨0, 0, 0, 0, 0⟩)
    (Sd : ∀ t, SameBut (fun _ => False) (outd t) (omd t))
    (A : MuonAdded (muonsMoved inp (slotPerm i j H.le).symm) inp' i om out' omd) : MuonCandidate inp inp' i out out' outd := by
  have his : ∀ t, IsMu (muonsMoved inp (slotPerm i j H.le).symm) t ↔ IsMu inp t := fun t =>
    ⟨fun ⟨m, hm⟩ => ⟨_, hm⟩, fun ⟨m, hm⟩ => ⟨slotPerm i j H.le m, by
      have e : (slotPerm i j H.le).symm (slotPerm i j H.le m) = m := Equiv.symm_apply_apply _ _
      rw [← e] at hm
      exact hm⟩⟩
  have ho : ∀ k, k ≠ j → out'.outmu (slotMove i j k) = out.outmu k := fun k hk => by
    rw [A.others _ (slotMove_ne H.le hk), ← hmu]
    exact congrArg out.outmu ((slotPerm i j H.le).symm_apply_apply k)
  obtain ⟨a, b, f1, f2⟩ := flatten_moved i j H.le (fun k => shown (out.outmu k)) (fun k => shown (out'.outmu k)) (fun k hk => congrArg shown (ho k hk))
    (by rw [hj]; rfl)
  refine ⟨⟨a, b, by rw [muonList_eq, f1], fun t ht => ?_, fun h => ?_⟩, fun h => S.trans (A.unmatched h).2, fun t ht => (A.matched t ht).2,
    fun t ht hm => S.trans (A.again t ht ((his t).mpr hm)), fun t ht hm => ((Sd t).weaken (fun _ _ => id)).trans (A.taken t ht (fun h => hm ((his t).mp h)))⟩
  · rw [muonList_eq, f2, (A.matched t ht).1]
    have hp := muMatch_pos ht
    unfold shown
    rw [if_pos]
    · rfl
    · intro e
      rw [H.track] at hp
      have e : (inp.track t).hwPt = 0 := e
      rw [e] at hp
      exact absurd hp (by decide)
  · rw [muonList_eq, f2, (A.unmatched h).1]
    rfl

/-- An empty muon slot has no match. -/
theorem free_unmatched (h : (inp.mu j).hwPt.toInt ≤ 0) : ¬ ∃ t, MuMatch inp j t := fun ⟨_, ht⟩ => absurd ht.1 (by omega)

/-- **C101.** Firmware: a new muon anywhere among those of a region. -/
theorem C101_muon_anywhere (H : MuonPut inp inp' i j) (hp : Physical inp) (old old' : PFOutputs NT NE NS NM) (mem mem' : PFScratch NC NS) :
    ∃ out out' outd, pfalgo3_full inp old mem = .ok out ∧ pfalgo3_full inp' old' mem' = .ok out' ∧
      (∀ t, pfalgo3_full (dropTrack inp t) old mem = .ok (outd t)) ∧ MuonCandidate inp inp' i out out' outd := by
  have hpm : Physical (muonsMoved inp (slotPerm i j H.le).symm) := { hp with }
  obtain ⟨om, out', omd, g1, g2, g3, g4⟩ := C97_one_more_muon (muonPut_oneMore H) hpm old old' mem mem'
  obtain ⟨out, om1, h1, h2, h3, h4⟩ := moved_fw inp (slotPerm i j H.le).symm (physical_valid inp hp _) old old mem mem
  rw [g1] at h2
  cases h2
  have hd : ∀ t, ∃ o, pfalgo3_full (dropTrack inp t) old mem = .ok o ∧ SameBut (fun _ => False) o (omd t) := fun t => by
    obtain ⟨o, om1, h1, h2, h3, _⟩ := moved_fw (dropTrack inp t) (slotPerm i j H.le).symm (physical_valid _ (physical_dropTrack hp t) _) old old mem mem
    have := g3 t
    rw [show dropTrack (muonsMoved inp (slotPerm i j H.le).symm) t = muonsMoved (dropTrack inp t) (slotPerm i j H.le).symm from rfl, h2] at this
    cases this
    exact ⟨o, h1, h3⟩
  obtain ⟨out1, b1, k1, -, -, -, k2⟩ := C97_without_muons (bare_without inp) (physical_valid inp hp _) old
    ⟨old.outch, old.outpho, old.outne, fun m => m.elim0⟩ mem mem
  rw [h1] at k1
  cases k1
  exact ⟨out, out', fun t => (hd t).choose, h1, g2, fun t => (hd t).choose_spec.1,
    muonCandidate_of H h3 h4 (k2 j (free_unmatched H.free)) (fun t => (hd t).choose_spec.2) g4⟩

/-- **C101** for the reference. -/
theorem C101_muon_anywhere_ref (H : MuonPut inp inp' i j) (hp : Physical inp) (old old' : PFOutputs NT NE NS NM) (mem mem' : Arr NC PFNeutralObj) :
    ∃ out out' outd, pfalgo3_full_ref inp old mem = .ok out ∧ pfalgo3_full_ref inp' old' mem' = .ok out' ∧
      (∀ t, pfalgo3_full_ref (dropTrack inp t) old mem = .ok (outd t)) ∧ MuonCandidate inp inp' i out out' outd := by
  have hpm : Physical (muonsMoved inp (slotPerm i j H.le).symm) := { hp with }
  obtain ⟨om, out', omd, g1, g2, g3, g4⟩ := C97_one_more_muon_ref (muonPut_oneMore H) hpm old old' mem mem'
  obtain ⟨out, om1, h1, h2, h3, h4⟩ := moved_ref inp (slotPerm i j H.le).symm (physical_valid inp hp _) old old mem mem
  rw [g1] at h2
  cases h2
  have hd : ∀ t, ∃ o, pfalgo3_full_ref (dropTrack inp t) old mem = .ok o ∧ SameBut (fun _ => False) o (omd t) := fun t => by
    obtain ⟨o, om1, h1, h2, h3, _⟩ := moved_ref (dropTrack inp t) (slotPerm i j H.le).symm (physical_valid _ (physical_dropTrack hp t) _) old old mem mem
    have := g3 t
    rw [show dropTrack (muonsMoved inp (slotPerm i j H.le).symm) t = muonsMoved (dropTrack inp t) (slotPerm i j H.le).symm from rfl, h2] at this
    cases this
    exact ⟨o, h1, h3⟩
  obtain ⟨out1, b1, k1, -, -, -, k2⟩ := C97_without_muons_ref (bare_without inp) (physical_valid inp hp _) old
    ⟨old.outch, old.outpho, old.outne, fun m => m.elim0⟩ mem mem
  rw [h1] at k1
  cases k1
  exact ⟨out, out', fun t => (hd t).choose, h1, g2, fun t => (hd t).choose_spec.1,
    muonCandidate_of H h3 h4 (k2 j (free_unmatched H.free)) (fun t => (hd t).choose_spec.2) g4⟩

section
variable {FE FT : Nat}

/-- **C101.** From the sectors to the candidates: a sector has one more muon, and its muon sector has no more than `NM`.  Regions the muon is not in get
the same inputs.  In a region with a free muon slot, firmware and reference have the candidate of the matching track, if there is one, as one more
muon, and the rest of the event is as it was, or, if the track was no muon before, as it were without the track. -/
theorem C101_from_the_sectors (sz : SystemSizes) {em rest_e : Arr (FE * N_IN_SECTORS) (List EmCaloObj)}
    {had rest_h : Arr (1 * N_IN_SECTORS) (List HadCaloObj)} {tk rest_t : Arr (FT * N_IN_SECTORS) (List TkObj)}
    {re : Arr N_OUT_REGIONS (Arr NE EmCaloObj)} {rh : Arr N_OUT_REGIONS (Arr NC HadCaloObj)} {rt : Arr N_OUT_REGIONS (Arr NT TkObj)}
    (he : regionize_ref sz.emSec sz.emSlice NE em = .ok (rest_e, re)) (hh : regionize_ref sz.hadSec sz.hadSlice NC had = .ok (rest_h, rh))
    (ht : regionize_ref sz.tkSec sz.tkSlice NT tk = .ok (rest_t, rt)) (hq : Sensible (arrivals sz.emSec em) (arrivals sz.hadSec had) (arrivals sz.tkSec tk))
    {inn inn' : Arr N_IN_SECTORS (Arr NM MuObj)} {ics : Fin 12} {io : Fin NM} {o : MuObj} (H : OneMoreMuonIn inn inn' ics io o)
    (h1 : -60 < o.hwPhi.toInt) (h2 : o.hwPhi.toInt ≤ 60) (room : muonsIn inn' (muSector ics) ≤ NM)
    (later rest : Arr N_MUON_SECTORS (List MuObj)) (rm : Arr N_OUT_REGIONS (Arr NM MuObj))
    (hm : regionize_muon_ref NM (fun s => List.ofFn (merge_muon_in inn s) ++ later s) = .ok (rest, rm)) :
    ∃ rm', regionize_muon_ref NM (fun s => List.ofFn (merge_muon_in inn' s) ++ later s) = .ok (rest, rm') ∧ ∀ ir : Fin 18,
      (¬ (inSlice (regionEta ir) o = true ∧ -180 < relPhi (regionPhi ir) ics o.hwPhi.toInt ∧ relPhi (regionPhi ir) ics o.hwPhi.toInt ≤ 180) →
        boardOf re rh rt rm' ir = boardOf re rh rt rm ir) ∧
      (inSlice (regionEta ir) o = true → -180 < relPhi (regionPhi ir) ics o.hwPhi.toInt → relPhi (regionPhi ir) ics o.hwPhi.toInt ≤ 180 →
        (∃ k, (rm ir k).hwPt.toInt ≤ 0) → ∃ i, rm' ir i = muToRegion (regionEta ir) (regionPhi ir) ics o ∧
          (∀ (old old' : PFOutputs NT NE NS NM) (mem mem' : PFScratch NC NS), ∃ out out' outd,
            pfalgo3_full (boardOf re rh rt rm ir) old mem = .ok out ∧ pfalgo3_full (boardOf re rh rt rm' ir) old' mem' = .ok out' ∧
            (∀ t, pfalgo3_full (dropTrack (boardOf re rh rt rm ir) t) old mem = .ok (outd t)) ∧
            MuonCandidate (boardOf re rh rt rm ir) (boardOf re rh rt rm' ir) i out out' outd) ∧
          (∀ (old old' : PFOutputs NT NE NS NM) (mem mem' : Arr NC PFNeutralObj), ∃ out out' outd,
            pfalgo3_full_ref (boardOf re rh rt rm ir) old mem = .ok out ∧ pfalgo3_full_ref (boardOf re rh rt rm' ir) old' mem' = .ok out' ∧
            (∀ t, pfalgo3_full_ref (dropTrack (boardOf re rh rt rm ir) t) old mem = .ok (outd t)) ∧
            MuonCandidate (boardOf re rh rt rm ir) (boardOf re rh rt rm' ir) i out out' outd)) := by
  obtain ⟨rm', hr, J⟩ := C99_one_more_muon H h1 h2 room later rest rm hm
  refine ⟨rm', hr, fun ir => ⟨fun h => ?_, fun ho hl hu hfree => ?_⟩⟩
  · unfold boardOf
    rw [(J ir).1 h]
  · obtain ⟨k, hk⟩ := hfree
    have hpos := H.pos
    have hk : ptOf (rm ir k) ≤ 0 := hk
    rcases (J ir).2 ⟨ho, hl, hu⟩ with ⟨_, hfull⟩ | ⟨i, j, P, hj⟩
    · have := hfull k
      omega
    · have hj : rm ir j = MuObj.clear := hj.resolve_right fun h => by have := h k; omega
      obtain ⟨hp, _, _⟩ := C85_regions_physical sz em rest_e had rest_h tk rest_t re rh rt rm he hh ht hq ir
      have K : MuonPut (boardOf re rh rt rm ir) (boardOf re rh rt rm' ir) i j :=
        { had := rfl
          em := rfl
          track := rfl
          le := P.le
          before := P.before
          moved := P.moved
          after := P.after
          free := by show (rm ir j).hwPt.toInt ≤ 0; rw [hj]; decide }
      exact ⟨i, P.at_, C101_muon_anywhere K hp, C101_muon_anywhere_ref K hp⟩

/-- **C101**, non-vacuity: with the clusters and the track of the example of C100, a muon of 10 in sector 0, and one of `pt` in sector 1, on the track. -/
def meetMu (pt : Int) : Arr N_IN_SECTORS (Arr 2 MuObj) := fun ics io =>
  if ics.val = 0 ∧ io.val = 0 then mu99 10 else if ics.val = 1 ∧ io.val = 1 then mu99 pt else MuObj.clear

/-- pts of the muons, of the charged and of the neutral candidates of region 6. -/
def meetMuons (pt : Int) : Run (List Int × List Int × List Int) := do
  let re ← regionize_ref 1 1 1 joinEm
  let rh ← regionize_ref 3 3 4 (meetHad ⟨0, 0, 0, 0, false⟩)
  let rt ← regionize_ref 1 1 1 meetTk
  let rm ← regionize_muon_ref 2 (fun s => List.ofFn (merge_muon_in (meetMu pt) s) ++ [])
  let out ← pfalgo3_full (boardOf re.2 rh.2 rt.2 rm.2 6) (old0 1 1 4 2) (mem0 4 4)
  .ok ((muonList out).map fun c => c.hwPt.toInt, (chargedList out).map fun c => c.hwPt.toInt, List.ofFn fun k => (out.outne k).hwPt.toInt)

/-- The track of 30 becomes a muon, and the cluster it was linked to gives all of its pt as a neutral. -/
example : OneMoreMuonIn (meetMu 0) (meetMu 25) 1 1 (mu99 25) ∧ muonsIn (meetMu 25) (muSector 1) ≤ 2 ∧
    Sensible (arrivals 1 joinEm) (arrivals 3 (meetHad ⟨0, 0, 0, 0, false⟩)) (arrivals 1 meetTk) ∧
    inSlice (regionEta 6) (mu99 25) = true ∧ -180 < relPhi (regionPhi 6) 1 (mu99 25).hwPhi.toInt ∧ relPhi (regionPhi 6) 1 (mu99 25).hwPhi.toInt ≤ 180 ∧
    meetMuons 0 = .ok ([], [30], [60, 15, 0, 0]) ∧ meetMuons 25 = .ok ([30], [30], [90, 15, 0, 0]) := by
  refine ⟨⟨fun i j h => ?_, rfl, by decide +kernel, by decide +kernel⟩, by decide +kernel, ?_, by decide, by decide, by decide, by decide +kernel, by decide +kernel⟩
  · revert i j
    decide +kernel
  · constructor <;> decide +kernel

end

end Verif
