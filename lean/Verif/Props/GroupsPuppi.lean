import Verif.Spec.GroupsPuppi
import Verif.Props.Groups
import Verif.Props.SinglePuppi
/-! # PUPPI in events of well separated particles: property C112 -/
namespace Verif
open Spec
variable {NT NC NE NM NS N N' : Nat} {inp : PFInputs NT NC NE NM} {gs : List (Group NT NC NE NM)}

/-- What a board makes of an event of well separated particles: candidates, and neutrals with their PUPPI pts. -/
structure PuppiGroups (inp : PFInputs NT NC NE NM) (gs : List (Group NT NC NE NM)) (table : PuppiTable) (z : Z0)
    (r : PFOutputs NT NE NS NM × Arr (NE + NS) PFNeutralObj) : Prop where
  pf : SumOfGroups inp gs r.1
  puppi : ((List.ofFn fun n => (seen (r.2 n), (r.2 n).hwPtPuppi.toInt)).filter fun x => decide (x.1.1 ≠ 0)).Perm (gs.flatMap (groupPuppi inp gs table z))

theorem single_puppiSum (s : Single) (z : Z0) (ne : PFNeutralObj) :
    (s.charged.map fun c => if PuppiNear z ne c then puppiTerm ne c else 0).sum = s.alpha z ne.hwEta ne.hwPhi := by
  unfold Single.charged Single.alpha
  by_cases k : s.kept
  · rw [if_pos k]
    simp only [List.map_cons, List.map_nil, List.sum_cons, List.sum_nil, Int.add_zero]
    exact if_congr ⟨fun c => ⟨k, c⟩, fun c => c.2⟩ rfl rfl
  · rw [if_neg k, if_neg fun c : s.counts z ne.hwEta ne.hwPhi => k c.1]
    rfl

theorem sum_flatMap_groups (gs : List (Group NT NC NE NM)) (z : Z0) (ne : PFNeutralObj) :
    ((gs.flatMap fun g => (groupSingle inp g).charged).map fun c => if PuppiNear z ne c then puppiTerm ne c else 0).sum =
      groupsAlpha inp gs z ne.hwEta ne.hwPhi := by
  unfold groupsAlpha
  induction gs with
  | nil => rfl
  | cons g gs ih => rw [List.flatMap_cons, List.map_append, List.sum_append, ih, single_puppiSum, List.map_cons, List.sum_cons]

/-- The sum of PUPPI, group by group. -/
theorem groups_puppiSum {out : PFOutputs NT NE NS NM} (h : SumOfGroups inp gs out) (z : Z0) (ne : PFNeutralObj) :
    puppiSum out.outch z ne = groupsAlpha inp gs z ne.hwEta ne.hwPhi := by
  have e : puppiSum out.outch z ne =
      (((List.ofFn out.outch).filter fun x => decide (x.hwPt ≠ 0)).map fun c => if PuppiNear z ne c then puppiTerm ne c else 0).sum := by
    unfold puppiSum
    rw [sum_filter_map, List.map_ofFn, List.sum_ofFn]
    · rfl
    · intro c _ hc
      exact puppiGuard_zero z ne (by simpa using hc)
  rw [e, (h.charged.map _).sum_eq]
  exact sum_flatMap_groups gs z ne

theorem puppiList_map {pfch : Arr NT PFChargedObj} {a : EtaPhi → EtaPhi → Int} (table : PuppiTable) (z : Z0) {NN : Nat} {ne r : Arr NN PFNeutralObj}
    (ha : ∀ ne, puppiSum pfch z ne = a ne.hwEta ne.hwPhi) (hz : ∀ n, (ne n).hwPt = 0 → (r n).hwPt = 0)
    (hr : ∀ n, (ne n).hwPt ≠ 0 → r n = { ne n with hwPtPuppi := reg 16 (puppiPt table (puppiSum pfch z (ne n)) (ne n).hwPt.toInt) }) :
    (List.ofFn fun n => (seen (r n), (r n).hwPtPuppi.toInt)).filter (fun x => decide (x.1.1 ≠ 0)) =
      ((List.ofFn fun n => seen (ne n)).filter fun x => decide (x.1 ≠ 0)).map fun x => (x, puppiPt table (a x.2.1 x.2.2.1) x.1) := by
  rw [filter_ofFn, filter_ofFn, List.map_map]
  have sz : ∀ o : PFNeutralObj, (seen o).1 = 0 ↔ o.hwPt = 0 := fun o => by
    rw [seen_fst]
    exact pt_toInt_zero
  have e : slots (fun x : Seen × Int => decide (x.1.1 ≠ 0)) (fun n => (seen (r n), (r n).hwPtPuppi.toInt)) =
      slots (fun x : Seen => decide (x.1 ≠ 0)) fun n => seen (ne n) := by
    unfold slots
    refine List.filter_congr fun n _ => ?_
    show decide ((seen (r n)).1 ≠ 0) = decide ((seen (ne n)).1 ≠ 0)
    rw [decide_eq_decide, ne_eq, ne_eq, sz, sz]
    by_cases c : (ne n).hwPt = 0
    · simp [c, hz n c]
    · rw [hr n c]
  rw [e]
  refine List.map_congr_left fun n hn => ?_
  have hm : (seen (ne n)).1 ≠ 0 := by simpa using mem_slots.mp hn
  have c : (ne n).hwPt ≠ 0 := fun x => hm ((sz _).mpr x)
  have e2 : seen (ne n) = ((ne n).hwPt.toInt, (ne n).hwEta, (ne n).hwPhi, (ne n).hwId) := if_neg c
  show (seen (r n), (r n).hwPtPuppi.toInt) = _
  have e3 : seen (r n) = seen (ne n) := by rw [hr n c]; rfl
  rw [e3, hr n c]
  simp only [Function.comp, e2]
  rw [ha]
  have g := puppiPt_within table (a (ne n).hwEta (ne n).hwPhi) (ne n).hwPt
  rw [reg16_toInt g.1 g.2]

theorem merged_filter (pho : Arr NE PFNeutralObj) (ne : Arr NS PFNeutralObj) :
    (List.ofFn fun n => seen (mergeNeutrals pho ne n)).filter (fun x => decide (x.1 ≠ 0)) =
      (List.ofFn fun c => seen (pho c)).filter (fun x => decide (x.1 ≠ 0)) ++ (List.ofFn fun i => seen (ne i)).filter (fun x => decide (x.1 ≠ 0)) := by
  rw [List.ofFn_add, List.filter_append]
  congr 2
  · congr 1
    funext c
    show seen (if h : c.val < NE then _ else _) = _
    rw [dif_pos c.isLt]
    rfl
  · congr 1
    funext i
    unfold mergeNeutrals
    rw [dif_neg (show ¬ (Fin.natAdd NE i).val < NE by simp)]
    have e : (⟨(Fin.natAdd NE i).val - NE, by have := i.isLt; simp⟩ : Fin NS) = i := Fin.ext (by simp)
    rw [e]
    rfl

theorem groups_puppi {out : PFOutputs NT NE NS NM} (h : SumOfGroups inp gs out) (hroom : (∃ i, (out.outne i).hwPt = 0) ∨ NC ≤ NS) (table : PuppiTable) (z : Z0)
    {r : Arr (NE + NS) PFNeutralObj} (hz : ∀ n, (mergeNeutrals out.outpho out.outne n).hwPt = 0 → (r n).hwPt = 0)
    (hr : ∀ n, (mergeNeutrals out.outpho out.outne n).hwPt ≠ 0 → r n = { mergeNeutrals out.outpho out.outne n with
      hwPtPuppi := reg 16 (puppiPt table (puppiSum out.outch z (mergeNeutrals out.outpho out.outne n)) (mergeNeutrals out.outpho out.outne n).hwPt.toInt) }) :
    ((List.ofFn fun n => (seen (r n), (r n).hwPtPuppi.toInt)).filter fun x => decide (x.1.1 ≠ 0)).Perm (gs.flatMap (groupPuppi inp gs table z)) := by
  rw [puppiList_map (a := groupsAlpha inp gs z) table z (groups_puppiSum h z) hz hr, merged_filter]
  refine (((h.photons.append (h.neutrals hroom)).trans (List.flatMap_append_perm gs _ _)).map _).trans ?_
  rw [List.map_flatMap]
  exact .refl _

theorem makes_pt2 {v : Variant} {out : PFOutputs NT NE NS NM} (m : Makes inp v out) (h : ∑ t, (inp.track t).hwPt.toInt ^ 2 < 2 ^ 21) :
    ∑ t, (out.outch t).hwPt.toInt ^ 2 < 2 ^ 21 := by
  refine lt_of_le_of_lt (Finset.sum_le_sum fun t _ => ?_) h
  by_cases z : (out.outch t).hwPt = 0
  · rw [z]
    exact sq_nonneg _
  · have e := m.charged t z
    rw [e] at z ⊢
    rw [(chargedOut_pt z).1]

/-- **C112.** Particle flow behind its links, then PUPPI, in firmware and in the reference, for an event that falls apart into groups with at most one
object of each kind: the candidates of C110, and for each neutral the PUPPI pt that belongs to the sum over the groups. -/
theorem C112_groups (hp : Physical inp) (hg : Grouped inp gs) (ha : ∀ g ∈ gs, Alone refVariant inp g)
    (hempty : ∀ t, (inp.track t).hwPt.toInt = 0 → (inp.track t).hwPtErr.toInt = 0) (hpt2 : ∑ t, (inp.track t).hwPt.toInt ^ 2 < 2 ^ 21) (hN : NC ≤ NS)
    (table : PuppiTable) (z : Z0) (data : Arr N Word) (out0 : Arr N' Word) (pf0 old old' : PFOutputs NT NE NS NM) (mem : PFScratch NC NS) (mem' : Arr NC PFNeutralObj)
    (hi : 2 * NE + 2 * NT + 2 * NC + 2 * NM ≤ min N MP7_NCHANN) (ho : 2 * NT + 2 * NE + 2 * NS + 2 * NM ≤ min N' MP7_NCHANN) :
    ∃ r r', fwBoard table z inp data out0 pf0 old mem = .ok r ∧ refBoard table z inp old' mem' = .ok r' ∧
      PuppiGroups inp gs table z r ∧ PuppiGroups inp gs table z r' := by
  have ha' : ∀ g ∈ gs, Alone fwVariant inp g := fun g h => { ha g h with hadEm := fun e k a d => ((ha g h).hadEm e k a d).imp_right fun x => ⟨rfl, x.2⟩ }
  obtain ⟨out, h1, m⟩ := fw_makes inp (physical_valid inp hp fwVariant) pf0 mem
  obtain ⟨out', h1', m'⟩ := ref_makes_empty inp (physical_valid inp hp refVariant) hempty old' mem'
  have s : SumOfGroups inp gs out := by
    obtain ⟨o, e, s⟩ := C110_groups hp hg ha' hempty pf0 mem
    rwa [Except.ok.inj (h1.symm.trans e)]
  have s' : SumOfGroups inp gs out' := by
    obtain ⟨o, e, s⟩ := C110_groups_ref hp hg ha hempty old' mem'
    rwa [Except.ok.inj (h1'.symm.trans e)]
  let pho : Arr NE PFNeutralObj := fun i => { out.outpho i with hwPtPuppi := (old.outpho i).hwPtPuppi }
  let ne : Arr NS PFNeutralObj := fun i => { out.outne i with hwPtPuppi := (old.outne i).hwPtPuppi }
  obtain ⟨hw, _, e1, -, hhw⟩ := C22_puppi_agree table out.outch (mergeNeutrals pho ne) z (C22_safe table out.outch (mergeNeutrals pho ne) z (makes_pt2 m hpt2)).1
  obtain ⟨hw', ref', -, e2, href⟩ := C22_puppi_agree table out'.outch (mergeNeutrals out'.outpho out'.outne) z
    (C22_safe table out'.outch (mergeNeutrals out'.outpho out'.outne) z (makes_pt2 m' hpt2)).1
  have s2 : SumOfGroups inp gs ({ outch := out.outch, outpho := pho, outne := ne, outmu := out.outmu } : PFOutputs NT NE NS NM) :=
    ⟨s.charged, s.photons, s.muons, s.neutrals⟩
  refine ⟨({ outch := out.outch, outpho := pho, outne := ne, outmu := out.outmu }, hw), (out', ref'), ?_, ?_, ⟨s2, ?_⟩, ⟨s', ?_⟩⟩
  · unfold fwBoard
    rw [C19_wrapped_eq_plain inp data out0 pf0 old mem hi ho, h1, Run.ok_bind, Run.ok_bind]
    show (simple_puppi_hw table out.outch (mergeNeutrals pho ne) z >>= _) = _
    rw [e1]; rfl
  · unfold refBoard
    rw [h1', Run.ok_bind, e2]; rfl
  · exact groups_puppi s2 (.inr hN) table z (fun n c => by show (hw n).hwPt = 0; rw [(hhw n).1]; exact c) fun n _ => (hhw n).1
  · exact groups_puppi s' (.inr hN) table z (fun n c => by show (ref' n).hwPt = 0; rw [((href n).2.2 c).1]; exact c)
      fun n c => ((href n).2.1 c).trans (href n).1

/-! ### A case -/

/-- The event `busy` with the vertex at its hadron: the photon, 100 units from the hadron, gets nothing, and the excess of the hadron's cluster keeps
all of its pt, whatever the table. -/
theorem busy_puppi : Physical busy ∧ ∑ t, (busy.track t).hwPt.toInt ^ 2 < 2 ^ 21 ∧ (∀ t, (busy.track t).hwPt.toInt = 0 → (busy.track t).hwPtErr.toInt = 0) ∧
    groupsAlpha busy busyGroups 1 0 (-100) = 0 ∧ 1174 * 1024 ≤ groupsAlpha busy busyGroups 1 5 5 := by
  refine ⟨busy_hadron.2.1, by decide, by decide, by decide +kernel, by decide +kernel⟩

example (table : PuppiTable) (data : Arr 72 Word) (out0 : Arr 72 Word) (pf0 old old' : PFOutputs 4 3 3 2) (mem : PFScratch 3 3) (mem' : Arr 3 PFNeutralObj) :
    ∃ r r', fwBoard table 1 busy data out0 pf0 old mem = .ok r ∧ refBoard table 1 busy old' mem' = .ok r' ∧
      ((List.ofFn fun n => (seen (r.2 n), (r.2 n).hwPtPuppi.toInt)).filter fun x => decide (x.1.1 ≠ 0)).Perm [((80, 5, 5, 1), 80), ((80, 0, -100, 2), 0)] := by
  obtain ⟨b1, b2, b3, b4, b5⟩ := busy_puppi
  obtain ⟨r, r', e, e', p, -⟩ := C112_groups (NS := 3) b1 busy_grouped busy_alone b3 b2 (by decide) table 1 data out0 pf0 old old' mem mem' (by decide) (by decide)
  refine ⟨r, r', e, e', ?_⟩
  have k : (busyGroups.flatMap fun g => (groupSingle busy g).photons ++ (groupSingle busy g).neutrals) = [(80, 5, 5, 1), (80, 0, -100, 2)] := by decide +kernel
  have := p.puppi
  unfold groupPuppi at this
  rw [← List.map_flatMap, k] at this
  simp only [List.map_cons, List.map_nil, b4] at this
  rwa [full_of_alpha table b5] at this

end Verif
