import Verif.Props.PFAgree
/-! # Exactly when firmware PF and reference PF agree: property C02 -/
open scoped BigOperators
namespace Verif
open Spec
variable {NT NC NE NM NS : Nat}

/-- What is seen of a neutral candidate. -/
def seen (o : PFNeutralObj) : Seen := if o.hwPt = 0 then (0, 0, 0, 0) else (o.hwPt.toInt, o.hwEta, o.hwPhi, o.hwId)

theorem pt_toInt_zero {p : Pt} : p.toInt = 0 ↔ p = 0 :=
  ⟨fun h => BitVec.eq_of_toInt_eq (h.trans (by decide)), fun h => by rw [h]; decide⟩

theorem seen_fst (o : PFNeutralObj) : (seen o).1 = o.hwPt.toInt := by
  unfold seen
  split
  · rename_i h; rw [h]; decide
  · rfl

theorem sameNeutral_iff (a b : PFNeutralObj) : SameNeutral a b ↔ seen a = seen b := by
  constructor
  · rintro ⟨h, h'⟩
    unfold seen
    rw [← h]
    split
    · rfl
    · rename_i hz
      rw [(h' hz).1, (h' hz).2.1, (h' hz).2.2]
  · intro h
    have e := congrArg Prod.fst h
    rw [seen_fst, seen_fst] at e
    have e := BitVec.eq_of_toInt_eq e
    refine ⟨e, fun hz => ?_⟩
    unfold seen at h
    rw [if_neg hz, if_neg (e ▸ hz)] at h
    simp only [Prod.mk.injEq] at h
    exact h.2

theorem seen_neutralOut {inp : PFInputs NT NC NE NM} {v : Variant} {h : Fin NC} {o : PFNeutralObj}
    (ho : NeutralOut (neutralPt inp v h) (inp.hadcalo h).hwEta (inp.hadcalo h).hwPhi 1 o) : seen o = neutralSeen inp v h := by
  unfold seen neutralSeen
  by_cases hz : neutralPt inp v h = 0
  · rw [if_pos hz, if_pos (pt_toInt_zero.mp (ho.1.trans hz))]
  · rw [if_neg hz, if_neg (fun e => hz (ho.1.symm.trans (pt_toInt_zero.mpr e))), ho.1, (ho.2.1 hz).1, (ho.2.1 hz).2.1, (ho.2.1 hz).2.2]

theorem seen_outne {inp : PFInputs NT NC NE NM} {v : Variant} {ne : Arr NC PFNeutralObj} (tmp : Arr NS PFNeutralObj)
    (hne : ∀ h, NeutralOut (neutralPt inp v h) (inp.hadcalo h).hwEta (inp.hadcalo h).hwPhi 1 (ne h)) :
    List.ofFn (fun i => seen (ptsort_hwopt tmp ne i)) =
      sortedTop Prod.fst (List.ofFn (neutralSeen inp v)) (List.replicate NS (0, 0, 0, 0)) NS := by
  have h := congrArg (List.map seen) (hwopt_sortedTop tmp ne)
  rw [sortedTop_map seen key (fun s : Seen => s.1) (fun a => seen_fst a), List.map_ofFn, List.map_ofFn, List.map_ofFn] at h
  have e1 : seen ∘ ne = neutralSeen inp v := funext fun h => seen_neutralOut (hne h)
  have e2 : List.ofFn (seen ∘ zeros tmp) = List.replicate NS (0, 0, 0, 0) := by
    rw [← List.ofFn_const]
    rfl
  rw [e1, e2] at h
  exact h

/-- **C02, exactly.** On inputs on which the arithmetic of both is exact, whatever the empty slots hold, both are defined,
and `pf_equals` accepts everything if and only if the two sets of rules keep the same tracks and give the same list of
selected neutrals, where the firmware counts the pt errors of empty slots and the reference does not. -/
theorem C02_agree_iff_all (inp : PFInputs NT NC NE NM) (old old' : PFOutputs NT NE NS NM)
    (mem : PFScratch NC NS) (mem' : Arr NC PFNeutralObj) (hv : Valid inp fwVariant) (hv' : Valid inp refVariant) :
    ∃ out out', pfalgo3_full inp old mem = .ok out ∧ pfalgo3_full_ref inp old' mem' = .ok out' ∧
      (((∀ t, pf_equals_ch (out'.outch t) (out.outch t) = true) ∧
        (∀ c, pf_equals_ne (out'.outpho c) (out.outpho c) = true) ∧
        (∀ i, pf_equals_ne (out'.outne i) (out.outne i) = true) ∧
        (∀ m, pf_equals_ch (out'.outmu m) (out.outmu m) = true)) ↔
      (∀ t, 0 < (inp.track t).hwPt.toInt → (Kept inp fwVariant t ↔ Kept inp refVariant t)) ∧
      sortedTop Prod.fst (List.ofFn (neutralSeen inp fwVariant)) (List.replicate NS (0, 0, 0, 0)) NS =
        sortedTop Prod.fst (List.ofFn (neutralSeen (noGhosts inp) refVariant)) (List.replicate NS (0, 0, 0, 0)) NS) := by
  obtain ⟨out, ne, h1, hch, hpho, hmu, hne, hsort⟩ := fw_meets_spec inp old mem hv
  obtain ⟨out', ne', h1', hch', hch0', hpho', hmu', hne', hsort'⟩ := ref_meets_spec_all inp old' mem' hv'
  have hneiff : (∀ i, pf_equals_ne (out'.outne i) (out.outne i) = true) ↔
      sortedTop Prod.fst (List.ofFn (neutralSeen inp fwVariant)) (List.replicate NS (0, 0, 0, 0)) NS =
        sortedTop Prod.fst (List.ofFn (neutralSeen (noGhosts inp) refVariant)) (List.replicate NS (0, 0, 0, 0)) NS := by
    rw [← seen_outne mem.tmp (fun h => (hne h).1), ← seen_outne (inp := noGhosts inp) (fun i => { old'.outne i with hwPt := 0, hwEta := 0, hwPhi := 0, hwId := 0 }) hne',
      List.ofFn_inj, funext_iff, hsort, hsort', ← ptsort_eq]
    exact forall_congr' fun i => by rw [pf_equals_ne_iff, sameNeutral_iff, eq_comm]
  have hchiff : (∀ t, pf_equals_ch (out'.outch t) (out.outch t) = true) ↔
      ∀ t, 0 < (inp.track t).hwPt.toInt → (Kept inp fwVariant t ↔ Kept inp refVariant t) := by
    refine forall_congr' fun t => ?_
    rcases eq_or_lt_of_le (hv.trackPt t) with hz | hp
    · refine iff_of_true ?_ (fun h => absurd hz (ne_of_lt h))
      unfold pf_equals_ch
      rw [if_pos (hch0' t hz.symm), hch t]
      have : (chargedOut inp fwVariant t).hwPt = 0 := by
        unfold chargedOut
        split
        · exact pt_toInt_zero.mp hz.symm
        · rfl
      simp [this]
    · rw [hch' t hp, hch t]
      have hpt : (inp.track t).hwPt ≠ 0 := fun e => by rw [e] at hp; exact absurd hp (by decide)
      unfold chargedOut
      by_cases k : Kept inp fwVariant t <;> by_cases k' : Kept inp refVariant t
      · rw [if_pos k, if_pos k']
        exact iff_of_true (pf_equals_ch_of_eq rfl) fun _ => iff_of_true k k'
      · rw [if_pos k, if_neg k']
        refine iff_of_false ?_ fun h => k' ((h hp).mp k)
        unfold pf_equals_ch
        rw [if_pos rfl]
        simpa using hpt
      · rw [if_neg k, if_pos k']
        refine iff_of_false ?_ fun h => k ((h hp).mpr k')
        unfold pf_equals_ch
        rw [if_neg hpt]
        intro hh
        simp only [Bool.and_eq_true, decide_eq_true_eq] at hh
        exact hpt hh.1.1.1.1
      · rw [if_neg k, if_neg k']
        exact iff_of_true (pf_equals_ch_of_eq rfl) fun _ => iff_of_false k k'
  refine ⟨out, out', h1, h1', ?_⟩
  rw [hneiff, hchiff]
  constructor
  · rintro ⟨a, _, b, _⟩
    exact ⟨a, b⟩
  · rintro ⟨a, b⟩
    refine ⟨a, fun c => ?_, b, fun m => pf_equals_ch_of_eq (muOut_unique (hmu' m) (hmu m))⟩
    rw [pf_equals_ne_iff]
    exact neutralOut_same (hpho' c) (hpho c).1

/-- **C02, exactly.** On inputs on which the arithmetic of both is exact (and empty track slots have a
null error), both are defined, and `pf_equals` accepts everything if and only if the two sets of rules
keep the same tracks and give the same list of selected neutrals. -/
theorem C02_agree_iff (inp : PFInputs NT NC NE NM) (old old' : PFOutputs NT NE NS NM)
    (mem : PFScratch NC NS) (mem' : Arr NC PFNeutralObj) (hv : Valid inp fwVariant) (hv' : Valid inp refVariant)
    (hempty : ∀ t, (inp.track t).hwPt.toInt = 0 → (inp.track t).hwPtErr.toInt = 0) :
    ∃ out out', pfalgo3_full inp old mem = .ok out ∧ pfalgo3_full_ref inp old' mem' = .ok out' ∧
      (((∀ t, pf_equals_ch (out'.outch t) (out.outch t) = true) ∧
        (∀ c, pf_equals_ne (out'.outpho c) (out.outpho c) = true) ∧
        (∀ i, pf_equals_ne (out'.outne i) (out.outne i) = true) ∧
        (∀ m, pf_equals_ch (out'.outmu m) (out.outmu m) = true)) ↔
      (∀ t, 0 < (inp.track t).hwPt.toInt → (Kept inp fwVariant t ↔ Kept inp refVariant t)) ∧
      sortedTop Prod.fst (List.ofFn (neutralSeen inp fwVariant)) (List.replicate NS (0, 0, 0, 0)) NS =
        sortedTop Prod.fst (List.ofFn (neutralSeen inp refVariant)) (List.replicate NS (0, 0, 0, 0)) NS) := by
  have h := C02_agree_iff_all inp old old' mem mem' hv hv'
  rw [C02_no_ghosts inp hv.trackPt hempty] at h
  exact h

/-- Non-vacuity: `keepEvent` (on which they disagree) and `ordinary` (on which they agree) meet the hypotheses. -/
example : (Valid keepEvent fwVariant ∧ Valid keepEvent refVariant ∧
      ∀ t, (keepEvent.track t).hwPt.toInt = 0 → (keepEvent.track t).hwPtErr.toInt = 0) ∧
    (Valid ordinary fwVariant ∧ Valid ordinary refVariant ∧
      ∀ t, (ordinary.track t).hwPt.toInt = 0 → (ordinary.track t).hwPtErr.toInt = 0) :=
  ⟨⟨physical_valid _ keepEvent_physical _, physical_valid _ keepEvent_physical _, by decide⟩,
   ⟨physical_valid _ ordinary_physical _, physical_valid _ ordinary_physical _, by decide⟩⟩

/-- Non-vacuity of the version without the condition: `ghostEvent`, whose empty slot holds an error. -/
example : Valid ghostEvent fwVariant ∧ Valid ghostEvent refVariant ∧ noGhosts ghostEvent ≠ ghostEvent :=
  ⟨physical_valid _ C02_false_ghost.1 _, physical_valid _ C02_false_ghost.1 _, fun h => by
    have := congrArg (fun e => (e.track 1).hwPtErr) h
    revert this
    decide⟩

end Verif
