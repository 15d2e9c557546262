import Verif.Spec.Groups
import Verif.Props.Isolated
/-! # Events of well separated particles: property C110 -/
namespace Verif
open Spec
variable {NT NC NE NM NS : Nat}

/-! ### What is claimed -/

/-- The candidates of the event are those of its groups.  The neutral hadrons are if the list of neutrals has a free slot, or is long enough for
all clusters. -/
structure SumOfGroups (inp : PFInputs NT NC NE NM) (gs : List (Group NT NC NE NM)) (out : PFOutputs NT NE NS NM) : Prop where
  charged : ((List.ofFn out.outch).filter fun x => decide (x.hwPt ≠ 0)).Perm (gs.flatMap fun g => (groupSingle inp g).charged)
  photons : ((List.ofFn fun c => seen (out.outpho c)).filter fun x => decide (x.1 ≠ 0)).Perm (gs.flatMap fun g => (groupSingle inp g).photons)
  muons : ((List.ofFn out.outmu).filter fun x => decide (x.hwPt ≠ 0)).Perm (gs.flatMap fun g => (groupSingle inp g).muons)
  neutrals : ((∃ i, (out.outne i).hwPt = 0) ∨ NC ≤ NS) →
    ((List.ofFn fun i => seen (out.outne i)).filter fun x => decide (x.1 ≠ 0)).Perm (gs.flatMap fun g => (groupSingle inp g).neutrals)

/-! ### Slots of groups -/

theorem flatMap_slots {G A : Type} {N : Nat} (f : Fin N → A) (q : A → Bool) (gs : List G) (slot : G → Option (Fin N)) (L : G → List A)
    (hL : ∀ g ∈ gs, L g = ((slot g).toList.map f).filter q) : gs.flatMap L = ((gs.filterMap slot).map f).filter q := by
  induction gs with
  | nil => rfl
  | cons g gs ih =>
    rw [List.flatMap_cons, ih fun x hx => hL x (List.mem_cons_of_mem _ hx), hL g List.mem_cons_self]
    cases h : slot g with
    | none => simp [h]
    | some i =>
      rw [List.filterMap_cons_some h, List.map_cons, List.filter_cons]
      simp only [Option.toList_some, List.map_cons, List.map_nil, List.filter_cons, List.filter_nil]
      split <;> rfl

theorem perm_groups {G A : Type} {N : Nat} (f : Fin N → A) (q : A → Bool) (gs : List G) (slot : G → Option (Fin N)) (L : G → List A)
    (hL : ∀ g ∈ gs, L g = ((slot g).toList.map f).filter q) (hcov : ∀ i, q (f i) = true → ∃ g ∈ gs, slot g = some i)
    (hone : (gs.filterMap slot).Nodup) : ((List.ofFn f).filter q).Perm (gs.flatMap L) := by
  rw [flatMap_slots f q gs slot L hL, List.ofFn_eq_map, List.filter_map, List.filter_map]
  refine List.Perm.map f ?_
  rw [List.perm_ext_iff_of_nodup ((List.nodup_finRange N).filter _) (hone.filter _)]
  intro i
  rw [List.mem_filter, List.mem_filter]
  constructor
  · rintro ⟨-, h⟩
    obtain ⟨g, h1, h2⟩ := hcov i h
    exact ⟨List.mem_filterMap.mpr ⟨g, h1, h2⟩, h⟩
  · exact fun h => ⟨List.mem_finRange i, h.2⟩

/-! ### A group as a part -/

theorem toList_le {A : Type} (o : Option A) : o.toList.length ≤ 1 := by cases o <;> simp

theorem has_toList {N : Nat} (o : Option (Fin N)) (i : Fin N) : Has o.toList.get i ↔ o = some i := by
  unfold Has
  rw [← List.mem_iff_get]
  simp [eq_comm]

theorem get_toList {A : Type} (o : Option A) (i : Fin o.toList.length) : o = some (o.toList.get i) := by
  have := List.get_mem o.toList i
  rwa [Option.mem_toList] at this

theorem firstOr_toList {A B : Type} (z : B) (o : Option A) (f : A → B) : firstOr z (fun i => f (o.toList.get i)) = (o.map f).getD z := by
  cases o <;> rfl

theorem ofFn_toList {A B : Type} (o : Option A) (f : A → B) : (List.ofFn fun i => f (o.toList.get i)) = o.toList.map f := by
  cases o <;> simp

/-- The objects of a group, as an event of their own. -/
def groupPart (inp : PFInputs NT NC NE NM) (g : Group NT NC NE NM) : PFInputs g.track.toList.length g.had.toList.length g.em.toList.length g.mu.toList.length where
  track := fun i => inp.track (g.track.toList.get i)
  hadcalo := fun i => inp.hadcalo (g.had.toList.get i)
  emcalo := fun i => inp.emcalo (g.em.toList.get i)
  mu := fun i => inp.mu (g.mu.toList.get i)

theorem group_single (inp : PFInputs NT NC NE NM) (g : Group NT NC NE NM) : partSingle (groupPart inp g) = groupSingle inp g := by
  unfold partSingle groupSingle groupPart
  simp only [firstOr_toList]

theorem group_part {v : Variant} {inp : PFInputs NT NC NE NM} {g : Group NT NC NE NM} (h : Alone v inp g) :
    Part v inp (groupPart inp g) g.track.toList.get g.had.toList.get g.em.toList.get g.mu.toList.get where
  track _ := rfl
  had _ := rfl
  em _ := rfl
  mu _ := rfl
  injT := inj_one (toList_le _) _
  injH := inj_one (toList_le _) _
  injE := inj_one (toList_le _) _
  injM := inj_one (toList_le _) _
  muTk m t d := (h.muTk _ t (get_toList _ m) d).imp_left (has_toList _ _).mpr
  tkMu m t d := (h.tkMu m _ (get_toList _ t) d).imp_left (has_toList _ _).mpr
  tkEm t e d := (has_toList _ _).mpr (h.tkEm _ e (get_toList _ t) d)
  emTk t e d := (h.emTk t _ (get_toList _ e) d).imp_left (has_toList _ _).mpr
  emHad e k d := (h.emHad _ k (get_toList _ e) d).imp_left (has_toList _ _).mpr
  hadEm e k d := (h.hadEm e _ (get_toList _ k) d).imp_left (has_toList _ _).mpr
  tkHad t k d := (h.tkHad _ k (get_toList _ t) d).imp_left (has_toList _ _).mpr
  hadTk t k d := (h.hadTk t _ (get_toList _ k) d).imp_left (has_toList _ _).mpr

theorem group_good {inp : PFInputs NT NC NE NM} (hp : Physical inp) (g : Group NT NC NE NM) : (groupSingle inp g).Good := by
  obtain ⟨t, h, e, m⟩ := g
  constructor
  · cases t with
    | none => exact (by decide : 0 ≤ TkObj.clear.hwPt.toInt)
    | some t => exact hp.trackPt t
  · cases t with
    | none => exact (by decide : 0 ≤ TkObj.clear.hwPtErr.toInt ∧ TkObj.clear.hwPtErr.toInt ≤ 16384)
    | some t => exact ⟨hp.trackErr t, hp.trackErrMax t⟩
  · cases e with
    | none => exact (by decide : 0 ≤ EmCaloObj.clear.hwPt.toInt)
    | some e => exact hp.emPt e
  · cases e with
    | none => exact (by decide : EmCaloObj.clear.hwPtErr.toInt ^ 2 ≤ 536870911)
    | some e => exact hp.emErrMax e
  · cases h with
    | none => exact (by decide : 0 ≤ HadCaloObj.clear.hwPt.toInt)
    | some h => exact hp.hadPt h
  · cases h with
    | none => exact (by decide : 0 ≤ HadCaloObj.clear.hwEmPt.toInt)
    | some h => exact hp.hadEmPt h

/-! ### Empty slots -/

theorem photon_slot {inp : PFInputs NT NC NE NM} (hv : ∀ t, 0 ≤ (inp.track t).hwPt.toInt) {c : Fin NE} (h : photonPt inp c ≠ 0) : (inp.emcalo c).hwPt.toInt ≠ 0 := by
  intro z
  have := emTrackPt_nonneg inp hv c
  unfold photonPt emDiff at h
  rw [z] at h
  split at h
  · exact h rfl
  · rw [if_neg (by omega)] at h
    exact h rfl

theorem neutral_slot {v : Variant} {inp : PFInputs NT NC NE NM} (hv : Valid inp v) {h : Fin NC} (hn : neutralPt inp v h ≠ 0) : (inp.hadcalo h).hwPt.toInt ≠ 0 := by
  intro z
  have hz : hadPt inp v h = 0 := by
    refine if_pos (.inl ?_)
    have := emSub_nonneg hv.emPt h
    omega
  have : 0 ≤ caloTrackPt inp v h := Finset.sum_nonneg fun t _ => by have := hv.trackPt t; split <;> omega
  unfold neutralPt caloDiff at hn
  rw [hz] at hn
  split at hn
  · exact hn rfl
  · rw [if_neg (by omega)] at hn
    exact hn rfl

theorem muon_slot {inp : PFInputs NT NC NE NM} {m : Fin NM} {o : PFChargedObj} (h : MuOut inp m o) (ho : o.hwPt ≠ 0) : 0 < (inp.mu m).hwPt.toInt := by
  by_contra hn
  rw [h.2 fun ⟨t, ht⟩ => hn ht.1] at ho
  exact ho rfl

/-! ### C110 -/

theorem sum_of_groups {v : Variant} {inp : PFInputs NT NC NE NM} {gs : List (Group NT NC NE NM)} (hg : Grouped inp gs) (hv : Valid inp v)
    {out : PFOutputs NT NE NS NM} (m : Makes inp v out)
    (H : ∀ g ∈ gs, IsolatedOne (groupPart inp g) g.track.toList.get g.em.toList.get g.mu.toList.get NC out ∧
      (List.ofFn fun i => neutralSeen inp v (g.had.toList.get i)).filter (fun x => decide (x.1 ≠ 0)) = (partSingle (groupPart inp g)).neutrals) :
    SumOfGroups inp gs out := by
  constructor
  · refine perm_groups _ _ gs Group.track _ (fun g h => ?_) (fun t h => hg.track t fun z => ?_) hg.oneTrack
    · have := (H g h).1.charged
      rw [group_single, ofFn_toList _ out.outch] at this
      exact this.symm
    · have h0 : (out.outch t).hwPt ≠ 0 := of_decide_eq_true h
      have e := m.charged t h0
      rw [e] at h0
      rw [(chargedOut_pt h0).1] at h0
      exact h0 (pt_zero' z)
  · refine perm_groups _ _ gs Group.em _ (fun g h => ?_) (fun c h => hg.em c (photon_slot hv.trackPt fun z => ?_)) hg.oneEm
    · have := (H g h).1.photons
      rw [group_single, ofFn_toList _ fun c => seen (out.outpho c)] at this
      exact this.symm
    · refine (of_decide_eq_true h : (seen (out.outpho c)).1 ≠ 0) ?_
      rw [seen_fst]
      exact (m.photon c).1.trans z
  · refine perm_groups _ _ gs Group.mu _ (fun g h => ?_) (fun k h => hg.mu k (muon_slot (m.muon k) (of_decide_eq_true h))) hg.oneMu
    have := (H g h).1.muons
    rw [group_single, ofFn_toList _ out.outmu] at this
    exact this.symm
  · intro hroom
    have hL := neutrals_room m hroom
    rw [m.neutral, fit_filter hL (neutralsByPt_ne _)]
    refine (neutralsByPt_perm _).trans ?_
    refine perm_groups _ _ gs Group.had _ (fun g h => ?_) (fun k h => hg.had k (neutral_slot hv fun z => ?_)) hg.oneHad
    · have := (H g h).2
      rw [group_single, ofFn_toList _ (neutralSeen inp v)] at this
      exact this.symm
    · refine (of_decide_eq_true h : (neutralSeen inp v k).1 ≠ 0) ?_
      unfold neutralSeen
      rw [if_pos z]

/-- **C110.** If an event falls apart into groups with at most one object of each kind, then what the firmware makes of the event is what the
formula gives for each group, taken together. -/
theorem C110_groups {inp : PFInputs NT NC NE NM} {gs : List (Group NT NC NE NM)} (hp : Physical inp) (hg : Grouped inp gs)
    (ha : ∀ g ∈ gs, Alone fwVariant inp g) (hempty : ∀ t, (inp.track t).hwPt.toInt = 0 → (inp.track t).hwPtErr.toInt = 0)
    (old : PFOutputs NT NE NS NM) (mem : PFScratch NC NS) : ∃ out, pfalgo3_full inp old mem = .ok out ∧ SumOfGroups inp gs out := by
  have hv := physical_valid inp hp fwVariant
  obtain ⟨out, e, m⟩ := fw_makes inp hv old mem
  exact ⟨out, e, sum_of_groups hg hv m fun g h => isolated_fw (group_part (ha g h)) (toList_le _) (toList_le _) (toList_le _) (toList_le _) hv
    (by rw [group_single]; exact group_good hp g) (fun _ => hempty _) m⟩

/-- **C110** for the reference: the same, so that firmware and reference find the same particles. -/
theorem C110_groups_ref {inp : PFInputs NT NC NE NM} {gs : List (Group NT NC NE NM)} (hp : Physical inp) (hg : Grouped inp gs)
    (ha : ∀ g ∈ gs, Alone refVariant inp g) (hempty : ∀ t, (inp.track t).hwPt.toInt = 0 → (inp.track t).hwPtErr.toInt = 0)
    (old : PFOutputs NT NE NS NM) (mem : Arr NC PFNeutralObj) : ∃ out, pfalgo3_full_ref inp old mem = .ok out ∧ SumOfGroups inp gs out := by
  have hv := physical_valid inp hp refVariant
  obtain ⟨out, e, m⟩ := ref_makes_empty inp hv hempty old mem
  exact ⟨out, e, sum_of_groups hg hv m fun g h => isolated_ref (group_part (ha g h)) (toList_le _) (toList_le _) (toList_le _) (toList_le _) hv
    (by rw [group_single]; exact group_good hp g) (fun _ => hempty _) m⟩

/-- **C110.** Firmware and reference find the same particles in such an event. -/
theorem C110_agree {inp : PFInputs NT NC NE NM} {gs : List (Group NT NC NE NM)} (hp : Physical inp) (hg : Grouped inp gs)
    (ha : ∀ g ∈ gs, Alone refVariant inp g) (hempty : ∀ t, (inp.track t).hwPt.toInt = 0 → (inp.track t).hwPtErr.toInt = 0) (hN : NC ≤ NS)
    (old : PFOutputs NT NE NS NM) (mem : PFScratch NC NS) (old' : PFOutputs NT NE NS NM) (mem' : Arr NC PFNeutralObj) :
    ∃ out out', pfalgo3_full inp old mem = .ok out ∧ pfalgo3_full_ref inp old' mem' = .ok out' ∧
      ((List.ofFn out.outch).filter fun x => decide (x.hwPt ≠ 0)).Perm ((List.ofFn out'.outch).filter fun x => decide (x.hwPt ≠ 0)) ∧
      ((List.ofFn fun c => seen (out.outpho c)).filter fun x => decide (x.1 ≠ 0)).Perm ((List.ofFn fun c => seen (out'.outpho c)).filter fun x => decide (x.1 ≠ 0)) ∧
      ((List.ofFn out.outmu).filter fun x => decide (x.hwPt ≠ 0)).Perm ((List.ofFn out'.outmu).filter fun x => decide (x.hwPt ≠ 0)) ∧
      ((List.ofFn fun i => seen (out.outne i)).filter fun x => decide (x.1 ≠ 0)).Perm ((List.ofFn fun i => seen (out'.outne i)).filter fun x => decide (x.1 ≠ 0)) := by
  have ha' : ∀ g ∈ gs, Alone fwVariant inp g := fun g h => { ha g h with hadEm := fun e k a d => ((ha g h).hadEm e k a d).imp_right fun x => ⟨rfl, x.2⟩ }
  obtain ⟨out, h1, s⟩ := C110_groups hp hg ha' hempty old mem
  obtain ⟨out', h2, s'⟩ := C110_groups_ref hp hg ha hempty old' mem'
  exact ⟨out, out', h1, h2, s.charged.trans s'.charged.symm, s.photons.trans s'.photons.symm, s.muons.trans s'.muons.symm,
    (s.neutrals (.inr hN)).trans (s'.neutrals (.inr hN)).symm⟩

/-! ### A case -/

/-- The five particles of `busy`. -/
def busyGroups : List (Group 4 3 3 2) :=
  [⟨some 0, some 0, none, none⟩, ⟨some 1, some 1, some 0, none⟩, ⟨some 2, none, none, some 0⟩, ⟨none, none, some 1, none⟩, ⟨some 3, none, none, none⟩]

theorem busy_grouped : Grouped busy busyGroups := by constructor <;> decide
theorem busy_alone : ∀ g ∈ busyGroups, Alone refVariant busy g := by
  intro g hg
  simp only [busyGroups, List.mem_cons, List.not_mem_nil, or_false] at hg
  rcases hg with rfl | rfl | rfl | rfl | rfl <;> constructor <;> decide

/-- A charged hadron, an electron and a muon; a photon; the excess of the hadron's cluster.  The loose track of 10 GeV that ends nowhere is dropped. -/
example (old : PFOutputs 4 3 3 2) (mem : Arr 3 PFNeutralObj) : ∃ out, pfalgo3_full_ref busy old mem = .ok out ∧
    ((List.ofFn out.outch).filter fun x => decide (x.hwPt ≠ 0)).Perm [⟨120, 0, 0, 0, 1⟩, ⟨100, 100, 0, 3, 2⟩, ⟨60, -100, 0, 4, 3⟩] ∧
    ((List.ofFn fun c => seen (out.outpho c)).filter fun x => decide (x.1 ≠ 0)).Perm [(80, 0, -100, 2)] ∧
    ((List.ofFn fun i => seen (out.outne i)).filter fun x => decide (x.1 ≠ 0)).Perm [(80, 5, 5, 1)] := by
  obtain ⟨out, e, h⟩ := C110_groups_ref (NS := 3) busy_hadron.2.1 busy_grouped busy_alone (by decide) old mem
  refine ⟨out, e, ?_, ?_, ?_⟩
  · rw [← show (busyGroups.flatMap fun g => (groupSingle busy g).charged) = [⟨120, 0, 0, 0, 1⟩, ⟨100, 100, 0, 3, 2⟩, ⟨60, -100, 0, 4, 3⟩] by decide +kernel]
    exact h.charged
  · rw [← show (busyGroups.flatMap fun g => (groupSingle busy g).photons) = [(80, 0, -100, 2)] by decide +kernel]
    exact h.photons
  · rw [← show (busyGroups.flatMap fun g => (groupSingle busy g).neutrals) = [(80, 5, 5, 1)] by decide +kernel]
    exact h.neutrals (.inr (by decide))

end Verif
