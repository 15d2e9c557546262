import Verif.Spec.GroupsList
import Verif.Props.GroupsCones
import Verif.Props.Particles
import Mathlib.Data.List.Forall2
/-! # The particles of a region of well separated particles: C114 -/
namespace Verif
open Spec
variable {NT NC NE NM NS : Nat} {r : InputRegion} {gs : List (Group NT NC NE NM)}

/-- A charged candidate with its track, as a particle. -/
def pairView (x : PFChargedObj × Option PropagatedTrack) : ParticleView :=
  (if x.1.hwId = 3 then 1 else if x.1.hwId = 4 then 4 else 0, x.1.hwPt.toInt, x.1.hwEta.toInt, x.1.hwPhi.toInt, x.2)

def seenView (x : Seen) : ParticleView := (if x.2.2.2 = 2 then 3 else 2, x.1, x.2.1.toInt, x.2.2.1.toInt, none)

theorem single_views {s : Single} (hg : s.Good) (t : Option PropagatedTrack) :
    s.particles t = (s.charged.map fun o => pairView (o, t)) ++ (s.photons.filter fun x => decide (0 < x.1)).map seenView ++
      (s.neutrals.filter fun x => decide (0 < x.1)).map seenView := by
  unfold Single.particles
  refine congrArg₂ (· ++ ·) (congrArg₂ (· ++ ·) ?_ ?_) ?_
  · unfold Single.charged
    by_cases hk : s.kept
    · rw [if_pos hk, if_pos hk]
      unfold pairView
      simp only [List.map_cons, List.map_nil]
      congr 2
      by_cases he : s.electron
      · rw [if_pos he, if_pos he]; rfl
      · by_cases hmu : s.mu
        · rw [if_neg he, if_neg he, if_pos hmu, if_pos hmu]; rfl
        · rw [if_neg he, if_neg he, if_neg hmu, if_neg hmu]; rfl
    · rw [if_neg hk, if_neg hk]; rfl
  · have h1 := one_photon_nonneg hg
    unfold Single.photons
    by_cases h : s.photon = 0
    · simp [h]
    · have h2 : 0 < s.photon := by omega
      simp [h, h2, seenView]
  · have h1 := one_neutral_nonneg hg
    unfold Single.neutrals
    by_cases h : s.neutral = 0
    · simp [h]
    · have h2 : 0 < s.neutral := by omega
      simp [h, h2, seenView]

theorem filter_pos_ne (l : List Seen) : l.filter (fun x => decide (0 < x.1)) = (l.filter fun x => decide (x.1 ≠ 0)).filter fun x => decide (0 < x.1) := by
  rw [List.filter_filter]
  apply List.filter_congr
  intro x _
  by_cases h : 0 < x.1
  · simp [h]; omega
  · simp [h]

theorem flatMap_seen {G : Type} (gs : List G) (L : G → List Seen) :
    ((gs.flatMap L).filter fun x => decide (0 < x.1)).map seenView = gs.flatMap fun g => ((L g).filter fun x => decide (0 < x.1)).map seenView := by
  induction gs with
  | nil => rfl
  | cons g gs ih => rw [List.flatMap_cons, List.flatMap_cons, List.filter_append, List.map_append, ih]

/-- The track behind a slot with pt. -/
theorem track_slot {i : Fin NT} (h : 0 < ((regionInputs NT NC NE NM r).track i).hwPt.toInt) : ∃ t, r.track[i.val]? = some t ∧ 0 < t.hwPt.toInt := by
  unfold regionInputs padded at h
  simp only at h
  match e : r.track[i.val]? with
  | none => rw [e] at h; exact absurd h (by decide)
  | some t =>
    rw [e] at h
    unfold fw_track at h
    simp only [reg16_toInt (pt_range _).1 (pt_range _).2] at h
    exact ⟨t, rfl, h⟩

theorem convert_groups {v : Variant} (hp : Physical (regionInputs NT NC NE NM r)) (hg : Grouped (regionInputs NT NC NE NM r) gs)
    {out : PFOutputs NT NE NS NM} (m : Makes (regionInputs NT NC NE NM r) v out) (S : SumOfGroups (regionInputs NT NC NE NM r) gs out) (hN : NC ≤ NS)
    (hc : ∀ g ∈ gs, (g.track.toList.map out.outch).filter (fun x => decide (x.hwPt ≠ 0)) = (groupSingle (regionInputs NT NC NE NM r) g).charged) :
    ConvertTo r out fun l => (l.map particleView).Perm
      (gs.flatMap fun g => (groupSingle (regionInputs NT NC NE NM r) g).particles (groupTrack r g)) := by
  intro junkT junkE junkS
  have hpt : ∀ i, (out.outch i).hwPt ≠ 0 → (out.outch i).hwPt = ((regionInputs NT NC NE NM r).track i).hwPt := fun i h => by
    have e := m.charged i h
    rw [e] at h ⊢
    exact (chargedOut_pt h).1
  have hpos : ∀ i, (out.outch i).hwPt ≠ 0 → 0 < (out.outch i).hwPt.toInt := fun i h => by
    refine lt_of_le_of_ne ?_ fun z => h (pt_zero' z.symm)
    rw [hpt i h]
    exact hp.trackPt i
  have hne : ∀ i, (out.outch i).hwPt.toInt > 0 → (out.outch i).hwPt ≠ 0 := fun i h e => by rw [e] at h; exact absurd h (by decide)
  have hsl : ∀ i, (out.outch i).hwPt.toInt > 0 → ∃ t, r.track[i.val]? = some t ∧ 0 < t.hwPt.toInt := fun i h => by
    refine track_slot (NC := NC) (NE := NE) (NM := NM) ?_
    rwa [← hpt i (hne i h)]
  have hlen : ∀ i, (out.outch i).hwPt.toInt > 0 → i.val < r.track.length := fun i h => by
    obtain ⟨t, e, -⟩ := hsl i h
    exact (List.getElem?_eq_some_iff.mp e).1
  have hcv := (C46_chargeds junkT out.outch r.track []).1 hlen
  rw [hcv, Run.ok_bind]
  refine ⟨_, rfl, ?_⟩
  show (List.map particleView (dpf_neutrals _ _ _)).Perm _
  rw [views_neutrals, views_neutrals]
  -- the charged particles, as pairs
  have hch : (List.map particleView ([] ++ ((List.finRange NT).filter fun i => decide ((out.outch i).hwPt.toInt > 0)).map fun i =>
      dpf_charged (junkT i) (out.outch i) (r.track.getD i.val Dump.zero))) =
      ((List.ofFn fun i => (out.outch i, r.track[i.val]?)).filter fun x => decide (x.1.hwPt ≠ 0)).map pairView := by
    rw [List.nil_append, List.map_map, List.ofFn_eq_map, List.filter_map, List.map_map]
    have : (fun i => decide ((out.outch i).hwPt.toInt > 0)) =
        ((fun x : PFChargedObj × Option PropagatedTrack => decide (x.1.hwPt ≠ 0)) ∘ fun i : Fin NT => (out.outch i, r.track[i.val]?)) := by
      funext i
      exact decide_eq_decide.mpr ⟨hne i, hpos i⟩
    rw [this]
    apply List.map_congr_left
    intro i hi
    have h1 : (out.outch i).hwPt ≠ 0 := by simpa using (List.mem_filter.mp hi).2
    obtain ⟨t, e, ht⟩ := hsl i (hpos i h1)
    simp only [Function.comp, List.getD_eq_getElem?_getD, e, Option.getD_some]
    exact view_charged _ _ _ ht
  rw [hch]
  have P1 := perm_groups (fun i : Fin NT => (out.outch i, r.track[i.val]?)) (fun x => decide (x.1.hwPt ≠ 0)) gs Group.track
    (fun g => (groupSingle (regionInputs NT NC NE NM r) g).charged.map fun o => (o, groupTrack r g)) (fun g h => by
      rw [← hc g h]
      unfold groupTrack
      cases g.track with
      | none => rfl
      | some t =>
        simp only [Option.toList_some, List.map_cons, List.map_nil, Option.bind_some, List.filter_cons, List.filter_nil]
        split <;> rfl)
    (fun i h => hg.track i fun z => by
      have h1 : (out.outch i).hwPt ≠ 0 := by simpa using h
      have := hpos i h1
      rw [hpt i h1] at this
      omega) hg.oneTrack
  have P2 := (S.photons.filter fun x => decide (0 < x.1)).map seenView
  have P3 := ((S.neutrals (.inr hN)).filter fun x => decide (0 < x.1)).map seenView
  rw [flatMap_seen, ← filter_pos_ne] at P2 P3
  refine (((P1.map pairView).append P2).append P3).trans ?_
  have e : (gs.flatMap fun g => (groupSingle (regionInputs NT NC NE NM r) g).particles (groupTrack r g)) =
      gs.flatMap fun g => (((groupSingle (regionInputs NT NC NE NM r) g).charged.map fun o => pairView (o, groupTrack r g)) ++
        ((groupSingle (regionInputs NT NC NE NM r) g).photons.filter fun x => decide (0 < x.1)).map seenView) ++
        ((groupSingle (regionInputs NT NC NE NM r) g).neutrals.filter fun x => decide (0 < x.1)).map seenView :=
    List.flatMap_congr fun g _ => single_views (group_good hp g) _
  rw [e]
  refine List.Perm.trans ?_ (List.flatMap_append_perm _ _ _)
  refine List.Perm.append_right _ (List.Perm.trans ?_ (List.flatMap_append_perm _ _ _))
  refine List.Perm.append_right _ (.of_eq ?_)
  rw [List.map_flatMap]
  refine List.flatMap_congr fun g _ => ?_
  rw [List.map_map]
  rfl

/-- **C114.** The particles of a region that falls apart into groups with at most one object of each kind: those of the formula for each group, in
firmware and in the reference, each with the track of its group. -/
theorem C114_list (H : RegionGroups NT NC NE NM r gs) (hN : NC ≤ NS) :
    RegionGives NT NC NE NM NS r fun l => (l.map particleView).Perm
      (gs.flatMap fun g => (groupSingle (regionInputs NT NC NE NM r) g).particles (groupTrack r g)) := by
  have hp := H.physical
  have ha' : ∀ g ∈ gs, Alone fwVariant (regionInputs NT NC NE NM r) g := fun g h =>
    { H.alone g h with hadEm := fun e k a d => ((H.alone g h).hadEm e k a d).imp_right fun x => ⟨rfl, x.2⟩ }
  refine ⟨fun old mem => ?_, fun old mem => ?_⟩
  · have hv := physical_valid _ hp fwVariant
    obtain ⟨out, e, m⟩ := fw_makes (NS := NS) _ hv old mem
    have I := fun g h => isolated_fw (group_part (ha' g h)) (toList_le _) (toList_le _) (toList_le _) (toList_le _) hv
      (by rw [group_single]; exact group_good hp g) (fun _ => H.empty _) m
    refine ⟨out, e, convert_groups hp H.grouped m (sum_of_groups H.grouped hv m I) hN fun g h => ?_⟩
    have := (I g h).1.charged
    rwa [group_single, ofFn_toList _ out.outch] at this
  · have hv := physical_valid _ hp refVariant
    obtain ⟨out, e, m⟩ := ref_makes_empty (NS := NS) _ hv H.empty old mem
    have I := fun g h => isolated_ref (group_part (H.alone g h)) (toList_le _) (toList_le _) (toList_le _) (toList_le _) hv
      (by rw [group_single]; exact group_good hp g) (fun _ => H.empty _) m
    refine ⟨out, e, convert_groups hp H.grouped m (sum_of_groups H.grouped hv m I) hN fun g h => ?_⟩
    have := (I g h).1.charged
    rwa [group_single, ofFn_toList _ out.outch] at this

/-! ### Groups as regions -/

theorem getD_padded {A B : Type} {N : Nat} (conv : A → B) (z : B) (l : List A) (o : Option (Fin N)) :
    (o.map (padded N conv z l)).getD z = (((o.bind fun i => l[i.val]?).toList).head?.map conv).getD z := by
  cases o with
  | none => rfl
  | some i =>
    simp only [Option.map_some, Option.getD_some, Option.bind_some]
    unfold padded
    cases l[i.val]? <;> rfl

theorem group_region (r : InputRegion) (g : Group NT NC NE NM) : groupSingle (regionInputs NT NC NE NM r) g = regionSingle (groupRegion r g) := by
  unfold groupSingle regionSingle groupRegion regionInputs groupTrack
  simp only [getD_padded]

theorem split_map {A B : Type} (f : A → B) : ∀ {l : List A} {ms : List (List A)}, l.map f = (ms.map fun m => m.map f).flatten →
    ∃ ls : List (List A), l = ls.flatten ∧ List.Forall₂ (fun m m' => m.map f = m'.map f) ms ls
  | l, [], h => ⟨[], by simpa using h, .nil⟩
  | l, m :: ms, h => by
    rw [List.map_cons, List.flatten_cons] at h
    obtain ⟨a, b, rfl, h1, h2⟩ := List.map_eq_append_iff.mp h
    obtain ⟨ls, e, k⟩ := split_map f h2
    exact ⟨a :: ls, by rw [e, List.flatten_cons], .cons h1.symm k⟩

theorem perm_map {A B : Type} (f : A → B) {l : List A} {v : List B} (h : (l.map f).Perm v) : ∃ l', l.Perm l' ∧ l'.map f = v := by
  have h2 : List.Forall₂ (fun b a => f a = b) (l.map f) l := by
    induction l with
    | nil => exact .nil
    | cons a l ih => exact .cons rfl (by
        clear h ih
        induction l with
        | nil => exact .nil
        | cons a l ih => exact .cons rfl ih)
  obtain ⟨z, k1, k2⟩ := List.perm_comp_forall₂ h.symm h2
  refine ⟨z, k2.symm, ?_⟩
  clear h h2 k2
  induction k1 with
  | nil => rfl
  | cons h _ ih => rw [List.map_cons, h, ih]

/-- **C114.** What holds for each group of objects, run as a region of its own, holds for its share of the particles of the region. -/
theorem C114_regions (H : RegionGroups NT NC NE NM r gs) (hN : NC ≤ NS) (h1 : ∀ g ∈ gs, RegionOne (groupRegion r g)) {P : Group NT NC NE NM → List PFParticle → Prop}
    (hv : ∀ g l l', l.map particleView = l'.map particleView → P g l → P g l') (hP : ∀ g ∈ gs, RegionGives 1 1 1 1 1 (groupRegion r g) (P g)) :
    RegionGives NT NC NE NM NS r fun l => ∃ ls, l.Perm ls.flatten ∧ List.Forall₂ P gs ls := by
  have key : ∀ g, ∃ l, g ∈ gs → P g l ∧ l.map particleView = (groupSingle (regionInputs NT NC NE NM r) g).particles (groupTrack r g) := by
    intro g
    by_cases hg : g ∈ gs
    · have hgood : (regionSingle (groupRegion r g)).Good := by rw [← group_region]; exact group_good H.physical g
      have z : PFOutputs 1 1 1 1 := ⟨fun _ => ⟨0, 0, 0, 0, 0⟩, fun _ => ⟨0, 0, 0, 0, 0⟩, fun _ => ⟨0, 0, 0, 0, 0⟩, fun _ => ⟨0, 0, 0, 0, 0⟩⟩
      have y : PFScratch 1 1 := ⟨fun _ => ⟨0, 0, 0, 0, 0⟩, fun _ => ⟨0, 0, 0, 0, 0⟩⟩
      obtain ⟨out, e, c⟩ := (hP g hg).1 z y
      obtain ⟨out', e', c'⟩ := (C108_list (h1 g hg) Nat.one_pos Nat.one_pos Nat.one_pos Nat.one_pos Nat.one_pos hgood).1 z y
      obtain rfl := Except.ok.inj (e.symm.trans e')
      have j : Fin 1 → PFParticle := fun _ => ⟨0, 0, 0, 0, 0, 0, 0, Dump.zero, Dump.zero, false, 0, 0⟩
      obtain ⟨l, a, b⟩ := c j j j
      obtain ⟨l', a', b'⟩ := c' j j j
      obtain rfl := Except.ok.inj (a.symm.trans a')
      refine ⟨l, fun _ => ⟨b, b'.trans ?_⟩⟩
      rw [group_region]
      congr 1
      unfold groupRegion
      simp
    · exact ⟨[], fun h => absurd h hg⟩
  choose L hL using key
  refine regionGives_mono (C114_list (NS := NS) H hN) fun l hl => ?_
  have e : (gs.flatMap fun g => (groupSingle (regionInputs NT NC NE NM r) g).particles (groupTrack r g)) = ((gs.map L).map fun m => m.map particleView).flatten := by
    rw [List.map_map, ← List.flatMap_def]
    exact List.flatMap_congr fun g h => (hL g h).2.symm
  rw [e] at hl
  obtain ⟨l', p1, p2⟩ := perm_map _ hl
  obtain ⟨ls, rfl, f⟩ := split_map _ p2
  refine ⟨ls, p1, ?_⟩
  rw [List.forall₂_map_left_iff] at f
  rw [List.forall₂_iff_get] at f ⊢
  exact ⟨f.1, fun i a b => hv _ _ _ (f.2 i a b) (hL _ (List.get_mem _ _)).1⟩

/-! ### A case -/

/-- A charged hadron with an excess in its cluster, an electron, a muon, a photon and an unmatched track, well apart. -/
def wideRegion : InputRegion where
  etaCenter := 0
  etaMin := 0
  etaMax := 0
  phiCenter := 0
  phiHalfWidth := 0
  etaExtra := 0
  phiExtra := 0
  track := [⟨Dump.zero, 120, 0, 10, 0, 0, false, false, false⟩, ⟨Dump.zero, 100, 0, 8, 100, 0, false, false, false⟩,
    ⟨Dump.zero, 60, 0, 5, -100, 0, false, false, false⟩, ⟨Dump.zero, 40, 0, 5, 0, 100, false, false, false⟩]
  calo := [⟨200, 30, 0, 5, 5, 0, false, false⟩, ⟨120, 110, 0, 102, 1, 0, true, false⟩]
  emcalo := [⟨110, 0, 12, 101, 1, 0, false, false⟩, ⟨80, 0, 8, 0, -100, 0, false, false⟩]
  muon := [⟨70, -95, 3, 0, false⟩]

def wideGroups : List (Group 4 3 2 2) :=
  [⟨some 0, some 0, none, none⟩, ⟨some 1, some 1, some 0, none⟩, ⟨some 2, none, none, some 0⟩, ⟨none, none, some 1, none⟩, ⟨some 3, none, none, none⟩]

theorem wide_groups : RegionGroups 4 3 2 2 wideRegion wideGroups := by
  refine ⟨by constructor <;> decide +kernel, by decide +kernel, by constructor <;> decide +kernel, fun g hg => ?_⟩
  simp only [wideGroups, List.mem_cons, List.not_mem_nil, or_false] at hg
  rcases hg with rfl | rfl | rfl | rfl | rfl <;> constructor <;> decide +kernel

theorem wide_one : ∀ g ∈ wideGroups, RegionOne (groupRegion wideRegion g) := by
  intro g hg
  simp only [wideGroups, List.mem_cons, List.not_mem_nil, or_false] at hg
  rcases hg with rfl | rfl | rfl | rfl | rfl <;> constructor <;> decide +kernel

/-- What comes out of it. -/
example : RegionGives 4 3 2 2 3 wideRegion fun l => (l.map fun x => (x.hwId.toNat, x.hwPt.toInt)).Perm [(0, 120), (2, 80), (1, 100), (4, 60), (3, 80)] := by
  refine regionGives_mono (C114_list (NS := 3) wide_groups (by decide)) fun l hl => ?_
  have := hl.map fun v => (v.1, v.2.1)
  rw [List.map_map] at this
  exact this.trans (by decide +kernel)

end Verif
