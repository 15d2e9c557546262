import Verif.Spec.Particles
import Verif.Props.Single
import Verif.Props.Dump
/-! # C108: the particles of a region with at most one object of each kind -/
namespace Verif
open Spec
variable {NT NC NE NM NS : Nat}

theorem padded_one {A B : Type} {N : Nat} (conv : A → B) (z : B) {l : List A} (hl : l.length ≤ 1) (i : Fin N) :
    padded N conv z l i = if i.val = 0 then (l.head?.map conv).getD z else z := by
  unfold padded
  match l, hl with
  | [], _ => simp
  | [a], _ =>
    by_cases h : i.val = 0
    · simp [h]
    · simp [h]

theorem region_oneEach {r : InputRegion} (H : RegionOne r) (hT : 0 < NT) (hC : 0 < NC) (hE : 0 < NE) (hM : 0 < NM) :
    OneEach (regionInputs NT NC NE NM r) (regionSingle r) ⟨0, hT⟩ ⟨0, hE⟩ ⟨0, hC⟩ ⟨0, hM⟩ where
  T := by simp [regionInputs, padded_one _ _ H.track, regionSingle]
  C := by simp [regionInputs, padded_one _ _ H.em, regionSingle]
  H := by simp [regionInputs, padded_one _ _ H.calo, regionSingle]
  M := by simp [regionInputs, padded_one _ _ H.mu, regionSingle]
  track := fun t ht => by
    have : t.val ≠ 0 := fun h => ht (Fin.ext h)
    simp only [regionInputs, padded_one _ _ H.track, if_neg this]
    decide
  em := fun t ht => by
    have : t.val ≠ 0 := fun h => ht (Fin.ext h)
    simp only [regionInputs, padded_one _ _ H.em, if_neg this]
    decide
  had := fun t ht => by
    have : t.val ≠ 0 := fun h => ht (Fin.ext h)
    simp only [regionInputs, padded_one _ _ H.calo, if_neg this]
    decide
  mu := fun t ht => by
    have : t.val ≠ 0 := fun h => ht (Fin.ext h)
    simp only [regionInputs, padded_one _ _ H.mu, if_neg this]
    decide
  far := fun hp c hc => by
    have ht : r.track ≠ [] := fun h => hp (by unfold Single.p regionSingle; rw [h]; rfl)
    have : c.val ≠ 0 := fun h => hc (Fin.ext h)
    simp only [regionInputs, padded_one _ _ H.em, if_neg this]
    have hlt : (⟨0, hE⟩ : Fin NE) < c := by show 0 < c.val; omega
    show 84 ≤ dist2 _ _ 0 0 ∨ dist2 _ _ _ _ < dist2 _ _ 0 0 ∨ (dist2 _ _ _ _ = dist2 _ _ 0 0 ∧ _)
    by_cases he : r.emcalo = []
    · right; right
      refine ⟨?_, hlt⟩
      rw [show (regionSingle r).C = EmCaloObj.clear by simp [regionSingle, he]]
      rfl
    · rcases H.far ht he with h | h
      · exact .inl h
      · rcases Int.lt_or_eq_of_le h with h | h
        · exact .inr (.inl h)
        · exact .inr (.inr ⟨h, hlt⟩)
  noTrack := fun h => by
    have ht := H.pt
    unfold Single.p Single.err regionSingle at *
    match e : r.track with
    | [] => simp; decide
    | t :: _ =>
      rw [e] at h ht
      have h1 := ht t (by simp)
      have h2 : (fw_track t).hwPt.toInt = 0 := by simpa using h
      unfold fw_track at h2
      simp only [reg16_toInt (pt_range _).1 (pt_range _).2] at h2
      omega

/-- The reference's outputs, slot by slot. -/
theorem ref_makes_one {inp : PFInputs NT NC NE NM} {s : Single} {t0 : Fin NT} {c0 : Fin NE} {h0 : Fin NC} {m0 : Fin NM}
    (H : OneEach inp s t0 c0 h0 m0) (hg : s.Good) (old : PFOutputs NT NE NS NM) (mem : Arr NC PFNeutralObj) :
    ∃ out, pfalgo3_full_ref inp old mem = .ok out ∧ Makes inp refVariant out := by
  have hv := one_valid H hg refVariant
  obtain ⟨out, n, h1, hch, hch0, hpho, hmu, hne, hsort⟩ := ref_meets_spec_all inp old mem hv
  rw [one_noGhosts H hv.trackPt] at hne
  refine ⟨out, h1, ⟨fun t h => ?_, fun t h => ?_, hpho, hmu, ?_⟩⟩
  · refine hch t (lt_of_le_of_ne (hv.trackPt t) fun e => h (hch0 t e.symm))
  · refine hch t (lt_of_le_of_ne (hv.trackPt t) fun e => h ?_)
    rw [(chargedOut_pt h).1]
    exact pt_zero' e.symm
  · rw [hsort, ← ptsort_eq]
    exact outne_fit hv _ hne

theorem one_slots {inp : PFInputs NT NC NE NM} {s : Single} {t0 : Fin NT} {c0 : Fin NE} {h0 : Fin NC} {m0 : Fin NM}
    (H : OneEach inp s t0 c0 h0 m0) {v : Variant} {out : PFOutputs NT NE NS NM} (hm : Makes inp v out) (t : Fin NT) (ht : t ≠ t0) : (out.outch t).hwPt = 0 := by
  by_contra hn
  have e := hm.charged t hn
  rw [e] at hn
  rw [(chargedOut_pt hn).1] at hn
  exact hn (pt_zero' (H.track t ht).1)

theorem view_neutral (junk : PFParticle) (o : PFNeutralObj) :
    particleView (dpf_neutral junk o) = (if o.hwId = 2 then 3 else 2, o.hwPt.toInt, o.hwEta.toInt, o.hwPhi.toInt, none) := by
  obtain ⟨-, h1, h2, h3, -, -, -, -, -, h4, -⟩ := C46_fields junk ⟨0, 0, 0, 0, 0⟩ o Dump.zero
  unfold particleView
  rw [h1, h2, h3, h4, show (dpf_neutral junk o).hwId = if o.hwId = PID_Photon then 3 else 2 from rfl]
  by_cases h : o.hwId = 2
  · rw [if_pos (show o.hwId = PID_Photon from h), if_pos h]; rfl
  · rw [if_neg (show ¬ o.hwId = PID_Photon from h), if_neg h]; rfl

theorem views_neutrals {N : Nat} (junk : Fin N → PFParticle) (a : Arr N PFNeutralObj) (out : List PFParticle) :
    (dpf_neutrals junk a out).map particleView = out.map particleView ++ ((List.ofFn fun i => seen (a i)).filter fun x => decide (0 < x.1)).map
      fun x => (if x.2.2.2 = 2 then 3 else 2, x.1, x.2.1.toInt, x.2.2.1.toInt, none) := by
  rw [C46_neutrals, List.map_append, List.map_map, List.ofFn_eq_map, List.filter_map, List.map_map]
  congr 1
  have : (fun i => decide ((a i).hwPt.toInt > 0)) = ((fun x : Seen => decide (0 < x.1)) ∘ fun i => seen (a i)) := by
    funext i
    simp [seen_fst]
  rw [this]
  apply List.map_congr_left
  intro i hi
  have hp : 0 < (a i).hwPt.toInt := by simpa [seen_fst] using (List.mem_filter.mp hi).2
  have hne : (a i).hwPt ≠ 0 := fun h => by rw [h] at hp; exact absurd hp (by decide)
  simp only [Function.comp, view_neutral]
  have e : seen (a i) = ((a i).hwPt.toInt, (a i).hwEta, (a i).hwPhi, (a i).hwId) := if_neg hne
  simp only [e]

theorem view_charged (junk : PFParticle) (c : PFChargedObj) (t : PropagatedTrack) (ht : 0 < t.hwPt.toInt) :
    particleView (dpf_charged junk c t) = (if c.hwId = 3 then 1 else if c.hwId = 4 then 4 else 0, c.hwPt.toInt, c.hwEta.toInt, c.hwPhi.toInt, some t) := by
  obtain ⟨⟨h1, h2, h3, h4, -⟩, -⟩ := C46_fields junk c ⟨0, 0, 0, 0, 0⟩ t
  unfold particleView
  rw [h1, h2, h3, h4, if_pos ht, show (dpf_charged junk c t).hwId = if c.hwId = PID_Electron then 1 else if c.hwId = PID_Muon then 4 else 0 from rfl]
  by_cases h : c.hwId = 3
  · rw [if_pos (show c.hwId = PID_Electron from h), if_pos h]; rfl
  · rw [if_neg (show ¬ c.hwId = PID_Electron from h), if_neg h]
    by_cases h' : c.hwId = 4
    · rw [if_pos (show c.hwId = PID_Muon from h'), if_pos h']; rfl
    · rw [if_neg (show ¬ c.hwId = PID_Muon from h'), if_neg h']; rfl


theorem one_photon_nonneg {s : Single} (hg : s.Good) : 0 ≤ s.photon := by
  have := hg.E
  unfold Single.photon
  split
  · exact this
  · split
    · rename_i h; omega
    · omega

theorem one_neutral_nonneg {s : Single} (hg : s.Good) : 0 ≤ s.neutral := by
  have hq := hg.q
  have hr : 0 ≤ s.rest := by
    unfold Single.rest
    split
    · omega
    · rename_i h
      unfold Single.noise at h
      by_contra hn
      exact h (.inl (by omega))
  unfold Single.neutral
  split
  · split
    · rename_i h; omega
    · omega
  · exact hr

theorem ofFn_filter_one {A : Type} {n : Nat} (f : Fin n → A) (P : A → Bool) (i0 : Fin n) (h : ∀ i, i ≠ i0 → P (f i) = false) :
    (List.finRange n).filter (fun i => P (f i)) = if P (f i0) then [i0] else [] := by
  have := filter_only (fun i : Fin n => i) (fun i => P (f i)) i0 h
  rw [show List.ofFn (fun i : Fin n => i) = List.finRange n from List.ofFn_id n] at this
  exact this

/-- The particles, from outputs as C103 describes them. -/
theorem convert_one {r : InputRegion} (H : RegionOne r) (hT : 0 < NT) (hC : 0 < NC) (hE : 0 < NE) (hM : 0 < NM) (hS : 0 < NS)
    (hg : (regionSingle r).Good) {v : Variant} {out : PFOutputs NT NE NS NM} (hm : Makes (regionInputs NT NC NE NM r) v out) :
    ConvertTo r out fun l => l.map particleView = (regionSingle r).particles r.track.head? := by
  have O := region_oneEach (NT := NT) (NC := NC) (NE := NE) (NM := NM) H hT hC hE hM
  have M := makesOne O (one_em_nonneg O hg) hm
  have S := one_slots O hm
  generalize hs : regionSingle r = s at *
  intro junkT junkE junkS
  -- charged candidates
  have hz : ∀ i : Fin NT, i ≠ ⟨0, hT⟩ → decide ((out.outch i).hwPt.toInt > 0) = false := fun i hi => by rw [S i hi]; decide
  have hch : chargedList out = s.charged := M.charged
  have hch' : chargedList out = if (out.outch ⟨0, hT⟩).hwPt ≠ 0 then [out.outch ⟨0, hT⟩] else [] := by
    unfold chargedList
    rw [filter_only out.outch _ ⟨0, hT⟩ fun i hi => by simp [S i hi]]
    by_cases h : (out.outch ⟨0, hT⟩).hwPt = 0 <;> simp [h]
  rw [hch] at hch'
  unfold Single.charged at hch'
  generalize hcid : (if s.electron then 3 else if s.mu then 4 else 0 : BitVec 3) = cid at hch'
  have hpos : (out.outch ⟨0, hT⟩).hwPt.toInt > 0 ↔ s.kept := by
    constructor
    · intro h
      by_contra hn
      rw [if_neg hn] at hch'
      have : (out.outch ⟨0, hT⟩).hwPt ≠ 0 := fun e => by rw [e] at h; exact absurd h (by decide)
      rw [if_pos this] at hch'
      exact absurd hch' (by simp)
    · intro h
      rw [if_pos h] at hch'
      by_cases e : (out.outch ⟨0, hT⟩).hwPt = 0
      · rw [if_neg (by simpa using e)] at hch'
        exact absurd hch' (by simp)
      · rw [if_pos e] at hch'
        have e' := congrArg PFChargedObj.hwPt (List.head_eq_of_cons_eq hch')
        simp only at e'
        rw [← e']
        have := hg.p
        have : s.p ≠ 0 := h.1
        show 0 < s.p
        omega
  have hlen : ∀ i, (out.outch i).hwPt.toInt > 0 → i.val < r.track.length := by
    intro i hi
    by_cases h0 : i = ⟨0, hT⟩
    · subst h0
      have hk := hpos.mp hi
      by_contra hn
      have hnil : r.track = [] := List.length_eq_zero_iff.mp (by simp only at hn; omega)
      apply hk.1
      rw [← hs]
      unfold Single.p regionSingle
      rw [hnil]
      rfl
    · exact absurd (hz i h0) (by simpa using hi)
  have hc := (C46_chargeds junkT out.outch r.track []).1 hlen
  rw [hc, Run.ok_bind]
  refine ⟨_, rfl, ?_⟩
  show List.map particleView (dpf_neutrals _ _ _) = _
  rw [views_neutrals, views_neutrals]
  unfold Single.particles
  refine congrArg₂ (· ++ ·) (congrArg₂ (· ++ ·) ?_ ?_) ?_
  · rw [List.nil_append, ofFn_filter_one out.outch (fun o => decide (o.hwPt.toInt > 0)) ⟨0, hT⟩ hz]
    by_cases hk : s.kept
    · rw [if_pos hk, if_pos (by simpa using hpos.mpr hk)]
      have h0 := hlen _ (hpos.mpr hk)
      have hne : (out.outch ⟨0, hT⟩).hwPt ≠ 0 := fun e => by have := hpos.mpr hk; rw [e] at this; exact absurd this (by decide)
      rw [if_pos hk, if_pos hne] at hch'
      have e' := (List.head_eq_of_cons_eq hch').symm
      match hr : r.track, h0 with
      | t :: ts, _ =>
        have ht := H.pt t (by rw [hr]; simp)
        simp only [List.map_cons, List.map_nil, List.getD_cons_zero, List.head?_cons]
        rw [view_charged _ _ _ ht, e']
        simp only
        rw [← hcid]
        congr 2
        by_cases he : s.electron
        · rw [if_pos he, if_pos he]; rfl
        · by_cases hmu : s.mu
          · rw [if_neg he, if_neg he, if_pos hmu, if_pos hmu]; rfl
          · rw [if_neg he, if_neg he, if_neg hmu, if_neg hmu]; rfl
    · rw [if_neg hk, if_neg (by simpa using fun h => hk (hpos.mp h))]
      rfl
  · have h1 := one_photon_nonneg hg
    have e : (List.ofFn fun i => seen (out.outpho i)).filter (fun x => decide (0 < x.1)) =
        ((List.ofFn fun i => seen (out.outpho i)).filter (fun x => decide (x.1 ≠ 0))).filter (fun x => decide (0 < x.1)) := by
      rw [List.filter_filter]
      apply List.filter_congr
      intro x _
      by_cases h : 0 < x.1
      · simp [h]; omega
      · simp [h]
    rw [e, M.photons]
    unfold Single.photons
    by_cases h : s.photon = 0
    · simp [h]
    · have h2 : 0 < s.photon := by omega
      simp [h, h2]
  · have h1 := one_neutral_nonneg hg
    rw [M.neutrals]
    unfold Single.neutrals fit
    obtain ⟨n, rfl⟩ : ∃ n, NS = n + 1 := ⟨NS - 1, by omega⟩
    have hrep : ∀ k, (List.replicate k ((0, 0, 0, 0) : Seen)).filter (fun x => decide (0 < x.1)) = [] := fun k => by
      rw [List.filter_replicate]; rfl
    by_cases h : s.neutral = 0
    · simp [h, hrep]
    · have h2 : 0 < s.neutral := by omega
      simp [h, h2, hrep]

/-- **C108.** A region with at most one object of each kind gives, in firmware and reference, the particles of the closed formula of C103. -/
theorem C108_list {r : InputRegion} (H : RegionOne r) (hT : 0 < NT) (hC : 0 < NC) (hE : 0 < NE) (hM : 0 < NM) (hS : 0 < NS) (hg : (regionSingle r).Good) :
    RegionGives NT NC NE NM NS r fun l => l.map particleView = (regionSingle r).particles r.track.head? := by
  have O := region_oneEach (NT := NT) (NC := NC) (NE := NE) (NM := NM) H hT hC hE hM
  refine ⟨fun old mem => ?_, fun old mem => ?_⟩
  · obtain ⟨out, h1, h2⟩ := fw_makes (NS := NS) _ (one_valid O hg fwVariant) old mem
    exact ⟨out, h1, convert_one H hT hC hE hM hS hg h2⟩
  · obtain ⟨out, h1, h2⟩ := ref_makes_one (NS := NS) O hg old mem
    exact ⟨out, h1, convert_one H hT hC hE hM hS hg h2⟩

end Verif
