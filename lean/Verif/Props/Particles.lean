import Verif.Props.ParticleList
import Verif.Props.Cones
/-! # C108: single particles, from GeV and radians to GeV and radians -/
namespace Verif
open Spec Rounding
variable {NT NC NE NM NS : Nat} {R : Rounding}

theorem isRound_near {n : ℤ} {x : ℝ} (h : IsRound n x) : |(n : ℝ) - x| ≤ 1 / 2 := by
  rcases h with h | h
  · exact h.le
  · exact h.1.le

theorem isRound_pos {n : ℤ} {x : ℝ} (h : IsRound n x) (hx : 1 / 2 ≤ x) : 0 < n := by
  have h1 := isRound_near h
  obtain ⟨a, b⟩ := abs_le.mp h1
  have h0 : (0 : ℝ) ≤ n := by linarith
  have h0' : 0 ≤ n := by exact_mod_cast h0
  rcases Int.lt_or_eq_of_le h0' with h2 | h2
  · exact h2
  · exfalso
    rw [← h2] at h
    rcases h with h | h
    · rw [abs_lt] at h; norm_num at h; linarith
    · have := h.2
      norm_num at this
      exact absurd this (not_lt.mpr (abs_nonneg _))

theorem regionGives_mono {r : InputRegion} {P Q : List PFParticle → Prop} (h : RegionGives NT NC NE NM NS r P) (hpq : ∀ l, P l → Q l) :
    RegionGives NT NC NE NM NS r Q := by
  refine ⟨fun old mem => ?_, fun old mem => ?_⟩
  · obtain ⟨out, h1, h2⟩ := h.1 old mem
    refine ⟨out, h1, fun a b c => ?_⟩
    obtain ⟨l, h3, h4⟩ := h2 a b c
    exact ⟨l, h3, hpq l h4⟩
  · obtain ⟨out, h1, h2⟩ := h.2 old mem
    refine ⟨out, h1, fun a b c => ?_⟩
    obtain ⟨l, h3, h4⟩ := h2 a b c
    exact ⟨l, h3, hpq l h4⟩

theorem views_one {l : List PFParticle} {v : ParticleView} (h : l.map particleView = [v]) : ∃ x, l = [x] ∧ particleView x = v := by
  match l, h with
  | [x], h => exact ⟨x, rfl, by simpa using h⟩

theorem views_two {l : List PFParticle} {v w : ParticleView} (h : l.map particleView = [v, w]) : ∃ x y, l = [x, y] ∧ particleView x = v ∧ particleView y = w := by
  match l, h with
  | [x, y], h => exact ⟨x, y, rfl, by simpa using h⟩

/-- The words of a cluster. -/
theorem Spec.RealCluster.facts (A : IEEE R) {c : CaloCluster} {pt emPt err eta phi : ℝ} {em : Bool} (h : RealCluster R c pt emPt err eta phi em) :
    |(c.hwPt.toInt : ℝ) - 4 * pt| ≤ 1 / 2 ∧ (1 / 8 ≤ pt → 0 < c.hwPt.toInt) ∧ |(c.hwEmPt.toInt : ℝ) - 4 * emPt| ≤ 1 / 2 ∧
    (1 / 8 ≤ emPt → 0 < c.hwEmPt.toInt) ∧ |(c.hwPtErr.toInt : ℝ) - 4 * err| ≤ 1 / 2 ∧ c.isEM = em ∧
    Stands (fw_had c).hwEta (fw_had c).hwPhi (eta, phi) ∧ Stands (fw_em c).hwEta (fw_em c).hwPhi (eta, phi) := by
  obtain ⟨flags, hf⟩ := h.fill
  obtain ⟨c', h1, h2, h3, h4, -, -, h5, -⟩ := C61_cluster A em flags h.float (h.eta.trans (by norm_num)) (h.phi.trans (by norm_num))
  rw [hf] at h1
  obtain rfl := Except.ok.inj h1
  obtain ⟨s1, s2⟩ := (C93_filled A h.eta h.phi flags).1 _ _ _ _ _ hf
  exact ⟨isRound_near h2, fun hp => isRound_pos h2 (by linarith), isRound_near h3, fun hp => isRound_pos h3 (by linarith), isRound_near h4, h5, s1, s2⟩

theorem Spec.RealTrack.facts (A : IEEE R) {t : PropagatedTrack} {pt err eta phi : ℝ} (h : RealTrack R t pt err eta phi) :
    |(t.hwPt.toInt : ℝ) - 4 * pt| ≤ 1 / 2 ∧ (1 / 8 ≤ pt → 0 < t.hwPt.toInt) ∧ |(t.hwCaloPtErr.toInt : ℝ) - 4 * err| ≤ 1 / 2 ∧
    Stands (fw_track t).hwEta (fw_track t).hwPhi (eta, phi) := by
  obtain ⟨t0, ptErr, flags, e1, e2, hf⟩ := h.fill
  obtain ⟨t', h1, h2, -, h4, -⟩ := C61_propagated A t0 (pt := pt) (ptErr := ptErr) (caloPtErr := err) flags (by
    intro x hx
    simp only [List.mem_cons, List.not_mem_nil, or_false] at hx
    rcases hx with rfl | rfl | rfl
    · exact h.float _ (by simp)
    · exact ⟨e1, e2⟩
    · exact h.float _ (by simp)) (h.eta.trans (by norm_num)) (h.phi.trans (by norm_num))
  rw [hf] at h1
  obtain rfl := Except.ok.inj h1
  exact ⟨isRound_near h2, fun hp => isRound_pos h2 (by linarith), isRound_near h4, (C93_filled A h.eta h.phi flags).2.1 _ _ _ _ _ hf⟩

theorem Spec.RealMuon.facts (A : IEEE R) {m : Muon} {pt eta phi : ℝ} (h : RealMuon R m pt eta phi) :
    |(m.hwPt.toInt : ℝ) - 4 * pt| ≤ 1 / 2 ∧ Stands (fw_mu m).hwEta (fw_mu m).hwPhi (eta, phi) := by
  obtain ⟨charge, flags, hf⟩ := h.fill
  obtain ⟨t', h1, h2, -⟩ := C61_muon A charge flags h.float (h.eta.trans (by norm_num)) (h.phi.trans (by norm_num))
  rw [hf] at h1
  obtain rfl := Except.ok.inj h1
  exact ⟨isRound_near h2, (C93_filled A h.eta h.phi flags).2.2 _ _ _ hf⟩

theorem angle_reads (A : IEEE R) {w : BitVec 16} {v : EtaPhi} {eta : ℝ} (hw : w.toInt = v.toInt) (h : Quantised quarterDegree v.toInt eta) (he : |eta| ≤ 1.1) :
    |R.floatEtaPhi w - eta| ≤ 0.0022 := by
  have hr := (C61_reading A w Dump.zero ⟨0, 0, 0, 0, 0, 0, 0, Dump.zero, Dump.zero, false, 0, 0⟩).2.1
  obtain ⟨u1, u2⟩ := unit_bounds
  unfold Quantised at h
  unfold Reads at hr
  rw [hw] at hr
  set y := (v.toInt : ℝ) * quarterDegree
  have h1 : |y - eta| ≤ 0.00219 := by
    refine h.trans ?_
    norm_num at he u2 ⊢
    linarith
  have h2 : |y| ≤ 1.2 := by
    have := abs_sub_abs_le_abs_sub y eta
    norm_num at he h1 ⊢
    linarith
  calc |R.floatEtaPhi w - eta| = |(R.floatEtaPhi w - y) + (y - eta)| := by ring_nf
    _ ≤ |R.floatEtaPhi w - y| + |y - eta| := abs_add_le _ _
    _ ≤ |y| / 2 ^ 22 + 0.00219 := add_le_add hr h1
    _ ≤ 0.0022 := by norm_num at h2 ⊢; linarith

/-- What the view of a particle says of it. -/
theorem about_of (A : IEEE R) {x : PFParticle} {id : Nat} {n : ℤ} {e p : EtaPhi} {tr : Option PropagatedTrack} {pt eta phi d : ℝ}
    (hx : particleView x = (id, n, e.toInt, p.toInt, tr)) (hn : |(n : ℝ) - 4 * pt| ≤ 4 * d) (hs : Stands e p (eta, phi)) : AboutParticle R x id pt eta phi d := by
  unfold particleView at hx
  simp only [Prod.mk.injEq] at hx
  obtain ⟨h1, h2, h3, h4, -⟩ := hx
  refine ⟨h1, ?_, angle_reads A h3 hs.eta hs.etaMax, angle_reads A h4 hs.phi hs.phiMax⟩
  rw [(C61_pt_roundtrip A x.hwPt).1, h2]
  rw [abs_le] at hn ⊢
  constructor <;> linarith

theorem track_of {x : PFParticle} {id : Nat} {n e p : ℤ} {t : PropagatedTrack} (hx : particleView x = (id, n, e, p, some t)) : x.track = t := by
  unfold particleView at hx
  simp only [Prod.mk.injEq] at hx
  obtain ⟨-, -, -, -, h⟩ := hx
  split at h
  · simpa using h
  · exact absurd h (by simp)

theorem charge_of {x : PFParticle} {id : Nat} {n e p : ℤ} (hx : particleView x = (id, n, e, p, none)) : pfCharge x = 0 := by
  unfold particleView at hx
  simp only [Prod.mk.injEq] at hx
  obtain ⟨-, -, -, -, h⟩ := hx
  split at h
  · exact absurd h (by simp)
  · rename_i hn
    exact if_neg hn

theorem fw_pt (x : BitVec 16) : (reg 16 x.toInt).toInt = x.toInt := reg16_toInt (pt_range _).1 (pt_range _).2

theorem round_nonneg {n : ℤ} {x : ℝ} (h : |(n : ℝ) - 4 * x| ≤ 1 / 2) (hx : 0 ≤ x) : 0 ≤ n := by
  have : (-1 : ℝ) < n := by have := (abs_le.mp h).1; linarith
  have : (-1 : ℤ) < n := by exact_mod_cast this
  omega

theorem err_sq {n : ℤ} {x : ℝ} (h : |(n : ℝ) - 4 * x| ≤ 1 / 2) (hx : |x| ≤ 5792) : n ^ 2 ≤ 536870911 := by
  obtain ⟨a3, a4⟩ := abs_le.mp h
  obtain ⟨a9, a10⟩ := abs_le.mp hx
  have e1 : (-23169 : ℝ) ≤ n := by linarith
  have e2 : (n : ℝ) ≤ 23169 := by linarith
  have e1 : -23169 ≤ n := by exact_mod_cast e1
  have e2 : n ≤ 23169 := by exact_mod_cast e2
  nlinarith

/-! ### Photons and neutral hadrons -/

/-- The region has an EM cluster and a calorimeter cluster and nothing else. -/
theorem photon_region {r : InputRegion} {c h : CaloCluster} (ht : r.track = []) (hm : r.muon = []) (hc : r.emcalo = [c]) (hh : r.calo = [h]) : RegionOne r :=
  ⟨by rw [ht]; simp, by rw [hc]; simp, by rw [hh]; simp, by rw [hm]; simp, by rw [ht]; simp, fun h => absurd ht h⟩

/-- **C108.** A photon: an EM cluster of `pt` GeV and the calorimeter cluster it is in give one photon of that pt and direction, and a neutral
hadron with the rest of the calorimeter cluster if the rest is clearly above a sixteenth of the cluster (an eighth of the electromagnetic part if the cluster
is flagged as electromagnetic). -/
theorem C108_photon (A : IEEE R) {r : InputRegion} {c h : CaloCluster} {pt emPt σ eta phi Q emQ errQ etaQ phiQ : ℝ} {b em : Bool}
    (ht : r.track = []) (hm : r.muon = []) (hc : r.emcalo = [c]) (hh : r.calo = [h])
    (C : RealCluster R c pt emPt σ eta phi b) (H : RealCluster R h Q emQ errQ etaQ phiQ em)
    (hT : 0 < NT) (hC : 0 < NC) (hE : 0 < NE) (hM : 0 < NM) (hS : 0 < NS)
    (hpt : 1 / 8 ≤ pt) (hσ : |σ| ≤ 5792) (hQ : 0 ≤ Q) (hemQ : pt / 2 + 0.2 ≤ emQ) (hd : deltaR (eta, phi) (etaQ, phiQ) ≤ 0.0938) :
    (16 * (Q - pt) + 4.2 ≤ Q → RegionGives NT NC NE NM NS r fun l => ∃ x, l = [x] ∧ AboutParticle R x 3 pt eta phi (1 / 8) ∧ pfCharge x = 0) ∧
    (Q + 4.2 ≤ 16 * (Q - pt) → (em = true → emQ + 2.2 ≤ 8 * (emQ - pt)) →
      RegionGives NT NC NE NM NS r fun l => ∃ x y, l = [x, y] ∧ AboutParticle R x 3 pt eta phi (1 / 8) ∧ pfCharge x = 0 ∧
        AboutParticle R y 2 (Q - pt) etaQ phiQ (1 / 4) ∧ pfCharge y = 0) := by
  obtain ⟨c1, c2, -, -, c4, -, -, c6⟩ := C.facts A
  obtain ⟨h1, -, h3, -, -, h5, h6, -⟩ := H.facts A
  have c2 := c2 hpt
  have O := photon_region ht hm hc hh
  have eT : (regionSingle r).T = TkObj.clear := by simp [regionSingle, ht]
  have eM : (regionSingle r).M = MuObj.clear := by simp [regionSingle, hm]
  have eC : (regionSingle r).C = fw_em c := by simp [regionSingle, hc]
  have eH : (regionSingle r).H = fw_had h := by simp [regionSingle, hh]
  have vE : (regionSingle r).E = c.hwPt.toInt := by unfold Single.E; rw [eC]; exact fw_pt _
  have vq : (regionSingle r).q = h.hwPt.toInt := by unfold Single.q; rw [eH]; exact fw_pt _
  have vm : (regionSingle r).H.hwEmPt.toInt = h.hwEmPt.toInt := by rw [eH]; exact fw_pt _
  have vσ : (regionSingle r).C.hwPtErr.toInt = c.hwPtErr.toInt := by rw [eC]; exact fw_pt _
  have vp : (regionSingle r).p = 0 := by unfold Single.p; rw [eT]; rfl
  have vem : (regionSingle r).H.hwIsEM = em := by rw [eH, ← h5]; rfl
  obtain ⟨a1, a2⟩ := abs_le.mp c1
  obtain ⟨a5, a6⟩ := abs_le.mp h1
  obtain ⟨a7, a8⟩ := abs_le.mp h3
  norm_num at hemQ
  have hq0 : 0 ≤ h.hwPt.toInt := round_nonneg h1 hQ
  have hm0 : c.hwPt.toInt / 2 < h.hwEmPt.toInt := by
    have : (c.hwPt.toInt : ℝ) < 2 * h.hwEmPt.toInt := by linarith
    have : c.hwPt.toInt < 2 * h.hwEmPt.toInt := by exact_mod_cast this
    omega
  have hσ2 : c.hwPtErr.toInt ^ 2 ≤ 536870911 := err_sq c4 hσ
  have hg : (regionSingle r).Good := by
    refine ⟨by rw [vp], ?_, by rw [vE]; omega, by rw [vσ]; exact hσ2, by rw [vq]; exact hq0, by rw [vm]; omega⟩
    unfold Single.err; rw [eT]; decide
  have hin : (regionSingle r).inHad := by
    refine ⟨by rw [vE, vm]; exact hm0, ?_⟩
    rw [eC, eH]
    have k := (C93_cones (fw_em c).hwEta (fw_em c).hwPhi (fw_had h).hwEta (fw_had h).hwPhi).2.2.1
    rw [dr2_int_eq_dist2] at k
    exact (cone_near k c6 h6).2 (hd.trans (by norm_num))
  obtain ⟨p1, p2, p3⟩ := C103_photon (regionSingle r) vp hin
  have L := C108_list (NT := NT) (NC := NC) (NE := NE) (NM := NM) (NS := NS) O hT hC hE hM hS hg
  have hk : ¬ (regionSingle r).kept := fun hk => hk.1 vp
  rw [vE] at p1
  unfold Single.particles at L
  rw [if_neg hk, p1, if_neg (by omega), List.nil_append] at L
  rw [vE, vq, vm, vem] at p3
  refine ⟨fun hx => ?_, fun hx hy => ?_⟩
  · norm_num at hx
    have : (16 * (h.hwPt.toInt - c.hwPt.toInt) : ℝ) ≤ h.hwPt.toInt := by linarith
    have : 16 * (h.hwPt.toInt - c.hwPt.toInt) ≤ h.hwPt.toInt := by exact_mod_cast this
    rw [if_pos (.inl this)] at p3
    rw [p3, if_pos rfl, List.append_nil] at L
    refine regionGives_mono L fun l hl => ?_
    obtain ⟨x, e, hv⟩ := views_one hl
    refine ⟨x, e, about_of A hv (by linarith [c1]) (by rw [eC]; exact c6), charge_of hv⟩
  · norm_num at hx
    have hno : ¬ (16 * (h.hwPt.toInt - c.hwPt.toInt) ≤ h.hwPt.toInt ∨ (em = true ∧ 8 * (h.hwEmPt.toInt - c.hwPt.toInt) ≤ h.hwEmPt.toInt)) := by
      rintro (k | ⟨k1, k2⟩)
      · have : (16 * (h.hwPt.toInt - c.hwPt.toInt) : ℝ) ≤ h.hwPt.toInt := by exact_mod_cast k
        linarith
      · have : (8 * (h.hwEmPt.toInt - c.hwPt.toInt) : ℝ) ≤ h.hwEmPt.toInt := by exact_mod_cast k2
        have := hy k1
        norm_num at this
        linarith
    rw [if_neg hno] at p3
    have hpos : h.hwPt.toInt - c.hwPt.toInt ≠ 0 := fun e => hno (.inl (by omega))
    rw [p3, if_neg hpos] at L
    refine regionGives_mono L fun l hl => ?_
    obtain ⟨x, y, e, hv, hw⟩ := views_two hl
    refine ⟨x, y, e, about_of A hv (by linarith [c1]) (by rw [eC]; exact c6), charge_of hv, about_of A hw ?_ (by rw [eH]; exact h6), charge_of hw⟩
    push_cast
    rw [abs_le]
    constructor <;> linarith

/-- **C108.** An EM cluster that is in no calorimeter cluster gives its photon and nothing else. -/
theorem C108_photon_alone (A : IEEE R) {r : InputRegion} {c : CaloCluster} {pt emPt σ eta phi : ℝ} {b : Bool}
    (ht : r.track = []) (hm : r.muon = []) (hc : r.emcalo = [c]) (hh : r.calo = []) (C : RealCluster R c pt emPt σ eta phi b)
    (hT : 0 < NT) (hC : 0 < NC) (hE : 0 < NE) (hM : 0 < NM) (hS : 0 < NS) (hpt : 1 / 8 ≤ pt) (hσ : |σ| ≤ 5792) :
    RegionGives NT NC NE NM NS r fun l => ∃ x, l = [x] ∧ AboutParticle R x 3 pt eta phi (1 / 8) ∧ pfCharge x = 0 := by
  obtain ⟨c1, c2, -, -, c4, -, -, c6⟩ := C.facts A
  have c2 := c2 hpt
  have O : RegionOne r := ⟨by rw [ht]; simp, by rw [hc]; simp, by rw [hh]; simp, by rw [hm]; simp, by rw [ht]; simp, fun h => absurd ht h⟩
  have eT : (regionSingle r).T = TkObj.clear := by simp [regionSingle, ht]
  have eC : (regionSingle r).C = fw_em c := by simp [regionSingle, hc]
  have eH : (regionSingle r).H = HadCaloObj.clear := by simp [regionSingle, hh]
  have vE : (regionSingle r).E = c.hwPt.toInt := by unfold Single.E; rw [eC]; exact fw_pt _
  have vq : (regionSingle r).q = 0 := by unfold Single.q; rw [eH]; rfl
  have vm : (regionSingle r).H.hwEmPt.toInt = 0 := by rw [eH]; rfl
  have vp : (regionSingle r).p = 0 := by unfold Single.p; rw [eT]; rfl
  have hg : (regionSingle r).Good := by
    refine ⟨by rw [vp], ?_, by rw [vE]; omega, ?_, by rw [vq], by rw [vm]⟩
    · unfold Single.err; rw [eT]; decide
    · rw [eC]; exact (congrArg (· ^ 2) (fw_pt c.hwPtErr)).trans_le (err_sq c4 hσ)
  have L := C108_list (NT := NT) (NC := NC) (NE := NE) (NM := NM) (NS := NS) O hT hC hE hM hS hg
  have hin : ¬ (regionSingle r).inHad := fun h => by have := h.1; rw [vE, vm] at this; omega
  have hi : (regionSingle r).inEm = 0 := by rcases one_inEm (regionSingle r) with e | e <;> rw [e]; exact vp
  have hp : (regionSingle r).photon = c.hwPt.toInt := by rw [← vE]; exact if_pos hi
  have hn : (regionSingle r).neutral = 0 := by
    have : (regionSingle r).rest = 0 := if_pos (.inl (by rw [show (regionSingle r).sub = 0 from if_neg fun h => hin h.1, vq]; decide))
    rw [show (regionSingle r).neutral = (regionSingle r).rest from if_neg fun h => h.2.2.2 vp, this]
  have hk : ¬ (regionSingle r).kept := fun hk => hk.1 vp
  unfold Single.particles at L
  rw [if_neg hk, hp, if_neg (by omega), List.nil_append, hn, if_pos rfl, List.append_nil] at L
  refine regionGives_mono L fun l hl => ?_
  obtain ⟨x, e, hv⟩ := views_one hl
  exact ⟨x, e, about_of A hv (by linarith [c1]) (by rw [eC]; exact c6), charge_of hv⟩

/-- **C108.** A calorimeter cluster alone gives a neutral hadron of its pt and direction. -/
theorem C108_neutral (A : IEEE R) {r : InputRegion} {h : CaloCluster} {Q emQ errQ etaQ phiQ : ℝ} {em : Bool}
    (ht : r.track = []) (hm : r.muon = []) (hc : r.emcalo = []) (hh : r.calo = [h]) (H : RealCluster R h Q emQ errQ etaQ phiQ em)
    (hT : 0 < NT) (hC : 0 < NC) (hE : 0 < NE) (hM : 0 < NM) (hS : 0 < NS) (hQ : 1 / 8 ≤ Q) (hemQ : 0 ≤ emQ) (hem : em = true → 1 / 8 ≤ emQ) :
    RegionGives NT NC NE NM NS r fun l => ∃ x, l = [x] ∧ AboutParticle R x 2 Q etaQ phiQ (1 / 8) ∧ pfCharge x = 0 := by
  obtain ⟨h1, h2, h3, h4, -, h5, h6, -⟩ := H.facts A
  have h2 := h2 hQ
  have O : RegionOne r := ⟨by rw [ht]; simp, by rw [hc]; simp, by rw [hh]; simp, by rw [hm]; simp, by rw [ht]; simp, fun h => absurd ht h⟩
  have eT : (regionSingle r).T = TkObj.clear := by simp [regionSingle, ht]
  have eC : (regionSingle r).C = EmCaloObj.clear := by simp [regionSingle, hc]
  have eH : (regionSingle r).H = fw_had h := by simp [regionSingle, hh]
  have vE : (regionSingle r).E = 0 := by unfold Single.E; rw [eC]; rfl
  have vq : (regionSingle r).q = h.hwPt.toInt := by unfold Single.q; rw [eH]; exact fw_pt _
  have vm : (regionSingle r).H.hwEmPt.toInt = h.hwEmPt.toInt := by rw [eH]; exact fw_pt _
  have vp : (regionSingle r).p = 0 := by unfold Single.p; rw [eT]; rfl
  have vem : (regionSingle r).H.hwIsEM = em := by rw [eH, ← h5]; rfl
  have hm0 : 0 ≤ h.hwEmPt.toInt := round_nonneg h3 hemQ
  have hg : (regionSingle r).Good := by
    refine ⟨by rw [vp], ?_, by rw [vE], ?_, by rw [vq]; omega, by rw [vm]; exact hm0⟩
    · unfold Single.err; rw [eT]; decide
    · rw [eC]; decide
  have L := C108_list (NT := NT) (NC := NC) (NE := NE) (NM := NM) (NS := NS) O hT hC hE hM hS hg
  have hs : (regionSingle r).sub = 0 := by unfold Single.sub; rw [vE]; split <;> rfl
  have hi : (regionSingle r).inEm = 0 := by rcases one_inEm (regionSingle r) with e | e <;> rw [e]; exact vp
  have hp : (regionSingle r).photon = 0 := by rw [← vE]; exact if_pos hi
  have hr : (regionSingle r).rest = h.hwPt.toInt := by
    unfold Single.rest
    rw [if_neg, hs, vq]
    · omega
    · rintro (k | ⟨k1, k2⟩)
      · rw [hs, vq] at k; omega
      · rw [hs, vm] at k2
        have := h4 (hem (vem ▸ k1))
        omega
  have hn : (regionSingle r).neutral = h.hwPt.toInt := by
    rw [show (regionSingle r).neutral = (regionSingle r).rest from if_neg fun h => h.2.2.2 vp, hr]
  have hk : ¬ (regionSingle r).kept := fun hk => hk.1 vp
  unfold Single.particles at L
  rw [if_neg hk, hp, if_pos rfl, List.nil_append, hn, if_neg (by omega), List.nil_append] at L
  refine regionGives_mono L fun l hl => ?_
  obtain ⟨x, e, hv⟩ := views_one hl
  exact ⟨x, e, about_of A hv (by linarith [h1]) (by rw [eH]; exact h6), charge_of hv⟩

/-! ### Charged particles -/

/-- Over and under √1.5 errors, after rounding. -/
theorem excess_over {a b e : ℤ} {x y z : ℝ} (ha : |(a : ℝ) - 4 * x| ≤ 1 / 2) (hb : |(b : ℝ) - 4 * y| ≤ 1 / 2) (he : |(e : ℝ) - 4 * z| ≤ 1 / 2) (hz : 0 ≤ z)
    (h : 1.23 * z + 0.41 ≤ x - y) : b < a ∧ 3 * e ^ 2 < 2 * (a - b) ^ 2 := by
  obtain ⟨a1, a2⟩ := abs_le.mp ha
  obtain ⟨b1, b2⟩ := abs_le.mp hb
  obtain ⟨e1, e2⟩ := abs_le.mp he
  norm_num at h
  have h1 : (0 : ℝ) < a - b := by linarith
  refine ⟨by have : (b : ℝ) < a := by linarith
             exact_mod_cast this, ?_⟩
  have h2 : 1.23 * |(e : ℝ)| < a - b := by
    rcases abs_cases (e : ℝ) with ⟨k, -⟩ | ⟨k, -⟩ <;> rw [k] <;> norm_num <;> linarith
  have : (3 * e ^ 2 : ℝ) < 2 * (a - b) ^ 2 := by
    have h3 := abs_nonneg (e : ℝ)
    have h4 := sq_abs (e : ℝ)
    norm_num at h2
    nlinarith
  exact_mod_cast this

theorem excess_under {a b e : ℤ} {x y z : ℝ} (ha : |(a : ℝ) - 4 * x| ≤ 1 / 2) (hb : |(b : ℝ) - 4 * y| ≤ 1 / 2) (he : |(e : ℝ) - 4 * z| ≤ 1 / 2)
    (h : x - y ≤ 1.22 * z - 0.41) : ¬ (b < a ∧ 3 * e ^ 2 < 2 * (a - b) ^ 2) := by
  rintro ⟨k1, k2⟩
  obtain ⟨a1, a2⟩ := abs_le.mp ha
  obtain ⟨b1, b2⟩ := abs_le.mp hb
  obtain ⟨e1, e2⟩ := abs_le.mp he
  norm_num at h
  have k1' : (b : ℝ) < a := by exact_mod_cast k1
  have k2' : (3 * e ^ 2 : ℝ) < 2 * (a - b) ^ 2 := by exact_mod_cast k2
  have h2 : (a - b : ℝ) ≤ 1.22 * e := by norm_num; linarith
  norm_num at h2
  nlinarith

/-- **C108.** A charged hadron: a track and the calorimeter cluster it ends in give one charged hadron with the track's pt, direction and charge, and
a neutral hadron with the excess of the cluster if that is over 1.23 errors of the track; below 1.22 errors there is none. -/
theorem C108_hadron (A : IEEE R) {r : InputRegion} {t : PropagatedTrack} {h : CaloCluster} {pt err eta phi Q emQ errQ etaQ phiQ : ℝ} {em : Bool}
    (ht : r.track = [t]) (hm : r.muon = []) (hc : r.emcalo = []) (hh : r.calo = [h])
    (T : RealTrack R t pt err eta phi) (H : RealCluster R h Q emQ errQ etaQ phiQ em)
    (hT : 0 < NT) (hC : 0 < NC) (hE : 0 < NE) (hM : 0 < NM) (hS : 0 < NS)
    (hpt : 1 / 8 ≤ pt) (he : 0 ≤ err ∧ err ≤ 4095) (hQ : 1 / 8 ≤ Q) (hemQ : 0 ≤ emQ) (hem : em = true → 1 / 8 ≤ emQ)
    (hlow : pt - 2 * err + 0.51 ≤ Q) (hd : deltaR (eta, phi) (etaQ, phiQ) ≤ 0.1138) :
    (Q - pt ≤ 1.22 * err - 0.41 → RegionGives NT NC NE NM NS r fun l => ∃ x, l = [x] ∧ AboutParticle R x 0 pt eta phi (1 / 8) ∧ x.track = t) ∧
    (1.23 * err + 0.41 ≤ Q - pt → RegionGives NT NC NE NM NS r fun l => ∃ x y, l = [x, y] ∧ AboutParticle R x 0 pt eta phi (1 / 8) ∧ x.track = t ∧
      AboutParticle R y 2 (Q - pt) etaQ phiQ (1 / 4) ∧ pfCharge y = 0) := by
  obtain ⟨t1, t2, t3, t4⟩ := T.facts A
  obtain ⟨h1, h2, h3, h4, -, h5, h6, -⟩ := H.facts A
  have h2 := h2 hQ
  have t2 := t2 hpt
  have O : RegionOne r := ⟨by rw [ht]; simp, by rw [hc]; simp, by rw [hh]; simp, by rw [hm]; simp, by rw [ht]; simpa using t2, fun _ h => absurd hc h⟩
  have eT : (regionSingle r).T = fw_track t := by simp [regionSingle, ht]
  have eM : (regionSingle r).M = MuObj.clear := by simp [regionSingle, hm]
  have eC : (regionSingle r).C = EmCaloObj.clear := by simp [regionSingle, hc]
  have eH : (regionSingle r).H = fw_had h := by simp [regionSingle, hh]
  have vE : (regionSingle r).E = 0 := by unfold Single.E; rw [eC]; rfl
  have vq : (regionSingle r).q = h.hwPt.toInt := by unfold Single.q; rw [eH]; exact fw_pt _
  have vm : (regionSingle r).H.hwEmPt.toInt = h.hwEmPt.toInt := by rw [eH]; exact fw_pt _
  have vp : (regionSingle r).p = t.hwPt.toInt := by unfold Single.p; rw [eT]; exact fw_pt _
  have ve : (regionSingle r).err = t.hwCaloPtErr.toInt := by unfold Single.err; rw [eT]; exact fw_pt _
  have vem : (regionSingle r).H.hwIsEM = em := by rw [eH, ← h5]; rfl
  have hm0 : 0 ≤ h.hwEmPt.toInt := round_nonneg h3 hemQ
  have he0 : 0 ≤ t.hwCaloPtErr.toInt := round_nonneg t3 he.1
  have he1 : t.hwCaloPtErr.toInt ≤ 16384 := by
    have : (t.hwCaloPtErr.toInt : ℝ) ≤ 16384 := by have := (abs_le.mp t3).2; linarith [he.2]
    exact_mod_cast this
  have hg : (regionSingle r).Good := by
    refine ⟨by rw [vp]; omega, by rw [ve]; exact ⟨he0, he1⟩, by rw [vE], ?_, by rw [vq]; omega, by rw [vm]; exact hm0⟩
    rw [eC]; decide
  have hend : max 0 ((regionSingle r).p - 2 * (regionSingle r).err) < (regionSingle r).q := by
    rw [vp, ve, vq]
    have : (t.hwPt.toInt - 2 * t.hwCaloPtErr.toInt : ℝ) < h.hwPt.toInt := by
      obtain ⟨a1, a2⟩ := abs_le.mp t1
      obtain ⟨b1, b2⟩ := abs_le.mp t3
      obtain ⟨d1, d2⟩ := abs_le.mp h1
      norm_num at hlow
      linarith
    have : t.hwPt.toInt - 2 * t.hwCaloPtErr.toInt < h.hwPt.toInt := by exact_mod_cast this
    omega
  have hdist : dist2 (regionSingle r).T.hwEta (regionSingle r).T.hwPhi (regionSingle r).H.hwEta (regionSingle r).H.hwPhi < 756 := by
    rw [eT, eH]
    have k := (C93_cones (fw_track t).hwEta (fw_track t).hwPhi (fw_had h).hwEta (fw_had h).hwPhi).2.2.2.1
    rw [dr2_int_eq_dist2] at k
    exact (cone_near k t4 h6).2 (hd.trans (by norm_num))
  obtain ⟨p1, p2, p3, p4⟩ := C103_charged_hadron (regionSingle r) (by rw [vp]; exact t2) vE (by rw [eC]; rfl) (by rw [eM]; decide) (by rw [vq]; omega) (by rw [vq]; omega)
    (fun k => by rw [vm]; exact h4 (hem (vem ▸ k))) hend hdist
  have L := C108_list (NT := NT) (NC := NC) (NE := NE) (NM := NM) (NS := NS) O hT hC hE hM hS hg
  have hk : (regionSingle r).kept := by
    by_contra hn
    rw [show (regionSingle r).charged = [] from if_neg hn] at p2
    exact absurd p2 (by simp)
  have hid : (if (regionSingle r).electron then 1 else if (regionSingle r).mu then 4 else 0) = 0 := by
    have := p2
    unfold Single.charged at this
    rw [if_pos hk] at this
    have := congrArg PFChargedObj.hwId (List.head_eq_of_cons_eq this)
    by_cases k1 : (regionSingle r).electron
    · rw [if_pos k1] at this; exact absurd (show (3 : BitVec 3) = 0 from this) (by decide)
    · rw [if_neg k1] at this ⊢
      by_cases k2 : (regionSingle r).mu
      · rw [if_pos k2] at this; exact absurd (show (4 : BitVec 3) = 0 from this) (by decide)
      · rw [if_neg k2]
  unfold Single.particles at L
  rw [if_pos hk, hid, p1, if_pos rfl, List.append_nil, ht, List.head?_cons] at L
  rw [vp, vq, ve] at p4
  refine ⟨fun hx => ?_, fun hx => ?_⟩
  · rw [if_neg (excess_under h1 t1 t3 hx)] at p4
    rw [p4, if_pos rfl, List.append_nil] at L
    refine regionGives_mono L fun l hl => ?_
    obtain ⟨x, e, hv⟩ := views_one hl
    exact ⟨x, e, about_of A hv (by rw [vp]; linarith [t1]) (by rw [eT]; exact t4), track_of hv⟩
  · have ho := excess_over h1 t1 t3 he.1 hx
    rw [if_pos ho] at p4
    rw [p4, if_neg (by omega)] at L
    refine regionGives_mono L fun l hl => ?_
    obtain ⟨x, y, e, hv, hw⟩ := views_two hl
    refine ⟨x, y, e, about_of A hv (by rw [vp]; linarith [t1]) (by rw [eT]; exact t4), track_of hv, about_of A hw ?_ (by rw [eH]; exact h6), charge_of hw⟩
    obtain ⟨a1, a2⟩ := abs_le.mp t1
    obtain ⟨d1, d2⟩ := abs_le.mp h1
    push_cast
    rw [abs_le]
    constructor <;> linarith

theorem stands_centre : Stands 0 0 ((0, 0) : RealDir) := by
  have q : Quantised quarterDegree (0 : EtaPhi).toInt 0 := by
    show |(((0 : EtaPhi).toInt : ℤ) : ℝ) * quarterDegree - 0| ≤ _
    have h0 : (0 : EtaPhi).toInt = 0 := by decide
    rw [h0]
    have : 0 < quarterDegree := by unfold quarterDegree; positivity
    simp
    linarith
  exact ⟨q, q, by norm_num, by norm_num⟩

theorem fillCluster_pt {c : CaloCluster} {pt emPt err eta phi : ℝ} {em : Bool} {flags : BitVec 32} (h : R.fillCluster pt emPt err eta phi em flags = .ok c) :
    toI16 (R.quant PT_SCALE pt) = .ok c.hwPt := by
  unfold Rounding.fillCluster at h
  cases h1 : toI16 (R.quant PT_SCALE pt) <;> rw [h1] at h
  · exact absurd h (by simp [bind, Except.bind])
  cases h2 : toI16 (R.quant PT_SCALE emPt) <;> rw [h2] at h
  · exact absurd h (by simp [bind, Except.bind])
  cases h3 : toI16 (R.quant PT_SCALE err) <;> rw [h3] at h
  · exact absurd h (by simp [bind, Except.bind])
  cases h4 : toI16 (R.quant R.ETAPHI_SCALE eta) <;> rw [h4] at h
  · exact absurd h (by simp [bind, Except.bind])
  cases h5 : R.quantPhi phi <;> rw [h5] at h
  · exact absurd h (by simp [bind, Except.bind])
  rw [← Except.ok.inj h]

theorem fillPropagated_pt {t0 t : PropagatedTrack} {pt ptErr err eta phi : ℝ} {flags : BitVec 32} (h : R.fillPropagated t0 pt ptErr err eta phi flags = .ok t) :
    toI16 (R.quant PT_SCALE pt) = .ok t.hwPt := by
  unfold Rounding.fillPropagated at h
  cases h1 : toI16 (R.quant PT_SCALE pt) <;> rw [h1] at h
  · exact absurd h (by simp [bind, Except.bind])
  cases h2 : toI16 (R.quant PT_SCALE ptErr) <;> rw [h2] at h
  · exact absurd h (by simp [bind, Except.bind])
  cases h3 : toI16 (R.quant PT_SCALE err) <;> rw [h3] at h
  · exact absurd h (by simp [bind, Except.bind])
  cases h4 : toI16 (R.quant R.ETAPHI_SCALE eta) <;> rw [h4] at h
  · exact absurd h (by simp [bind, Except.bind])
  cases h5 : R.quantPhi phi <;> rw [h5] at h
  · exact absurd h (by simp [bind, Except.bind])
  rw [← Except.ok.inj h]

/-- The hypotheses of a region with a track and an EM cluster at it, and nothing else. -/
theorem electron_region (A : IEEE R) {r : InputRegion} {t : PropagatedTrack} {c : CaloCluster} {pt err eta phi E emE σ etaC phiC : ℝ} {b : Bool}
    (ht : r.track = [t]) (hm : r.muon = []) (hc : r.emcalo = [c]) (hh : r.calo = [])
    (T : RealTrack R t pt err eta phi) (C : RealCluster R c E emE σ etaC phiC b)
    (hT : 0 < NT) (hC : 0 < NC) (hE : 0 < NE) (hM : 0 < NM) (hS : 0 < NS)
    (hpt : 1 / 8 ≤ pt) (he : 0 ≤ err ∧ err ≤ 4095) (hE0 : 0 ≤ E) (hσ : |σ| ≤ 5792)
    (hd : deltaR (eta, phi) (etaC, phiC) ≤ 0.0338) (hd0 : 0.0462 ≤ deltaR (eta, phi) (0, 0)) :
    (regionSingle r).p = t.hwPt.toInt ∧ (regionSingle r).E = c.hwPt.toInt ∧ (regionSingle r).C.hwPtErr.toInt = c.hwPtErr.toInt ∧
    (regionSingle r).nearEm ∧ (regionSingle r).neutral = 0 ∧ ¬ (regionSingle r).ends ∧ (regionSingle r).T = fw_track t ∧ (regionSingle r).C = fw_em c ∧
    RegionGives NT NC NE NM NS r fun l => l.map particleView = (regionSingle r).particles (some t) := by
  obtain ⟨t1, t2, t3, t4⟩ := T.facts A
  obtain ⟨c1, -, -, -, c4, -, -, c6⟩ := C.facts A
  have t2 := t2 hpt
  have eT : (regionSingle r).T = fw_track t := by simp [regionSingle, ht]
  have eM : (regionSingle r).M = MuObj.clear := by simp [regionSingle, hm]
  have eC : (regionSingle r).C = fw_em c := by simp [regionSingle, hc]
  have eH : (regionSingle r).H = HadCaloObj.clear := by simp [regionSingle, hh]
  have k := (C93_cones (fw_track t).hwEta (fw_track t).hwPhi (fw_em c).hwEta (fw_em c).hwPhi).2.1
  have k0 := (C93_cones (fw_track t).hwEta (fw_track t).hwPhi 0 0).2.1
  rw [dr2_int_eq_dist2] at k k0
  have hnear : dist2 (regionSingle r).T.hwEta (regionSingle r).T.hwPhi (regionSingle r).C.hwEta (regionSingle r).C.hwPhi < 84 := by
    rw [eT, eC]
    exact (cone_near k t4 c6).2 (hd.trans (by norm_num))
  have hfar : 84 ≤ dist2 (regionSingle r).T.hwEta (regionSingle r).T.hwPhi 0 0 := by
    rw [eT]
    by_contra hlt
    have := (cone_near k0 t4 stands_centre).1 (not_le.mp hlt)
    norm_num at this hd0
    linarith
  have O : RegionOne r := ⟨by rw [ht]; simp, by rw [hc]; simp, by rw [hh]; simp, by rw [hm]; simp, by rw [ht]; simpa using t2, fun _ _ => .inl hfar⟩
  have vE : (regionSingle r).E = c.hwPt.toInt := by unfold Single.E; rw [eC]; exact fw_pt _
  have vσ : (regionSingle r).C.hwPtErr.toInt = c.hwPtErr.toInt := by rw [eC]; exact fw_pt _
  have vq : (regionSingle r).q = 0 := by unfold Single.q; rw [eH]; rfl
  have vm : (regionSingle r).H.hwEmPt.toInt = 0 := by rw [eH]; rfl
  have vp : (regionSingle r).p = t.hwPt.toInt := by unfold Single.p; rw [eT]; exact fw_pt _
  have ve : (regionSingle r).err = t.hwCaloPtErr.toInt := by unfold Single.err; rw [eT]; exact fw_pt _
  have he0 : 0 ≤ t.hwCaloPtErr.toInt := round_nonneg t3 he.1
  have he1 : t.hwCaloPtErr.toInt ≤ 16384 := by
    have : (t.hwCaloPtErr.toInt : ℝ) ≤ 16384 := by have := (abs_le.mp t3).2; linarith [he.2]
    exact_mod_cast this
  have hE1 : 0 ≤ c.hwPt.toInt := round_nonneg c1 hE0
  have hg : (regionSingle r).Good :=
    ⟨by rw [vp]; omega, by rw [ve]; exact ⟨he0, he1⟩, by rw [vE]; exact hE1, by rw [vσ]; exact err_sq c4 hσ, by rw [vq], by rw [vm]⟩
  have L := C108_list (NT := NT) (NC := NC) (NE := NE) (NM := NM) (NS := NS) O hT hC hE hM hS hg
  rw [ht, List.head?_cons] at L
  have hmu : ¬ (regionSingle r).mu := fun h => by have := h.1; rw [eM] at this; exact absurd this (by decide)
  have hin : ¬ (regionSingle r).inHad := fun h => by have := h.1; rw [vE, vm] at this; omega
  have hr : (regionSingle r).rest = 0 := if_pos (.inl (by rw [show (regionSingle r).sub = 0 from if_neg fun h => hin h.1, vq]; decide))
  have hends : ¬ (regionSingle r).ends := fun h => by have := h.1; rw [hr] at this; omega
  refine ⟨vp, vE, vσ, ⟨hmu, hnear⟩, ?_, hends, eT, eC, L⟩
  rw [show (regionSingle r).neutral = (regionSingle r).rest from if_neg fun h => hends h.1, hr]

/-- **C108.** An electron: a track and an EM cluster at it, that has more pt than the track or less by under two errors, give an electron with the
track's pt, direction and charge; the excess of the cluster is a photon if it is over 1.23 errors of the cluster, and below 1.22 it is not. -/
theorem C108_electron (A : IEEE R) {r : InputRegion} {t : PropagatedTrack} {c : CaloCluster} {pt err eta phi E emE σ etaC phiC : ℝ} {b : Bool}
    (ht : r.track = [t]) (hm : r.muon = []) (hc : r.emcalo = [c]) (hh : r.calo = [])
    (T : RealTrack R t pt err eta phi) (C : RealCluster R c E emE σ etaC phiC b)
    (hT : 0 < NT) (hC : 0 < NC) (hE : 0 < NE) (hM : 0 < NM) (hS : 0 < NS)
    (hpt : 1 / 8 ≤ pt) (he : 0 ≤ err ∧ err ≤ 4095) (hE0 : 0 ≤ E) (hσ0 : 0 ≤ σ) (hσ : σ ≤ 5792)
    (hd : deltaR (eta, phi) (etaC, phiC) ≤ 0.0338) (hd0 : 0.0462 ≤ deltaR (eta, phi) (0, 0)) :
    (0.26 ≤ E - pt ∧ E - pt ≤ 1.22 * σ - 0.41 ∨ 0.26 ≤ pt - E ∧ pt - E ≤ 2 * σ - 0.55 →
      RegionGives NT NC NE NM NS r fun l => ∃ x, l = [x] ∧ AboutParticle R x 1 pt eta phi (1 / 8) ∧ x.track = t) ∧
    (1.23 * σ + 0.41 ≤ E - pt → RegionGives NT NC NE NM NS r fun l => ∃ x y, l = [x, y] ∧ AboutParticle R x 1 pt eta phi (1 / 8) ∧ x.track = t ∧
      AboutParticle R y 3 (E - pt) etaC phiC (1 / 4) ∧ pfCharge y = 0) := by
  obtain ⟨t1, t2, t3, t4⟩ := T.facts A
  obtain ⟨c1, -, -, -, c4, -, -, c6⟩ := C.facts A
  have t2 := t2 hpt
  obtain ⟨vp, vE, vσ, hn, hneu, -, eT, eC, L⟩ := electron_region A ht hm hc hh T C hT hC hE hM hS hpt he hE0 (by rw [abs_of_nonneg hσ0]; exact hσ) hd hd0
  obtain ⟨a1, a2⟩ := abs_le.mp t1
  obtain ⟨d1, d2⟩ := abs_le.mp c1
  obtain ⟨s1, s2⟩ := abs_le.mp c4
  have key (he : t.hwPt.toInt < c.hwPt.toInt ∨ (c.hwPt.toInt < t.hwPt.toInt ∧ (c.hwPt.toInt - t.hwPt.toInt) ^ 2 < 4 * c.hwPtErr.toInt ^ 2)) :
      (regionSingle r).photon = (if t.hwPt.toInt < c.hwPt.toInt ∧ 3 * c.hwPtErr.toInt ^ 2 < 2 * (c.hwPt.toInt - t.hwPt.toInt) ^ 2 then c.hwPt.toInt - t.hwPt.toInt else 0) ∧
      RegionGives NT NC NE NM NS r fun l => l.map particleView = [(1, (regionSingle r).p, (regionSingle r).T.hwEta.toInt, (regionSingle r).T.hwPhi.toInt, some t)] ++
        (if (regionSingle r).photon = 0 then [] else [(3, (regionSingle r).photon, (regionSingle r).C.hwEta.toInt, (regionSingle r).C.hwPhi.toInt, none)]) := by
    have he' : (regionSingle r).p < (regionSingle r).E ∨ ((regionSingle r).E < (regionSingle r).p ∧
        ((regionSingle r).E - (regionSingle r).p) ^ 2 < 4 * (regionSingle r).C.hwPtErr.toInt ^ 2) := by rw [vp, vE, vσ]; exact he
    have hph := (C103_electron (regionSingle r) (by rw [vp]; exact t2) hn he').2.2.1
    rw [vp, vE, vσ] at hph
    refine ⟨hph, ?_⟩
    have hele : (regionSingle r).electron := ⟨hn, .inr (by rw [show (regionSingle r).inEm = (regionSingle r).p from if_pos hn]; exact he')⟩
    have hk : (regionSingle r).kept := ⟨by rw [vp]; omega, .inr (.inl hele)⟩
    unfold Single.particles at L
    rwa [if_pos hk, if_pos hele, hneu, if_pos rfl, List.append_nil] at L
  refine ⟨fun hx => ?_, fun hx => ?_⟩
  · have hc' : t.hwPt.toInt < c.hwPt.toInt ∨ (c.hwPt.toInt < t.hwPt.toInt ∧ (c.hwPt.toInt - t.hwPt.toInt) ^ 2 < 4 * c.hwPtErr.toInt ^ 2) := by
      rcases hx with ⟨hx, -⟩ | ⟨hx, hy⟩
      · left
        norm_num at hx
        have : (t.hwPt.toInt : ℝ) < c.hwPt.toInt := by linarith
        exact_mod_cast this
      · right
        norm_num at hx hy
        have h1 : (c.hwPt.toInt : ℝ) < t.hwPt.toInt := by linarith
        refine ⟨by exact_mod_cast h1, ?_⟩
        have h2 : (t.hwPt.toInt - c.hwPt.toInt : ℝ) < 2 * c.hwPtErr.toInt := by linarith
        have h1 : c.hwPt.toInt < t.hwPt.toInt := by exact_mod_cast h1
        have h2 : t.hwPt.toInt - c.hwPt.toInt < 2 * c.hwPtErr.toInt := by exact_mod_cast h2
        nlinarith
    obtain ⟨hph, L⟩ := key hc'
    have hno : ¬ (t.hwPt.toInt < c.hwPt.toInt ∧ 3 * c.hwPtErr.toInt ^ 2 < 2 * (c.hwPt.toInt - t.hwPt.toInt) ^ 2) := by
      rcases hx with ⟨-, hx⟩ | ⟨hx, -⟩
      · exact excess_under c1 t1 c4 hx
      · rintro ⟨k, -⟩
        have k : (t.hwPt.toInt : ℝ) < c.hwPt.toInt := by exact_mod_cast k
        norm_num at hx
        linarith
    rw [if_neg hno] at hph
    rw [hph, if_pos rfl, List.append_nil] at L
    refine regionGives_mono L fun l hl => ?_
    obtain ⟨x, e, hv⟩ := views_one hl
    exact ⟨x, e, about_of A hv (by rw [vp]; linarith [t1]) (by rw [eT]; exact t4), track_of hv⟩
  · have ho := excess_over c1 t1 c4 hσ0 hx
    obtain ⟨hph, L⟩ := key (.inl ho.1)
    rw [if_pos ho] at hph
    rw [hph, if_neg (by omega)] at L
    refine regionGives_mono L fun l hl => ?_
    obtain ⟨x, y, e, hv, hw⟩ := views_two hl
    refine ⟨x, y, e, about_of A hv (by rw [vp]; linarith [t1]) (by rw [eT]; exact t4), track_of hv, about_of A hw ?_ (by rw [eC]; exact c6), charge_of hw⟩
    push_cast
    rw [abs_le]
    constructor <;> linarith

/-- **C108.** An electron whose track and cluster are given the very same pt, from 20.125 GeV on, is lost: there is no particle at all. -/
theorem C108_lost_electron (A : IEEE R) {r : InputRegion} {t : PropagatedTrack} {c : CaloCluster} {pt err eta phi emE σ etaC phiC : ℝ} {b : Bool}
    (ht : r.track = [t]) (hm : r.muon = []) (hc : r.emcalo = [c]) (hh : r.calo = [])
    (T : RealTrack R t pt err eta phi) (C : RealCluster R c pt emE σ etaC phiC b)
    (hT : 0 < NT) (hC : 0 < NC) (hE : 0 < NE) (hM : 0 < NM) (hS : 0 < NS)
    (hpt : 20.125 ≤ pt) (he : 0 ≤ err ∧ err ≤ 4095) (hσ : |σ| ≤ 5792)
    (hd : deltaR (eta, phi) (etaC, phiC) ≤ 0.0338) (hd0 : 0.0462 ≤ deltaR (eta, phi) (0, 0)) :
    RegionGives NT NC NE NM NS r fun l => l = [] := by
  norm_num at hpt
  have heq : t.hwPt = c.hwPt := by
    obtain ⟨_, _, _, -, -, f1⟩ := T.fill
    obtain ⟨_, f2⟩ := C.fill
    exact Except.ok.inj ((fillPropagated_pt f1).symm.trans (fillCluster_pt f2))
  obtain ⟨t1, t2, -⟩ := T.facts A
  have t2 := t2 (by linarith)
  obtain ⟨vp, vE, -, hn, hneu, hends, -, -, L⟩ := electron_region A ht hm hc hh T C hT hC hE hM hS (by linarith) he (by linarith) hσ hd hd0
  obtain ⟨h1, h2, h3⟩ := C103_equal_pt (regionSingle r) (by rw [vp]; exact t2) hn (by rw [vp, vE, heq])
  have h80 : 80 ≤ (regionSingle r).p := by
    rw [vp]
    have : (79 : ℝ) < t.hwPt.toInt := by have := (abs_le.mp t1).1; linarith
    have : (79 : ℤ) < t.hwPt.toInt := by exact_mod_cast this
    omega
  have h3 := h3 hends (by split <;> omega)
  have hk : ¬ (regionSingle r).kept := fun hk => by
    rw [show (regionSingle r).charged = _ from if_pos hk] at h3
    exact absurd h3 (by simp)
  unfold Single.particles at L
  rw [if_neg hk, h2, hneu, if_pos rfl] at L
  exact regionGives_mono L fun l hl => List.map_eq_nil_iff.mp hl

/-- **C108.** A muon: a track and a muon, the pt of the two within half the muon's, give a muon with the track's pt, direction and charge. -/
theorem C108_muon (A : IEEE R) {r : InputRegion} {t : PropagatedTrack} {m : Muon} {pt err eta phi μ etaM phiM : ℝ}
    (ht : r.track = [t]) (hm : r.muon = [m]) (hc : r.emcalo = []) (hh : r.calo = [])
    (T : RealTrack R t pt err eta phi) (M : RealMuon R m μ etaM phiM)
    (hT : 0 < NT) (hC : 0 < NC) (hE : 0 < NE) (hM : 0 < NM) (hS : 0 < NS)
    (hpt : 1 / 8 ≤ pt) (he : 0 ≤ err ∧ err ≤ 4095) (hμ : |μ - pt| ≤ μ / 2 - 0.69)
    (hd : deltaR (etaM, phiM) (eta, phi) ≤ 0.1938) :
    RegionGives NT NC NE NM NS r fun l => ∃ x, l = [x] ∧ AboutParticle R x 4 pt eta phi (1 / 8) ∧ x.track = t := by
  obtain ⟨t1, t2, t3, t4⟩ := T.facts A
  obtain ⟨m1, m2⟩ := M.facts A
  have t2 := t2 hpt
  have O : RegionOne r := ⟨by rw [ht]; simp, by rw [hc]; simp, by rw [hh]; simp, by rw [hm]; simp, by rw [ht]; simpa using t2, fun _ h => absurd hc h⟩
  have eT : (regionSingle r).T = fw_track t := by simp [regionSingle, ht]
  have eM : (regionSingle r).M = fw_mu m := by simp [regionSingle, hm]
  have eC : (regionSingle r).C = EmCaloObj.clear := by simp [regionSingle, hc]
  have eH : (regionSingle r).H = HadCaloObj.clear := by simp [regionSingle, hh]
  have vE : (regionSingle r).E = 0 := by unfold Single.E; rw [eC]; rfl
  have vq : (regionSingle r).q = 0 := by unfold Single.q; rw [eH]; rfl
  have vm : (regionSingle r).H.hwEmPt.toInt = 0 := by rw [eH]; rfl
  have vp : (regionSingle r).p = t.hwPt.toInt := by unfold Single.p; rw [eT]; exact fw_pt _
  have vM : (regionSingle r).M.hwPt.toInt = m.hwPt.toInt := by rw [eM]; exact fw_pt _
  have ve : (regionSingle r).err = t.hwCaloPtErr.toInt := by unfold Single.err; rw [eT]; exact fw_pt _
  have he0 : 0 ≤ t.hwCaloPtErr.toInt := round_nonneg t3 he.1
  have he1 : t.hwCaloPtErr.toInt ≤ 16384 := by
    have : (t.hwCaloPtErr.toInt : ℝ) ≤ 16384 := by have := (abs_le.mp t3).2; linarith [he.2]
    exact_mod_cast this
  have hg : (regionSingle r).Good := by
    refine ⟨by rw [vp]; omega, by rw [ve]; exact ⟨he0, he1⟩, by rw [vE], ?_, by rw [vq], by rw [vm]⟩
    rw [eC]; decide
  have L := C108_list (NT := NT) (NC := NC) (NE := NE) (NM := NM) (NS := NS) O hT hC hE hM hS hg
  have hmu : (regionSingle r).mu := by
    obtain ⟨a1, a2⟩ := abs_le.mp t1
    obtain ⟨b1, b2⟩ := abs_le.mp m1
    norm_num at hμ
    obtain ⟨g1, g2⟩ := abs_le.mp hμ
    have f1 : (2 * (m.hwPt.toInt - t.hwPt.toInt) : ℝ) < m.hwPt.toInt - 2 := by linarith
    have f2 : (2 * (t.hwPt.toInt - m.hwPt.toInt) : ℝ) < m.hwPt.toInt - 2 := by linarith
    have f1 : 2 * (m.hwPt.toInt - t.hwPt.toInt) < m.hwPt.toInt - 2 := by exact_mod_cast f1
    have f2 : 2 * (t.hwPt.toInt - m.hwPt.toInt) < m.hwPt.toInt - 2 := by exact_mod_cast f2
    refine ⟨by rw [vM]; omega, ?_, by rw [vM, vp]; omega⟩
    rw [eT, eM]
    have k := (C93_cones (fw_mu m).hwEta (fw_mu m).hwPhi (fw_track t).hwEta (fw_track t).hwPhi).1
    rw [dr2_int_eq_dist2] at k
    exact (cone_near k m2 t4).2 (hd.trans (by norm_num))
  obtain ⟨-, -, p3, p4⟩ := C103_muon (regionSingle r) (by rw [vp]; exact t2) hmu
  have hs : (regionSingle r).sub = 0 := by unfold Single.sub; rw [vE]; split <;> rfl
  have hr : (regionSingle r).rest = 0 := if_pos (.inl (by rw [hs, vq]; decide))
  have hk : (regionSingle r).kept := ⟨by rw [vp]; omega, .inl hmu⟩
  unfold Single.particles at L
  rw [if_pos hk, if_neg (fun h => h.1.1 hmu), if_pos hmu, p3, vE, if_pos rfl, List.append_nil, p4, hr, if_pos rfl, List.append_nil, ht, List.head?_cons] at L
  refine regionGives_mono L fun l hl => ?_
  obtain ⟨x, e, hv⟩ := views_one hl
  exact ⟨x, e, about_of A hv (by rw [vp]; linarith [t1]) (by rw [eT]; exact t4), track_of hv⟩

/-- A case: a region with a track of 30 GeV, its calorimeter cluster of 40 and nothing else has a charged hadron of 30 GeV and a neutral one of 10. -/
example (A : IEEE R) : ∃ r : InputRegion, RegionGives 22 15 13 2 20 r fun l => ∃ x y, l = [x, y] ∧ AboutParticle R x 0 30 0.5 0.25 (1 / 8) ∧
    AboutParticle R y 2 10 0.5 0.25 (1 / 4) := by
  have f30 : IsFloat (30 : ℝ) ∧ |(30 : ℝ)| ≤ 8191 := ⟨⟨30, 0, by norm_num, by norm_num, by norm_num, by norm_num⟩, by norm_num [abs_of_pos]⟩
  have f40 : IsFloat (40 : ℝ) ∧ |(40 : ℝ)| ≤ 8191 := ⟨⟨40, 0, by norm_num, by norm_num, by norm_num, by norm_num⟩, by norm_num [abs_of_pos]⟩
  have f4 : IsFloat (4 : ℝ) ∧ |(4 : ℝ)| ≤ 8191 := ⟨⟨4, 0, by norm_num, by norm_num, by norm_num, by norm_num⟩, by norm_num [abs_of_pos]⟩
  have e1 : |(0.5 : ℝ)| ≤ 1.1 := by norm_num [abs_of_pos]
  have e2 : |(0.25 : ℝ)| ≤ 1.1 := by norm_num [abs_of_pos]
  have F : ∀ x ∈ [(40 : ℝ), 4, 4], IsFloat x ∧ |x| ≤ 8191 := by
    intro x hx
    simp only [List.mem_cons, List.not_mem_nil, or_false] at hx
    rcases hx with rfl | rfl | rfl <;> assumption
  have G : ∀ x ∈ [(30 : ℝ), 4], IsFloat x ∧ |x| ≤ 8191 := by
    intro x hx
    simp only [List.mem_cons, List.not_mem_nil, or_false] at hx
    rcases hx with rfl | rfl <;> assumption
  have G3 : ∀ x ∈ [(30 : ℝ), 4, 4], IsFloat x ∧ |x| ≤ 8191 := by
    intro x hx
    simp only [List.mem_cons, List.not_mem_nil, or_false] at hx
    rcases hx with rfl | rfl | rfl <;> assumption
  obtain ⟨h, hh, -⟩ := C61_cluster A (eta := 0.5) (phi := 0.25) false 0 F (e1.trans (by norm_num)) (e2.trans (by norm_num))
  obtain ⟨t, ht, -⟩ := C61_propagated A Dump.zero (eta := 0.5) (phi := 0.25) 0 G3 (e1.trans (by norm_num)) (e2.trans (by norm_num))
  refine ⟨⟨0, 0, 0, 0, 0, 0, 0, [h], [], [t], []⟩, ?_⟩
  refine regionGives_mono ((C108_hadron A (pt := 30) (err := 4) (eta := 0.5) (phi := 0.25) (Q := 40) (emQ := 4) (errQ := 4) (etaQ := 0.5) (phiQ := 0.25) (em := false)
    rfl rfl rfl rfl ⟨⟨_, 4, 0, f4.1, f4.2, ht⟩, G, e1, e2⟩ ⟨⟨0, hh⟩, F, e1, e2⟩ (by norm_num) (by norm_num) (by norm_num) (by norm_num) (by norm_num)
    (by norm_num) (by norm_num) (by norm_num) (by norm_num) (by simp) (by norm_num) (by simp [deltaR]; norm_num)).2 (by norm_num)) ?_
  rintro l ⟨x, y, e, hx, -, hy, -⟩
  refine ⟨x, y, e, hx, ?_⟩
  have : (40 - 30 : ℝ) = 10 := by norm_num
  rwa [this] at hy

/-- A case: an electron of 30 GeV whose cluster has 30 GeV is lost. -/
example (A : IEEE R) : ∃ (r : InputRegion) (t : PropagatedTrack) (c : CaloCluster), r.track = [t] ∧ r.emcalo = [c] ∧ RealTrack R t 30 4 0.5 0.25 ∧
    RealCluster R c 30 4 4 0.5 0.25 true ∧ RegionGives 22 15 13 2 20 r fun l => l = [] := by
  have f30 : IsFloat (30 : ℝ) ∧ |(30 : ℝ)| ≤ 8191 := ⟨⟨30, 0, by norm_num, by norm_num, by norm_num, by norm_num⟩, by norm_num [abs_of_pos]⟩
  have f4 : IsFloat (4 : ℝ) ∧ |(4 : ℝ)| ≤ 8191 := ⟨⟨4, 0, by norm_num, by norm_num, by norm_num, by norm_num⟩, by norm_num [abs_of_pos]⟩
  have e1 : |(0.5 : ℝ)| ≤ 1.1 := by norm_num [abs_of_pos]
  have e2 : |(0.25 : ℝ)| ≤ 1.1 := by norm_num [abs_of_pos]
  have G : ∀ x ∈ [(30 : ℝ), 4], IsFloat x ∧ |x| ≤ 8191 := by
    intro x hx
    simp only [List.mem_cons, List.not_mem_nil, or_false] at hx
    rcases hx with rfl | rfl <;> assumption
  have G3 : ∀ x ∈ [(30 : ℝ), 4, 4], IsFloat x ∧ |x| ≤ 8191 := by
    intro x hx
    simp only [List.mem_cons, List.not_mem_nil, or_false] at hx
    rcases hx with rfl | rfl | rfl <;> assumption
  obtain ⟨c, hc, -⟩ := C61_cluster A (eta := 0.5) (phi := 0.25) true 0 G3 (e1.trans (by norm_num)) (e2.trans (by norm_num))
  obtain ⟨t, ht, -⟩ := C61_propagated A Dump.zero (eta := 0.5) (phi := 0.25) 0 G3 (e1.trans (by norm_num)) (e2.trans (by norm_num))
  have T : RealTrack R t 30 4 0.5 0.25 := ⟨⟨_, 4, 0, f4.1, f4.2, ht⟩, G, e1, e2⟩
  have C : RealCluster R c 30 4 4 0.5 0.25 true := ⟨⟨0, hc⟩, G3, e1, e2⟩
  refine ⟨⟨0, 0, 0, 0, 0, 0, 0, [], [c], [t], []⟩, t, c, rfl, rfl, T, C, ?_⟩
  refine C108_lost_electron A rfl rfl rfl rfl T C (by norm_num) (by norm_num) (by norm_num) (by norm_num) (by norm_num)
    (by norm_num) (by norm_num) (by norm_num [abs_of_pos]) (by simp [deltaR]; norm_num) ?_
  exact Real.le_sqrt_of_sq_le (by norm_num)

end Verif
