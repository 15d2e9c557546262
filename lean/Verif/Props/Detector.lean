import Verif.Proofs.Detector
import Verif.Props.PFOutputs
/-! # C71 — from the detector through the regions to particle flow -/
namespace Verif
open Spec

variable {NT NC NE NM NS : Nat}

section
variable {T U : Type} [RegObj T] [LawfulReg T] [RegObj U] [LawfulReg U]

/-- **C71.** Every direction in the detector is in the area for which some region is responsible. -/
theorem C71_cover (p : Pos) : ∃ ir : Fin 18, Fiducial (regionEta ir) (regionPhi ir) p := by
  have h2 : ∀ (ie : Fin 3) (ip : Fin 6), ∃ ir : Fin 18, regionEta ir = ie ∧ regionPhi ir = ip := by decide
  have h1 : ∃ ie : Fin 3, (ie = 0 → p.eta ≤ -114) ∧ (ie = 1 → -114 ≤ p.eta ∧ p.eta ≤ 114) ∧ (ie = 2 → 114 ≤ p.eta) := by
    by_cases a : p.eta ≤ -114
    · exact ⟨0, fun _ => a, fun h => absurd h (by decide), fun h => absurd h (by decide)⟩
    · by_cases b : p.eta ≤ 114
      · exact ⟨1, fun h => absurd h (by decide), fun _ => ⟨by omega, b⟩, fun h => absurd h (by decide)⟩
      · exact ⟨2, fun h => absurd h (by decide), fun h => absurd h (by decide), fun _ => by omega⟩
  obtain ⟨ie, hie⟩ := h1
  have h3 : ∃ ip : Fin 6, -120 ≤ (p.phi - 120 * (2 * (ip.val : Int) + 1)).bmod 1440 ∧ (p.phi - 120 * (2 * (ip.val : Int) + 1)).bmod 1440 ≤ 120 := by
    refine ⟨⟨((p.phi % 1440) / 240).toNat, by omega⟩, ?_⟩
    have d := Int.bmod_def (p.phi - 120 * (2 * ((((p.phi % 1440) / 240).toNat : Nat) : Int) + 1)) 1440
    simp only []
    omega
  obtain ⟨ip, hip⟩ := h3
  obtain ⟨ir, rfl, rfl⟩ := h2 ie ip
  exact ⟨ir, hie.1, hie.2.1, hie.2.2, hip.1, hip.2⟩

/-- **C71.** Distances computed in a region are the distances in the detector: for objects of any two kinds. -/
theorem C71_distance {NF1 NF2 NSEC1 NSEC2 NSE1 NSE2 NREG1 NREG2 : Nat} {fib1 rest1 : Arr (NF1 * N_IN_SECTORS) (List T)}
    {fib2 rest2 : Arr (NF2 * N_IN_SECTORS) (List U)} {reg1 : Arr N_OUT_REGIONS (Arr NREG1 T)} {reg2 : Arr N_OUT_REGIONS (Arr NREG2 U)}
    (hrun1 : regionize_ref NSEC1 NSE1 NREG1 fib1 = .ok (rest1, reg1)) (hrun2 : regionize_ref NSEC2 NSE2 NREG2 fib2 = .ok (rest2, reg2))
    (hphi1 : ∀ s, ∀ o ∈ arrivals NSEC1 fib1 s, 0 < ptOf o → -60 ≤ (RegObj.phi o).toInt ∧ (RegObj.phi o).toInt ≤ 60)
    (hphi2 : ∀ s, ∀ o ∈ arrivals NSEC2 fib2 s, 0 < ptOf o → -60 ≤ (RegObj.phi o).toInt ∧ (RegObj.phi o).toInt ≤ 60)
    (ir : Fin 18) (i : Fin NREG1) (j : Fin NREG2) (hi : 0 < ptOf (reg1 ir i)) (hj : 0 < ptOf (reg2 ir j)) :
    ∃ s, ∃ o ∈ arrivals NSEC1 fib1 s, ∃ s', ∃ o' ∈ arrivals NSEC2 fib2 s',
      reg1 ir i = place (regionEta ir) (regionPhi ir) s o ∧ reg2 ir j = place (regionEta ir) (regionPhi ir) s' o' ∧
      dr2_int (RegObj.eta (reg1 ir i)) (RegObj.phi (reg1 ir i)) (RegObj.eta (reg2 ir j)) (RegObj.phi (reg2 ir j)) =
        detDist2 (posOf s o) (posOf s' o') := by
  obtain ⟨s, o, ho, hin, e⟩ := region_source hrun1 hphi1 ir i hi
  obtain ⟨s', o', ho', hin', e'⟩ := region_source hrun2 hphi2 ir j hj
  refine ⟨s, o, ho, s', o', ho', e, e', ?_⟩
  rw [dr2_int_eq_dist2, e, e', dr2_place hin hin']

/-- **C71.** The overlap of the regions is wide enough for every link (the largest radius is 45.8 units): an object
within 57 units of one for which the region is responsible is delivered to the region, if that is not overfull. -/
theorem C71_neighbours {NFPS NSEC NSE NREG : Nat} {fib rest : Arr (NFPS * N_IN_SECTORS) (List U)}
    {regions : Arr N_OUT_REGIONS (Arr NREG U)} (hrun : regionize_ref NSEC NSE NREG fib = .ok (rest, regions)) (ir : Fin 18)
    (hfit : Fits NSE NREG (regionEta ir) (regionPhi ir) (arrivals NSEC fib))
    {s s' : Fin 12} {o : T} {o' : U} (hf : Fiducial (regionEta ir) (regionPhi ir) (posOf s o)) (hp : Proper o)
    (ho' : o' ∈ arrivals NSEC fib s') (hp' : Proper o') (hd : detDist2 (posOf s o) (posOf s' o') ≤ 57 ^ 2) :
    ∃ i, regions ir i = place (regionEta ir) (regionPhi ir) s' o' ∧ Inside (regionEta ir) (regionPhi ir) s' o' := by
  obtain ⟨h1, h2, h3⟩ := near_inside hf hp hp' hd
  obtain ⟨k, hk, e⟩ := inside_sector (ie := regionEta ir) hp' h2 h3
  subst hk
  obtain ⟨i, hi⟩ := region_complete hrun ir hfit k o' ho' hp'.1 h1.1
  exact ⟨i, hi.trans e, h1⟩

end

theorem inside_proper {T : Type} [RegObj T] {ie : Fin 3} {ip : Fin 6} {s : Fin 12} {o : T} (h : Inside ie ip s o) (hp : 0 < ptOf o)
    (hφ : -60 ≤ (RegObj.phi o).toInt ∧ (RegObj.phi o).toInt ≤ 60) : Proper o := by
  have hs := of_decide_eq_true h.1
  have he : ∀ ie, -342 ≤ etaLo ie ∧ etaHi ie ≤ 342 := by decide
  have := he ie
  exact ⟨hp, by omega, by omega, hφ.1, hφ.2⟩

/-- **C71.** Muons, end to end.  The tracks of the detector go through the regionizer and particle flow is run on one
region.  For a muon for which the region is responsible, the muon candidate is the track of the whole detector that
matches best; it is null if the detector has no track that could be that of the muon. -/
theorem C71_muon {NFPS NSEC NSE : Nat} {fib rest : Arr (NFPS * N_IN_SECTORS) (List TkObj)} {tk : Arr N_OUT_REGIONS (Arr NT TkObj)}
    (hreg : regionize_ref NSEC NSE NT fib = .ok (rest, tk))
    (hphi : ∀ s, ∀ t ∈ arrivals NSEC fib s, 0 < ptOf t → -60 ≤ t.hwPhi.toInt ∧ t.hwPhi.toInt ≤ 60)
    (ir : Fin 18) (hfit : Fits NSE NT (regionEta ir) (regionPhi ir) (arrivals NSEC fib))
    (inp : PFInputs NT NC NE NM) (htk : inp.track = tk ir) (m : Fin NM) (sm : Fin 12) (mu : MuObj)
    (hm : inp.mu m = place (regionEta ir) (regionPhi ir) sm mu) (hmu : Proper mu)
    (hfid : Fiducial (regionEta ir) (regionPhi ir) (posOf sm mu))
    (old : PFOutputs NT NE NS NM) (mem : PFScratch NC NS) (out : PFOutputs NT NE NS NM) (hrun : pfalgo3_full inp old mem = .ok out) :
    (∃ st, ∃ t ∈ arrivals NSEC fib st, Proper t ∧ CouldBe sm mu st t ∧
      (∀ st', ∀ t' ∈ arrivals NSEC fib st', Proper t' → CouldBe sm mu st' t' → ptGap mu t ≤ ptGap mu t') ∧
      out.outmu m =
        { hwPt := t.hwPt, hwEta := (place (regionEta ir) (regionPhi ir) st t).hwEta,
          hwPhi := (place (regionEta ir) (regionPhi ir) st t).hwPhi, hwId := 4, hwZ0 := t.hwZ0 }) ∨
    ((∀ st', ∀ t' ∈ arrivals NSEC fib st', Proper t' → ¬ CouldBe sm mu st' t') ∧
      out.outmu m = { hwPt := 0, hwEta := 0, hwPhi := 0, hwId := 0, hwZ0 := 0 }) := by
  have hsort := C33_sorted NSEC NSE NT fib rest tk hreg ir
  have hpos : ∀ t, 0 ≤ (inp.track t).hwPt.toInt := by
    intro t
    rw [htk]
    rcases hsort.2 t with h | h
    · exact le_of_lt h
    · rw [h]; decide
  have hin := fiducial_inside hfid hmu
  have hmpt : (inp.mu m).hwPt = mu.hwPt := by rw [hm]; rfl
  have hmpos : 0 < mu.hwPt.toInt := hmu.1
  -- a track of the detector that could match is a track of the region that could match
  have fwd : ∀ st', ∀ t' ∈ arrivals NSEC fib st', Proper t' → CouldBe sm mu st' t' →
      ∃ i, inp.track i = place (regionEta ir) (regionPhi ir) st' t' ∧ muDist2 inp m i < 2101 ∧ muDpt inp m i = ptGap mu t' := by
    intro st' t' ht' hp' hc
    obtain ⟨i, hi, hins⟩ := C71_neighbours hreg ir hfit hfid hmu ht' hp' (le_of_lt (lt_trans hc.1 (by norm_num)))
    refine ⟨i, by rw [htk]; exact hi, ?_, ?_⟩
    · have := dr2_place hin hins
      unfold muDist2
      rw [htk, hm, hi]
      exact this ▸ hc.1
    · unfold muDpt ptGap
      rw [htk, hi, hmpt]
      rfl
  have bwd : ∀ i, muDist2 inp m i < 2101 → muDpt inp m i < (inp.mu m).hwPt.toInt / 2 →
      ∃ st', ∃ t' ∈ arrivals NSEC fib st', Proper t' ∧ inp.track i = place (regionEta ir) (regionPhi ir) st' t' ∧ CouldBe sm mu st' t' ∧
        muDpt inp m i = ptGap mu t' := by
    intro i h1 h2
    have hp : 0 < ptOf (tk ir i) := by
      rcases hsort.2 i with h | h
      · exact h
      · exfalso
        unfold muDpt at h2
        rw [htk, h, hmpt] at h2
        have : (RegObj.clear : TkObj).hwPt.toInt = 0 := rfl
        rw [this] at h2
        omega
    obtain ⟨st', t', ht', hins, e⟩ := region_source hreg hphi ir i hp
    have hpt' : 0 < ptOf t' := by rw [e, ptOf_place] at hp; exact hp
    have hgap : muDpt inp m i = ptGap mu t' := by
      unfold muDpt ptGap
      rw [htk, e, hmpt]
      rfl
    refine ⟨st', t', ht', inside_proper hins hpt' (hphi _ _ ht' hpt'), by rw [htk]; exact e, ⟨?_, ?_⟩, hgap⟩
    · have := dr2_place hin hins
      rw [← this]
      unfold muDist2 at h1
      rw [htk, hm, e] at h1
      exact h1
    · rw [← hgap, ← hmpt]; exact h2
  have h10 := C10_muons inp old mem hpos out hrun m
  by_cases hex : ∃ i, muDist2 inp m i < 2101 ∧ muDpt inp m i < (inp.mu m).hwPt.toInt / 2
  · left
    obtain ⟨i, a, b⟩ := hex
    obtain ⟨t, ht⟩ := C10_muons_exhaustive inp m (by rw [hmpt]; exact hmpos) i a b
    have ho := h10.1 t ht
    obtain ⟨st, t0, m0, p0, e0, c0, g0⟩ := bwd t ht.2.1.1 ht.2.1.2
    refine ⟨st, t0, m0, p0, c0, ?_, ?_⟩
    · intro st' t' ht' hp' hc
      obtain ⟨j, ej, dj, gj⟩ := fwd st' t' ht' hp' hc
      rw [← g0, ← gj]
      exact (ht.2.2 j ⟨dj, by rw [gj, hmpt]; exact hc.2⟩).1
    · rw [ho, e0]; rfl
  · right
    refine ⟨fun st' t' ht' hp' hc => ?_, h10.2 fun ⟨t, _, a, b⟩ => hex ⟨t, a, b⟩⟩
    obtain ⟨j, ej, dj, gj⟩ := fwd st' t' ht' hp' hc
    exact hex ⟨j, dj, by rw [gj, hmpt]; exact hc.2⟩

/-- **C71.** With at most `NMU` muons in the detector every muon is delivered to a region that is responsible for it. -/
theorem C71_every_muon {NMU : Nat} (inn : Arr N_IN_SECTORS (Arr NMU MuObj)) (later : Arr N_MUON_SECTORS (List MuObj))
    (hphi : ∀ ics io, 0 < (inn ics io).hwPt.toInt → -60 ≤ (inn ics io).hwPhi.toInt ∧ (inn ics io).hwPhi.toInt ≤ 60)
    (hn : (muIndices inn).length ≤ NMU) (rest regions)
    (hrun : regionize_muon_ref NMU (fun s => List.ofFn (merge_muon_in inn s) ++ later s) = .ok (rest, regions))
    (s : Fin 12) (io : Fin NMU) (hp : Proper (inn s io)) :
    ∃ ir m, Fiducial (regionEta ir) (regionPhi ir) (posOf s (inn s io)) ∧
      regions ir m = place (regionEta ir) (regionPhi ir) s (inn s io) := by
  obtain ⟨ir, hf⟩ := C71_cover (posOf s (inn s io))
  obtain ⟨r, h1, h2⟩ := C36_muons inn later hphi
  rw [hrun] at h1
  cases h1
  obtain ⟨L, e1, _, e3, _, _, e6⟩ := h2 ir
  have hin := near_inside (s' := s) hf hp hp (by unfold detDist2; simp)
  have hm := e6 hn (s, io) hp.1 hin.1.1 hin.2.1 hin.2.2
  obtain ⟨m, hm⟩ := Holds.exists e1 (by rw [List.length_map]; exact e3) (List.mem_map.mpr ⟨(s, io), hm, rfl⟩)
  exact ⟨ir, m, hf, hm⟩

/-- **C71.** A whole event: every muon of the detector gets, in some region, the track of the whole detector that
matches it best — or none, if there is none. -/
theorem C71_event {NFPS NSEC NSE : Nat} (inn : Arr N_IN_SECTORS (Arr NM MuObj)) (later : Arr N_MUON_SECTORS (List MuObj))
    (hphim : ∀ ics io, 0 < (inn ics io).hwPt.toInt → -60 ≤ (inn ics io).hwPhi.toInt ∧ (inn ics io).hwPhi.toInt ≤ 60)
    (hn : (muIndices inn).length ≤ NM) (restm) (regmu : Arr N_OUT_REGIONS (Arr NM MuObj))
    (hregm : regionize_muon_ref NM (fun s => List.ofFn (merge_muon_in inn s) ++ later s) = .ok (restm, regmu))
    {fib rest : Arr (NFPS * N_IN_SECTORS) (List TkObj)} {tk : Arr N_OUT_REGIONS (Arr NT TkObj)}
    (hreg : regionize_ref NSEC NSE NT fib = .ok (rest, tk))
    (hphi : ∀ s, ∀ t ∈ arrivals NSEC fib s, 0 < ptOf t → -60 ≤ t.hwPhi.toInt ∧ t.hwPhi.toInt ≤ 60)
    (hfit : ∀ ie ip, Fits NSE NT ie ip (arrivals NSEC fib))
    (inp : Fin 18 → PFInputs NT NC NE NM) (htk : ∀ ir, (inp ir).track = tk ir) (hmu : ∀ ir, (inp ir).mu = regmu ir)
    (old : Fin 18 → PFOutputs NT NE NS NM) (mem : Fin 18 → PFScratch NC NS) (out : Fin 18 → PFOutputs NT NE NS NM)
    (hrun : ∀ ir, pfalgo3_full (inp ir) (old ir) (mem ir) = .ok (out ir))
    (s : Fin 12) (io : Fin NM) (hp : Proper (inn s io)) :
    ∃ ir m,
      (∃ st, ∃ t ∈ arrivals NSEC fib st, Proper t ∧ CouldBe s (inn s io) st t ∧
        (∀ st', ∀ t' ∈ arrivals NSEC fib st', Proper t' → CouldBe s (inn s io) st' t' → ptGap (inn s io) t ≤ ptGap (inn s io) t') ∧
        ((out ir).outmu m).hwPt = t.hwPt ∧ ((out ir).outmu m).hwZ0 = t.hwZ0 ∧ ((out ir).outmu m).hwId = 4) ∨
      ((∀ st', ∀ t' ∈ arrivals NSEC fib st', Proper t' → ¬ CouldBe s (inn s io) st' t') ∧ ((out ir).outmu m).hwPt = 0) := by
  obtain ⟨ir, m, hf, hm⟩ := C71_every_muon inn later hphim hn restm regmu hregm s io hp
  refine ⟨ir, m, ?_⟩
  rcases C71_muon hreg hphi ir (hfit _ _) (inp ir) (htk ir) m s (inn s io) (by rw [hmu]; exact hm) hp hf _ _ _ (hrun ir) with
    ⟨st, t, h1, h2, h3, h4, h5⟩ | ⟨h1, h2⟩
  · exact .inl ⟨st, t, h1, h2, h3, h4, by rw [h5], by rw [h5], by rw [h5]⟩
  · exact .inr ⟨h1, by rw [h2]⟩

/-- **C71.** The restriction to the area for which the region is responsible is needed: a muon in the overlap whose
tracks are all outside the region is lost there, whatever else happens. -/
theorem C71_border {NFPS NSEC NSE : Nat} {fib rest : Arr (NFPS * N_IN_SECTORS) (List TkObj)} {tk : Arr N_OUT_REGIONS (Arr NT TkObj)}
    (hreg : regionize_ref NSEC NSE NT fib = .ok (rest, tk))
    (hphi : ∀ s, ∀ t ∈ arrivals NSEC fib s, 0 < ptOf t → -60 ≤ t.hwPhi.toInt ∧ t.hwPhi.toInt ≤ 60)
    (ir : Fin 18) (inp : PFInputs NT NC NE NM) (htk : inp.track = tk ir) (m : Fin NM) (sm : Fin 12) (mu : MuObj)
    (hm : inp.mu m = place (regionEta ir) (regionPhi ir) sm mu) (hin : Inside (regionEta ir) (regionPhi ir) sm mu)
    (hno : ∀ st, ∀ t ∈ arrivals NSEC fib st, CouldBe sm mu st t → ¬ Inside (regionEta ir) (regionPhi ir) st t)
    (old : PFOutputs NT NE NS NM) (mem : PFScratch NC NS) (out : PFOutputs NT NE NS NM) (hrun : pfalgo3_full inp old mem = .ok out) :
    out.outmu m = { hwPt := 0, hwEta := 0, hwPhi := 0, hwId := 0, hwZ0 := 0 } := by
  have hsort := C33_sorted NSEC NSE NT fib rest tk hreg ir
  have hpos : ∀ t, 0 ≤ (inp.track t).hwPt.toInt := by
    intro t
    rw [htk]
    rcases hsort.2 t with h | h
    · exact le_of_lt h
    · rw [h]; decide
  have hmpt : (inp.mu m).hwPt = mu.hwPt := by rw [hm]; rfl
  refine (C10_muons inp old mem hpos out hrun m).2 fun ⟨i, h0, h1, h2⟩ => ?_
  have hp : 0 < ptOf (tk ir i) := by
    rcases hsort.2 i with h | h
    · exact h
    · exfalso
      unfold muDpt at h2
      rw [htk, h] at h2
      have : (RegObj.clear : TkObj).hwPt.toInt = 0 := rfl
      rw [this] at h2
      omega
  obtain ⟨st', t', ht', hins, e⟩ := region_source hreg hphi ir i hp
  refine hno st' t' ht' ⟨?_, ?_⟩ hins
  · have := dr2_place hin hins
    rw [← this]
    unfold muDist2 at h1
    rw [htk, hm, e] at h1
    exact h1
  · unfold muDpt at h2
    rw [htk, e, hmpt] at h2
    exact h2

/-- **C71.** EM clusters and calorimeter clusters.  For an EM cluster for which the region is responsible, the link
made in the region is to the nearest of all calorimeter clusters of the detector that could contain it, and there is
one as soon as the detector has such a cluster. -/
theorem C71_em_had {NFPS NSEC NSE : Nat} {fib rest : Arr (NFPS * N_IN_SECTORS) (List HadCaloObj)} {had : Arr N_OUT_REGIONS (Arr NC HadCaloObj)}
    (hreg : regionize_ref NSEC NSE NC fib = .ok (rest, had))
    (hphi : ∀ s, ∀ o ∈ arrivals NSEC fib s, 0 < ptOf o → -60 ≤ o.hwPhi.toInt ∧ o.hwPhi.toInt ≤ 60)
    (ir : Fin 18) (hfit : Fits NSE NC (regionEta ir) (regionPhi ir) (arrivals NSEC fib))
    (emcalo : Arr NE EmCaloObj) (e : Fin NE) (se : Fin 12) (em : EmCaloObj)
    (he : emcalo e = place (regionEta ir) (regionPhi ir) se em) (hem : Proper em)
    (hfid : Fiducial (regionEta ir) (regionPhi ir) (posOf se em)) :
    (∀ h, em2calo_link emcalo (had ir) e h = true → ∃ sh, ∃ o ∈ arrivals NSEC fib sh, Proper o ∧
      had ir h = place (regionEta ir) (regionPhi ir) sh o ∧ CouldHold se em sh o ∧
      ∀ sh', ∀ o' ∈ arrivals NSEC fib sh', Proper o' → CouldHold se em sh' o' →
        detDist2 (posOf se em) (posOf sh o) ≤ detDist2 (posOf se em) (posOf sh' o')) ∧
    ((∃ h, em2calo_link emcalo (had ir) e h = true) ↔ ∃ sh, ∃ o ∈ arrivals NSEC fib sh, Proper o ∧ CouldHold se em sh o) := by
  have hsort := C33_sorted NSEC NSE NC fib rest had hreg ir
  have hin := fiducial_inside hfid hem
  have hept : (emcalo e).hwPt = em.hwPt := by rw [he]; rfl
  have hepos : 0 < em.hwPt.toInt := hem.1
  have fwd : ∀ sh', ∀ o' ∈ arrivals NSEC fib sh', Proper o' → CouldHold se em sh' o' →
      ∃ i, had ir i = place (regionEta ir) (regionPhi ir) sh' o' ∧ (emcalo e).hwPt.toInt / 2 < (had ir i).hwEmPt.toInt ∧
        dist2 (emcalo e).hwEta (emcalo e).hwPhi (had ir i).hwEta (had ir i).hwPhi = detDist2 (posOf se em) (posOf sh' o') := by
    intro sh' o' ho' hp' hc
    obtain ⟨i, hi, hins⟩ := C71_neighbours hreg ir hfit hfid hem ho' hp' (le_of_lt (lt_trans hc.1 (by norm_num)))
    refine ⟨i, hi, ?_, ?_⟩
    · rw [hept, hi]; exact hc.2
    · rw [he, hi]; have q := dr2_place hin hins; exact q
  have bwd : ∀ i, (emcalo e).hwPt.toInt / 2 < (had ir i).hwEmPt.toInt →
      ∃ sh', ∃ o' ∈ arrivals NSEC fib sh', Proper o' ∧ had ir i = place (regionEta ir) (regionPhi ir) sh' o' ∧ em.hwPt.toInt / 2 < o'.hwEmPt.toInt ∧
        dist2 (emcalo e).hwEta (emcalo e).hwPhi (had ir i).hwEta (had ir i).hwPhi = detDist2 (posOf se em) (posOf sh' o') := by
    intro i h1
    have hp : 0 < ptOf (had ir i) := by
      rcases hsort.2 i with h | h
      · exact h
      · exfalso
        rw [h, hept] at h1
        have : (RegObj.clear : HadCaloObj).hwEmPt.toInt = 0 := rfl
        omega
    obtain ⟨sh', o', ho', hins, ei⟩ := region_source hreg hphi ir i hp
    have hpo' : 0 < ptOf o' := by rw [ei, ptOf_place] at hp; exact hp
    refine ⟨sh', o', ho', inside_proper hins hpo' (hphi _ _ ho' hpo'), ei, ?_, ?_⟩
    · rw [ei, hept] at h1; exact h1
    · rw [he, ei]; have q := dr2_place hin hins; exact q
  constructor
  · intro h hl
    have hl := (em2calo_link_iff emcalo (had ir) e h).mp hl
    obtain ⟨sh, o, ho, hp, ei, a, b⟩ := bwd h hl.1.1
    refine ⟨sh, o, ho, hp, ei, ⟨by rw [← b]; exact hl.1.2, a⟩, fun sh' o' ho' hp' hc => ?_⟩
    obtain ⟨j, ej, a', b'⟩ := fwd sh' o' ho' hp' hc
    rw [← b, ← b']
    exact (hl.2 j ⟨a', by rw [b']; exact hc.1⟩).1
  · constructor
    · rintro ⟨h, hl⟩
      have hl := (em2calo_link_iff emcalo (had ir) e h).mp hl
      obtain ⟨sh, o, ho, hp, ei, a, b⟩ := bwd h hl.1.1
      exact ⟨sh, o, ho, hp, by rw [← b]; exact hl.1.2, a⟩
    · rintro ⟨sh, o, ho, hp, hc⟩
      obtain ⟨j, ej, a', b'⟩ := fwd sh o ho hp hc
      obtain ⟨i, hi⟩ := firstMin_exists (P := fun h => (emcalo e).hwPt.toInt / 2 < (had ir h).hwEmPt.toInt ∧
        dist2 (emcalo e).hwEta (emcalo e).hwPhi (had ir h).hwEta (had ir h).hwPhi < 525)
        (f := fun h => dist2 (emcalo e).hwEta (emcalo e).hwPhi (had ir h).hwEta (had ir h).hwPhi) ⟨j, a', by rw [b']; exact hc.1⟩
      exact ⟨i, (em2calo_link_iff emcalo (had ir) e i).mpr hi⟩

/-- **C71.** Tracks and EM clusters.  For a track for which the region is responsible and that is no muon: if the
link made in the region is to a cluster, that is the nearest of all EM clusters of the detector; if it is to an empty
slot, the track is within the link radius of the centre of the region; and there is a link as soon as the detector has
an EM cluster within the radius. -/
theorem C71_tk_em {NFPS NSEC NSE : Nat} {fib rest : Arr (NFPS * N_IN_SECTORS) (List EmCaloObj)} {em : Arr N_OUT_REGIONS (Arr NE EmCaloObj)}
    (hreg : regionize_ref NSEC NSE NE fib = .ok (rest, em))
    (hphi : ∀ s, ∀ o ∈ arrivals NSEC fib s, 0 < ptOf o → -60 ≤ o.hwPhi.toInt ∧ o.hwPhi.toInt ≤ 60)
    (ir : Fin 18) (hfit : Fits NSE NE (regionEta ir) (regionPhi ir) (arrivals NSEC fib))
    (track : Arr NT TkObj) (isMu : Arr NT Bool) (t : Fin NT) (st : Fin 12) (tk : TkObj) (hmu : isMu t = false)
    (ht : track t = place (regionEta ir) (regionPhi ir) st tk) (htk : Proper tk)
    (hfid : Fiducial (regionEta ir) (regionPhi ir) (posOf st tk)) :
    (∀ c, tk2em_link (em ir) track isMu t c = true → 0 < ptOf (em ir c) → ∃ se, ∃ o ∈ arrivals NSEC fib se, Proper o ∧
      em ir c = place (regionEta ir) (regionPhi ir) se o ∧ detDist2 (posOf st tk) (posOf se o) < 84 ∧
      ∀ se', ∀ o' ∈ arrivals NSEC fib se', Proper o' → detDist2 (posOf st tk) (posOf se o) ≤ detDist2 (posOf st tk) (posOf se' o')) ∧
    (∀ c, tk2em_link (em ir) track isMu t c = true → ¬ 0 < ptOf (em ir c) →
      detDist2 (posOf st tk) ⟨etaC (regionEta ir), 120 * (2 * (regionPhi ir).val + 1)⟩ < 84) ∧
    ((∃ se, ∃ o ∈ arrivals NSEC fib se, Proper o ∧ detDist2 (posOf st tk) (posOf se o) < 84) →
      ∃ c, tk2em_link (em ir) track isMu t c = true) := by
  have hsort := C33_sorted NSEC NSE NE fib rest em hreg ir
  have hin := fiducial_inside hfid htk
  have fwd : ∀ se', ∀ o' ∈ arrivals NSEC fib se', Proper o' → detDist2 (posOf st tk) (posOf se' o') < 84 →
      ∃ i, em ir i = place (regionEta ir) (regionPhi ir) se' o' ∧
        dist2 (track t).hwEta (track t).hwPhi (em ir i).hwEta (em ir i).hwPhi = detDist2 (posOf st tk) (posOf se' o') := by
    intro se' o' ho' hp' hc
    obtain ⟨i, hi, hins⟩ := C71_neighbours hreg ir hfit hfid htk ho' hp' (le_of_lt (lt_trans hc (by norm_num)))
    exact ⟨i, hi, by rw [ht, hi]; have q := dr2_place hin hins; exact q⟩
  refine ⟨?_, ?_, ?_⟩
  · intro c hl hp
    have hl := ((tk2em_link_iff (em ir) track isMu t c).mp hl).2
    obtain ⟨se, o, ho, hins, ei⟩ := region_source hreg hphi ir c hp
    have hpo : 0 < ptOf o := by rw [ei, ptOf_place] at hp; exact hp
    have b : dist2 (track t).hwEta (track t).hwPhi (em ir c).hwEta (em ir c).hwPhi = detDist2 (posOf st tk) (posOf se o) := by
      rw [ht, ei]; have q := dr2_place hin hins; exact q
    have hlt := hl.1
    simp only [] at hlt
    rw [b] at hlt
    refine ⟨se, o, ho, inside_proper hins hpo (hphi _ _ ho hpo), ei, hlt, fun se' o' ho' hp' => ?_⟩
    by_cases hc : detDist2 (posOf st tk) (posOf se' o') < 84
    · obtain ⟨j, ej, b'⟩ := fwd se' o' ho' hp' hc
      rw [← b, ← b']
      exact (hl.2 j (by simp only []; rw [b']; exact hc)).1
    · omega
  · intro c hl hp
    have hl := ((tk2em_link_iff (em ir) track isMu t c).mp hl).2.1
    have hc : em ir c = RegObj.clear := (hsort.2 c).resolve_left hp
    simp only [] at hl
    rw [← dr2_int_eq_dist2, hc, ht] at hl
    have a := inside_eta hin
    have b := hin.2
    have z1 : (RegObj.clear : EmCaloObj).hwEta.toInt = 0 := rfl
    have z2 : (RegObj.clear : EmCaloObj).hwPhi.toInt = 0 := rfl
    have e1 : (place (regionEta ir) (regionPhi ir) st tk).hwEta.toInt = tk.hwEta.toInt - etaC (regionEta ir) := inside_eta_toInt hin
    have e2 : (place (regionEta ir) (regionPhi ir) st tk).hwPhi.toInt = relPhi (regionPhi ir) st tk.hwPhi.toInt := inside_phi_toInt hin
    have a' : -171 ≤ tk.hwEta.toInt - etaC (regionEta ir) ∧ tk.hwEta.toInt - etaC (regionEta ir) ≤ 171 := a
    have b' : -180 ≤ relPhi (regionPhi ir) st tk.hwPhi.toInt ∧ relPhi (regionPhi ir) st tk.hwPhi.toInt ≤ 180 := b
    rw [dr2_int_exact _ _ _ _ (by omega) (by omega), e1, e2, z1, z2] at hl
    unfold detDist2 posOf
    simp only []
    rw [bmod_eq (y := relPhi (regionPhi ir) st tk.hwPhi.toInt) 1440 rfl _ (by omega) (by omega)]
    · have : (RegObj.eta tk).toInt = tk.hwEta.toInt := rfl
      rw [this]
      simpa using hl
    · show (1440 : Int) ∣ 120 * (st.val : Int) + tk.hwPhi.toInt - _ - _
      unfold relPhi
      omega
  · rintro ⟨se, o, ho, hp, hc⟩
    obtain ⟨j, ej, b'⟩ := fwd se o ho hp hc
    obtain ⟨i, hi⟩ := firstMin_exists (P := fun c => dist2 (track t).hwEta (track t).hwPhi (em ir c).hwEta (em ir c).hwPhi < 84)
      (f := fun c => dist2 (track t).hwEta (track t).hwPhi (em ir c).hwEta (em ir c).hwPhi) ⟨j, by rw [b']; exact hc⟩
    exact ⟨i, (tk2em_link_iff (em ir) track isMu t i).mpr ⟨hmu, hi⟩⟩

/-- **C71.** Tracks and calorimeter clusters.  For a track for which the region is responsible, the link made in the
region is to the best of all calorimeter clusters of the detector in which it could end, and there is one as soon as
the detector has such a cluster. -/
theorem C71_tk_had {NFPS NSEC NSE : Nat} {fib rest : Arr (NFPS * N_IN_SECTORS) (List HadCaloObj)} {had : Arr N_OUT_REGIONS (Arr NC HadCaloObj)}
    (hreg : regionize_ref NSEC NSE NC fib = .ok (rest, had))
    (hphi : ∀ s, ∀ o ∈ arrivals NSEC fib s, 0 < ptOf o → -60 ≤ o.hwPhi.toInt ∧ o.hwPhi.toInt ≤ 60)
    (ir : Fin 18) (hfit : Fits NSE NC (regionEta ir) (regionPhi ir) (arrivals NSEC fib))
    (track : Arr NT TkObj) (herr : ∀ t, 0 ≤ (track t).hwPtErr.toInt) (t : Fin NT) (st : Fin 12) (tk : TkObj)
    (ht : track t = place (regionEta ir) (regionPhi ir) st tk) (htk : Proper tk)
    (hexact : -32768 ≤ tk.hwPt.toInt - 2 * tk.hwPtErr.toInt)
    (hfid : Fiducial (regionEta ir) (regionPhi ir) (posOf st tk)) :
    ∃ link, tk2calo_link_drdpt (had ir) track = .ok link ∧
    (∀ h, link t h = true → ∃ sh, ∃ o ∈ arrivals NSEC fib sh, Proper o ∧
      had ir h = place (regionEta ir) (regionPhi ir) sh o ∧ CouldEnd st tk sh o ∧
      ∀ sh', ∀ o' ∈ arrivals NSEC fib sh', Proper o' → CouldEnd st tk sh' o' → endMismatch fwScale st tk sh o ≤ endMismatch fwScale st tk sh' o') ∧
    ((∃ h, link t h = true) ↔ ∃ sh, ∃ o ∈ arrivals NSEC fib sh, Proper o ∧ CouldEnd st tk sh o) := by
  have hin := fiducial_inside hfid htk
  have e1 : (track t).hwPt = tk.hwPt := by rw [ht]; rfl
  have e2 : (track t).hwPtErr = tk.hwPtErr := by rw [ht]; rfl
  obtain ⟨link, hl, hiff⟩ := tk2calo_link_ok (had ir) track herr
  have hiff := hiff t (by rw [e1]; exact le_of_lt htk.1) (by rw [e1, e2]; exact hexact)
  rw [e1, e2] at hiff
  refine ⟨link, hl, ?_⟩
  have fwd : ∀ sh', ∀ o' ∈ arrivals NSEC fib sh', Proper o' → CouldEnd st tk sh' o' →
      ∃ i, had ir i = place (regionEta ir) (regionPhi ir) sh' o' ∧ (had ir i).hwPt = o'.hwPt ∧
        dist2 (track t).hwEta (track t).hwPhi (had ir i).hwEta (had ir i).hwPhi = detDist2 (posOf st tk) (posOf sh' o') := by
    intro sh' o' ho' hp' hc
    obtain ⟨i, hi, hins⟩ := C71_neighbours hreg ir hfit hfid htk ho' hp' (le_of_lt (lt_trans hc.1 (by norm_num)))
    refine ⟨i, hi, by rw [hi]; rfl, ?_⟩
    rw [ht, hi]; have q := dr2_place hin hins; exact q
  have bwd : ∀ i, max 0 (tk.hwPt.toInt - 2 * tk.hwPtErr.toInt) < (had ir i).hwPt.toInt →
      ∃ sh', ∃ o' ∈ arrivals NSEC fib sh', Proper o' ∧ had ir i = place (regionEta ir) (regionPhi ir) sh' o' ∧ (had ir i).hwPt = o'.hwPt ∧
        dist2 (track t).hwEta (track t).hwPhi (had ir i).hwEta (had ir i).hwPhi = detDist2 (posOf st tk) (posOf sh' o') := by
    intro i h1
    have hp : 0 < ptOf (had ir i) := by
      show 0 < (had ir i).hwPt.toInt
      omega
    obtain ⟨sh', o', ho', hins, ei⟩ := region_source hreg hphi ir i hp
    have hpo' : 0 < ptOf o' := by rw [ei, ptOf_place] at hp; exact hp
    refine ⟨sh', o', ho', inside_proper hins hpo' (hphi _ _ ho' hpo'), ei, by rw [ei]; rfl, ?_⟩
    rw [ht, ei]; have q := dr2_place hin hins; exact q
  constructor
  · intro h hl
    have hl := (hiff h).mp hl
    obtain ⟨sh, o, ho, hp, ei, a, b⟩ := bwd h hl.1.1
    refine ⟨sh, o, ho, hp, ei, ⟨by rw [← b]; exact hl.1.2, by rw [← a]; exact hl.1.1⟩, fun sh' o' ho' hp' hc => ?_⟩
    obtain ⟨j, ej, a', b'⟩ := fwd sh' o' ho' hp' hc
    unfold endMismatch
    rw [← b, ← b', ← a, ← a']
    exact (hl.2 j ⟨by rw [a']; exact hc.2, by rw [b']; exact hc.1⟩).1
  · constructor
    · rintro ⟨h, hl⟩
      have hl := (hiff h).mp hl
      obtain ⟨sh, o, ho, hp, ei, a, b⟩ := bwd h hl.1.1
      exact ⟨sh, o, ho, hp, by rw [← b]; exact hl.1.2, by rw [← a]; exact hl.1.1⟩
    · rintro ⟨sh, o, ho, hp, hc⟩
      obtain ⟨j, ej, a', b'⟩ := fwd sh o ho hp hc
      obtain ⟨i, hi⟩ := firstMin_exists (P := fun h => max 0 (tk.hwPt.toInt - 2 * tk.hwPtErr.toInt) < (had ir h).hwPt.toInt ∧
        dist2 (track t).hwEta (track t).hwPhi (had ir h).hwEta (had ir h).hwPhi < 756)
        (f := fun h => dist2 (track t).hwEta (track t).hwPhi (had ir h).hwEta (had ir h).hwPhi +
          (max 0 (tk.hwPt.toInt - (had ir h).hwPt.toInt)) ^ 2 * fwScale tk.hwPtErr.toInt / 256)
        ⟨j, by rw [a']; exact hc.2, by rw [b']; exact hc.1⟩
      exact ⟨i, (hiff i).mpr hi⟩

/-- **C71.** The fiducial sizes declared in the header (and not used by the code).  In phi the declared size is that of the
area of responsibility.  In eta it is not: areas of that size around the centres of the regions miss part of the
detector, and the overlap left around them is narrower than the muon link, so that a muon inside such an area can
have its track outside the region. -/
theorem C71_declared :
    (∀ ie ip p, Fiducial ie ip p → -PHI_FID_SIZE ≤ 2 * (p.phi - 120 * (2 * ip.val + 1)).bmod 1440 ∧
      2 * (p.phi - 120 * (2 * ip.val + 1)).bmod 1440 ≤ PHI_FID_SIZE) ∧
    (∃ eta : Int, -342 ≤ eta ∧ eta ≤ 342 ∧ ∀ ie, ¬ (-ETA_FID_SIZE ≤ 2 * (eta - etaC ie) ∧ 2 * (eta - etaC ie) ≤ ETA_FID_SIZE)) ∧
    (∃ (ie : Fin 3) (ip : Fin 6) (s : Fin 12) (mu : MuObj) (t : TkObj), Proper mu ∧ Proper t ∧
      -ETA_FID_SIZE ≤ 2 * (mu.hwEta.toInt - etaC ie) ∧ 2 * (mu.hwEta.toInt - etaC ie) ≤ ETA_FID_SIZE ∧
      Inside ie ip s mu ∧ CouldBe s mu s t ∧ ¬ Inside ie ip s t) := by
  refine ⟨fun ie ip p h => ?_, ⟨300, by decide, by decide, by decide⟩,
    ⟨2, 0, 1, ⟨90, 0, 86, 0⟩, ⟨90, 0, 50, 0, 0, true⟩, ?_, ?_, by decide, by decide, ?_, ?_, ?_⟩⟩
  · obtain ⟨_, _, _, h1, h2⟩ := h
    have e : PHI_FID_SIZE = 240 := by decide
    rw [e]
    omega
  · unfold Proper; decide
  · unfold Proper; decide
  · unfold Inside; decide
  · unfold CouldBe; decide
  · unfold Inside; decide

/-! ### The hypotheses can be met -/

/-- One track, at eta 185 in the middle of sector 1. -/
def det1 : Arr (1 * N_IN_SECTORS) (List TkObj) := fun s => [if s.val = 1 then ⟨100, 0, 185, 0, 7, true⟩ else TkObj.clear]
/-- A muon near the track, at eta 165. -/
def detMu : MuObj := ⟨90, 0, 165, 5⟩

/-- The muon is in the regions of eta slices 1 and 2; slice 2 is responsible for it. -/
example : Proper detMu ∧ Fiducial 2 0 (posOf 1 detMu) ∧ Inside 1 0 1 detMu ∧ Fits 1 1 2 0 (arrivals 1 det1) := by
  refine ⟨?_, ?_, ?_, ?_⟩
  · unfold Proper; decide
  · unfold Fiducial; decide
  · unfold Inside; decide
  · unfold Fits; decide

/-- A pion: its cluster, in the next sector (3 sends phi −58, that is 302), is the one in which the track could end; an
EM cluster there could be held by it. -/
example : Proper (⟨50, 4, 100, 59, 0, true⟩ : TkObj) ∧ Fiducial 1 1 (posOf 2 (⟨50, 4, 100, 59, 0, true⟩ : TkObj)) ∧
    CouldEnd 2 ⟨50, 4, 100, 59, 0, true⟩ 3 ⟨45, 110, BitVec.ofInt 10 (-58), 20, false⟩ ∧
    CouldHold 2 ⟨30, 0, 100, 55⟩ 3 ⟨45, 110, BitVec.ofInt 10 (-58), 20, false⟩ := by
  refine ⟨?_, ?_, ?_, ?_⟩
  · unfold Proper; decide
  · unfold Fiducial; decide
  · unfold CouldEnd; decide
  · unfold CouldHold; decide

/-- The regionizer runs on this detector, and the track could be that of the muon but is outside slice 1. -/
example : (∃ rest tk, regionize_ref 1 1 1 det1 = .ok (rest, tk)) ∧ CouldBe 1 detMu 1 ⟨100, 0, 185, 0, 7, true⟩ ∧
    ¬ Inside 1 0 1 (⟨100, 0, 185, 0, 7, true⟩ : TkObj) ∧ (⟨100, 0, 185, 0, 7, true⟩ : TkObj) ∈ arrivals 1 det1 1 := by
  refine ⟨?_, ?_, ?_, ?_⟩
  · obtain ⟨r, h, _⟩ := regionize_ref_ok (NFPS := 1) 1 1 1 det1 (fun k => by simp [det1])
    exact ⟨_, r, h⟩
  · unfold CouldBe; decide
  · unfold Inside; decide
  · decide

/-- So the muon has its track in region 12 (slice 2) and none in region 6 (slice 1). -/
theorem C71_concrete : ((regionize_ref 1 1 1 det1).bind fun r =>
      (pfalgo3_full (NS := 1) (⟨fun _ => EmCaloObj.clear, fun _ => HadCaloObj.clear, r.2 12, fun _ => place 2 0 1 detMu⟩ : PFInputs 1 1 1 1)
        (old0 1 1 1 1) (mem0 1 1)).bind fun o =>
      (pfalgo3_full (NS := 1) (⟨fun _ => EmCaloObj.clear, fun _ => HadCaloObj.clear, r.2 6, fun _ => place 1 0 1 detMu⟩ : PFInputs 1 1 1 1)
        (old0 1 1 1 1) (mem0 1 1)).map fun o' => (o.outmu 0, o'.outmu 0)) =
    .ok (⟨100, 14, 0, 4, 7⟩, ⟨0, 0, 0, 0, 0⟩) := by decide +kernel

end Verif
