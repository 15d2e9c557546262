import Verif.Proofs.RegMuon2
/-! # C32–C37 — the regionizers -/
namespace Verif
open Spec

section
variable {T : Type} [RegObj T] [LawfulReg T] {NREG : Nat}

/-- **C32.** Firmware and reference regionizers give the same result (streams, regions and faults) for all
streams, when a region has at least as many slots as a sector-eta slice.  The uninitialised scratch memory
`mem` of the firmware does not matter. -/
theorem C32_agree (NSEC NSE : Nat) (hN : NSE ≤ NREG) (mem : Arr N_OUT_REGIONS (Arr NREG T))
    (fib : Arr N_IN_SECTORS (List T)) :
    regionize NSEC NSE mem fib = regionize_ref (NFPS := 1) NSEC NSE NREG fib := by
  by_cases h : ∀ is, NSEC ≤ (fib is).length
  · obtain ⟨r1, a1, a2⟩ := regionize_ok NSEC NSE hN mem fib h
    obtain ⟨r2, b1, b2⟩ := regionize_ref_ok (NFPS := 1) NSEC NSE NREG fib (fun k => by rw [Nat.div_one]; exact h k)
    rw [a1, b1, Nat.div_one]
    have : r1 = r2 := by
      funext ir
      have e : (fun is : Fin 12 => interleave 1 (NSEC / 1) (fun f => fib (fiberIdx (NFPS := 1) is f))) =
          fun is => (fib is).take NSEC := by
        funext is
        rw [Nat.div_one, ← interleave_one _ _ (h is)]
        congr 1
        funext f
        congr 1
        apply Fin.ext
        show 1 * is.val + f.val = is.val
        have := f.isLt
        omega
      have hb := b2 ir
      rw [e] at hb
      exact (a2 ir).unique hb
    rw [this]
    rfl
  · rw [regionize_short _ _ _ _ h, regionize_ref_short (NFPS := 1)]
    intro hh
    exact h (fun is => by have := hh is; rwa [Nat.div_one] at this)

omit [LawfulReg T] in
/-- **C32.** With fewer slots in a region than in a slice the firmware always writes outside its scratch array. -/
theorem C32_small_region_oob (NSEC NSE : Nat) (hN : NREG < NSE) (mem : Arr N_OUT_REGIONS (Arr NREG T))
    (fib : Arr N_IN_SECTORS (List T)) (hlen : ∀ is, NSEC ≤ (fib is).length) :
    regionize NSEC NSE mem fib = .error .oob :=
  regionize_oob NSEC NSE hN mem fib hlen

end

/-- The build with `NCALO = 5` (firmware/data.h:31, 44) and `NCALO_PER_SECTOR_PER_ETA = 7` is such a case. -/
theorem C32_default_build_oob (mem : Arr N_OUT_REGIONS (Arr 5 HadCaloObj)) (fib : Arr N_IN_SECTORS (List HadCaloObj))
    (hlen : ∀ is, 15 ≤ (fib is).length) : regionize 15 7 mem fib = .error .oob :=
  C32_small_region_oob 15 7 (by decide) mem fib hlen

section
variable {T : Type} [RegObj T] [LawfulReg T] {NREG : Nat}

/-- **C33.** Content of the regions of the firmware. -/
theorem C33_fw_content (NSEC NSE : Nat) (hN : NSE ≤ NREG) (mem : Arr N_OUT_REGIONS (Arr NREG T))
    (fib rest : Arr N_IN_SECTORS (List T)) (regions : Arr N_OUT_REGIONS (Arr NREG T))
    (hrun : regionize NSEC NSE mem fib = .ok (rest, regions)) (ir : Fin 18) :
    List.ofFn (regions ir) = pad NREG (region NREG NSE (regionEta ir) (regionPhi ir) (fun is => (fib is).take NSEC)) := by
  by_cases h : ∀ is, NSEC ≤ (fib is).length
  · obtain ⟨r1, a1, a2⟩ := regionize_ok NSEC NSE hN mem fib h
    rw [a1] at hrun
    cases hrun
    exact a2 ir
  · rw [regionize_short _ _ _ _ h] at hrun; cases hrun

/-- **C33.** Content of the regions of the reference, for any number of fibers per sector and any sizes. -/
theorem C33_ref_content {NFPS : Nat} (NSEC NSE NREG : Nat) (fib rest : Arr (NFPS * N_IN_SECTORS) (List T))
    (regions : Arr N_OUT_REGIONS (Arr NREG T))
    (hrun : regionize_ref NSEC NSE NREG fib = .ok (rest, regions)) (ir : Fin 18) :
    List.ofFn (regions ir) = pad NREG (region NREG NSE (regionEta ir) (regionPhi ir)
      (fun is => interleave NFPS (NSEC / NFPS) (fun f => fib (fiberIdx is f)))) := by
  by_cases h : ∀ k, NSEC / NFPS ≤ (fib k).length
  · obtain ⟨r1, a1, a2⟩ := regionize_ref_ok NSEC NSE NREG fib h
    rw [a1] at hrun
    cases hrun
    exact a2 ir
  · rw [regionize_ref_short _ _ _ _ h] at hrun; cases hrun

/-- **C33.** Region lists are in non-increasing pt order and hold no negative pt (so nulls are last). -/
theorem C33_sorted {NFPS : Nat} (NSEC NSE NREG : Nat) (fib rest : Arr (NFPS * N_IN_SECTORS) (List T))
    (regions : Arr N_OUT_REGIONS (Arr NREG T))
    (hrun : regionize_ref NSEC NSE NREG fib = .ok (rest, regions)) (ir : Fin 18) :
    (∀ i j : Fin NREG, i < j → (RegObj.pt (regions ir j)).toInt ≤ (RegObj.pt (regions ir i)).toInt) ∧
    (∀ i : Fin NREG, 0 < (RegObj.pt (regions ir i)).toInt ∨ regions ir i = RegObj.clear) := by
  have h := C33_ref_content NSEC NSE NREG fib rest regions hrun ir
  have hg : Good (region NREG NSE (regionEta ir) (regionPhi ir)
      (fun is => interleave NFPS (NSEC / NFPS) (fun f => fib (fiberIdx is f)))) := good_best _ _
  constructor
  · intro i j hij
    have hs := pad_sorted (N := NREG) hg
    rw [← h, List.pairwise_ofFn] at hs
    exact hs hij
  · intro i
    rw [Holds.get h i]
    split
    · exact Or.inl (hg.pos _ (List.getElem_mem _))
    · exact Or.inr rfl

/-- Sector `k` (0, 1 or 2) of region `ip` and the shift of its phi. -/
def secOf (ip : Fin 6) (k : Fin 3) : Fin 12 := ⟨(2 * ip.val + k.val) % 12, by omega⟩

omit [LawfulReg T] in
theorem mem_region_list {nse : Nat} {ie : Fin 3} {ip : Fin 6} {arr : Fin 12 → List T} {x : T} :
    x ∈ candidates nse ie ip arr ↔
    ∃ (k : Fin 3), ∃ y ∈ slice nse ie (arr (secOf ip k)), x = phiMove (120 * ((k.val : Int) - 1)) y := by
  have e0 : secOf ip 0 = ⟨2 * ip.val, by omega⟩ := by revert ip; decide
  have e1 : secOf ip 1 = ⟨2 * ip.val + 1, by omega⟩ := by revert ip; decide
  have e2 : secOf ip 2 = ⟨(2 * ip.val + 2) % 12, by omega⟩ := rfl
  unfold candidates
  rw [List.mem_append, List.mem_append, List.mem_map, List.mem_map, List.mem_map, ← e0, ← e1, ← e2]
  constructor
  · rintro ((⟨y, hy, rfl⟩ | ⟨y, hy, rfl⟩) | ⟨y, hy, rfl⟩)
    · exact ⟨0, y, hy, rfl⟩
    · exact ⟨1, y, hy, rfl⟩
    · exact ⟨2, y, hy, rfl⟩
  · rintro ⟨k, y, hy, rfl⟩
    match k with
    | 0 => exact Or.inl (Or.inl ⟨y, hy, rfl⟩)
    | 1 => exact Or.inl (Or.inr ⟨y, hy, rfl⟩)
    | 2 => exact Or.inr ⟨y, hy, rfl⟩

/-- **C34.** Nothing is invented: every non-null object of a region is an object read from one of its three
sectors, inside the eta window, with eta relative to the region centre and phi moved by the sector offset. -/
theorem C34_nothing_invented {NFPS : Nat} (NSEC NSE NREG : Nat) (fib rest : Arr (NFPS * N_IN_SECTORS) (List T))
    (regions : Arr N_OUT_REGIONS (Arr NREG T))
    (hrun : regionize_ref NSEC NSE NREG fib = .ok (rest, regions)) (ir : Fin 18) (i : Fin NREG)
    (hp : 0 < ptOf (regions ir i)) :
    ∃ (k : Fin 3), ∃ o ∈ interleave NFPS (NSEC / NFPS) (fun f => fib (fiberIdx (secOf (regionPhi ir) k) f)),
      etaLo (regionEta ir) ≤ (RegObj.eta o).toInt ∧ (RegObj.eta o).toInt ≤ etaHi (regionEta ir) ∧
      regions ir i = phiMove (120 * ((k.val : Int) - 1)) (etaRel (regionEta ir) o) := by
  have h := Holds.mem (C33_ref_content NSEC NSE NREG fib rest regions hrun ir) i hp
  obtain ⟨h1, _⟩ := mem_best h
  obtain ⟨k, y, hy, e⟩ := mem_region_list.mp h1
  obtain ⟨h2, _⟩ := mem_best hy
  obtain ⟨o, ho, rfl⟩ := List.mem_map.mp h2
  obtain ⟨h3, h4⟩ := List.mem_filter.mp ho
  have h5 := of_decide_eq_true h4
  exact ⟨k, o, h3, h5.1, h5.2, e⟩

/-- **C34.** Nothing is lost silently: an object of positive pt read from a sector of the region and inside the
eta window is delivered, unless the `NSE` slots of its slice or the `NREG` slots of the region are all
occupied by objects of at least its pt. -/
theorem C34_nothing_lost {NFPS : Nat} (NSEC NSE NREG : Nat) (fib rest : Arr (NFPS * N_IN_SECTORS) (List T))
    (regions : Arr N_OUT_REGIONS (Arr NREG T))
    (hrun : regionize_ref NSEC NSE NREG fib = .ok (rest, regions)) (ir : Fin 18) (k : Fin 3) (o : T)
    (ho : o ∈ interleave NFPS (NSEC / NFPS) (fun f => fib (fiberIdx (secOf (regionPhi ir) k) f))) (hp : 0 < ptOf o)
    (h1 : etaLo (regionEta ir) ≤ (RegObj.eta o).toInt) (h2 : (RegObj.eta o).toInt ≤ etaHi (regionEta ir)) :
    (∃ i, regions ir i = phiMove (120 * ((k.val : Int) - 1)) (etaRel (regionEta ir) o)) ∨
    (∀ i : Fin NREG, ptOf o ≤ ptOf (regions ir i)) ∨
    (slice NSE (regionEta ir) (interleave NFPS (NSEC / NFPS) (fun f => fib (fiberIdx (secOf (regionPhi ir) k) f)))).length = NSE ∧
    ∀ y ∈ slice NSE (regionEta ir) (interleave NFPS (NSEC / NFPS) (fun f => fib (fiberIdx (secOf (regionPhi ir) k) f))),
      ptOf o ≤ ptOf y := by
  have h := C33_ref_content NSEC NSE NREG fib rest regions hrun ir
  by_cases hs : etaRel (regionEta ir) o ∈ slice NSE (regionEta ir) (interleave NFPS (NSEC / NFPS)
      (fun f => fib (fiberIdx (secOf (regionPhi ir) k) f)))
  · have hm := (mem_region_list (nse := NSE) (ie := regionEta ir) (ip := regionPhi ir)
      (arr := fun is => interleave NFPS (NSEC / NFPS) (fun f => fib (fiberIdx is f)))).mpr ⟨k, _, hs, rfl⟩
    by_cases hr : phiMove (120 * ((k.val : Int) - 1)) (etaRel (regionEta ir) o) ∈ region NREG NSE (regionEta ir) (regionPhi ir)
        (fun is => interleave NFPS (NSEC / NFPS) (fun f => fib (fiberIdx is f)))
    · exact Or.inl (Holds.exists h (best_length _ _) hr)
    · right; left
      obtain ⟨c1, c2⟩ := not_mem_best hm (by rw [ptOf_phiMove, ptOf_etaRel]; exact hp) hr
      intro i
      rw [Holds.get h i, dif_pos (show i.val < (region NREG NSE (regionEta ir) (regionPhi ir)
        (fun is => interleave NFPS (NSEC / NFPS) (fun f => fib (fiberIdx is f)))).length from lt_of_lt_of_eq i.isLt c1.symm)]
      have := c2 _ (List.getElem_mem (lt_of_lt_of_eq i.isLt c1.symm))
      rw [ptOf_phiMove, ptOf_etaRel] at this
      exact this
  · right; right
    have hm : etaRel (regionEta ir) o ∈ ((interleave NFPS (NSEC / NFPS) (fun f => fib (fiberIdx (secOf (regionPhi ir) k) f))).filter
        (inSlice (regionEta ir))).map (etaRel (regionEta ir)) :=
      List.mem_map.mpr ⟨o, List.mem_filter.mpr ⟨ho, decide_eq_true ⟨h1, h2⟩⟩, rfl⟩
    obtain ⟨c1, c2⟩ := not_mem_best hm (by rw [ptOf_etaRel]; exact hp) hs
    refine ⟨c1, fun y hy => ?_⟩
    have := c2 y hy
    rw [ptOf_etaRel] at this
    exact this

/-- **C35.** Every eta with |eta| ≤ 342 is in a slice, every sector is in a region. -/
theorem C35_cover (eta : Int) (h : -342 ≤ eta ∧ eta ≤ 342) (ics : Fin 12) :
    ∃ ir : Fin 18, etaLo (regionEta ir) ≤ eta ∧ eta ≤ etaHi (regionEta ir) ∧ ∃ k, secOf (regionPhi ir) k = ics := by
  have h1 : ∃ ie : Fin 3, etaLo ie ≤ eta ∧ eta ≤ etaHi ie := by
    by_cases a : eta ≤ -57
    · exact ⟨0, h.1, a⟩
    · by_cases b : eta ≤ 171
      · exact ⟨1, by show (-171 : Int) ≤ eta; omega, b⟩
      · exact ⟨2, by show (57 : Int) ≤ eta; omega, h.2⟩
  obtain ⟨ie, hie⟩ := h1
  have h2 : ∀ ie : Fin 3, ∀ ics : Fin 12, ∃ ir : Fin 18, regionEta ir = ie ∧ ∃ k, secOf (regionPhi ir) k = ics := by decide
  obtain ⟨ir, e1, e2⟩ := h2 ie ics
  exact ⟨ir, by rw [e1]; exact hie.1, by rw [e1]; exact hie.2, e2⟩

/-- **C35.** No overflow: inside the window and the sector, the region coordinates are the exact differences;
eta stays within 171 of the centre and phi within 180, and the global phi is unchanged modulo a turn. -/
theorem C35_no_overflow (ir : Fin 18) (k : Fin 3) (o : T)
    (h1 : etaLo (regionEta ir) ≤ (RegObj.eta o).toInt) (h2 : (RegObj.eta o).toInt ≤ etaHi (regionEta ir))
    (h3 : -60 ≤ (RegObj.phi o).toInt ∧ (RegObj.phi o).toInt ≤ 60) :
    let r := phiMove (120 * ((k.val : Int) - 1)) (etaRel (regionEta ir) o)
    (RegObj.eta r).toInt + etaC (regionEta ir) = (RegObj.eta o).toInt ∧
    -171 ≤ (RegObj.eta r).toInt ∧ (RegObj.eta r).toInt ≤ 171 ∧
    (1440 : Int) ∣ (120 * ((2 * (regionPhi ir).val + 1 : Nat) : Int) + (RegObj.phi r).toInt) -
      (120 * ((secOf (regionPhi ir) k).val : Int) + (RegObj.phi o).toInt) ∧
    -180 ≤ (RegObj.phi r).toInt ∧ (RegObj.phi r).toInt ≤ 180 := by
  intro r
  have hk := k.isLt
  have e1 : (RegObj.eta r).toInt = (RegObj.eta o).toInt - etaC (regionEta ir) := by
    show (RegObj.eta (phiMove _ (etaRel _ o))).toInt = _
    unfold phiMove etaRel
    rw [LawfulReg.eta_setPhi, LawfulReg.eta_setEta]
    apply reg10_toInt
    all_goals
      unfold etaLo at h1
      unfold etaHi at h2
      unfold etaC
      split at h1 <;> split at h2 <;> simp_all <;> omega
  have e2 : (RegObj.phi r).toInt = (RegObj.phi o).toInt + 120 * ((k.val : Int) - 1) := by
    show (RegObj.phi (phiMove _ (etaRel _ o))).toInt = _
    unfold phiMove etaRel
    rw [LawfulReg.phi_setPhi, LawfulReg.phi_setEta]
    apply reg10_toInt <;> omega
  have he : ∀ ie, etaLo ie - etaC ie ≥ -171 ∧ etaHi ie - etaC ie ≤ 171 := by decide
  have := he (regionEta ir)
  have hs : (secOf (regionPhi ir) k).val = (2 * (regionPhi ir).val + k.val) % 12 := rfl
  have hq := (regionPhi ir).isLt
  refine ⟨by omega, by omega, by omega, ?_, by omega, by omega⟩
  rw [e2, hs]
  omega

/-- **C37.** Both regionizers take exactly the configured number of objects from the front of every fiber; with
too few objects in some fiber they fault. -/
theorem C37_ref_consumes {NFPS : Nat} (NSEC NSE NREG : Nat) (fib : Arr (NFPS * N_IN_SECTORS) (List T)) :
    ((∀ k, NSEC / NFPS ≤ (fib k).length) →
      ∃ r, regionize_ref NSEC NSE NREG fib = .ok (fun k => (fib k).drop (NSEC / NFPS), r)) ∧
    ((∃ k, (fib k).length < NSEC / NFPS) → regionize_ref NSEC NSE NREG fib = .error .emptyStream) := by
  refine ⟨fun h => ?_, fun ⟨k, hk⟩ => regionize_ref_short _ _ _ _ (fun h => absurd (h k) (by omega))⟩
  obtain ⟨r, h1, _⟩ := regionize_ref_ok NSEC NSE NREG fib h
  exact ⟨r, h1⟩

/-- **C37.** Firmware. -/
theorem C37_fw_consumes (NSEC NSE : Nat) (hN : NSE ≤ NREG) (mem : Arr N_OUT_REGIONS (Arr NREG T))
    (fib : Arr N_IN_SECTORS (List T)) :
    ((∀ is, NSEC ≤ (fib is).length) → ∃ r, regionize NSEC NSE mem fib = .ok (fun k => (fib k).drop NSEC, r)) ∧
    ((∃ is, (fib is).length < NSEC) → regionize NSEC NSE mem fib = .error .emptyStream) := by
  refine ⟨fun h => ?_, fun ⟨k, hk⟩ => regionize_short _ _ _ _ (fun h => absurd (h k) (by omega))⟩
  obtain ⟨r, h1, _⟩ := regionize_ok NSEC NSE hN mem fib h
  exact ⟨r, h1⟩

/-- **C37.** The result depends only on the objects consumed: data for later calls does not leak in. -/
theorem C37_later_data_ignored {NFPS : Nat} (NSEC NSE NREG : Nat) (fib fib' : Arr (NFPS * N_IN_SECTORS) (List T))
    (h : ∀ k, NSEC / NFPS ≤ (fib k).length) (h' : ∀ k, NSEC / NFPS ≤ (fib' k).length)
    (he : ∀ k, (fib k).take (NSEC / NFPS) = (fib' k).take (NSEC / NFPS)) :
    ((regionize_ref NSEC NSE NREG fib).map (·.2)) = (regionize_ref NSEC NSE NREG fib').map (·.2) := by
  obtain ⟨r1, a1, a2⟩ := regionize_ref_ok NSEC NSE NREG fib h
  obtain ⟨r2, b1, b2⟩ := regionize_ref_ok NSEC NSE NREG fib' h'
  have hi : ∀ is : Fin 12, interleave NFPS (NSEC / NFPS) (fun f => fib (fiberIdx is f)) =
      interleave NFPS (NSEC / NFPS) (fun f => fib' (fiberIdx is f)) := by
    intro is
    unfold interleave
    apply List.flatMap_congr
    intro io hio
    have hio' := List.mem_range.mp hio
    apply List.flatMap_congr
    intro f _
    have := congrArg (fun l => (List.drop io l).take 1) (he (fiberIdx is f))
    simp only [List.drop_take, List.take_take] at this
    rw [Nat.min_eq_left (by omega)] at this
    exact this
  rw [a1, b1]
  show Except.ok r1 = Except.ok r2
  congr 1
  funext ir
  have h1 := a2 ir
  rw [show (fun is => interleave NFPS (NSEC / NFPS) (fun f => fib (fiberIdx is f))) =
    fun is => interleave NFPS (NSEC / NFPS) (fun f => fib' (fiberIdx is f)) from funext hi] at h1
  exact h1.unique (b2 ir)

end

/-- **C36.** Muons: the 12-to-4 sector merge followed by the 4-to-6 region split.  For muons with in-sector phi,
the non-null entries of each region are distinct input muons (positions `L`), in non-increasing pt order,
each inside the eta window, with eta relative to the region centre and with phi relative to the region centre
(same global phi), within half a region.  If there are at most `NMU` muons, every muon strictly inside the
region is delivered. -/
theorem C36_muons {NMU : Nat} (inn : Arr N_IN_SECTORS (Arr NMU MuObj)) (later : Arr N_MUON_SECTORS (List MuObj))
    (hphi : ∀ ics io, 0 < (inn ics io).hwPt.toInt → -60 ≤ (inn ics io).hwPhi.toInt ∧ (inn ics io).hwPhi.toInt ≤ 60) :
    ∃ regions, regionize_muon_ref NMU (fun s => List.ofFn (merge_muon_in inn s) ++ later s) = .ok (later, regions) ∧
    ∀ ir : Fin 18, ∃ L : List (Fin 12 × Fin NMU),
      List.ofFn (regions ir) =
        pad NMU (L.map fun p => muToRegion (regionEta ir) (regionPhi ir) p.1 (inn p.1 p.2)) ∧
      L.Nodup ∧ L.length ≤ NMU ∧
      L.Pairwise (fun p q => (inn q.1 q.2).hwPt.toInt ≤ (inn p.1 p.2).hwPt.toInt) ∧
      (∀ p ∈ L, 0 < (inn p.1 p.2).hwPt.toInt ∧ inSlice (regionEta ir) (inn p.1 p.2) = true ∧
        -180 ≤ relPhi (regionPhi ir) p.1 (inn p.1 p.2).hwPhi.toInt ∧
        relPhi (regionPhi ir) p.1 (inn p.1 p.2).hwPhi.toInt ≤ 180) ∧
      ((muIndices inn).length ≤ NMU → ∀ p : Fin 12 × Fin NMU, 0 < (inn p.1 p.2).hwPt.toInt →
        inSlice (regionEta ir) (inn p.1 p.2) = true →
        -180 < relPhi (regionPhi ir) p.1 (inn p.1 p.2).hwPhi.toInt →
        relPhi (regionPhi ir) p.1 (inn p.1 p.2).hwPhi.toInt < 180 → p ∈ L) := by
  obtain ⟨work, w1, w2⟩ := deserialize_muon_ok (NMU := NMU) (fun s => List.ofFn (merge_muon_in inn s) ++ later s)
    (fun is => by simp)
  refine ⟨fun ir => muon_region work ir, ?_, fun ir => muon_regions inn work (fun is ie => ?_) hphi ir⟩
  · unfold regionize_muon_ref
    rw [w1, Run.ok_bind]
    have : (fun is => List.drop NMU (List.ofFn (merge_muon_in inn is) ++ later is)) = later := by
      funext is
      rw [List.drop_append_of_le_length (by simp), List.drop_eq_nil_of_le (by simp), List.nil_append]
    exact congrArg Except.ok (Prod.ext this rfl)
  · have := w2 is ie
    rw [List.take_append_of_le_length (by simp), List.take_of_length_le (by simp)] at this
    exact this

/-- **C36.** In words: each delivered muon has the pt of an input muon, its eta minus the region centre, and
the same global phi modulo a turn. -/
theorem C36_global_position {NMU : Nat} (inn : Arr N_IN_SECTORS (Arr NMU MuObj)) (later : Arr N_MUON_SECTORS (List MuObj))
    (hphi : ∀ ics io, 0 < (inn ics io).hwPt.toInt → -60 ≤ (inn ics io).hwPhi.toInt ∧ (inn ics io).hwPhi.toInt ≤ 60)
    (rest regions) (hrun : regionize_muon_ref NMU (fun s => List.ofFn (merge_muon_in inn s) ++ later s) = .ok (rest, regions))
    (ir : Fin 18) (i : Fin NMU) (hp : 0 < (regions ir i).hwPt.toInt) :
    ∃ (ics : Fin 12) (io : Fin NMU), (regions ir i).hwPt = (inn ics io).hwPt ∧
      (regions ir i).hwPtErr = (inn ics io).hwPtErr ∧
      (regions ir i).hwEta.toInt = (inn ics io).hwEta.toInt - etaC (regionEta ir) ∧
      (1440 : Int) ∣ (120 * ((2 * (regionPhi ir).val + 1 : Nat) : Int) + (regions ir i).hwPhi.toInt) -
        (120 * (ics.val : Int) + (inn ics io).hwPhi.toInt) ∧
      -180 ≤ (regions ir i).hwPhi.toInt ∧ (regions ir i).hwPhi.toInt ≤ 180 := by
  obtain ⟨r, h1, h2⟩ := C36_muons inn later hphi
  rw [hrun] at h1
  cases h1
  obtain ⟨L, e1, _, _, _, e5, _⟩ := h2 ir
  obtain ⟨p, hpL, e⟩ := List.mem_map.mp (Holds.mem e1 i hp)
  obtain ⟨d1, d2, d3, d4⟩ := e5 p hpL
  have hs := of_decide_eq_true d2
  have he : ∀ ie, etaLo ie - etaC ie ≥ -171 ∧ etaHi ie - etaC ie ≤ 171 := by decide
  have he' := he (regionEta ir)
  have ephi : (regions ir i).hwPhi.toInt = relPhi (regionPhi ir) p.1 (inn p.1 p.2).hwPhi.toInt := by
    rw [← e]; exact reg10_toInt (by omega) (by omega)
  refine ⟨p.1, p.2, by rw [← e]; rfl, by rw [← e]; rfl, ?_, ?_, by omega, by omega⟩
  · rw [← e]
    have hs1 : etaLo (regionEta ir) ≤ (inn p.1 p.2).hwEta.toInt := hs.1
    have hs2 : (inn p.1 p.2).hwEta.toInt ≤ etaHi (regionEta ir) := hs.2
    exact reg10_toInt (by omega) (by omega)
  · rw [ephi]
    unfold relPhi
    omega

/-- **C36.** Every position in a sector with |eta| ≤ 342 is strictly inside some region. -/
theorem C36_cover (eta phi : Int) (h : -342 ≤ eta ∧ eta ≤ 342) (hphi : -60 ≤ phi ∧ phi ≤ 60) (ics : Fin 12) :
    ∃ ir : Fin 18, etaLo (regionEta ir) ≤ eta ∧ eta ≤ etaHi (regionEta ir) ∧
      -180 < relPhi (regionPhi ir) ics phi ∧ relPhi (regionPhi ir) ics phi < 180 := by
  have h1 : ∃ ie : Fin 3, etaLo ie ≤ eta ∧ eta ≤ etaHi ie := by
    by_cases a : eta ≤ -57
    · exact ⟨0, h.1, a⟩
    · by_cases b : eta ≤ 171
      · exact ⟨1, by show (-171 : Int) ≤ eta; omega, b⟩
      · exact ⟨2, by show (57 : Int) ≤ eta; omega, h.2⟩
  obtain ⟨ie, hie⟩ := h1
  have h2 : ∀ (ie : Fin 3) (ip : Fin 6), ∃ ir : Fin 18, regionEta ir = ie ∧ regionPhi ir = ip := by decide
  have hi := ics.isLt
  have h3 : ∃ ip : Fin 6, -180 < relPhi ip ics phi ∧ relPhi ip ics phi < 180 := by
    unfold relPhi
    by_cases ho : ics.val % 2 = 1
    · refine ⟨⟨ics.val / 2, by omega⟩, ?_⟩
      simp only []
      omega
    · by_cases hz : phi > 0
      · refine ⟨⟨ics.val / 2, by omega⟩, ?_⟩
        simp only []
        omega
      · refine ⟨⟨(ics.val / 2 + 5) % 6, by omega⟩, ?_⟩
        simp only []
        omega
  obtain ⟨ip, hip⟩ := h3
  obtain ⟨ir, e1, e2⟩ := h2 ie ip
  exact ⟨ir, by rw [e1]; exact hie.1, by rw [e1]; exact hie.2, by rw [e2]; exact hip.1, by rw [e2]; exact hip.2⟩

/-- **C37.** The muon regionizer reads exactly `NMU` muons from every fiber. -/
theorem C37_muon_consumes {NMU : Nat} (fib : Arr N_MUON_SECTORS (List MuObj)) :
    ((∀ is, NMU ≤ (fib is).length) → ∃ r, regionize_muon_ref NMU fib = .ok (fun k => (fib k).drop NMU, r)) ∧
    ((∃ is, (fib is).length < NMU) → regionize_muon_ref NMU fib = .error .emptyStream) := by
  refine ⟨fun h => ?_, fun ⟨k, hk⟩ => ?_⟩
  · obtain ⟨w, h1, _⟩ := deserialize_muon_ok fib h
    exact ⟨_, by unfold regionize_muon_ref; rw [h1]; rfl⟩
  · unfold regionize_muon_ref
    rw [deserialize_muon_short fib (fun h => absurd (h k) (by omega))]
    rfl

/-! ### Concrete cases -/

def regCalo (pt eta phi : Int) : HadCaloObj :=
  { HadCaloObj.clear with hwPt := reg 16 pt, hwEta := reg 10 eta, hwPhi := reg 10 phi }

/-- Two objects per fiber, on four sectors, with a tie: firmware. -/
def regFib : Arr N_IN_SECTORS (List HadCaloObj) := fun is =>
  match is.val with
  | 1 => [regCalo 5 0 10, regCalo 9 100 (-3), regCalo 1 1 1]
  | 2 => [regCalo 9 60 4, regCalo 20 (-60) 60]
  | 3 => [regCalo 7 (-171) 0, HadCaloObj.clear]
  | 0 => [regCalo 6 171 (-60), regCalo 9 171 0]
  | _ => [HadCaloObj.clear, HadCaloObj.clear]

/-- The hypotheses hold and the regions are not empty; sector 1 keeps its third object. -/
theorem C33_concrete : (regionize 2 2 (fun (_ : Fin 18) (_ : Fin 3) => HadCaloObj.clear) regFib).map
    (fun o => ((List.ofFn (o.2 6)).map fun x => (x.hwPt.toInt, x.hwEta.toInt, x.hwPhi.toInt), (o.1 1).length)) =
    .ok ([(20, -60, 180), (9, 171, -120), (9, 100, -3)], 1) := by decide +kernel

/-- A muon at the edge of sector 2 reaches regions 0 (phi 60 past its centre plus 120) and 1. -/
theorem C36_concrete :
    let inn : Arr N_IN_SECTORS (Arr 2 MuObj) := fun ics io =>
      if ics.val = 2 ∧ io.val = 0 then { MuObj.clear with hwPt := reg 16 40, hwEta := reg 10 20, hwPhi := reg 10 30 } else MuObj.clear
    (regionize_muon_ref 2 (fun s => List.ofFn (merge_muon_in inn s))).map
      (fun o => ((o.2 6 0).hwPt.toInt, (o.2 6 0).hwPhi.toInt, (o.2 7 0).hwPt.toInt, (o.2 7 0).hwPhi.toInt, (o.2 8 0).hwPt.toInt)) =
    .ok (40, 150, 40, -90, 0) := by decide +kernel

end Verif
