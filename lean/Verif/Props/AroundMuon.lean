import Verif.Props.AroundDet
import Verif.Props.OneMoreMuonLink
/-! # C91 with the muons, for the reference and for PUPPI -/
namespace Verif
open Spec
variable {NT NC NE NM NS NT' NC' NE' NM' NS' FE FT FE' FT' : Nat}

/-- The sector a muon sector is centred on. -/
def muCentre (s : Fin 4) : Fin 12 := ⟨3 * s.val + 1, by omega⟩

theorem muRel_relPhi (ip : Fin 6) (s : Fin 4) (phi : Int) : muRel ip s phi = relPhi ip (muCentre s) phi := by
  unfold muRel relPhi muCentre
  push_cast
  rfl

theorem muPlace_place (ie : Fin 3) (ip : Fin 6) (s : Fin 4) (o : MuObj) : muPlace ie ip s o = place ie ip (muCentre s) o := by
  unfold muPlace
  rw [muRel_relPhi]
  rfl

/-- The muons around a direction. -/
noncomputable abbrev near91 (R : ℝ) (ie : Fin 3) (ip : Fin 6) (P : Pos) : MuObj → Bool := muAround R (dirIn ie ip P)

theorem near91_pt {R : ℝ} {ie : Fin 3} {ip : Fin 6} {P : Pos} {o : MuObj} (h : near91 R ie ip P o = true) : ptOf o ≠ 0 := by
  intro e
  exact (isAround_iff.mp h).1 (pt_zero' e)

theorem filter_holds {n : Nat} {a : Arr n MuObj} {l : List MuObj} (h : Holds a l) (hl : l.length ≤ n) {f : MuObj → Bool} (hf : f MuObj.clear = false) :
    (List.ofFn a).filter f = l.filter f := by
  rw [show List.ofFn a = _ from h, pad_of_le hl, List.filter_append]
  have : (List.replicate (n - l.length) (RegObj.clear : MuObj)).filter f = [] := by
    refine List.filter_eq_nil_iff.mpr fun e he => ?_
    rw [List.eq_of_mem_replicate he]
    show ¬ f MuObj.clear = true
    rw [hf]
    decide
  rw [this, List.append_nil]

/-- The muons of a muon sector picked for a region, around a direction. -/
theorem pick_around {ie : Fin 3} {ip : Fin 6} {P : Pos} (hc : Covers ie ip P) (R : ℝ) {c : MuObj → Bool} {g : MuObj → MuObj} (hg : ∀ x, ptOf (g x) = ptOf x)
    (s : Fin 4) {w : List MuObj} (hlen : w.length ≤ NM) {work : Arr NM MuObj} (hw : Holds work (slice NM ie w))
    (hin : ∀ o ∈ w, 0 < ptOf o → inSlice ie o = true → c (etaRel ie o) = true → Inside ie ip (muCentre s) o ∧ g (etaRel ie o) = place ie ip (muCentre s) o) :
    (((List.ofFn work).filter c).map g).filter (near91 R ie ip P) =
      (((((detAround R P (muCentre s) w).filter (inSlice ie)).map (etaRel ie)).insertionSort byPt).filter c).map g := by
  rw [List.filter_map, List.filter_filter]
  congr 1
  have hclear : ((near91 R ie ip P) ∘ g) MuObj.clear = false := by
    rw [Bool.eq_false_iff]
    intro e
    refine near91_pt e ?_
    rw [hg]
    rfl
  rw [filter_holds hw (best_length _ _) (by rw [hclear]; rfl)]
  unfold slice best
  rw [List.take_of_length_le (by
    rw [List.length_insertionSort]
    refine le_trans (List.length_filter_le _ _) ?_
    rw [List.length_map]
    exact le_trans (List.length_filter_le _ _) hlen),
    filter_insertionSort byPt byPt_total byPt_trans, filter_insertionSort byPt byPt_total byPt_trans, List.filter_filter, List.filter_map, List.filter_map,
    List.filter_filter, List.filter_filter]
  unfold detAround
  rw [List.filter_filter]
  congr 2
  refine List.filter_congr fun o ho => ?_
  rw [Bool.eq_iff_iff]
  simp only [Bool.and_eq_true, Function.comp_apply, decide_eq_true_iff, ptOf_etaRel]
  constructor
  · rintro ⟨⟨⟨h1, h2⟩, h3⟩, h4⟩
    obtain ⟨q1, q2⟩ := hin o ho h3 h4 h2
    rw [q2] at h1
    refine ⟨⟨h2, h4⟩, h3, ?_⟩
    rw [← dist2_dirIn hc q1]
    exact (isAround_iff.mp h1).2
  · rintro ⟨⟨h2, h4⟩, h3, h1⟩
    obtain ⟨q1, q2⟩ := hin o ho h3 h4 h2
    refine ⟨⟨⟨?_, h2⟩, h3⟩, h4⟩
    rw [q2]
    refine isAround_iff.mpr ⟨fun e => ?_, ?_⟩
    · have : ptOf (place ie ip (muCentre s) o) = 0 := by unfold ptOf; rw [show RegObj.pt (place ie ip (muCentre s) o) = 0 from e]; rfl
      have e2 : ptOf (place ie ip (muCentre s) o) = ptOf o := rfl
      omega
    · rw [← dist2_dirIn hc q1] at h1
      exact h1

/-- With a free slot nothing has been cut. -/
theorem best_free {a : Arr NM MuObj} {l : List MuObj} (h : Holds a (best NM l)) (hf : ∃ k, ptOf (a k) = 0) : best NM l = (posList l).insertionSort byPt := by
  have hlt : (best NM l).length < NM := by
    refine lt_of_le_of_ne (best_length _ _) fun e => ?_
    obtain ⟨k, hk⟩ := hf
    have h1 : List.ofFn a = best NM l := by
      rw [show List.ofFn a = _ from h, pad_of_le (le_of_eq e), e, Nat.sub_self, List.replicate_zero, List.append_nil]
    have hm : a k ∈ best NM l := by
      rw [← h1]
      exact (List.mem_ofFn' _ _).mpr ⟨k, rfl⟩
    have := (mem_best hm).2
    omega
  unfold best at hlt ⊢
  refine List.take_of_length_le ?_
  rw [List.length_take] at hlt
  omega

/-- The muons of a region around a direction, from those of the muon sectors around it. -/
noncomputable def muRegionAround (ie : Fin 3) (ip : Fin 6) (near : Fin 4 → List MuObj) : List MuObj :=
  let of := fun s => (((near s).filter (inSlice ie)).map (etaRel ie)).insertionSort byPt
  if ip.val % 3 = 0 then of (muA ip) else (muPick ip (of (muA ip)) (of (muB ip))).insertionSort byPt

theorem muRegion_around {fib rest : Arr N_MUON_SECTORS (List MuObj)} {regions : Arr N_OUT_REGIONS (Arr NM MuObj)}
    (hrun : regionize_muon_ref NM fib = .ok (rest, regions)) (ir : Fin 18)
    (hphi : ∀ s, ∀ o ∈ (fib s).take NM, 0 < ptOf o → -180 ≤ o.hwPhi.toInt ∧ o.hwPhi.toInt ≤ 180) (hfree : ∃ k, ptOf (regions ir k) = 0)
    {P : Pos} (hc : Covers (regionEta ir) (regionPhi ir) P) (R : ℝ) :
    (List.ofFn (regions ir)).filter (near91 R (regionEta ir) (regionPhi ir) P) =
      muRegionAround (regionEta ir) (regionPhi ir) fun s => detAround R P (muCentre s) ((fib s).take NM) := by
  obtain ⟨work, w1, w2⟩ := deserialize_muon_ok fib (mu_long hrun)
  unfold regionize_muon_ref at hrun
  rw [w1, Run.ok_bind] at hrun
  cases hrun
  change ∃ k, ptOf (muon_region work ir k) = 0 at hfree
  show (List.ofFn (muon_region work ir)).filter _ = _
  have hlen : ∀ s, ((fib s).take NM).length ≤ NM := fun s => by rw [List.length_take]; omega
  unfold muRegionAround
  by_cases m0 : (regionPhi ir).val % 3 = 0
  · rw [muon_region_zero _ _ m0, if_pos m0]
    have := pick_around hc R (c := fun _ => true) (g := id) (fun _ => rfl) (muA (regionPhi ir)) (hlen _) (w2 (muA (regionPhi ir)) (regionEta ir)) fun o ho hp hs _ => by
      obtain ⟨p1, p2⟩ := hphi _ o ho hp
      obtain ⟨k1, k2⟩ := muInside_zero (s := muA (regionPhi ir)) m0 p1 p2
      have e2 := muRel_relPhi (regionPhi ir) (muA (regionPhi ir)) o.hwPhi.toInt
      rw [k2 rfl] at e2
      refine ⟨⟨hs, ?_, ?_⟩, ?_⟩
      · show -180 ≤ relPhi _ _ o.hwPhi.toInt
        omega
      · show relPhi _ _ o.hwPhi.toInt ≤ 180
        omega
      · show etaRel _ o = _
        rw [muPlace_zero (ie := regionEta ir) (k2 rfl), muPlace_place]
    simpa using this
  · rw [if_neg m0]
    have p := muon_region_pick work ir m0
    have hcl : near91 R (regionEta ir) (regionPhi ir) P MuObj.clear = false := by
      rw [Bool.eq_false_iff]
      exact fun e => near91_pt e rfl
    rw [filter_holds p (best_length _ _) hcl, best_free p hfree, filter_insertionSort byPt byPt_total byPt_trans]
    refine congrArg (List.insertionSort byPt) ?_
    have hw : ∀ s k, 0 < ptOf (work s (regionEta ir) k) ∨ ptOf (work s (regionEta ir) k) = 0 := fun s k => by
      have hm : work s (regionEta ir) k ∈ pad NM (slice NM (regionEta ir) ((fib s).take NM)) := by
        rw [← show List.ofFn (work s (regionEta ir)) = _ from w2 s (regionEta ir)]
        exact (List.mem_ofFn' _ _).mpr ⟨k, rfl⟩
      unfold slice at hm
      rw [pad_of_le (best_length _ _)] at hm
      rcases List.mem_append.mp hm with h | h
      · exact .inl (mem_best h).2
      · right
        rw [List.eq_of_mem_replicate h]
        rfl
    have hpick : ∀ e ∈ muPick (regionPhi ir) (List.ofFn (work (muA (regionPhi ir)) (regionEta ir))) (List.ofFn (work (muB (regionPhi ir)) (regionEta ir))),
        0 < ptOf e ∨ ptOf e = 0 := fun e he => by
      obtain ⟨d, s, k, rfl⟩ : ∃ d s k, e = phiMove d (work s (regionEta ir) k) := by
        unfold muPick at he
        split at he <;> rcases List.mem_append.mp he with h | h <;> obtain ⟨x, hx, rfl⟩ := List.mem_map.mp h <;>
          obtain ⟨k, rfl⟩ := (List.mem_ofFn' _ _).mp (List.mem_filter.mp hx).1 <;> exact ⟨_, _, k, rfl⟩
      rw [ptOf_phiMove]
      exact hw s k
    rw [show (posList (muPick (regionPhi ir) (List.ofFn (work (muA (regionPhi ir)) (regionEta ir))) (List.ofFn (work (muB (regionPhi ir)) (regionEta ir))))).filter
        (near91 R (regionEta ir) (regionPhi ir) P) = (muPick (regionPhi ir) (List.ofFn (work (muA (regionPhi ir)) (regionEta ir)))
          (List.ofFn (work (muB (regionPhi ir)) (regionEta ir)))).filter (near91 R (regionEta ir) (regionPhi ir) P) from by
      unfold posList
      rw [List.filter_filter]
      refine List.filter_congr fun e he => ?_
      rw [Bool.eq_iff_iff, Bool.and_eq_true, decide_eq_true_iff]
      exact ⟨fun h => h.1, fun h => ⟨h, (hpick e he).resolve_right (near91_pt h)⟩⟩]
    have side : ∀ (s : Fin 4) (c : MuObj → Bool) (d : Int), (∀ o : MuObj, -180 ≤ o.hwPhi.toInt → o.hwPhi.toInt ≤ 180 → c (etaRel (regionEta ir) o) = true →
          muRel (regionPhi ir) s o.hwPhi.toInt = o.hwPhi.toInt + d ∧ -180 ≤ o.hwPhi.toInt + d ∧ o.hwPhi.toInt + d ≤ 180) →
        (((List.ofFn (work s (regionEta ir))).filter c).map (phiMove d)).filter (near91 R (regionEta ir) (regionPhi ir) P) =
          (((((detAround R P (muCentre s) ((fib s).take NM)).filter (inSlice (regionEta ir))).map (etaRel (regionEta ir))).insertionSort byPt).filter c).map (phiMove d) := by
      intro s c d h
      refine pick_around hc R (fun x => ptOf_phiMove d x) s (hlen s) (w2 s (regionEta ir)) fun o ho hp hs hcc => ?_
      obtain ⟨p1, p2⟩ := hphi _ o ho hp
      obtain ⟨k1, k2, k3⟩ := h o p1 p2 hcc
      have e2 := muRel_relPhi (regionPhi ir) s o.hwPhi.toInt
      refine ⟨⟨hs, ?_, ?_⟩, ?_⟩
      · show -180 ≤ relPhi _ _ o.hwPhi.toInt
        omega
      · show relPhi _ _ o.hwPhi.toInt ≤ 180
        omega
      · rw [muPlace_move k1, muPlace_place]
    rcases (by omega : (regionPhi ir).val % 3 = 1 ∨ (regionPhi ir).val % 3 = 2) with m | m
    · have e : ∀ A B : List MuObj, muPick (regionPhi ir) A B = (A.filter fun o => decide (o.hwPhi.toInt > 60)).map (phiMove (-240)) ++
          (B.filter fun o => decide (o.hwPhi.toInt ≤ 60)).map (phiMove 120) := fun A B => if_pos m
      rw [e, e, List.filter_append]
      refine congrArg₂ _ (side _ _ _ fun o p1 p2 hcc => ?_) (side _ _ _ fun o p1 p2 hcc => ?_)
      · have hcc : o.hwPhi.toInt > 60 := of_decide_eq_true hcc
        have := (muInside_one (s := muA (regionPhi ir)) m p1 p2).2.1 rfl hcc
        omega
      · have hcc : o.hwPhi.toInt ≤ 60 := of_decide_eq_true hcc
        have := (muInside_one (s := muB (regionPhi ir)) m p1 p2).2.2 rfl hcc
        omega
    · have e : ∀ A B : List MuObj, muPick (regionPhi ir) A B = (A.filter fun o => decide (o.hwPhi.toInt > -60)).map (phiMove (-120)) ++
          (B.filter fun o => decide (o.hwPhi.toInt ≤ -60)).map (phiMove 240) := fun A B => if_neg (by omega)
      rw [e, e, List.filter_append]
      refine congrArg₂ _ (side _ _ _ fun o p1 p2 hcc => ?_) (side _ _ _ fun o p1 p2 hcc => ?_)
      · have hcc : o.hwPhi.toInt > -60 := of_decide_eq_true hcc
        have := (muInside_two (s := muA (regionPhi ir)) m p1 p2).2.1 rfl hcc
        omega
      · have hcc : o.hwPhi.toInt ≤ -60 := of_decide_eq_true hcc
        have := (muInside_two (s := muB (regionPhi ir)) m p1 p2).2.2 rfl hcc
        omega

/-- The muons of the regions come from these muon sectors, in region `ir` with a slot to spare. -/
structure DetEvent.MuonsFrom (d : DetEvent FE FT NT NC NE NM) (ir : Fin 18) (mu : Arr N_MUON_SECTORS (List MuObj)) : Prop where
  run : ∃ rest, regionize_muon_ref NM mu = .ok (rest, d.rm)
  phi : ∀ s, ∀ o ∈ (mu s).take NM, 0 < ptOf o → -180 ≤ o.hwPhi.toInt ∧ o.hwPhi.toInt ≤ 180
  free : ∃ k, ptOf (d.rm ir k) = 0

theorem sameMuons_of_det {d : DetEvent FE FT NT NC NE NM} {d' : DetEvent FE' FT' NT' NC' NE' NM'} {ir : Fin 18}
    {mu mu' : Arr N_MUON_SECTORS (List MuObj)} (hm : d.MuonsFrom ir mu) (hm' : d'.MuonsFrom ir mu') {R : ℝ} {P : Pos}
    (hc : Covers (regionEta ir) (regionPhi ir) P)
    (h : ∀ s, detAround R P (muCentre s) ((mu s).take NM) = detAround R P (muCentre s) ((mu' s).take NM')) :
    around R (dirIn (regionEta ir) (regionPhi ir) P) (·.hwPt = 0) (fun o => (o.hwEta, o.hwPhi)) (List.ofFn (d.rm ir)) =
      around R (dirIn (regionEta ir) (regionPhi ir) P) (·.hwPt = 0) (fun o => (o.hwEta, o.hwPhi)) (List.ofFn (d'.rm ir)) := by
  obtain ⟨_, e⟩ := hm.run
  obtain ⟨_, e'⟩ := hm'.run
  rw [around_eq, around_eq]
  refine (muRegion_around e ir hm.phi hm.free hc R).trans (Eq.trans ?_ (muRegion_around e' ir hm'.phi hm'.free hc R).symm)
  simp only [h]

/-- What two events have in common around a direction once the detector sends the same around it, muons included. -/
theorem same_of_det {d : DetEvent FE FT NT NC NE NM} {d' : DetEvent FE' FT' NT' NC' NE' NM'} {ir : Fin 18} (hd : d.Good ir)
    (hd' : d'.Good ir) {mu mu' : Arr N_MUON_SECTORS (List MuObj)} (hm : d.MuonsFrom ir mu) (hm' : d'.MuonsFrom ir mu') {R : ℝ} {P : Pos}
    (hc : Covers (regionEta ir) (regionPhi ir) P) (h : SameDet R P d d')
    (hmu : ∀ s, detAround R P (muCentre s) ((mu s).take NM) = detAround R P (muCentre s) ((mu' s).take NM')) :
    (Packed (boardOf d.re d.rh d.rt d.rm ir) ∧ Packed (boardOf d'.re d'.rh d'.rt d'.rm ir)) ∧
      (Physical (boardOf d.re d.rh d.rt d.rm ir) ∧ Physical (boardOf d'.re d'.rh d'.rt d'.rm ir)) ∧
      SameAround R (dirIn (regionEta ir) (regionPhi ir) P) (boardOf d.re d.rh d.rt d.rm ir) (boardOf d'.re d'.rh d'.rt d'.rm ir) := by
  have key := sameAround_of_det hd hd' hc h (sameMuons_of_det hm hm' hc hmu)
  obtain ⟨_, e1⟩ := hd.em
  obtain ⟨_, e2⟩ := hd.had
  obtain ⟨_, e3⟩ := hd.tk
  obtain ⟨_, e1'⟩ := hd'.em
  obtain ⟨_, e2'⟩ := hd'.had
  obtain ⟨_, e3'⟩ := hd'.tk
  exact ⟨⟨regions_packed d.rm e1 e2 e3 ir hd.emRoom, regions_packed d'.rm e1' e2' e3' ir hd'.emRoom⟩,
    ⟨(C85_regions_physical d.sz d.em _ d.had _ d.tk _ d.re d.rh d.rt d.rm e1 e2 e3 hd.sensible ir).1,
      (C85_regions_physical d'.sz d'.em _ d'.had _ d'.tk _ d'.re d'.rh d'.rt d'.rm e1' e2' e3' hd'.sensible ir).1⟩, key⟩

/-- **C91.** Every detector: two events in which the tracker, the calorimeters and the muon detector send the same within `R` of a direction
give the same candidates around it, from the firmware and from the reference. -/
theorem C91_detectors {d : DetEvent FE FT NT NC NE NM} {d' : DetEvent FE' FT' NT' NC' NE' NM'} {ir : Fin 18} (hd : d.Good ir)
    (hd' : d'.Good ir) {mu mu' : Arr N_MUON_SECTORS (List MuObj)} (hm : d.MuonsFrom ir mu) (hm' : d'.MuonsFrom ir mu') {R : ℝ} {P : Pos}
    (hc : Covers (regionEta ir) (regionPhi ir) P) (h : SameDet R P d d')
    (hmu : ∀ s, detAround R P (muCentre s) ((mu s).take NM) = detAround R P (muCentre s) ((mu' s).take NM'))
    (old : PFOutputs NT NE NS NM) (mem : PFScratch NC NS) (old' : PFOutputs NT' NE' NS' NM') (mem' : PFScratch NC' NS') :
    (∃ out out', pfalgo3_full (boardOf d.re d.rh d.rt d.rm ir) old mem = .ok out ∧
      pfalgo3_full (boardOf d'.re d'.rh d'.rt d'.rm ir) old' mem' = .ok out' ∧
      AroundAgrees R (dirIn (regionEta ir) (regionPhi ir) P) out out') ∧
    ∀ (rmem : Arr NC PFNeutralObj) (rmem' : Arr NC' PFNeutralObj), ∃ out out', pfalgo3_full_ref (boardOf d.re d.rh d.rt d.rm ir) old rmem = .ok out ∧
      pfalgo3_full_ref (boardOf d'.re d'.rh d'.rt d'.rm ir) old' rmem' = .ok out' ∧
      AroundAgrees R (dirIn (regionEta ir) (regionPhi ir) P) out out' := by
  obtain ⟨⟨k, k'⟩, ⟨p, p'⟩, key⟩ := same_of_det hd hd' hm hm' hc h hmu
  exact ⟨C91_around _ _ k k' key (physical_valid _ p _) (physical_valid _ p' _) old mem old' mem',
    fun rmem rmem' => C91_around_ref _ _ k k' key (physical_valid _ p _) (physical_valid _ p' _) old rmem old' rmem'⟩

/-- **C91.** And the same PUPPI pts. -/
theorem C91_detectors_puppi (table : PuppiTable) {d : DetEvent FE FT NT NC NE NM} {d' : DetEvent FE' FT' NT' NC' NE' NM'} {ir : Fin 18} (hd : d.Good ir)
    (hd' : d'.Good ir) {mu mu' : Arr N_MUON_SECTORS (List MuObj)} (hm : d.MuonsFrom ir mu) (hm' : d'.MuonsFrom ir mu') {R : ℝ} {P : Pos}
    (hc : Covers (regionEta ir) (regionPhi ir) P) (h : SameDet R P d d')
    (hmu : ∀ s, detAround R P (muCentre s) ((mu s).take NM) = detAround R P (muCentre s) ((mu' s).take NM'))
    (old : PFOutputs NT NE NS NM) (mem : PFScratch NC NS) (old' : PFOutputs NT' NE' NS' NM') (mem' : PFScratch NC' NS') (Z0 : Z0) :
    ∃ out out', pfalgo3_full (boardOf d.re d.rh d.rt d.rm ir) old mem = .ok out ∧
      pfalgo3_full (boardOf d'.re d'.rh d'.rt d'.rm ir) old' mem' = .ok out' ∧
      ((∀ n, puppiSum out.outch Z0 (mergeNeutrals out.outpho out.outne n) ≤ 2147483647) →
        (∀ n, puppiSum out'.outch Z0 (mergeNeutrals out'.outpho out'.outne n) ≤ 2147483647) →
        (∃ i, (out.outne i).hwPt = 0) → (∃ i, (out'.outne i).hwPt = 0) →
        ∃ hw hw', simple_puppi_hw table out.outch (mergeNeutrals out.outpho out.outne) Z0 = .ok hw ∧
          simple_puppi_hw table out'.outch (mergeNeutrals out'.outpho out'.outne) Z0 = .ok hw' ∧
          ∀ r, r + puppiReach ≤ R →
            puppiAround r (dirIn (regionEta ir) (regionPhi ir) P) (List.ofFn fun n => puppiSeen (hw n)) =
              puppiAround r (dirIn (regionEta ir) (regionPhi ir) P) (List.ofFn fun n => puppiSeen (hw' n))) := by
  obtain ⟨⟨k, k'⟩, ⟨p, p'⟩, key⟩ := same_of_det hd hd' hm hm' hc h hmu
  exact C91_chain table _ _ k k' key (physical_valid _ p _) (physical_valid _ p' _) old mem old' mem' Z0

/-! ### Two events -/

/-- A muon close to where the lone objects are, in the first muon sector. -/
def loneMu : Arr N_MUON_SECTORS (List MuObj) := fun s => if s = 0 then [⟨12, 0, 1, 2⟩, ⟨0, 0, 0, 0⟩] else [⟨0, 0, 0, 0⟩, ⟨0, 0, 0, 0⟩]

/-- The same muon behind a harder one at eta 165, and one in the next muon sector. -/
def moreMu : Arr N_MUON_SECTORS (List MuObj) := fun s =>
  if s = 0 then [⟨70, 0, 165, 0⟩, ⟨12, 0, 1, 2⟩, ⟨0, 0, 0, 0⟩] else if s = 1 then [⟨40, 0, 0, 100⟩, ⟨0, 0, 0, 0⟩, ⟨0, 0, 0, 0⟩] else [⟨0, 0, 0, 0⟩, ⟨0, 0, 0, 0⟩, ⟨0, 0, 0, 0⟩]

/-- **C91**, non-vacuity: muons that meet the hypotheses in region 6 for `R = 160`. -/
theorem C91_detectors_example :
    ∃ rest rm rest' rm', regionize_muon_ref 2 loneMu = .ok (rest, rm) ∧ regionize_muon_ref 3 moreMu = .ok (rest', rm') ∧
      (∃ k, ptOf (rm 6 k) = 0) ∧ (∃ k, ptOf (rm' 6 k) = 0) ∧ rm 6 0 = ⟨12, 0, 1, 2⟩ ∧ (∃ k, rm' 6 k = ⟨12, 0, 1, 2⟩) ∧
      (∀ s, ∀ o ∈ (loneMu s).take 2, 0 < ptOf o → -180 ≤ o.hwPhi.toInt ∧ o.hwPhi.toInt ≤ 180) ∧
      (∀ s, ∀ o ∈ (moreMu s).take 3, 0 < ptOf o → -180 ≤ o.hwPhi.toInt ∧ o.hwPhi.toInt ≤ 180) ∧
      ∀ s, detAround (160 : Nat) ⟨0, 120⟩ (muCentre s) ((loneMu s).take 2) = detAround (160 : Nat) ⟨0, 120⟩ (muCentre s) ((moreMu s).take 3) := by
  have run : ∀ {n : Nat} {fib : Arr N_MUON_SECTORS (List MuObj)} {good : Arr N_OUT_REGIONS (Arr n MuObj) → Bool},
      (match regionize_muon_ref n fib with | .ok x => good x.2 | .error _ => false) = true →
      ∃ rest rm, regionize_muon_ref n fib = .ok (rest, rm) ∧ good rm = true := by
    intro n fib good h
    cases e : regionize_muon_ref n fib with
    | ok x => rw [e] at h; exact ⟨x.1, x.2, rfl, h⟩
    | error f => rw [e] at h; cases h
  obtain ⟨rest, rm, e, g⟩ := run (n := 2) (fib := loneMu) (good := fun rm => decide ((∃ k, ptOf (rm 6 k) = 0) ∧ rm 6 0 = ⟨12, 0, 1, 2⟩)) (by decide +kernel)
  obtain ⟨rest', rm', e', g'⟩ := run (n := 3) (fib := moreMu) (good := fun rm => decide ((∃ k, ptOf (rm 6 k) = 0) ∧ ∃ k, rm 6 k = ⟨12, 0, 1, 2⟩))
    (by decide +kernel)
  obtain ⟨g1, g2⟩ := of_decide_eq_true g
  obtain ⟨g1', g2'⟩ := of_decide_eq_true g'
  refine ⟨rest, rm, rest', rm', e, e', g1, g1', g2, g2', by decide +kernel, by decide +kernel, fun s => ?_⟩
  rw [detAround_nat, detAround_nat]
  revert s
  decide +kernel

end Verif
