import Verif.Proofs.OneMoreMuonLink
import Verif.Props.DetSym
import Verif.Proofs.RegMuon2
/-! # One more muon on a muon link: property C99 -/
namespace Verif
open Spec
variable {NM : Nat}

/-- What one more muon of muon sector `s` does to the regions: those it is not in stay as they are; the others get it in its place in order of pt
and lose an empty slot, or their last muon if they were full, or were full of muons of no less pt and stay as they are. -/
def MuonJoins (s : Fin 4) (o : MuObj) (old new : Arr N_OUT_REGIONS (Arr NM MuObj)) : Prop :=
  ∀ ir : Fin 18,
    (¬ (inSlice (regionEta ir) o = true ∧ MuInside (regionPhi ir) s o.hwPhi.toInt) → new ir = old ir) ∧
    (inSlice (regionEta ir) o = true ∧ MuInside (regionPhi ir) s o.hwPhi.toInt →
      (new ir = old ir ∧ ∀ k, ptOf o ≤ ptOf (old ir k)) ∨ ∃ i j, PutAt (muPlace (regionEta ir) (regionPhi ir) s o) (old ir) (new ir) i j ∧
        (old ir j = MuObj.clear ∨ ∀ k, 0 < ptOf (old ir k)))

theorem muPlace_zero {ie : Fin 3} {ip : Fin 6} {s : Fin 4} {o : MuObj} (h : muRel ip s o.hwPhi.toInt = o.hwPhi.toInt) :
    etaRel ie o = muPlace ie ip s o := by
  unfold muPlace
  rw [h]
  show ({ o with hwEta := _ } : MuObj) = _
  simp
  rfl

theorem muPlace_move {ie : Fin 3} {ip : Fin 6} {s : Fin 4} {o : MuObj} {d : Int} (h : muRel ip s o.hwPhi.toInt = o.hwPhi.toInt + d) :
    phiMove d (etaRel ie o) = muPlace ie ip s o := by
  unfold muPlace
  rw [h]
  rfl

theorem ptOf_muPlace (ie : Fin 3) (ip : Fin 6) (s : Fin 4) (o : MuObj) : ptOf (muPlace ie ip s o) = ptOf o := rfl

theorem muonJoins_of {words words' : Fin 4 → List MuObj} {s : Fin 4} {o : MuObj} (H : OneMoreMuonWord words words' s o)
    (room : (posList (words' s)).length ≤ NM) (h1 : -180 ≤ o.hwPhi.toInt) (h2 : o.hwPhi.toInt ≤ 180)
    {work work' : Work MuObj N_MUON_SECTORS NM} (hw : ∀ is ie, Holds (work is ie) (slice NM ie (words is)))
    (hw' : ∀ is ie, Holds (work' is ie) (slice NM ie (words' is))) :
    MuonJoins s o (fun ir => muon_region work ir) (fun ir => muon_region work' ir) := by
  have hM : MoreIn o (words s) (words' s) := H.word
  have other : ∀ is ie, is ≠ s → work' is ie = work is ie := fun is ie h => by
    have := hw' is ie
    rw [H.others is h] at this
    exact this.unique (hw is ie)
  have same : ∀ ie, inSlice ie o ≠ true → work' s ie = work s ie := fun ie h => by
    have := hw' s ie
    rw [slice_skip hM (by simpa using h)] at this
    exact this.unique (hw s ie)
  have more : ∀ ie, inSlice ie o = true → MoreIn (etaRel ie o) (List.ofFn (work s ie)) (List.ofFn (work' s ie)) := fun ie h =>
    (slice_more hM h room).congr
      (by rw [posList_holds (hw s ie) (best_length _ _) fun e he => (mem_best he).2]; exact (posList_id fun e he => (mem_best he).2).symm)
      (by rw [posList_holds (hw' s ie) (best_length _ _) fun e he => (mem_best he).2]; exact (posList_id fun e he => (mem_best he).2).symm)
  intro ir
  show (_ → muon_region work' ir = muon_region work ir) ∧ (_ → (muon_region work' ir = muon_region work ir ∧ ∀ k, ptOf o ≤ ptOf (muon_region work ir k)) ∨
    ∃ i j, PutAt _ (muon_region work ir) (muon_region work' ir) i j ∧ (muon_region work ir j = MuObj.clear ∨ ∀ k, 0 < ptOf (muon_region work ir k)))
  by_cases ho : inSlice (regionEta ir) o = true
  swap
  · refine ⟨fun _ => ?_, fun h => absurd h.1 ho⟩
    have : ∀ is, work' is (regionEta ir) = work is (regionEta ir) := fun is => by
      by_cases e : is = s
      · rw [e]; exact same _ ho
      · exact other _ _ e
    unfold muon_region
    simp only [this]
  have hM' := more _ ho
  have hpos : ∀ ie ip, 0 < ptOf (muPlace ie ip s o) := fun _ _ => H.pos
  by_cases m0 : (regionPhi ir).val % 3 = 0
  · obtain ⟨k1, k2⟩ := muInside_zero (s := s) m0 h1 h2
    rw [k1]
    rw [muon_region_zero _ _ m0, muon_region_zero _ _ m0]
    refine ⟨fun h => other _ _ fun e => h ⟨ho, e.symm⟩, fun h => ?_⟩
    rw [← h.2]
    have e : etaRel (regionEta ir) o = muPlace (regionEta ir) (regionPhi ir) s o := muPlace_zero (k2 h.2)
    rw [← ptOf_muPlace (regionEta ir) (regionPhi ir) s o, ← e]
    exact pad_more (by rw [e]; exact hpos _ _) (hM.pick ho (ptOf_etaRel _)) (hw s _) (hw' s _)
  · have p := muon_region_pick work ir m0
    have p' := muon_region_pick work' ir m0
    have hAB : muA (regionPhi ir) ≠ muB (regionPhi ir) := by
      unfold muA muB
      rw [Ne, Fin.ext_iff]
      dsimp only
      omega
    have pt : ∀ d, ∀ x : MuObj, ptOf (phiMove d x) = ptOf x := fun d x => ptOf_phiMove d x
    have phi : (etaRel (regionEta ir) o).hwPhi = o.hwPhi := rfl
    -- the muon is picked
    have put : ∀ d, muRel (regionPhi ir) s o.hwPhi.toInt = o.hwPhi.toInt + d →
        MoreIn (phiMove d (etaRel (regionEta ir) o)) (muPick (regionPhi ir) (List.ofFn (work (muA (regionPhi ir)) (regionEta ir)))
          (List.ofFn (work (muB (regionPhi ir)) (regionEta ir)))) (muPick (regionPhi ir) (List.ofFn (work' (muA (regionPhi ir)) (regionEta ir)))
          (List.ofFn (work' (muB (regionPhi ir)) (regionEta ir)))) →
        (muon_region work' ir = muon_region work ir ∧ ∀ k, ptOf o ≤ ptOf (muon_region work ir k)) ∨
          ∃ i j, PutAt (muPlace (regionEta ir) (regionPhi ir) s o) (muon_region work ir) (muon_region work' ir) i j ∧
            (muon_region work ir j = MuObj.clear ∨ ∀ k, 0 < ptOf (muon_region work ir k)) := by
      intro d hd hm
      rw [muPlace_move hd] at hm
      rw [← ptOf_muPlace (regionEta ir) (regionPhi ir) s o]
      exact pad_more (hpos _ _) hm p p'
    -- the muon is not picked
    have stay : posList (muPick (regionPhi ir) (List.ofFn (work' (muA (regionPhi ir)) (regionEta ir)))
          (List.ofFn (work' (muB (regionPhi ir)) (regionEta ir)))) = posList (muPick (regionPhi ir) (List.ofFn (work (muA (regionPhi ir)) (regionEta ir)))
          (List.ofFn (work (muB (regionPhi ir)) (regionEta ir)))) → muon_region work' ir = muon_region work ir := by
      intro h
      unfold Holds at p p'
      rw [← best_posList, h, best_posList] at p'
      exact List.ofFn_injective (p'.trans p.symm)
    -- both kinds of regions, with the border and the two moves
    have both : ∀ b dA dB : Int, (∀ A B : List MuObj, muPick (regionPhi ir) A B = (A.filter fun o => decide (o.hwPhi.toInt > b)).map (phiMove dA) ++
          (B.filter fun o => decide (o.hwPhi.toInt ≤ b)).map (phiMove dB)) →
        (MuInside (regionPhi ir) s o.hwPhi.toInt ↔ s = muA (regionPhi ir) ∧ o.hwPhi.toInt > b ∨ s = muB (regionPhi ir) ∧ o.hwPhi.toInt ≤ b) →
        (s = muA (regionPhi ir) → o.hwPhi.toInt > b → muRel (regionPhi ir) s o.hwPhi.toInt = o.hwPhi.toInt + dA) →
        (s = muB (regionPhi ir) → o.hwPhi.toInt ≤ b → muRel (regionPhi ir) s o.hwPhi.toInt = o.hwPhi.toInt + dB) →
        (¬ (inSlice (regionEta ir) o = true ∧ MuInside (regionPhi ir) s o.hwPhi.toInt) → muon_region work' ir = muon_region work ir) ∧
        (inSlice (regionEta ir) o = true ∧ MuInside (regionPhi ir) s o.hwPhi.toInt →
          (muon_region work' ir = muon_region work ir ∧ ∀ k, ptOf o ≤ ptOf (muon_region work ir k)) ∨
          ∃ i j, PutAt (muPlace (regionEta ir) (regionPhi ir) s o) (muon_region work ir) (muon_region work' ir) i j ∧
            (muon_region work ir j = MuObj.clear ∨ ∀ k, 0 < ptOf (muon_region work ir k))) := by
      intro b dA dB hpick hin hA hB
      rw [hin]
      rw [hpick, hpick] at stay put
      by_cases sA : s = muA (regionPhi ir)
      · have sB : muB (regionPhi ir) ≠ s := fun e => hAB (sA.symm.trans e.symm)
        rw [other _ _ sB, ← sA] at stay put
        by_cases c : o.hwPhi.toInt > b
        · exact ⟨fun h => absurd ⟨ho, Or.inl ⟨sA, c⟩⟩ h, fun _ => put dA (hA sA c) ((hM'.pick (by rw [phi]; exact decide_eq_true c) (pt dA)).left _)⟩
        · refine ⟨fun _ => stay ?_, fun h => ?_⟩
          · rw [posList_append, posList_append, hM'.skip (by rw [phi]; exact decide_eq_false c) (pt dA)]
          · rcases h.2 with h | h
            · exact absurd h.2 c
            · exact absurd h.1.symm sB
      · by_cases sB : s = muB (regionPhi ir)
        · rw [other _ _ (Ne.symm sA), ← sB] at stay put
          by_cases c : o.hwPhi.toInt ≤ b
          · exact ⟨fun h => absurd ⟨ho, Or.inr ⟨sB, c⟩⟩ h, fun _ => put dB (hB sB c) ((hM'.pick (by rw [phi]; exact decide_eq_true c) (pt dB)).right _)⟩
          · refine ⟨fun _ => stay ?_, fun h => ?_⟩
            · rw [posList_append, posList_append, hM'.skip (by rw [phi]; exact decide_eq_false c) (pt dB)]
            · rcases h.2 with h | h
              · exact absurd h.1 sA
              · exact absurd h.2 c
        · rw [other _ _ (Ne.symm sA), other _ _ (Ne.symm sB)] at stay
          exact ⟨fun _ => stay rfl, fun h => h.2.elim (fun h => absurd h.1 sA) fun h => absurd h.1 sB⟩
    rcases (by omega : (regionPhi ir).val % 3 = 1 ∨ (regionPhi ir).val % 3 = 2) with m | m
    · obtain ⟨a, b, c⟩ := muInside_one (s := s) m h1 h2
      exact both 60 (-240) 120 (fun A B => if_pos m) a (fun h h' => by rw [b h h']; rfl) c
    · obtain ⟨a, b, c⟩ := muInside_two (s := s) m h1 h2
      exact both (-60) (-120) 240 (fun A B => if_neg (by omega)) a (fun h h' => by rw [b h h']; rfl) c

/-- The first words of a link with one replaced. -/
theorem take_set_at {l : List MuObj} (m : Nat) (x : MuObj) (hl : m < l.length) (hm : m < NM) :
    (l.set m x).take NM = l.take m ++ x :: (l.drop (m + 1)).take (NM - (m + 1)) := by
  have h : (l.take m).length = m := by rw [List.length_take]; omega
  rw [List.set_eq_take_append_cons_drop, if_pos hl, List.take_append, h, List.take_of_length_le (by omega),
    show NM - m = NM - (m + 1) + 1 from by omega, List.take_succ_cons]

/-- **C99.** A word of a muon link that was null carries a muon: the regions it is in get it, unless full of muons of no less pt; the others stay as they are. -/
theorem C99_one_more_muon_word {fib fib' rest : Arr N_MUON_SECTORS (List MuObj)} {s : Fin 4} {m : Nat} {o : MuObj} (H : OneMoreOnFibre fib fib' s m o)
    (hm : m < NM) (h1 : -180 ≤ o.hwPhi.toInt) (h2 : o.hwPhi.toInt ≤ 180) (regions : Arr N_OUT_REGIONS (Arr NM MuObj))
    (hrun : regionize_muon_ref NM fib = .ok (rest, regions)) :
    ∃ regions', regionize_muon_ref NM fib' = .ok (rest, regions') ∧ MuonJoins s o regions regions' := by
  have hlen := mu_long hrun
  have hlen' : ∀ k, NM ≤ (fib' k).length := fun k => by
    by_cases hk : k = s
    · rw [hk, H.word, List.length_set]; exact hlen s
    · rw [H.others k hk]; exact hlen k
  obtain ⟨work, w1, w2⟩ := deserialize_muon_ok fib hlen
  obtain ⟨work', w1', w2'⟩ := deserialize_muon_ok fib' hlen'
  have hrest : (fun k => (fib' k).drop NM) = fun k => (fib k).drop NM := by
    funext k
    by_cases hk : k = s
    · rw [hk, H.word, List.drop_set_of_lt hm]
    · rw [H.others k hk]
  unfold regionize_muon_ref at hrun ⊢
  rw [w1, Run.ok_bind] at hrun
  cases hrun
  rw [w1', Run.ok_bind]
  obtain ⟨z, hz, hz0⟩ := H.free
  obtain ⟨hmlen, hzm⟩ := List.getElem?_eq_some_iff.mp hz
  have e : (fib s).take NM = (fib s).take m ++ z :: ((fib s).drop (m + 1)).take (NM - (m + 1)) := by
    have := take_set_at m z hmlen hm
    rw [← hzm, List.set_getElem_self] at this
    rw [this, hzm]
  have e' : (fib' s).take NM = (fib s).take m ++ o :: ((fib s).drop (m + 1)).take (NM - (m + 1)) := by
    rw [H.word]; exact take_set_at m o hmlen hm
  have hw : OneMoreMuonWord (fun k => (fib k).take NM) (fun k => (fib' k).take NM) s o := by
    refine ⟨fun k hk => ?_, ⟨((fib s).take m).filter fun x => decide (0 < ptOf x),
      (((fib s).drop (m + 1)).take (NM - (m + 1))).filter fun x => decide (0 < ptOf x), ?_, ?_⟩, H.pos⟩
    · show (fib' k).take NM = (fib k).take NM
      rw [H.others k hk]
    · show ((fib s).take NM).filter _ = _
      rw [e, List.filter_append, List.filter_cons_of_neg (by simpa using hz0)]
    · show ((fib' s).take NM).filter _ = _
      rw [e', List.filter_append, List.filter_cons_of_pos (by simpa using H.pos)]
  refine ⟨_, by rw [hrest], muonJoins_of hw ?_ h1 h2 w2 w2'⟩
  exact le_trans (List.length_filter_le _ _) (by rw [List.length_take]; omega)


/-- The muon sector of a sector. -/
def muSector (ics : Fin 12) : Fin 4 := ⟨ics.val / 3, by omega⟩

theorem posList_muArr (inn : Arr N_IN_SECTORS (Arr NM MuObj)) (s : Fin 4) :
    posList (muArr inn s) = (((List.finRange 12).flatMap fun ics => (List.finRange NM).map fun io => (ics, io)).filter
      fun p => decide (0 < ptOf (inn p.1 p.2)) && decide (p.1.val / 3 = s.val)).map fun p => inSec p.1 (inn p.1 p.2) := by
  have h : muArr inn s = (((List.finRange 12).flatMap fun ics => (List.finRange NM).map fun io => (ics, io)).filter
      fun p => decide (p.1.val / 3 = s.val)).map fun p => inSec p.1 (inn p.1 p.2) := by
    unfold muArr
    rw [show ((List.finRange N_IN_SECTORS).flatMap fun ics => (List.finRange NM).map fun io =>
        ((⟨ics.val / 3, by have h : ics.val < 12 := ics.isLt; omega⟩ : Fin 4), phiMove (PHI_SHIFT ⟨ics.val % 3, by omega⟩) (inn ics io))) =
      ((List.finRange 12).flatMap fun ics => (List.finRange NM).map fun io => (ics, io)).map fun p => (muSector p.1, inSec p.1 (inn p.1 p.2)) from by
        rw [List.map_flatMap]; congr 1; funext ics; rw [List.map_map]; rfl]
    rw [List.filter_map, List.map_map]
    refine congrArg₂ _ rfl (List.filter_congr fun p _ => ?_)
    show decide (muSector p.1 = s) = _
    exact decide_eq_decide.mpr Fin.ext_iff
  rw [h]
  unfold posList
  rw [List.filter_map, List.filter_filter]
  rfl

theorem posList_muArr_length (inn : Arr N_IN_SECTORS (Arr NM MuObj)) (s : Fin 4) : (posList (muArr inn s)).length = muonsIn inn s := by
  rw [posList_muArr, List.length_map]
  unfold muonsIn muIndices
  rw [List.filter_filter]
  refine congrArg List.length (List.filter_congr fun p _ => Bool.and_comm ..)

theorem muArr_more {inn inn' : Arr N_IN_SECTORS (Arr NM MuObj)} {ics : Fin 12} {io : Fin NM} {o : MuObj} (H : OneMoreMuonIn inn inn' ics io o) :
    MoreIn (inSec ics o) (muArr inn (muSector ics)) (muArr inn' (muSector ics)) := by
  let P : List (Fin 12 × Fin NM) := (List.finRange 12).flatMap fun ics => (List.finRange NM).map fun io => (ics, io)
  have hnd : P.Nodup := allIdx_nodup
  have hmem : (ics, io) ∈ P := List.mem_flatMap.mpr ⟨ics, List.mem_finRange _, List.mem_map.mpr ⟨io, List.mem_finRange _, rfl⟩⟩
  obtain ⟨p1, p2, hP⟩ := List.append_of_mem hmem
  unfold MoreIn
  rw [posList_muArr, posList_muArr]
  show ∃ l₁ l₂, (P.filter _).map _ = _ ∧ (P.filter _).map _ = _
  rw [hP] at hnd ⊢
  have hnot := List.nodup_middle.mp hnd
  have n1 : ∀ p ∈ p1 ++ p2, inn' p.1 p.2 = inn p.1 p.2 := fun p hp => H.others _ _ fun e => (List.nodup_cons.mp hnot).1 (by rw [← e]; exact hp)
  have same : ∀ l : List (Fin 12 × Fin NM), (∀ p ∈ l, p ∈ p1 ++ p2) →
      (l.filter fun p => decide (0 < ptOf (inn' p.1 p.2)) && decide (p.1.val / 3 = (muSector ics).val)).map (fun p => inSec p.1 (inn' p.1 p.2)) =
      (l.filter fun p => decide (0 < ptOf (inn p.1 p.2)) && decide (p.1.val / 3 = (muSector ics).val)).map (fun p => inSec p.1 (inn p.1 p.2)) := fun l hl => by
    rw [List.filter_congr fun p hp => by rw [n1 p (hl p hp)]]
    exact List.map_congr_left fun p hp => by rw [n1 p (hl p (List.mem_filter.mp hp).1)]
  refine ⟨(p1.filter fun p => decide (0 < ptOf (inn p.1 p.2)) && decide (p.1.val / 3 = (muSector ics).val)).map fun p => inSec p.1 (inn p.1 p.2),
    (p2.filter fun p => decide (0 < ptOf (inn p.1 p.2)) && decide (p.1.val / 3 = (muSector ics).val)).map fun p => inSec p.1 (inn p.1 p.2), ?_, ?_⟩
  rotate_left
  · rw [List.filter_append, List.map_append, List.filter_cons_of_pos, List.map_cons, same p1 (fun p hp => List.mem_append_left _ hp),
      same p2 (fun p hp => List.mem_append_right _ hp), H.here]
    show (decide (0 < ptOf (inn' ics io)) && decide (ics.val / 3 = ics.val / 3)) = true
    rw [H.here]
    simpa using H.pos
  · rw [List.filter_append, List.map_append, List.filter_cons_of_neg]
    have := H.free
    show ¬ (decide (0 < ptOf (inn ics io)) && decide (ics.val / 3 = ics.val / 3)) = true
    simpa using this

theorem muArr_other {inn inn' : Arr N_IN_SECTORS (Arr NM MuObj)} {ics : Fin 12} {io : Fin NM} {o : MuObj} (H : OneMoreMuonIn inn inn' ics io o)
    (s : Fin 4) (hs : s ≠ muSector ics) : posList (muArr inn' s) = posList (muArr inn s) := by
  rw [posList_muArr, posList_muArr]
  have n1 : ∀ p : Fin 12 × Fin NM, p.1.val / 3 = s.val → inn' p.1 p.2 = inn p.1 p.2 := fun p hp => H.others _ _ fun e => hs (Fin.ext (by
    rw [← hp]; show p.1.val / 3 = ics.val / 3; rw [(Prod.ext_iff.mp e).1]))
  rw [List.filter_congr (q := fun p => decide (0 < ptOf (inn p.1 p.2)) && decide (p.1.val / 3 = s.val)) fun p _ => ?_]
  · refine List.map_congr_left fun p hp => ?_
    rw [n1 p (by have := (List.mem_filter.mp hp).2; simp at this; exact this.2)]
  · by_cases h : p.1.val / 3 = s.val
    · rw [n1 p h]
    · simp [h]

/-- What one more muon of sector `ics` does to the regions: those it is not in stay as they are; the others get it in its place in order of pt
and lose an empty slot, or their last muon if they were full, or were full of muons of no less pt and stay as they are. -/
def MuonEnters (ics : Fin 12) (o : MuObj) (old new : Arr N_OUT_REGIONS (Arr NM MuObj)) : Prop :=
  ∀ ir : Fin 18,
    (¬ (inSlice (regionEta ir) o = true ∧ -180 < relPhi (regionPhi ir) ics o.hwPhi.toInt ∧ relPhi (regionPhi ir) ics o.hwPhi.toInt ≤ 180) →
      new ir = old ir) ∧
    (inSlice (regionEta ir) o = true ∧ -180 < relPhi (regionPhi ir) ics o.hwPhi.toInt ∧ relPhi (regionPhi ir) ics o.hwPhi.toInt ≤ 180 →
      (new ir = old ir ∧ ∀ k, ptOf o ≤ ptOf (old ir k)) ∨
      ∃ i j, PutAt (muToRegion (regionEta ir) (regionPhi ir) ics o) (old ir) (new ir) i j ∧ (old ir j = MuObj.clear ∨ ∀ k, 0 < ptOf (old ir k)))

/-- **C99.** A sector has one more muon, and its muon sector has no more than `NM`: the regions the muon is in get it, unless full of muons of no less pt;
the others stay as they are. -/
theorem C99_one_more_muon {inn inn' : Arr N_IN_SECTORS (Arr NM MuObj)} {ics : Fin 12} {io : Fin NM} {o : MuObj} (H : OneMoreMuonIn inn inn' ics io o)
    (h1 : -60 < o.hwPhi.toInt) (h2 : o.hwPhi.toInt ≤ 60) (room : muonsIn inn' (muSector ics) ≤ NM)
    (later rest : Arr N_MUON_SECTORS (List MuObj)) (regions : Arr N_OUT_REGIONS (Arr NM MuObj))
    (hrun : regionize_muon_ref NM (fun s => List.ofFn (merge_muon_in inn s) ++ later s) = .ok (rest, regions)) :
    ∃ regions', regionize_muon_ref NM (fun s => List.ofFn (merge_muon_in inn' s) ++ later s) = .ok (rest, regions') ∧ MuonEnters ics o regions regions' := by
  have hph := inSec_phi ics o ⟨by omega, h2⟩
  obtain ⟨work, w1, w2⟩ := deserialize_muon_ok (NMU := NM) (fun s => List.ofFn (merge_muon_in inn s) ++ later s) (fun is => by simp)
  obtain ⟨work', w1', w2'⟩ := deserialize_muon_ok (NMU := NM) (fun s => List.ofFn (merge_muon_in inn' s) ++ later s) (fun is => by simp)
  have hd : ∀ i : Arr N_IN_SECTORS (Arr NM MuObj), (fun is => List.drop NM (List.ofFn (merge_muon_in i is) ++ later is)) = later := fun i => by
    funext is
    rw [List.drop_append_of_le_length (by simp), List.drop_eq_nil_of_le (by simp), List.nil_append]
  rw [hd] at w1 w1'
  unfold regionize_muon_ref at hrun ⊢
  rw [w1, Run.ok_bind] at hrun
  cases hrun
  rw [w1', Run.ok_bind]
  have ht : ∀ (i : Arr N_IN_SECTORS (Arr NM MuObj)) is, List.take NM (List.ofFn (merge_muon_in i is) ++ later is) = List.ofFn (merge_muon_in i is) := fun i is => by
    rw [List.take_append_of_le_length (by simp), List.take_of_length_le (by simp)]
  simp only [ht] at w2 w2'
  have hp : ∀ (i : Arr N_IN_SECTORS (Arr NM MuObj)) s, posList (List.ofFn (merge_muon_in i s)) = best NM (muArr i s) := fun i s =>
    posList_holds (merge_muon_holds i s) (best_length _ _) fun e he => (mem_best he).2
  have hw : OneMoreMuonWord (fun s => List.ofFn (merge_muon_in inn s)) (fun s => List.ofFn (merge_muon_in inn' s)) (muSector ics) (inSec ics o) := by
    refine ⟨fun s hs => ?_, ?_, H.pos⟩
    · show List.ofFn (merge_muon_in inn' s) = List.ofFn (merge_muon_in inn s)
      rw [show List.ofFn (merge_muon_in inn' s) = _ from merge_muon_holds inn' s, show List.ofFn (merge_muon_in inn s) = _ from merge_muon_holds inn s,
        ← best_posList _ (muArr inn' s), muArr_other H s hs, best_posList]
    · show MoreIn (inSec ics o) (List.ofFn (merge_muon_in inn (muSector ics))) (List.ofFn (merge_muon_in inn' (muSector ics)))
      obtain ⟨l1, l2, e1, e2⟩ := (muArr_more H).best (n := NM) (by rw [posList_muArr_length]; exact room)
      refine ⟨l1, l2, ?_, ?_⟩
      · rw [hp, ← e1]; exact (posList_id fun e he => (mem_best he).2).symm
      · rw [hp, ← e2]; exact (posList_id fun e he => (mem_best he).2).symm
  have hj := muonJoins_of hw ?_ ?_ ?_ w2 w2'
  · refine ⟨_, rfl, fun ir => ?_⟩
    have e := hj ir
    have hrel : muRel (regionPhi ir) (muSector ics) (inSec ics o).hwPhi.toInt = relPhi (regionPhi ir) ics o.hwPhi.toInt := by
      rw [hph]
      have hv : (muSector ics).val = ics.val / 3 := rfl
      unfold muRel relPhi secPhi
      rw [hv]
      congr 2
      omega
    have hin : MuInside (regionPhi ir) (muSector ics) (inSec ics o).hwPhi.toInt ↔
        (-180 < relPhi (regionPhi ir) ics o.hwPhi.toInt ∧ relPhi (regionPhi ir) ics o.hwPhi.toInt ≤ 180) := by
      unfold MuInside
      rw [max_eq_right (by rw [hph]; unfold secPhi; omega), hrel]
    have hpl : muPlace (regionEta ir) (regionPhi ir) (muSector ics) (inSec ics o) = muToRegion (regionEta ir) (regionPhi ir) ics o := by
      unfold muPlace muToRegion
      rw [hrel]
      rfl
    rw [hin, hpl] at e
    exact e
  · rw [hp]; exact best_length _ _
  · rw [hph]; unfold secPhi; omega
  · rw [hph]; unfold secPhi; omega

/-! ## Full merging, and a concrete case -/

def mu99 (pt : Int) : MuObj := { MuObj.clear with hwPt := reg 16 pt }

/-- Muons of 20 and 30 in sector 0; one of `pt` in sector 2. -/
def inn99 (pt : Int) : Arr N_IN_SECTORS (Arr 2 MuObj) := fun ics io =>
  if ics.val = 0 then mu99 (20 + 10 * io.val) else if ics.val = 2 ∧ io.val = 0 then mu99 pt else MuObj.clear

/-- **C99.** Without the room the theorem asks for, a region loses a muon to one that is not in it: of two muons of sector 0, the weaker one is
gone from region 11, centred on sector 11, when sector 2 has one more muon. -/
theorem C99_lost :
    OneMoreMuonIn (inn99 0) (inn99 25) 2 0 (mu99 25) ∧ muonsIn (inn99 25) (muSector 2) = 3 ∧
    ¬ (-180 < relPhi (regionPhi 11) 2 (mu99 25).hwPhi.toInt ∧ relPhi (regionPhi 11) 2 (mu99 25).hwPhi.toInt ≤ 180) ∧
    (regionize_muon_ref 2 (fun s => List.ofFn (merge_muon_in (inn99 0) s))).map (fun o => (List.ofFn (o.2 11)).map fun x => x.hwPt.toInt) = .ok [30, 20] ∧
    (regionize_muon_ref 2 (fun s => List.ofFn (merge_muon_in (inn99 25) s))).map (fun o => (List.ofFn (o.2 11)).map fun x => x.hwPt.toInt) = .ok [30, 0] := by
  refine ⟨⟨fun i j h => ?_, rfl, by decide +kernel, by decide +kernel⟩, by decide +kernel, by decide +kernel, by decide +kernel, by decide +kernel⟩
  revert i j
  decide +kernel

/-- A muon of 10 in sector 0, then also one of 25 in sector 2. -/
def inn99b (pt : Int) : Arr N_IN_SECTORS (Arr 2 MuObj) := fun ics io =>
  if ics.val = 0 ∧ io.val = 0 then mu99 10 else if ics.val = 2 ∧ io.val = 1 then mu99 pt else MuObj.clear

/-- The hypotheses are met, and both regions of the muon get it: region 6 before the muon it had, region 7 as its first; region 11 stays as it is. -/
theorem C99_concrete :
    OneMoreMuonIn (inn99b 0) (inn99b 25) 2 1 (mu99 25) ∧ muonsIn (inn99b 25) (muSector 2) ≤ 2 ∧
    (regionize_muon_ref 2 (fun s => List.ofFn (merge_muon_in (inn99b 0) s) ++ [])).map
      (fun o => [6, 7, 11].map fun r => (List.ofFn (o.2 r)).map fun x => (x.hwPt.toInt, x.hwPhi.toInt)) = .ok [[(10, -120), (0, 0)], [(0, 0), (0, 0)], [(10, 120), (0, 0)]] ∧
    (regionize_muon_ref 2 (fun s => List.ofFn (merge_muon_in (inn99b 25) s) ++ [])).map
      (fun o => [6, 7, 11].map fun r => (List.ofFn (o.2 r)).map fun x => (x.hwPt.toInt, x.hwPhi.toInt)) =
        .ok [[(25, 120), (10, -120)], [(25, -120), (0, 0)], [(10, 120), (0, 0)]] := by
  refine ⟨⟨fun i j h => ?_, rfl, by decide +kernel, by decide +kernel⟩, by decide +kernel, by decide +kernel, by decide +kernel⟩
  revert i j
  decide +kernel

end Verif
