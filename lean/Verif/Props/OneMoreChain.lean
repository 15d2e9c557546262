import Verif.Spec.OneMoreChain
import Verif.Props.OneMore
import Verif.Props.OneMoreLink
import Verif.Props.System
/-! # One more track, from the links to the candidates: property C96 -/
namespace Verif
open Spec
variable {NT NC NE NM NS : Nat}

/-- Where the slots of the event with the track in slot `j` are in the event with the track in slot `i`. -/
def slotMove (i j k : Fin NT) : Fin NT :=
  if k = j then i else if h : i ≤ k ∧ k < j then ⟨k.val + 1, by have := j.isLt; have := h.2; omega⟩ else k

theorem slotMove_at (i j : Fin NT) : slotMove i j j = i := if_pos rfl

theorem slotMove_mono {i j : Fin NT} (hij : i ≤ j) {a b : Fin NT} (ha : a ≠ j) (hb : b ≠ j) (h : a < b) : slotMove i j a < slotMove i j b := by
  have ha' : a.val ≠ j.val := fun e => ha (Fin.ext e)
  have hb' : b.val ≠ j.val := fun e => hb (Fin.ext e)
  have h : a.val < b.val := h
  have hij : i.val ≤ j.val := hij
  unfold slotMove
  rw [if_neg ha, if_neg hb]
  by_cases h1 : i ≤ a ∧ a < j
  · have h1' : i.val ≤ a.val ∧ a.val < j.val := h1
    rw [dif_pos h1]
    by_cases h2 : i ≤ b ∧ b < j
    · rw [dif_pos h2]; show a.val + 1 < b.val + 1; omega
    · rw [dif_neg h2]
      have h2' : ¬ (i.val ≤ b.val ∧ b.val < j.val) := h2
      show a.val + 1 < b.val; omega
  · rw [dif_neg h1]
    by_cases h2 : i ≤ b ∧ b < j
    · rw [dif_pos h2]; show a.val < b.val + 1; omega
    · rw [dif_neg h2]; exact h

theorem slotMove_ne {i j : Fin NT} (hij : i ≤ j) {a : Fin NT} (ha : a ≠ j) : slotMove i j a ≠ i := by
  have ha' : a.val ≠ j.val := fun e => ha (Fin.ext e)
  have hij : i.val ≤ j.val := hij
  unfold slotMove
  rw [if_neg ha]
  by_cases h1 : i ≤ a ∧ a < j
  · have h1' : i.val ≤ a.val ∧ a.val < j.val := h1
    rw [dif_pos h1]
    intro e
    have : a.val + 1 = i.val := congrArg Fin.val e
    omega
  · rw [dif_neg h1]
    have h1' : ¬ (i.val ≤ a.val ∧ a.val < j.val) := h1
    intro e
    have : a.val = i.val := congrArg Fin.val e
    omega

theorem slotMove_injective {i j : Fin NT} (hij : i ≤ j) : Function.Injective (slotMove i j) := by
  intro a b h
  by_cases ha : a = j
  · by_cases hb : b = j
    · rw [ha, hb]
    · rw [ha, slotMove_at] at h
      exact absurd h.symm (slotMove_ne hij hb)
  · by_cases hb : b = j
    · rw [hb, slotMove_at] at h
      exact absurd h (slotMove_ne hij ha)
    · rcases lt_trichotomy a b with hl | he | hl
      · have := slotMove_mono hij ha hb hl
        rw [h] at this
        exact absurd this (lt_irrefl _)
      · exact he
      · have := slotMove_mono hij hb ha hl
        rw [h] at this
        exact absurd this (lt_irrefl _)

/-- The move of the slots as a permutation. -/
noncomputable def slotPerm (i j : Fin NT) (hij : i ≤ j) : Equiv.Perm (Fin NT) :=
  Equiv.ofBijective (slotMove i j) (Finite.injective_iff_bijective.mp (slotMove_injective hij))

variable {inp inp' : PFInputs NT NC NE NM} {i j : Fin NT}

/-- The larger event with the new track in the empty slot. -/
noncomputable def midEvent (H : TrackJoins inp inp' i j) : PFInputs NT NC NE NM :=
  reorder inp' (slotPerm i j H.le) (Equiv.refl _) (Equiv.refl _) (Equiv.refl _)

theorem mid_track (H : TrackJoins inp inp' i j) (k : Fin NT) : (midEvent H).track k = inp'.track (slotMove i j k) := rfl

theorem mid_others (H : TrackJoins inp inp' i j) {k : Fin NT} (hk : k ≠ j) : inp'.track (slotMove i j k) = inp.track k := by
  have hk' : k.val ≠ j.val := fun e => hk (Fin.ext e)
  unfold slotMove
  rw [if_neg hk]
  by_cases h1 : i ≤ k ∧ k < j
  · rw [dif_pos h1]
    exact H.moved k _ h1.1 h1.2 rfl
  · rw [dif_neg h1]
    have h1' : ¬ (i.val ≤ k.val ∧ k.val < j.val) := h1
    rcases Nat.lt_or_ge k.val i.val with h | h
    · exact H.before k h
    · exact H.after k (show j.val < k.val by omega)

theorem mid_oneMore (H : TrackJoins inp inp' i j) : OneMoreTrack inp (midEvent H) j where
  had := H.had
  em := H.em
  mu := H.mu
  others k hk := mid_others H hk
  freePt := H.freePt
  freeErr := H.freeErr
  noMuon m := by
    have := H.noMuon m
    unfold muDist2 muDpt at this ⊢
    rw [mid_track, slotMove_at]
    exact this
  noEm c := by
    have := H.noEm c
    unfold tkEmDist2 at this ⊢
    rw [mid_track, slotMove_at]
    exact this

theorem mid_part (v : Variant) (H : TrackJoins inp inp' i j) :
    Part v inp' (midEvent H) (slotMove i j) id id id := reorder_part v inp' (slotPerm i j H.le) (Equiv.refl _) (Equiv.refl _) (Equiv.refl _)

theorem mid_ordered (v : Variant) (H : TrackJoins inp inp' i j) : Ordered v (midEvent H) (slotMove i j) id id where
  mu m a b hab ha hb _ := by
    have h := (mid_oneMore H).noMuon m
    exact le_of_lt (slotMove_mono H.le (fun e => h (e ▸ ha)) (fun e => h (e ▸ hb)) hab)
  em _ _ _ hab _ _ _ := le_of_lt hab
  had _ _ _ hab _ _ _ := le_of_lt hab
  calo _ _ _ hab _ _ _ := le_of_lt hab

/-- What a new track does, wherever it stands: muons and photons stay, the charged candidates are the same and perhaps the new track, no place of
the neutral list gains, and if the track is linked to no calorimeter cluster the neutral list is the same. -/
structure CandidateAdded (v : Variant) (inp' : PFInputs NT NC NE NM) (i : Fin NT) (out out' : PFOutputs NT NE NS NM) : Prop where
  muon : out'.outmu = out.outmu
  photon : ∀ c, seen (out'.outpho c) = seen (out.outpho c)
  charged : ∃ a b, chargedList out = a ++ b ∧
    ((lowPt inp' i ∨ ∃ h, CaloMatch inp' v i h) → chargedList out' = a ++ hadronOf (inp'.track i) :: b) ∧
    (¬ (lowPt inp' i ∨ ∃ h, CaloMatch inp' v i h) → chargedList out' = a ++ b)
  neutral : ∀ k, (out'.outne k).hwPt.toInt ≤ (out.outne k).hwPt.toInt
  unlinked : (¬ ∃ h, CaloMatch inp' v i h) → ∀ k, seen (out'.outne k) = seen (out.outne k)

/-- A charged candidate if it has any pt. -/
def shown (x : PFChargedObj) : List PFChargedObj := if x.hwPt ≠ 0 then [x] else []

theorem chargedList_eq (out : PFOutputs NT NE NS NM) : chargedList out = (List.finRange NT).flatMap fun k => shown (out.outch k) := by
  unfold chargedList
  rw [List.ofFn_eq_map]
  induction List.finRange NT with
  | nil => rfl
  | cons a l ih =>
    rw [List.map_cons, List.flatMap_cons, ← ih]
    unfold shown
    by_cases h : (out.outch a).hwPt ≠ 0
    · rw [List.filter_cons_of_pos (by simpa using h), if_pos h]; rfl
    · rw [List.filter_cons_of_neg (by simpa using h), if_neg h]; rfl

theorem flatMap_finRange {α : Type} (n : Nat) (f : Fin n → List α) : (List.finRange n).flatMap f = (List.ofFn f).flatten := by
  rw [List.ofFn_eq_map, List.flatMap_def]

/-- Reading the slots after a move: the list before, with what is now at `i` inserted and what was at `j` left out. -/
theorem flatten_moved {α : Type} {n : Nat} (i j : Fin n) (hij : i ≤ j) (f f' : Fin n → List α) (hf : ∀ k, k ≠ j → f' (slotMove i j k) = f k)
    (hj : f j = []) : ∃ a b, (List.ofFn f).flatten = a ++ b ∧ (List.ofFn f').flatten = a ++ (f' i ++ b) := by
  have hij' : i.val ≤ j.val := hij
  have hi := i.isLt
  have hjn := j.isLt
  have e1 : List.ofFn f = (List.ofFn f).take i ++ ((((List.ofFn f).drop i).take (j - i)) ++ (f j :: (List.ofFn f).drop (j + 1))) := by
    have a1 := (List.take_append_drop i.val (List.ofFn f)).symm
    have a2 := (List.take_append_drop (j.val - i.val) ((List.ofFn f).drop i)).symm
    have a3 : (List.ofFn f).drop j.val = f j :: (List.ofFn f).drop (j.val + 1) := by
      rw [List.drop_eq_getElem_cons (by simpa using hjn), List.getElem_ofFn]
    rw [List.drop_drop, show i.val + (j.val - i.val) = j.val by omega, a3] at a2
    rw [← a2]
    exact a1
  have e2 : List.ofFn f' = (List.ofFn f).take i ++ (f' i :: ((((List.ofFn f).drop i).take (j - i)) ++ (List.ofFn f).drop (j + 1))) := by
    apply List.ext_getElem
    · simp; omega
    · intro k h1 h2
      have hk : k < n := by simpa using h1
      rw [List.getElem_ofFn]
      rcases Nat.lt_trichotomy k i.val with h | h | h
      · rw [List.getElem_append_left (by simp; omega), List.getElem_take, List.getElem_ofFn]
        have hne : (⟨k, hk⟩ : Fin n) ≠ j := fun e => by have : k = j.val := congrArg Fin.val e; omega
        rw [← hf _ hne]
        unfold slotMove
        rw [if_neg hne, dif_neg (fun hh => by have : i.val ≤ k := hh.1; omega)]
      · rw [List.getElem_append_right (by simp; omega)]
        have : k - ((List.ofFn f).take i.val).length = 0 := by simp; omega
        simp only [this, List.getElem_cons_zero]
        congr 1
        exact Fin.ext h
      · rw [List.getElem_append_right (by simp; omega)]
        obtain ⟨m, hm⟩ : ∃ m, k = i.val + m + 1 := ⟨k - i.val - 1, by omega⟩
        have : k - ((List.ofFn f).take i.val).length = m + 1 := by simp; omega
        simp only [this, List.getElem_cons_succ]
        by_cases h3 : m < j.val - i.val
        · rw [List.getElem_append_left (by simp; omega), List.getElem_take, List.getElem_drop, List.getElem_ofFn]
          have hb : i.val + m < n := by omega
          have hne : (⟨i.val + m, hb⟩ : Fin n) ≠ j := fun e => by have : i.val + m = j.val := congrArg Fin.val e; omega
          rw [← hf _ hne]
          unfold slotMove
          rw [if_neg hne, dif_pos ⟨show i.val ≤ i.val + m by omega, show i.val + m < j.val by omega⟩]
          congr 1
          exact Fin.ext hm
        · rw [List.getElem_append_right (by simp; omega), List.getElem_drop, List.getElem_ofFn]
          have hne : (⟨k, hk⟩ : Fin n) ≠ j := fun e => by have : k = j.val := congrArg Fin.val e; omega
          have := hf _ hne
          unfold slotMove at this
          rw [if_neg hne, dif_neg (fun hh => by have : k < j.val := hh.2; omega)] at this
          rw [this]
          congr 1
          apply Fin.ext
          simp
          omega
  refine ⟨((List.ofFn f).take i).flatten, ((((List.ofFn f).drop i).take (j - i)) ++ (List.ofFn f).drop (j + 1)).flatten, ?_, ?_⟩
  · conv_lhs => rw [e1]
    simp [hj]
  · rw [e2]
    simp

theorem candidateAdded_of {v : Variant} (H : TrackJoins inp inp' i j) (hem : ∀ c, 0 ≤ (inp'.emcalo c).hwPt.toInt) {out om out' : PFOutputs NT NE NS NM}
    (A : TrackAdded v (midEvent H) j out om)
    (hch : ∀ t, (out'.outch (slotMove i j t)).hwPt = (om.outch t).hwPt ∧ ((om.outch t).hwPt ≠ 0 → out'.outch (slotMove i j t) = om.outch t))
    {s s' : Fin NC → Seen} (P : PartAgrees (slotMove i j) id id id out' om s' s) : CandidateAdded v inp' i out out' := by
  have hne : ∀ k, seen (out'.outne k) = seen (om.outne k) := by
    have e : s' = s := funext P.cand
    have h1 := P.neutral
    rw [e, ← P.neutral'] at h1
    exact fun k => congrFun (List.ofFn_injective h1) k
  have hpt : ∀ k, (out'.outne k).hwPt = (om.outne k).hwPt := fun k => by
    have := congrArg Prod.fst (hne k)
    rw [seen_fst, seen_fst] at this
    exact BitVec.toInt_inj.mp this
  have hcm : (∃ h, CaloMatch inp' v i h) ↔ ∃ h, CaloMatch (midEvent H) v j h := by
    refine exists_congr fun h => ?_
    have := caloMatch_part (mid_part v H) (mid_ordered v H) hem j h
    rw [slotMove_at] at this
    exact this
  have hlow : lowPt inp' i ↔ lowPt (midEvent H) j := by
    unfold lowPt
    rw [mid_track, slotMove_at]
  have hshown : ∀ k, shown (out'.outch (slotMove i j k)) = shown (om.outch k) := fun k => by
    unfold shown
    obtain ⟨h1, h2⟩ := hch k
    by_cases h : (om.outch k).hwPt ≠ 0
    · rw [if_pos h, h1, if_pos h, h2 h]
    · rw [if_neg h, h1, if_neg h]
  have hshown' : ∀ k, k ≠ j → shown (om.outch k) = shown (out.outch k) := fun k hk => by
    unfold shown
    obtain ⟨h1, h2⟩ := A.charged k hk
    by_cases h : (om.outch k).hwPt ≠ 0
    · rw [if_pos h, ← h1, if_pos h, h2 h]
    · rw [if_neg h, ← h1, if_neg h]
  obtain ⟨a, b, f1, f2⟩ := flatten_moved i j H.le (fun k => shown (out.outch k)) (fun k => shown (out'.outch k))
    (fun k hk => (hshown k).trans (hshown' k hk)) (by unfold shown; rw [if_neg (fun h => h A.before)])
  have hi : shown (out'.outch i) = shown (om.outch j) := by rw [← hshown j, slotMove_at]
  refine ⟨?_, fun c => ?_, ⟨a, b, ?_, fun hk => ?_, fun hk => ?_⟩, fun k => ?_, fun hu k => ?_⟩
  · rw [← A.muon]
    exact funext P.muon
  · rw [← A.photon]
    exact P.photon c
  · rw [chargedList_eq, flatMap_finRange, f1]
  · rw [chargedList_eq, flatMap_finRange, f2, hi]
    have := A.kept (by rw [← hcm, ← hlow]; exact hk) (by rw [mid_track, slotMove_at]; exact H.pos)
    rw [mid_track, slotMove_at] at this
    rw [this]
    unfold shown
    rw [if_pos]
    · rfl
    · intro e
      have hp := H.pos
      have e : (inp'.track i).hwPt = 0 := e
      rw [e] at hp
      exact absurd hp (by decide)
  · rw [chargedList_eq, flatMap_finRange, f2, hi]
    have := A.dropped (by rw [← hcm, ← hlow]; exact hk)
    unfold shown
    rw [if_neg (fun h => h this)]
    rfl
  · rw [hpt]
    exact A.neutral k
  · rw [hne, A.unlinked (by rw [← hcm]; exact hu)]

/-- **C96.** Firmware: a new track anywhere among the tracks of a region, away from muons and EM clusters. -/
theorem C96_track_anywhere (H : TrackJoins inp inp' i j) (hv' : Valid inp' fwVariant) (old old' : PFOutputs NT NE NS NM) (mem mem' : PFScratch NC NS) :
    ∃ out out', pfalgo3_full inp old mem = .ok out ∧ pfalgo3_full inp' old' mem' = .ok out' ∧ CandidateAdded fwVariant inp' i out out' := by
  obtain ⟨out', om', h1, h2, h3, h4⟩ := C68_part_alone inp' (midEvent H) _ _ _ _ (mid_part fwVariant H) (mid_ordered fwVariant H) hv' old' mem' old mem
  obtain ⟨out, om, g1, g2, g3⟩ := C92_one_more_track (mid_oneMore H) (valid_part (mid_part fwVariant H) (mid_ordered fwVariant H) hv') old old mem mem
  rw [h2] at g2
  cases g2
  exact ⟨out, out', g1, h1, candidateAdded_of H hv'.emPt g3 (fun t => ⟨by rw [h3], fun _ => h3 t⟩) h4⟩

/-- **C96** for the reference. -/
theorem C96_track_anywhere_ref (H : TrackJoins inp inp' i j) (hv' : Valid inp' refVariant)
    (hempty : ∀ t, (inp'.track t).hwPt.toInt = 0 → (inp'.track t).hwPtErr.toInt = 0) (old old' : PFOutputs NT NE NS NM) (mem mem' : Arr NC PFNeutralObj) :
    ∃ out out', pfalgo3_full_ref inp old mem = .ok out ∧ pfalgo3_full_ref inp' old' mem' = .ok out' ∧ CandidateAdded refVariant inp' i out out' := by
  obtain ⟨out', om', h1, h2, h3, h4⟩ := C68_part_alone_ref inp' (midEvent H) _ _ _ _ (mid_part refVariant H) (mid_ordered refVariant H) hv' hempty
    old' mem' old mem
  obtain ⟨out, om, g1, g2, g3⟩ := C92_one_more_track_ref (mid_oneMore H) (valid_part (mid_part refVariant H) (mid_ordered refVariant H) hv') old old mem mem
  rw [h2] at g2
  cases g2
  exact ⟨out, out', g1, h1, candidateAdded_of H hv'.emPt g3 h3 h4⟩

section
variable {T : Type} [RegObj T] [LawfulReg T]

theorem slice_length {nse : Nat} {ie : Fin 3} {l : List T} (h : (window ie l).length ≤ nse) : (slice nse ie l).length = (window ie l).length := by
  unfold slice best
  rw [List.length_take, List.length_insertionSort, filter_window]
  omega

/-- The number of objects in the sectors of a region that are in its eta window. -/
def offered (ie : Fin 3) (ip : Fin 6) (arr : Fin 12 → List T) : Nat :=
  (window ie (arr (secOf ip 0))).length + (window ie (arr (secOf ip 1))).length + (window ie (arr (secOf ip 2))).length

theorem region_length {nse nreg : Nat} {ie : Fin 3} {ip : Fin 6} {arr : Fin 12 → List T} (h : Fits nse nreg ie ip arr) :
    (region nreg nse ie ip arr).length = offered ie ip arr := by
  have e0 := secOf_zero ip
  have e1 := secOf_one ip
  have e2 : secOf ip 2 = ⟨(2 * ip.val + 2) % 12, by omega⟩ := rfl
  unfold Fits at h
  rw [← e0, ← e1, ← e2] at h
  obtain ⟨h0, h1, h2, h3⟩ := h
  unfold region candidates best
  rw [← e0, ← e1, ← e2, List.length_take, List.length_insertionSort, List.filter_eq_self.mpr, List.length_append, List.length_append, List.length_map,
    List.length_map, List.length_map, slice_length h0, slice_length h1, slice_length h2]
  · unfold offered
    omega
  · intro x hx
    rw [List.mem_append, List.mem_append, List.mem_map, List.mem_map, List.mem_map] at hx
    rcases hx with (⟨y, hy, rfl⟩ | ⟨y, hy, rfl⟩) | ⟨y, hy, rfl⟩ <;>
      exact decide_eq_true (by rw [ptOf_phiMove]; exact slice_pos _ hy)

omit [LawfulReg T] in
theorem window_one {arr arr' : Fin 12 → List T} {s : Fin 12} {o : T} (H : OneMoreWord arr arr' s o) {ie : Fin 3} (ho : inSlice ie o = true) :
    (window ie (arr' s)).length = (window ie (arr s)).length + 1 := by
  obtain ⟨l1, z, l2, e1, e2, hz⟩ := H.word
  have hp := H.pos
  rw [e1, e2]
  unfold window
  rw [List.filter_append, List.filter_append, List.filter_cons_of_pos (by simp [ho, hp]), List.filter_cons_of_neg (by simp; omega)]
  simp
  omega

omit [LawfulReg T] in
theorem offered_one {arr arr' : Fin 12 → List T} {s : Fin 12} {o : T} (H : OneMoreWord arr arr' s o) {ie : Fin 3} {ip : Fin 6} (ho : inSlice ie o = true)
    (hs : SectorOf ip s) : offered ie ip arr' = offered ie ip arr + 1 ∧ ∀ k, (window ie (arr (secOf ip k))).length ≤ (window ie (arr' (secOf ip k))).length := by
  obtain ⟨k, rfl⟩ := sectorOf_iff.mp hs
  have hne : ∀ k' , k' ≠ k → arr' (secOf ip k') = arr (secOf ip k') := fun k' hk' => H.others _ (secOf_ne_of ip hk')
  have hw := window_one H ho
  refine ⟨?_, fun k' => ?_⟩
  · unfold offered
    match k with
    | 0 => rw [hne 1 (by decide), hne 2 (by decide), hw]; omega
    | 1 => rw [hne 0 (by decide), hne 2 (by decide), hw]; omega
    | 2 => rw [hne 0 (by decide), hne 1 (by decide), hw]; omega
  · by_cases h : k' = k
    · rw [h, hw]; omega
    · rw [hne k' h]

/-- In a region that can hold everything, the object takes an empty slot. -/
theorem joins_free {NSE NREG : Nat} {arr arr' : Fin 12 → List T} {s : Fin 12} {o : T} (H : OneMoreWord arr arr' s o) {ie : Fin 3} {ip : Fin 6}
    (ho : inSlice ie o = true) (hs : SectorOf ip s) (hfit : Fits NSE NREG ie ip arr')
    {old new : Fin NREG → T} (h1 : List.ofFn old = pad NREG (region NREG NSE ie ip arr)) (h2 : List.ofFn new = pad NREG (region NREG NSE ie ip arr')) :
    ∃ i j, PutAt (place ie ip s o) old new i j ∧ old j = RegObj.clear := by
  have hfit0 : Fits NSE NREG ie ip arr := by
    have hw := (offered_one H ho hs).2
    have e0 := secOf_zero ip
    have e1 := secOf_one ip
    have e2 : secOf ip 2 = ⟨(2 * ip.val + 2) % 12, by omega⟩ := rfl
    unfold Fits at hfit ⊢
    rw [← e0, ← e1, ← e2] at hfit ⊢
    have := hw 0
    have := hw 1
    have := hw 2
    omega
  have hlen : (region NREG NSE ie ip arr').length = (region NREG NSE ie ip arr).length + 1 := by
    rw [region_length hfit, region_length hfit0, (offered_one H ho hs).1]
  have hl' : (region NREG NSE ie ip arr').length ≤ NREG := best_length _ _
  rcases region_enters H ho hs NREG NSE with e | ⟨a, b, c, d, e1, e2, hc, hcd, _⟩
  · rw [e] at hlen; omega
  · have hc0 : c = [] := by
      rw [e1, e2] at hlen
      simp only [List.length_append, List.length_cons] at hlen
      exact List.length_eq_zero_iff.mp (by omega)
    subst hc0
    have hd := hcd rfl
    subst hd
    rw [pad_of_le (by omega)] at h1
    rw [pad_of_le hl'] at h2
    have e : NREG - (region NREG NSE ie ip arr).length = (NREG - (region NREG NSE ie ip arr').length) + 1 := by omega
    rw [e, List.replicate_succ, e1] at h1
    rw [e2] at h2
    have h1' : List.ofFn old = a ++ (b ++ RegObj.clear :: List.replicate (NREG - (region NREG NSE ie ip arr').length) RegObj.clear) := by
      rw [h1]; simp
    have h2' : List.ofFn new = a ++ place ie ip s o :: (b ++ List.replicate (NREG - (region NREG NSE ie ip arr').length) RegObj.clear) := by
      rw [h2, e2]; simp
    exact putAt_dropped h1' h2' (by rw [ptOf_clear, ptOf_place]; have := H.pos; omega)

end

section
variable {FE FT : Nat}

/-- **C96.** From the links to the candidates: a word of a track fibre that was null carries a track.  Regions the track does not belong to
get the same inputs.  In a region that can hold everything sent to it, if no muon and no EM cluster of the region can be linked to
the track, firmware and reference give the candidates of before and perhaps the track. -/
theorem C96_from_the_links (sz : SystemSizes) {m : Nat} {em rest_e : Arr (FE * N_IN_SECTORS) (List EmCaloObj)}
    {had rest_h : Arr (1 * N_IN_SECTORS) (List HadCaloObj)} {tk tk' rest_t : Arr (FT * N_IN_SECTORS) (List TkObj)} {s : Fin 12} {f : Fin FT} {o : TkObj}
    {re : Arr N_OUT_REGIONS (Arr NE EmCaloObj)} {rh : Arr N_OUT_REGIONS (Arr NC HadCaloObj)} {rt : Arr N_OUT_REGIONS (Arr NT TkObj)}
    (rm : Arr N_OUT_REGIONS (Arr NM MuObj)) (he : regionize_ref sz.emSec sz.emSlice NE em = .ok (rest_e, re))
    (hh : regionize_ref sz.hadSec sz.hadSlice NC had = .ok (rest_h, rh)) (ht : regionize_ref sz.tkSec sz.tkSlice NT tk = .ok (rest_t, rt))
    (H : OneMoreOnFibre tk tk' (fiberIdx s f) m o) (hm : m < sz.tkSec / FT)
    (hq : Sensible (arrivals sz.emSec em) (arrivals sz.hadSec had) (arrivals sz.tkSec tk')) :
    ∃ rt', regionize_ref sz.tkSec sz.tkSlice NT tk' = .ok (rest_t, rt') ∧ ∀ ir : Fin 18,
      (¬ (inSlice (regionEta ir) o = true ∧ SectorOf (regionPhi ir) s) → boardOf re rh rt' rm ir = boardOf re rh rt rm ir) ∧
      (inSlice (regionEta ir) o = true → SectorOf (regionPhi ir) s → Fits sz.tkSlice NT (regionEta ir) (regionPhi ir) (arrivals sz.tkSec tk') →
        ∀ t, t = place (regionEta ir) (regionPhi ir) s o →
        (∀ k, ¬ (dist2 (rm ir k).hwEta (rm ir k).hwPhi t.hwEta t.hwPhi < 2101 ∧ ((rm ir k).hwPt.toInt - t.hwPt.toInt).natAbs < (rm ir k).hwPt.toInt / 2)) →
        (∀ c, 84 ≤ dist2 t.hwEta t.hwPhi (re ir c).hwEta (re ir c).hwPhi) →
        ∃ i, rt' ir i = t ∧
          (∀ (old old' : PFOutputs NT NE NS NM) (mem mem' : PFScratch NC NS), ∃ out out',
            pfalgo3_full (boardOf re rh rt rm ir) old mem = .ok out ∧ pfalgo3_full (boardOf re rh rt' rm ir) old' mem' = .ok out' ∧
              CandidateAdded fwVariant (boardOf re rh rt' rm ir) i out out') ∧
          (∀ (old old' : PFOutputs NT NE NS NM) (mem mem' : Arr NC PFNeutralObj), ∃ out out',
            pfalgo3_full_ref (boardOf re rh rt rm ir) old mem = .ok out ∧ pfalgo3_full_ref (boardOf re rh rt' rm ir) old' mem' = .ok out' ∧
              CandidateAdded refVariant (boardOf re rh rt' rm ir) i out out')) := by
  obtain ⟨rt', hr, J, _⟩ := C95_one_more_word sz.tkSec sz.tkSlice H hm rt ht
  refine ⟨rt', hr, fun ir => ⟨fun h => ?_, fun ho hs hfit t et hmu hem => ?_⟩⟩
  · unfold boardOf
    rw [(J ir).1 h]
  · obtain ⟨i, j, P, hj⟩ := joins_free (arrivals_one H hm) ho hs hfit (C33_ref_content _ _ _ tk rest_t rt ht ir)
      (C33_ref_content _ _ _ tk' rest_t rt' hr ir)
    rw [← et] at P
    obtain ⟨hp, hz, _⟩ := C85_regions_physical sz em rest_e had rest_h tk' rest_t re rh rt' rm he hh hr hq ir
    have hw := physical_valid (boardOf re rh rt' rm ir) hp
    have K : TrackJoins (boardOf re rh rt rm ir) (boardOf re rh rt' rm ir) i j :=
      { had := rfl
        em := rfl
        mu := rfl
        le := P.le
        before := P.before
        moved := P.moved
        after := P.after
        freePt := by show (rt ir j).hwPt.toInt = 0; rw [hj]; rfl
        freeErr := by show (rt ir j).hwPtErr.toInt = 0; rw [hj]; rfl
        pos := by
          show 0 < (rt' ir i).hwPt.toInt
          rw [P.at_, et]
          exact H.pos
        noMuon := fun k => by
          have := hmu k
          rw [← P.at_] at this
          exact this
        noEm := fun c => by
          have := hem c
          rw [← P.at_] at this
          exact this }
    exact ⟨i, P.at_, C96_track_anywhere K (hw _), C96_track_anywhere_ref K (hw _) hz⟩

/-- **C96**, non-vacuity: sector 1 sends two tracks and a null, an EM cluster and a calorimeter cluster; a track instead of the null, of middle pt,
comes second of the tracks of region 6 and second of its charged candidates. -/
def joinTk (x : TkObj) : Arr (1 * N_IN_SECTORS) (List TkObj) := fun k =>
  if k = 1 then [⟨9, 2, 2, 3, 0, false⟩, ⟨30, 2, 10, 0, 0, false⟩, x] else List.replicate 3 ⟨0, 0, 0, 0, 0, false⟩
def joinEm : Arr (1 * N_IN_SECTORS) (List EmCaloObj) := fun k => if k = 1 then [⟨20, 1, 40, 0⟩] else [⟨0, 0, 0, 0⟩]
def joinHad : Arr (1 * N_IN_SECTORS) (List HadCaloObj) := fun k => if k = 1 then [⟨90, 5, 7, 0, false⟩] else [⟨0, 0, 0, 0, false⟩]

/-- pts of the charged and of the neutral candidates of region 6. -/
def joinSeen (x : TkObj) : Run (List Int × List Int) := do
  let re ← regionize_ref 1 1 1 joinEm
  let rh ← regionize_ref 1 1 1 joinHad
  let rt ← regionize_ref 3 3 4 (joinTk x)
  let out ← pfalgo3_full (boardOf re.2 rh.2 rt.2 (fun _ i => (i : Fin 0).elim0) 6) (old0 4 1 1 0) (mem0 1 1)
  .ok ((chargedList out).map fun c => c.hwPt.toInt, List.ofFn fun k => (out.outne k).hwPt.toInt)

example : OneMoreOnFibre (joinTk ⟨0, 0, 0, 0, 0, false⟩) (joinTk ⟨15, 2, 5, 7, 0, false⟩) (fiberIdx 1 0) 2 ⟨15, 2, 5, 7, 0, false⟩ ∧
    Sensible (arrivals 1 joinEm) (arrivals 1 joinHad) (arrivals 3 (joinTk ⟨15, 2, 5, 7, 0, false⟩)) ∧
    inSlice (regionEta 6) (⟨15, 2, 5, 7, 0, false⟩ : TkObj) = true ∧ SectorOf (regionPhi 6) 1 ∧
    Fits 3 4 (regionEta 6) (regionPhi 6) (arrivals 3 (joinTk ⟨15, 2, 5, 7, 0, false⟩)) ∧
    joinSeen ⟨0, 0, 0, 0, 0, false⟩ = .ok ([30, 9], [51]) ∧ joinSeen ⟨15, 2, 5, 7, 0, false⟩ = .ok ([30, 15, 9], [36]) := by
  refine ⟨⟨fun k hk => ?_, ⟨⟨0, 0, 0, 0, 0, false⟩, rfl, by decide⟩, rfl, by decide⟩, ?_, by decide, by decide, ?_, by decide +kernel, by decide +kernel⟩
  · have hk : ¬ k = 1 := hk
    unfold joinTk
    rw [if_neg hk, if_neg hk]
  · constructor <;> decide +kernel
  · unfold Fits
    decide +kernel

end

end Verif
