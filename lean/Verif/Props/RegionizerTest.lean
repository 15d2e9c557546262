import Verif.Proofs.RegionizerTest
import Verif.Props.Compare
/-! # C58: what the regionizer test bench does with a dump

The bench reads events of twelve sectors, fills the streams, runs the calorimeter regionizer and its reference (for the
other objects the reference twice), compares, and writes inputs and regions to its files.  For every dump the outcome is
determined by the first fifty events alone. -/
namespace Verif
open Spec
variable {sz : RegSizes} {NC NE NT NM : Nat}

/-- **C58.** When regions have room for one sector's share, and the number of tracks per sector is even: if the first
fifty events are good, the bench exits with 0 and writes, for each of them, the best objects of its sectors. -/
theorem C58_passes (hNC : sz.caloEta ≤ NC) (heven : sz.track % 2 = 0) (evs : List DumpEvent) (hfit : ∀ e ∈ evs, eventFits e)
    (hgood : ∀ e ∈ evs.take 50, GoodEvent sz e) (junk : Nat → BitVec 32) (genZ0 : BitVec 32)
    (mem : Nat → Arr N_OUT_REGIONS (Arr NC HadCaloObj)) (inp : Nat → RegIn sz NM) :
    ∃ ds : List (RegRecord sz NC NE NT NM), List.Forall₂ RecordOf (evs.take 50) ds ∧
      regTestMain (some true) genZ0 ⟨evs.flatMap eventBytes, false, junk⟩ mem inp = .ok (0, ds) := by
  obtain ⟨ds, s', j', h1, h2, h3⟩ := regTestLoop_good (NE := NE) (NT := NT) hNC heven mem inp (50 - (evs.take 50).length) (evs.drop 50)
    (evs.take 50) (DumpReader.new genZ0 ⟨evs.flatMap eventBytes, false, junk⟩) junk
    (fun e he => ⟨hfit e (List.mem_of_mem_take he), hgood e he⟩) (by rw [List.take_append_drop]; rfl)
  refine ⟨ds, h1, ?_⟩
  have hl : (evs.take 50).length ≤ 50 := by simp
  rw [show (evs.take 50).length + (50 - (evs.take 50).length) = 50 by omega] at h3
  unfold regTestMain
  rw [h3]
  have hend : regTestLoop (NE := NE) (NT := NT) (some true) mem inp (50 - (evs.take 50).length) s' RegFibers.empty = .ok (0, []) := by
    cases hn : 50 - (evs.take 50).length with
    | zero => rfl
    | succ n =>
      have hd : evs.drop 50 = [] := by
        apply List.drop_eq_nil_of_le
        rw [List.length_take] at hn
        omega
      rw [hd] at h2
      obtain ⟨s'', hs, _⟩ := C43_end (some true) s' (by rw [h2]; exact Nat.zero_lt_succ _)
      unfold regTestLoop
      rw [hs, Run.ok_bind]
      rfl
  rw [hend]
  simp [Except.map]

/-- **C58.** Otherwise the first event that is not good decides: if it does not have twelve sectors the bench exits with 2,
having written the events before it; if a calorimeter cluster among those it takes has negative pt, an assertion fails. -/
theorem C58_first_bad (hNC : sz.caloEta ≤ NC) (heven : sz.track % 2 = 0) (pre : List DumpEvent) (e : DumpEvent)
    (post : List DumpEvent) (hfit : ∀ x ∈ pre ++ [e], eventFits x) (hn : pre.length < 50) (hgood : ∀ x ∈ pre, GoodEvent sz x)
    (hbad : ¬ GoodEvent sz e) (junk : Nat → BitVec 32) (genZ0 : BitVec 32)
    (mem : Nat → Arr N_OUT_REGIONS (Arr NC HadCaloObj)) (inp : Nat → RegIn sz NM) :
    (e.regions.length ≠ 12 → ∃ ds : List (RegRecord sz NC NE NT NM), List.Forall₂ RecordOf pre ds ∧
      regTestMain (some true) genZ0 ⟨(pre ++ e :: post).flatMap eventBytes, false, junk⟩ mem inp = .ok (2, ds)) ∧
    (e.regions.length = 12 →
      regTestMain (NE := NE) (NT := NT) (some true) genZ0 ⟨(pre ++ e :: post).flatMap eventBytes, false, junk⟩ mem inp =
        .error .assertFail) := by
  obtain ⟨ds, s', j', h1, h2, h3⟩ := regTestLoop_good (NE := NE) (NT := NT) hNC heven mem inp (49 - pre.length + 1) (e :: post)
    pre (DumpReader.new genZ0 ⟨(pre ++ e :: post).flatMap eventBytes, false, junk⟩) junk
    (fun x hx => ⟨hfit x (List.mem_append_left _ hx), hgood x hx⟩) rfl
  rw [show pre.length + (49 - pre.length + 1) = 50 by omega] at h3
  rw [List.flatMap_cons] at h2
  obtain ⟨j1, h4⟩ := nextEvent_cons s' e (hfit e (List.mem_append_right _ (List.mem_singleton.mpr rfl))) _ j' h2
  have hlen : (storedEvent e).regions.length = e.regions.length := List.length_map _
  constructor
  · intro hl
    refine ⟨ds, h1, ?_⟩
    unfold regTestMain
    rw [h3]
    unfold regTestLoop
    rw [h4, Run.ok_bind]
    dsimp only
    rw [if_neg (by simp), if_pos (by rw [hlen]; exact hl)]
    simp [Except.map]
  · intro hl
    unfold regTestMain
    rw [h3]
    unfold regTestLoop
    rw [h4, Run.ok_bind]
    dsimp only
    rw [if_neg (by simp), if_neg (by rw [hlen, hl]; decide), regTestStep_bad _ e hl hbad, Run.error_bind]
    rfl

private theorem oneError_wrong {N : Nat} {T K : Type} {eq : T → T → Bool} {pt : T → Pt} {fields : T → K}
    (h : ∀ a b, eq a b = true ↔ SameObj pt fields a b) (ref out : Arr N T) : oneError eq ref out = wrong pt fields ref out := by
  unfold oneError wrong
  by_cases hx : ∃ i, ¬ SameObj pt fields (ref i) (out i)
  · rw [if_pos hx, if_neg]
    obtain ⟨i, hi⟩ := hx
    rw [List.all_eq_true]
    exact fun k => hi ((h _ _).mp (k i (List.mem_finRange i)))
  · rw [if_neg hx, if_pos]
    rw [List.all_eq_true]
    intro i _
    rw [h]
    by_contra hi
    exact hx ⟨i, hi⟩

private theorem loop_sum {N : Nat} (g : Fin N → Nat) (x : Nat) : loop (fun i e => e + g i) x = x + ((List.finRange N).map g).sum := by
  induction N generalizing x with
  | zero => simp [loop]
  | succ n ih =>
    rw [loop_succ, ih, List.finRange_succ_last, List.map_append, List.sum_append, List.map_map]
    simp only [Function.comp_def, List.map_cons, List.map_nil, List.sum_cons, List.sum_nil]
    omega

/-- **C58.** The comparison, for any two results: it counts one error for each region and class of objects in which some
slot differs (and nothing else), so it is 0 exactly when all objects are the same. -/
theorem C58_errors (calo caloRef : Arr N_OUT_REGIONS (Arr NC HadCaloObj)) (em emRef : Arr N_OUT_REGIONS (Arr NE EmCaloObj))
    (track trackRef : Arr N_OUT_REGIONS (Arr NT TkObj)) (mu muRef : Arr N_OUT_REGIONS (Arr NM MuObj)) :
    regErrors calo caloRef em emRef track trackRef mu muRef = ((List.finRange 18).map fun ir =>
      wrong HadCaloObj.hwPt hadFields (caloRef ir) (calo ir) + wrong EmCaloObj.hwPt emFields (emRef ir) (em ir) +
      wrong TkObj.hwPt trackFields (trackRef ir) (track ir) + wrong MuObj.hwPt muFields (muRef ir) (mu ir)).sum ∧
    (regErrors calo caloRef em emRef track trackRef mu muRef = 0 ↔ ∀ ir : Fin 18,
      (∀ i, SameObj HadCaloObj.hwPt hadFields (caloRef ir i) (calo ir i)) ∧
      (∀ i, SameObj EmCaloObj.hwPt emFields (emRef ir i) (em ir i)) ∧
      (∀ i, SameObj TkObj.hwPt trackFields (trackRef ir i) (track ir i)) ∧
      (∀ i, SameObj MuObj.hwPt muFields (muRef ir i) (mu ir i))) := by
  have e : regErrors calo caloRef em emRef track trackRef mu muRef = ((List.finRange 18).map fun ir =>
      wrong HadCaloObj.hwPt hadFields (caloRef ir) (calo ir) + wrong EmCaloObj.hwPt emFields (emRef ir) (em ir) +
      wrong TkObj.hwPt trackFields (trackRef ir) (track ir) + wrong MuObj.hwPt muFields (muRef ir) (mu ir)).sum := by
    unfold regErrors
    obtain ⟨h1, h2, h3, h4, _⟩ := C47_equals_iff
    simp only [oneError_wrong h1, oneError_wrong h2, oneError_wrong h3, oneError_wrong h4, Nat.add_assoc]
    exact (loop_sum (N := 18) _ 0).trans (Nat.zero_add _)
  have w : ∀ {N : Nat} {T K : Type} {pt : T → Pt} {fields : T → K} {a b : Arr N T},
      wrong pt fields a b = 0 ↔ ∀ i, SameObj pt fields (a i) (b i) := by
    intro N T K pt fields a b
    unfold wrong
    split
    · rename_i h
      obtain ⟨i, hi⟩ := h
      exact ⟨fun k => by omega, fun k => absurd (k i) hi⟩
    · rename_i h
      refine ⟨fun _ i => ?_, fun _ => rfl⟩
      by_contra hi
      exact h ⟨i, hi⟩
  refine ⟨e, ?_⟩
  rw [e, List.sum_eq_zero_iff]
  simp only [List.mem_map, List.mem_finRange, true_and, forall_exists_index, forall_apply_eq_imp_iff, Nat.add_eq_zero_iff, w, and_assoc]

/-- **C58.** With regions smaller than a sector's share of one eta slice (as in the default build, 5 < 7), the first good
event takes the bench out of bounds. -/
theorem C58_small_region (hNC : NC < sz.caloEta) (e : DumpEvent) (post : List DumpEvent) (hfit : eventFits e)
    (hgood : GoodEvent sz e) (junk : Nat → BitVec 32) (genZ0 : BitVec 32) (mem : Nat → Arr N_OUT_REGIONS (Arr NC HadCaloObj))
    (inp : Nat → RegIn sz NM) :
    regTestMain (NE := NE) (NT := NT) (some true) genZ0 ⟨(e :: post).flatMap eventBytes, false, junk⟩ mem inp = .error .oob := by
  rw [List.flatMap_cons]
  obtain ⟨j1, h4⟩ := nextEvent_cons (DumpReader.new genZ0 ⟨eventBytes e ++ post.flatMap eventBytes, false, junk⟩) e hfit _ junk rfl
  unfold regTestMain regTestLoop
  rw [h4, Run.ok_bind]
  dsimp only
  rw [if_neg (by simp), if_neg (by rw [((goodEvent_iff e).mp hgood).1]; decide), regTestStep_oob hNC _ e hgood, Run.error_bind]

/-- **C58.** The number of tracks per sector must be even: with an odd number, an object is left in a stream of every
sector and the second event ends the bench with 3, whatever the events. -/
theorem C58_odd_tracks (hNC : sz.caloEta ≤ NC) (hodd : sz.track % 2 = 1) (e e' : DumpEvent) (post : List DumpEvent)
    (hfit : eventFits e ∧ eventFits e') (hgood : GoodEvent sz e ∧ GoodEvent sz e') (junk : Nat → BitVec 32)
    (genZ0 : BitVec 32) (mem : Nat → Arr N_OUT_REGIONS (Arr NC HadCaloObj)) (inp : Nat → RegIn sz NM) :
    ∃ d : RegRecord sz NC NE NT NM,
      regTestMain (some true) genZ0 ⟨(e :: e' :: post).flatMap eventBytes, false, junk⟩ mem inp = .ok (3, [d]) := by
  rw [List.flatMap_cons, List.flatMap_cons]
  obtain ⟨j1, h1⟩ := nextEvent_cons
    (DumpReader.new genZ0 ⟨eventBytes e ++ (eventBytes e' ++ post.flatMap eventBytes), false, junk⟩) e hfit.1 _ junk rfl
  obtain ⟨j2, h2⟩ := nextEvent_cons { DumpReader.new genZ0 ⟨eventBytes e ++ (eventBytes e' ++ post.flatMap eventBytes), false, junk⟩ with
    event := storedEvent e, file := ⟨eventBytes e' ++ post.flatMap eventBytes, false, j1⟩ } e' hfit.2 _ j1 rfl
  obtain ⟨d, f', h3, h4⟩ := regTestStep_odd (NE := NE) (NT := NT) hNC hodd (mem 49) (mem 48) e e' hgood.1 hgood.2 (inp 49) (inp 48)
  refine ⟨d, ?_⟩
  unfold regTestMain regTestLoop
  rw [h1, Run.ok_bind]
  dsimp only
  rw [if_neg (by simp), if_neg (by rw [((goodEvent_iff e).mp hgood.1).1]; decide), h3, Run.ok_bind]
  dsimp only
  unfold regTestLoop
  rw [h2, Run.ok_bind]
  dsimp only
  rw [if_neg (by simp), if_neg (by rw [((goodEvent_iff e').mp hgood.2).1]; decide), h4]
  rfl

/-- **C58.** So the bench never reports a mismatch (exit 1): on any dump of well-formed events it exits with 0 or 2, or
an assertion fails. -/
theorem C58_never_mismatch (hNC : sz.caloEta ≤ NC) (heven : sz.track % 2 = 0) (evs : List DumpEvent)
    (hfit : ∀ e ∈ evs, eventFits e) (junk : Nat → BitVec 32) (genZ0 : BitVec 32)
    (mem : Nat → Arr N_OUT_REGIONS (Arr NC HadCaloObj)) (inp : Nat → RegIn sz NM) :
    (∃ ds : List (RegRecord sz NC NE NT NM), regTestMain (some true) genZ0 ⟨evs.flatMap eventBytes, false, junk⟩ mem inp = .ok (0, ds)) ∨
    (∃ ds : List (RegRecord sz NC NE NT NM), regTestMain (some true) genZ0 ⟨evs.flatMap eventBytes, false, junk⟩ mem inp = .ok (2, ds)) ∨
    regTestMain (NE := NE) (NT := NT) (some true) genZ0 ⟨evs.flatMap eventBytes, false, junk⟩ mem inp = .error .assertFail := by
  by_cases hg : ∀ e ∈ evs.take 50, GoodEvent sz e
  · obtain ⟨ds, _, h⟩ := C58_passes (NE := NE) (NT := NT) hNC heven evs hfit hg junk genZ0 mem inp
    exact Or.inl ⟨ds, h⟩
  · obtain ⟨pre, e, post, hs, hpre, he⟩ : ∃ pre e post, evs.take 50 = pre ++ e :: post ∧ (∀ x ∈ pre, GoodEvent sz x) ∧ ¬ GoodEvent sz e := by
      generalize evs.take 50 = l at hg
      induction l with
      | nil => exact absurd (fun e he => by cases he) hg
      | cons a l ih =>
        by_cases ha : GoodEvent sz a
        · obtain ⟨pre, e, post, h1, h2, h3⟩ := ih (fun h => hg (List.forall_mem_cons.mpr ⟨ha, h⟩))
          exact ⟨a :: pre, e, post, by rw [h1]; rfl, List.forall_mem_cons.mpr ⟨ha, h2⟩, h3⟩
        · exact ⟨[], a, l, rfl, (fun _ h => nomatch h), ha⟩
    have hl : pre.length < 50 := by
      have := congrArg List.length hs
      rw [List.length_append, List.length_cons, List.length_take] at this
      omega
    have hev : evs = pre ++ e :: (post ++ evs.drop 50) := by
      conv_lhs => rw [← List.take_append_drop 50 evs, hs]
      simp
    have hfit' : ∀ x ∈ pre ++ [e], eventFits x := by
      intro x hx
      apply hfit
      rw [hev]
      simp only [List.mem_append, List.mem_cons] at hx ⊢
      rcases hx with h | h | h
      · exact Or.inl h
      · exact Or.inr (Or.inl h)
      · cases h
    obtain ⟨h2, h3⟩ := C58_first_bad (NE := NE) (NT := NT) hNC heven pre e (post ++ evs.drop 50) hfit' hl hpre he junk genZ0 mem inp
    rw [← hev] at h2 h3
    by_cases hlen : e.regions.length = 12
    · exact Or.inr (Or.inr (h3 hlen))
    · obtain ⟨ds, _, h⟩ := h2 hlen
      exact Or.inr (Or.inl ⟨ds, h⟩)

/-! ## A concrete dump -/

/-- A sector with a cluster, a photon-like cluster, a track and a muon. -/
def exSector (pt : BitVec 16) : InputRegion :=
  ⟨0, 0, 0, 0, 0, 0, 0, [⟨pt, 2, 0, 5, 7, 0, false, false⟩], [⟨12, 12, 3, 1, 1, 0, true, false⟩],
    [⟨⟨0, 0, 0, true, 3, 0, 0, 0⟩, 20, 2, 0, 5, 6, false, false, true⟩], [⟨30, 4, 5, 0, true⟩]⟩

/-- An event with such sectors, with the given pt of their clusters. -/
def exRegEvent (pts : List (BitVec 16)) : DumpEvent := ⟨1, 2, 3, 0, 0, 0, 0, 0, 0, pts.map exSector⟩

theorem exRegEvent_fits (pts : List (BitVec 16)) (h : pts.length < 2 ^ 32) : eventFits (exRegEvent pts) := by
  refine ⟨by show (pts.map exSector).length < _; rw [List.length_map]; exact h, fun r hr => ?_⟩
  obtain ⟨p, _, rfl⟩ := List.mem_map.mp (show r ∈ pts.map exSector from hr)
  have h1 : (1 : Nat) < 2 ^ 32 := by decide
  exact ⟨h1, h1, h1, h1⟩

/-- **C58.** The sizes of the source meet the conditions of `C58_passes` in the MP7 build; in the default build the regions are too small. -/
theorem C58_source : RegSizes.source.track % 2 = 0 ∧ RegSizes.source.caloEta ≤ Config.mp7.NCALO ∧ Config.default.NCALO < RegSizes.source.caloEta := by decide

/-- **C58**, non-vacuity: a good event (with the sizes of the source), one with a negative cluster pt, one with too few
sectors; and the tracks per sector of the source are even in number. -/
example : GoodEvent .source (exRegEvent [10, 20, 30, 40, 50, 60, 70, 80, 90, 100, 110, 120]) ∧
    ¬ GoodEvent .source (exRegEvent [10, 20, 30, 40, 50, 60, 70, 80, 90, 100, 110, -1]) ∧
    (exRegEvent [10, 20, 30, 40, 50, 60, 70, 80, 90, 100, 110, -1]).regions.length = 12 ∧
    (exRegEvent [10, 20]).regions.length ≠ 12 ∧ RegSizes.source.track % 2 = 0 := by
  refine ⟨⟨rfl, by decide⟩, fun h => ?_, rfl, by decide, rfl⟩
  exact absurd (h.2 (exSector (-1)) (by decide) ⟨-1, 2, 0, 5, 7, 0, false, false⟩ (by decide)) (by decide)

/-- The regions of the good event are not empty. -/
example : (regTestStep (sz := ⟨1, 1, 1, 1, 2, 1⟩) (NC := 2) (NE := 1) (NT := 1) (NM := 1) (fun _ _ => HadCaloObj.clear)
      (storedEvent (exRegEvent [10, 20, 30, 40, 50, 60, 70, 80, 90, 100, 110, 120])).regions
      ⟨fun _ _ => HadCaloObj.clear, fun _ _ => EmCaloObj.clear, fun _ _ => TkObj.clear, fun _ _ => MuObj.clear⟩ .empty).map
    (fun x => x.2.1.map fun d => ((d.calo 6 0).hwPt, (d.calo 6 1).hwPt, (d.em 7 0).hwPt, (d.track 8 0).hwPt, (d.mu 6 0).hwPt)) =
    .ok (some (30, 20, 12, 20, 30)) := by
  decide +kernel

end Verif
