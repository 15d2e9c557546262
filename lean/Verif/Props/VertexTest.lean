import Verif.Proofs.VertexTest
import Verif.Props.RegionizerTest
/-! # C60: what the vertex test bench computes, counts and writes

The bench reads up to 250 events of twelve sectors, splits each sector in two, runs the histogram vertexing firmware and
its reference and counts how often they disagree. -/
namespace Verif
open Spec

/-- **C60.** On every dump whose first 250 events have twelve sectors the bench exits with 0.  It gives for test `i + 1` on
event `i` the tracks, vertices, text lines and frames of `TestOf`, and the counters of `statsOf`, whatever is in memory. -/
theorem C60_passes (toZ0 : BitVec 32 → Z0) (mem : Nat → BhvMem) (evs : List DumpEvent) (hfit : ∀ e ∈ evs, eventFits e)
    (hl : ∀ e ∈ evs.take 250, e.regions.length = 12) (junk : Nat → BitVec 32) (genZ0 : BitVec 32) :
    ∃ ts : List BhvTest, ts.length = (evs.take 250).length ∧
      (∀ i e t, (evs.take 250)[i]? = some e → ts[i]? = some t → TestOf toZ0 (i + 1) e t) ∧
      bhvMain (some true) toZ0 mem genZ0 ⟨evs.flatMap eventBytes, false, junk⟩ = .ok (0, ts, statsOf ts) := by
  obtain ⟨ts, s', j', h1, h2, h3, h4⟩ := bhvLoop_good toZ0 mem (250 - (evs.take 250).length) (evs.drop 250) (evs.take 250) 1
    (DumpReader.new genZ0 ⟨evs.flatMap eventBytes, false, junk⟩) BhvStats.zero junk
    (fun e he => ⟨hfit e (List.mem_of_mem_take he), hl e he⟩) (by rw [List.take_append_drop]; rfl) (by decide) rfl rfl
  refine ⟨ts, h1, fun i e t he ht => by rw [Nat.add_comm]; exact h2 i e t he ht, ?_⟩
  have hle : (evs.take 250).length ≤ 250 := by simp
  rw [show (evs.take 250).length + (250 - (evs.take 250).length) = 250 by omega] at h4
  unfold bhvMain
  rw [h4, stats_foldl]
  have hend : ∀ test st, bhvLoop (some true) toZ0 mem (250 - (evs.take 250).length) test s' st = .ok (0, [], st) := by
    intro test st
    cases hn : 250 - (evs.take 250).length with
    | zero => rfl
    | succ n =>
      have hd : evs.drop 250 = [] := by
        apply List.drop_eq_nil_of_le
        rw [List.length_take] at hn
        omega
      rw [hd] at h3
      obtain ⟨s'', hs, _⟩ := C43_end (some true) s' (by rw [h3]; exact Nat.zero_lt_succ _)
      unfold bhvLoop
      rw [hs, Run.ok_bind]
      rfl
  rw [hend]
  simp [Except.map]

/-- **C60.** The first event without twelve sectors ends the bench with 2, after the tests before it. -/
theorem C60_wrong_sectors (toZ0 : BitVec 32 → Z0) (mem : Nat → BhvMem) (pre : List DumpEvent) (e : DumpEvent) (post : List DumpEvent)
    (hfit : ∀ x ∈ pre ++ [e], eventFits x) (hn : pre.length < 250) (hl : ∀ x ∈ pre, x.regions.length = 12)
    (hbad : e.regions.length ≠ 12) (junk : Nat → BitVec 32) (genZ0 : BitVec 32) :
    ∃ ts : List BhvTest, ts.length = pre.length ∧
      (∀ i e t, pre[i]? = some e → ts[i]? = some t → TestOf toZ0 (i + 1) e t) ∧
      bhvMain (some true) toZ0 mem genZ0 ⟨(pre ++ e :: post).flatMap eventBytes, false, junk⟩ = .ok (2, ts, statsOf ts) := by
  obtain ⟨ts, s', j', h1, h2, h3, h4⟩ := bhvLoop_good toZ0 mem (249 - pre.length + 1) (e :: post) pre 1
    (DumpReader.new genZ0 ⟨(pre ++ e :: post).flatMap eventBytes, false, junk⟩) BhvStats.zero junk
    (fun x hx => ⟨hfit x (List.mem_append_left _ hx), hl x hx⟩) rfl (by decide) rfl rfl
  refine ⟨ts, h1, fun i e t he ht => by rw [Nat.add_comm]; exact h2 i e t he ht, ?_⟩
  rw [show pre.length + (249 - pre.length + 1) = 250 by omega] at h4
  rw [List.flatMap_cons] at h3
  obtain ⟨j1, h5⟩ := nextEvent_cons s' e (hfit e (List.mem_append_right _ (List.mem_singleton.mpr rfl))) _ j' h3
  have hlen : (storedEvent e).regions.length = e.regions.length := List.length_map _
  unfold bhvMain
  rw [h4, stats_foldl]
  unfold bhvLoop
  rw [h5, Run.ok_bind]
  dsimp only
  rw [if_neg (by simp), if_pos (by rw [hlen]; exact hbad)]
  simp [Except.map]

/-- **C60.** When no track the bench takes has negative pt, firmware and reference agree. -/
theorem C60_agree (toZ0 : BitVec 32 → Z0) {test : Nat} {e : DumpEvent} {t : BhvTest} (hl : e.regions.length = 12) (hp : PtOK e)
    (h : TestOf toZ0 test e t) : t.pvbin_ref = t.pvbin_hw ∧ t.pv_ref = t.pv_hw ∧ t.ptsum_ref = t.ptsum_hw.toInt := by
  have h1 := h.ref
  have h2 := h.hw hp
  rw [positive_id (ptOK_tracks hl hp h.tracks)] at h1
  obtain ⟨b, e1, e2, e3, e4⟩ := h1
  obtain ⟨b', f1, f2, f3, f4⟩ := h2
  obtain rfl := firstMax_unique e4 f4
  exact ⟨BitVec.eq_of_toNat_eq (by omega), BitVec.eq_of_toInt_eq (by omega), by omega⟩

/-- **C60.** So the bench counts no error on a dump without tracks of negative pt. -/
theorem C60_no_errors (toZ0 : BitVec 32 → Z0) (mem : Nat → BhvMem) (evs : List DumpEvent) (hfit : ∀ e ∈ evs, eventFits e)
    (hl : ∀ e ∈ evs.take 250, e.regions.length = 12) (hp : ∀ e ∈ evs.take 250, PtOK e) (junk : Nat → BitVec 32) (genZ0 : BitVec 32) :
    ∃ ts st, bhvMain (some true) toZ0 mem genZ0 ⟨evs.flatMap eventBytes, false, junk⟩ = .ok (0, ts, st) ∧ st.nerr = 0 ∧
      st.ntot = min 250 evs.length := by
  obtain ⟨ts, h1, h2, h3⟩ := C60_passes toZ0 mem evs hfit hl junk genZ0
  refine ⟨ts, _, h3, ?_, ?_⟩
  · show ts.countP mismatch = 0
    rw [List.countP_eq_zero]
    intro t ht
    obtain ⟨i, hi, rfl⟩ := List.getElem_of_mem ht
    have hi' : i < (evs.take 250).length := by omega
    have he := List.getElem_mem hi'
    obtain ⟨_, a2, a3⟩ := C60_agree toZ0 (hl _ he) (hp _ he)
      (h2 i _ _ (List.getElem?_eq_getElem hi') (List.getElem?_eq_getElem hi))
    unfold mismatch
    rw [a2, a3]
    simp
  · show ts.length = _
    rw [h1, List.length_take]

private theorem flatMap_get {α β : Type} {k : Nat} {f : α → List β} : ∀ {l : List α}, (∀ a ∈ l, (f a).length = k) →
    (l.flatMap f).length = k * l.length ∧ ∀ (i : Nat) a, l[i]? = some a → ∀ j, j < k → (l.flatMap f)[k * i + j]? = (f a)[j]? := by
  intro l
  induction l with
  | nil => exact fun _ => ⟨rfl, fun i a h => by simp at h⟩
  | cons a l ih =>
    intro h
    obtain ⟨ha, hl⟩ := List.forall_mem_cons.mp h
    obtain ⟨h1, h2⟩ := ih hl
    rw [List.flatMap_cons, List.length_append, ha, h1, List.length_cons, Nat.mul_succ]
    refine ⟨by omega, fun i b hb j hj => ?_⟩
    cases i with
    | zero =>
      obtain rfl := Option.some.inj hb
      rw [Nat.mul_zero, Nat.zero_add, List.getElem?_append_left (by omega)]
    | succ i =>
      rw [List.getElem?_append_right (by rw [ha, Nat.mul_succ]; omega), ha, show k * (i + 1) + j - k = k * i + j by rw [Nat.mul_succ]; omega]
      exact h2 i b hb j hj

/-- Without multiplexing a file has one row per frame: its first `nlinks` words (all when 0). -/
private theorem plain_rows (nlinks : Nat) (hn : nlinks ≤ 144) (evs : List MP7Event) (hl : evs.length < 2 ^ 32) :
    ∃ rows, mp7_file 1 0 nlinks evs = .ok rows ∧ rows.length = evs.length ∧ ∀ (r : Nat) w, evs[r]? = some w →
      ∃ row, rows[r]? = some row ∧ row.1 = BitVec.ofNat 32 r ∧ row.2.length = (if nlinks = 0 then 144 else nlinks) ∧
        ∀ j : Fin 144, j.val < row.2.length → row.2[j.val]? = some (w j) := by
  obtain ⟨rows, h1, h2, h3⟩ := mp7_file_rows (n := 1) 0 nlinks (by decide) (by decide) hn evs (by simpa using hl)
  rw [show (0 : Int).natAbs + 1 = 1 from rfl] at h2 h3
  refine ⟨rows, h1, by rw [h2]; omega, fun r w hw => ?_⟩
  have hr : r < evs.length := (List.getElem?_eq_some_iff.mp hw).1
  have hr' : r < rows.length := by rw [h2]; omega
  have hlen : (if nlinks ≠ 0 then nlinks else 144 / 1) = (if nlinks = 0 then 144 else nlinks) := by
    by_cases h : nlinks = 0 <;> simp [h]
  have hstream : (stream (0 : Int).natAbs (decide ((0 : Int) < 0)) evs)[r]? = some w := by
    unfold stream
    rw [List.getElem?_map, List.getElem?_range (by show _ < _ * 1; omega)]
    simp only [Option.map_some]
    rw [if_pos (by show r % 1 = 0; omega), show r / ((0 : Int).natAbs + 1) = r by show r / 1 = r; omega, List.getD_eq_getElem?_getD, hw]
    rfl
  refine ⟨rows[r], List.getElem?_eq_getElem hr', ?_, ?_, fun j hj => ?_⟩
  · rw [h3 r hr', if_pos (by omega)]
  · rw [h3 r hr', hlen]
    simp [rowWords]
  · rw [h3 r hr', hlen] at hj ⊢
    dsimp only at hj ⊢
    have hj' := j.isLt
    unfold rowWords at hj ⊢
    rw [List.length_map, List.length_range] at hj
    rw [List.getElem?_map, List.getElem?_range hj]
    simp only [Option.map_some]
    congr 1
    rw [show r / 1 * 1 + j.val / (144 / 1) = r by omega, show j.val % (144 / 1) * 1 + r % 1 = j.val by omega]
    unfold evWord
    rw [hstream]
    dsimp only
    rw [dif_pos hj']

/-- **C60.** The pattern file for the firmware: rows `36 i + 2 ic` and the next carry on link `s` track `ic` of sector `s` of
test `i + 1`. -/
theorem C60_input_file (toZ0 : BitVec 32 → Z0) (evs : List DumpEvent) (ts : List BhvTest) (hlen : ts.length = evs.length)
    (h : ∀ i e t, evs[i]? = some e → ts[i]? = some t → TestOf toZ0 (i + 1) e t) (hn : 36 * ts.length < 2 ^ 32) :
    ∃ rows, muxFile (ts.flatMap (·.inFrames)) = .ok rows ∧ rows.length = 36 * ts.length ∧
      (∀ r (h : r < rows.length), rows[r].1 = BitVec.ofNat 32 r) ∧
      ∀ i t, ts[i]? = some t → ∀ (ic : Fin 18) c, c < 72 → ObjAt rows (36 * i + 2 * ic.val) c
        (if h : c < 24 then tkWords (t.track_in ⟨c, h⟩ ic) else (0, 0)) := by
  have hof : ∀ i t, ts[i]? = some t → ∃ e, TestOf toZ0 (i + 1) e t := by
    intro i t ht
    have hi := (List.getElem?_eq_some_iff.mp ht).1
    exact ⟨_, h i _ t (List.getElem?_eq_getElem (by omega)) ht⟩
  obtain ⟨g1, g2⟩ := flatMap_get (f := fun t : BhvTest => t.inFrames) (k := 18) (l := ts) (fun t ht => by
    obtain ⟨i, hi, rfl⟩ := List.getElem_of_mem ht
    obtain ⟨e, he⟩ := hof i _ (List.getElem?_eq_getElem hi)
    exact he.inFrames.1)
  obtain ⟨rows, h1, h2, h3, h4⟩ := muxFile_rows (ts.flatMap (·.inFrames)) (by omega)
  refine ⟨rows, h1, by omega, h3, fun i t ht ic c hc => ?_⟩
  obtain ⟨e, he⟩ := hof i t ht
  obtain ⟨w, w1, w2⟩ := he.inFrames.2 ic
  have := h4 (18 * i + ic.val) w (by rw [g2 i t ht ic.val ic.isLt, w1]) c hc
  rw [show 2 * (18 * i + ic.val) = 36 * i + 2 * ic.val by omega] at this
  rw [← w2 c hc]
  exact this

/-- **C60.** The other pattern files have one row per clock, row `36 i + ic` for clock `ic` of test `i + 1`: the result on
three links; the inputs as bins and the histograms on all of them. -/
theorem C60_output_files (toZ0 : BitVec 32 → Z0) (evs : List DumpEvent) (ts : List BhvTest) (hlen : ts.length = evs.length)
    (h : ∀ i e t, evs[i]? = some e → ts[i]? = some t → TestOf toZ0 (i + 1) e t) (hn : 36 * ts.length < 2 ^ 32) :
    (∃ rows, threeLinkFile (ts.flatMap (·.outFrames)) = .ok rows ∧ rows.length = 36 * ts.length ∧
      ∀ i t, ts[i]? = some t → ∀ ic : Fin 36, ∃ row, rows[36 * i + ic.val]? = some row ∧ row.1 = BitVec.ofNat 32 (36 * i + ic.val) ∧
        row.2.map BitVec.toNat = if ic.val = 0 then [1, word32 t.ptsum_hw.toInt, t.pvbin_hw.toNat] else [0, 0, 0]) ∧
    (∃ rows, allLinkFile (ts.flatMap (·.inDebug)) = .ok rows ∧ rows.length = 36 * ts.length ∧
      ∀ i t, ts[i]? = some t → ∀ ic : Fin 36, ∃ row, rows[36 * i + ic.val]? = some row ∧ row.1 = BitVec.ofNat 32 (36 * i + ic.val) ∧
        row.2.length = 144 ∧ ∀ j : Fin 144, ∃ w, row.2[j.val]? = some w ∧ w.toNat = inDebugWord t.track_in ic j.val) ∧
    (∃ rows, allLinkFile (ts.flatMap (·.outDebug)) = .ok rows ∧ rows.length = 36 * ts.length ∧
      ∀ i e t, evs[i]? = some e → PtOK e → ts[i]? = some t → ∀ ic : Fin 36, ∃ row, rows[36 * i + ic.val]? = some row ∧
        row.1 = BitVec.ofNat 32 (36 * i + ic.val) ∧
        row.2.length = 144 ∧ ∀ j : Fin 144, ∃ w, row.2[j.val]? = some w ∧ w.toNat = outDebugWord (i + 1) t.track_in ic.val j.val) := by
  have hof : ∀ i t, ts[i]? = some t → ∃ e, evs[i]? = some e ∧ TestOf toZ0 (i + 1) e t := by
    intro i t ht
    have hi := (List.getElem?_eq_some_iff.mp ht).1
    exact ⟨_, List.getElem?_eq_getElem (by omega), h i _ t (List.getElem?_eq_getElem (by omega)) ht⟩
  have key : ∀ (f : BhvTest → List MP7Event), (∀ i e t, TestOf toZ0 i e t → (f t).length = 36) →
      (ts.flatMap f).length = 36 * ts.length ∧ ∀ (i : Nat) t, ts[i]? = some t → ∀ j, j < 36 → (ts.flatMap f)[36 * i + j]? = (f t)[j]? := by
    intro f hf
    refine flatMap_get fun t ht => ?_
    obtain ⟨i, hi, rfl⟩ := List.getElem_of_mem ht
    obtain ⟨e, _, he⟩ := hof i _ (List.getElem?_eq_getElem hi)
    exact hf _ _ _ he
  refine ⟨?_, ?_, ?_⟩
  · obtain ⟨g1, g2⟩ := key (fun t : BhvTest => t.outFrames) fun _ _ _ h => h.outFrames.1
    obtain ⟨rows, h1, h2, h3⟩ := plain_rows 3 (by decide) (ts.flatMap (·.outFrames)) (by omega)
    refine ⟨rows, h1, by omega, fun i t ht ic => ?_⟩
    obtain ⟨e, _, he⟩ := hof i t ht
    obtain ⟨w, w1, w2⟩ := he.outFrames.2 ic
    obtain ⟨row, r1, r2, r3, r4⟩ := h3 (36 * i + ic.val) w (by rw [g2 i t ht ic.val ic.isLt, w1])
    refine ⟨row, r1, r2, ?_⟩
    rw [if_neg (by decide)] at r3
    have q0 := r4 0 (by rw [r3]; decide)
    have q1 := r4 1 (by rw [r3]; decide)
    have q2 := r4 2 (by rw [r3]; decide)
    have hb : word32 (t.pvbin_hw.toNat : Int) = t.pvbin_hw.toNat := by
      have := he.hw_range.1
      unfold word32
      omega
    match hrow : row.2, r3 with
    | [x, y, z], _ =>
      rw [hrow] at q0 q1 q2
      obtain rfl := Option.some.inj q0
      obtain rfl := Option.some.inj q1
      obtain rfl := Option.some.inj q2
      simp only [List.map_cons, List.map_nil, w2]
      unfold outWord
      by_cases hc : ic.val = 0
      · rw [if_pos hc, hb]
        simp [hc]
      · rw [if_neg hc]
        simp [hc]
  · obtain ⟨g1, g2⟩ := key (fun t : BhvTest => t.inDebug) fun _ _ _ h => h.inDebug.1
    obtain ⟨rows, h1, h2, h3⟩ := plain_rows 0 (by decide) (ts.flatMap (·.inDebug)) (by omega)
    refine ⟨rows, h1, by omega, fun i t ht ic => ?_⟩
    obtain ⟨e, _, he⟩ := hof i t ht
    obtain ⟨w, w1, w2⟩ := he.inDebug.2 ic
    obtain ⟨row, r1, r2, r3, r4⟩ := h3 (36 * i + ic.val) w (by rw [g2 i t ht ic.val ic.isLt, w1])
    exact ⟨row, r1, r2, r3, fun j => ⟨w j, r4 j (by rw [r3]; exact j.isLt), w2 j⟩⟩
  · obtain ⟨g1, g2⟩ := key (fun t : BhvTest => t.outDebug) fun _ _ _ h => h.outDebug.1
    obtain ⟨rows, h1, h2, h3⟩ := plain_rows 0 (by decide) (ts.flatMap (·.outDebug)) (by omega)
    refine ⟨rows, h1, by omega, fun i e t he' hp ht ic => ?_⟩
    obtain ⟨w, w1, w2⟩ := (h i e t he' ht).outDebug.2 hp ic
    obtain ⟨row, r1, r2, r3, r4⟩ := h3 (36 * i + ic.val) w (by rw [g2 i t ht ic.val ic.isLt, w1])
    exact ⟨row, r1, r2, r3, fun j => ⟨w j, r4 j (by rw [r3]; exact j.isLt), w2 j⟩⟩

/-! ## Concrete dumps -/

/-- Nothing in memory. -/
def exMem : Nat → BhvMem := fun _ => ⟨fun _ _ => TkObj.clear, fun _ => TkObj.clear, fun _ _ => TkObj.clear, fun _ _ => 0⟩

/-- A sector with one track of the given pt. -/
def exVtxSector (pt : BitVec 16) : InputRegion :=
  ⟨0, 0, 0, 0, 0, 0, 0, [], [], [⟨⟨0, 0, 0, true, 3, 0, 0, 0⟩, pt, 2, 0, 5, 6, false, false, true⟩], []⟩

/-- An event with such sectors. -/
def exVtxEvent (pts : List (BitVec 16)) : DumpEvent := ⟨1, 2, 3, 0, 0, 0, 0, 0, 0, pts.map exVtxSector⟩

/-- **C60.** The errors the bench counts do not change its exit code: on a dump with a track of negative pt firmware and
reference disagree, and it exits with 0. -/
theorem C60_errors_ignored :
    (bhvMain (some true) (fun _ => 0) exMem 0
      ⟨eventBytes (exVtxEvent [-4, 0, 0, 0, 0, 0, 0, 0, 0, 0, 0, 0]), false, fun _ => 0⟩).map (fun r => (r.1, r.2.2.nerr, r.2.2.ntot)) =
      .ok (0, 1, 1) := by
  decide +kernel

theorem exVtxEvent_fits (pts : List (BitVec 16)) (h : pts.length < 2 ^ 32) : eventFits (exVtxEvent pts) := by
  refine ⟨by show (pts.map exVtxSector).length < _; rw [List.length_map]; exact h, fun r hr => ?_⟩
  obtain ⟨p, _, rfl⟩ := List.mem_map.mp (show r ∈ pts.map exVtxSector from hr)
  have h0 : (0 : Nat) < 2 ^ 32 := by decide
  have h1 : (1 : Nat) < 2 ^ 32 := by decide
  exact ⟨h0, h0, h1, h0⟩

theorem exVtxEvent_ptOK (pts : List (BitVec 16)) (h : pts.all (fun p => decide (0 ≤ p.toInt)) = true) : PtOK (exVtxEvent pts) := by
  intro r hr
  unfold exVtxEvent at hr
  obtain ⟨p, hp, rfl⟩ := List.mem_map.mp hr
  intro x hx
  have hx' := List.mem_of_mem_take hx
  unfold exVtxSector at hx'
  obtain rfl := List.mem_singleton.mp hx'
  exact of_decide_eq_true (List.all_eq_true.mp h p hp)

/-- **C60**, non-vacuity: an event with twelve sectors, without tracks of negative pt, that fits; one with fewer sectors. -/
example : eventFits (exVtxEvent [8, 20, 30, 40, 50, 60, 70, 80, 90, 100, 110, 120]) ∧
    (exVtxEvent [8, 20, 30, 40, 50, 60, 70, 80, 90, 100, 110, 120]).regions.length = 12 ∧
    PtOK (exVtxEvent [8, 20, 30, 40, 50, 60, 70, 80, 90, 100, 110, 120]) ∧ (exVtxEvent [8]).regions.length ≠ 12 :=
  ⟨exVtxEvent_fits _ (by simp), rfl, exVtxEvent_ptOK _ (by decide), by simp [exVtxEvent]⟩

/-- The bench finds the vertex of such an event. -/
example :
    (bhvMain (some true) (fun _ => 0) exMem 0
      ⟨eventBytes (exVtxEvent [8, 20, 30, 40, 50, 60, 70, 80, 90, 100, 110, 120]), false, fun _ => 0⟩).map
      (fun r => (r.1, r.2.2.nerr, r.2.2.ngood, r.2.1.map fun t => [t.pv_ref.toInt, t.pv_hw.toInt, t.ptsum_ref, t.ptsum_hw.toInt])) =
      .ok (0, 0, 1, [[4, 4, 389, 389]]) := by
  decide +kernel

end Verif
