import Verif.Props.DumpCut
import Verif.Props.PiecesBench
/-! # C117 — the test bench on a dump cut after the regions of an event -/
namespace Verif
open Spec

theorem seek_cut (k : Nat) : ∀ s : DumpReader, s.file.eof = true → s.event.event ≠ 0 → s.iregion + k = s.event.regions.length →
    (∃ s', s.seek (some true) = .ok (false, s')) ∨
    ∃ (j : Nat) (hj : j < s.event.regions.length), s.seek (some true) = .ok (true, { s with iregion := j }) ∧ farEta (s.event.regions[j]).etaCenter = false := by
  induction k with
  | zero =>
    intro s he h0 hk
    refine Or.inl ⟨s, seek_refill_false ?_⟩
    unfold DumpReader.refill
    rw [if_pos (Or.inr (by omega)), if_pos he]
  | succ k ih =>
    intro s he h0 hk
    have hlt : s.iregion < s.event.regions.length := by omega
    have hseek := seek_refill_true (refill_same (fall := some true) h0 (by omega))
    rw [List.getElem?_eq_getElem hlt] at hseek
    simp only [] at hseek
    by_cases hfar : farEta (s.event.regions[s.iregion]).etaCenter = true
    · rw [if_pos hfar] at hseek
      rw [hseek]
      exact ih { s with iregion := s.iregion + 1 } he h0 (by show s.iregion + 1 + k = s.event.regions.length; omega)
    · rw [if_neg hfar] at hseek
      exact Or.inr ⟨s.iregion, hlt, hseek, Bool.eq_false_iff.mpr hfar⟩

/-- The rest of an event after the end of the file, with regions outside the barrel. -/
theorem loop_cut_far {kind : TestKind} (hk : kind.Fits NT NC NE NM NS) (hv : kind.validates = true) (zpv : BitVec 32 → Z0) (junk : Nat → TestJunk NT NC NE NM NS) :
    ∀ (n : Nat) (s : DumpReader), s.file.eof = true → s.event.event ≠ 0 → s.iregion ≤ s.event.regions.length →
    (∀ r ∈ s.event.regions, farEta r.etaCenter = false → Passes NS (regionInputs NT NC NE NM r)) → ∀ inp z out ref,
    pfTestLoop kind (some true) zpv junk n s inp z out ref = .ok 0 := by
  intro n
  induction n with
  | zero => intros; rfl
  | succ n ih =>
    intro s he h0 hi hr inp z out ref
    rcases seek_cut (s.event.regions.length - s.iregion) s he h0 (by omega) with ⟨s', hs⟩ | ⟨j, hj, hs, hfar⟩
    · rw [pfTestLoop]
      unfold DumpReader.nextRegion
      rw [hs]
      rfl
    · have hp := hr _ (List.getElem_mem hj) hfar
      have h1 : s.nextRegion (some true) zpv (initInputs inp) z = .ok (true, { s with iregion := j + 1 }, regionInputs NT NC NE NM (s.event.regions[j]), zpv s.event.z0) := by
        unfold DumpReader.nextRegion
        rw [hs]
        simp only [Run.ok_bind, Bool.not_true, Bool.false_eq_true, if_false, List.getElem?_eq_getElem hj, fw_many_eq]
        rfl
      obtain ⟨o, r, ho, hr', ha⟩ := hp out ref (junk n).mem (junk n).memref
      obtain ⟨o', ho', hoo⟩ := (underTest_agree hk _ out out (junk n).mem (junk n)).ok ho
      rw [pfTestLoop, h1, Run.ok_bind]
      simp only [Bool.not_true, Bool.false_eq_true, if_false, hr', Run.ok_bind, ho', hv, Bool.true_and]
      rw [if_neg]
      · exact ih { s with iregion := j + 1 } he h0 hj hr _ _ _ _
      · rw [decide_eq_true_iff, not_not, countErrors_eq_zero]
        exact agree_equivalence.trans ha hoo

/-- **C117.** The test bench passes on an event cut off after its regions, whose vertex is missing, if firmware and reference agree on its barrel regions: it does
not notice. -/
theorem C117_trailer_bench {kind : TestKind} (hk : kind.Fits NT NC NE NM NS) (hv : kind.validates = true) (zpv : BitVec 32 → Z0) (genZ0 : BitVec 32) (e : DumpEvent) (he : eventFits e)
    (h0 : e.event ≠ 0) (hne : e.regions ≠ []) (hp : ∀ x ∈ barrel [e], Passes NS (regionInputs NT NC NE NM x.1))
    (mem : Nat → BitVec 32) (junk : Nat → TestJunk NT NC NE NM NS) (inp : PFInputs NT NC NE NM) (z : Z0) (out ref : PFOutputs NT NE NS NM) :
    pfTestMain kind (some true) zpv genZ0 ⟨headerBytes e.run e.lumi e.event ++ writeMany e.regions, false, mem⟩ junk inp z out ref = .ok 0 := by
  obtain ⟨m, h⟩ := C117_trailer (DumpEvent.new genZ0) e he mem
  generalize hE : ({ DumpEvent.new genZ0 with run := e.run, lumi := e.lumi, event := e.event, regions := e.regions.map keepRegion } : DumpEvent) = E at h
  have hev : E.event = e.event := by rw [← hE]
  have hreg : E.regions = e.regions.map keepRegion := by rw [← hE]
  generalize headerBytes e.run e.lumi e.event ++ writeMany e.regions = bytes at h ⊢
  let s : DumpReader := ⟨⟨[], true, m⟩, E, 0⟩
  have hf : (DumpReader.new genZ0 ⟨bytes, false, mem⟩).refill (some true) = .ok (true, s) := by
    unfold DumpReader.refill DumpReader.new
    rw [if_pos (by left; rfl)]
    simp only [Bool.false_eq_true, if_false, h]
    rfl
  have hpos : 0 ≠ E.regions.length := by
    rw [hreg, List.length_map]
    exact fun x => hne (List.length_eq_zero_iff.mp x.symm)
  have hsame : s.refill (some true) = .ok (true, s) := refill_same (by rw [hev]; exact h0) hpos
  have hseek : (DumpReader.new genZ0 ⟨bytes, false, mem⟩).seek (some true) = s.seek (some true) := by
    rw [seek_refill_true hf, seek_refill_true hsame]
  have hnext : ∀ (n : Nat), pfTestLoop kind (some true) zpv junk (n + 1) (DumpReader.new genZ0 ⟨bytes, false, mem⟩) inp z out ref =
      pfTestLoop kind (some true) zpv junk (n + 1) s inp z out ref := by
    intro n
    rw [pfTestLoop, pfTestLoop]
    unfold DumpReader.nextRegion
    rw [hseek]
  unfold pfTestMain NTEST
  rw [hnext 499]
  refine loop_cut_far hk hv zpv junk 500 s rfl (by rw [hev]; exact h0) (Nat.zero_le _) (fun r hr hfar => ?_) inp z out ref
  have hr : r ∈ E.regions := hr
  rw [hreg] at hr
  obtain ⟨r0, hr0, rfl⟩ := List.mem_map.mp hr
  refine hp (keepRegion r0, e.z0) ?_
  unfold barrel
  rw [List.flatMap_singleton]
  refine List.mem_map.mpr ⟨r0, List.mem_filter.mpr ⟨hr0, ?_⟩, rfl⟩
  have : farEta r0.etaCenter = false := hfar
  rw [this]
  rfl

/-- A case: an event with the region of `C116`, cut off after it. -/
example (zpv : BitVec 32 → Z0) (genZ0 : BitVec 32) (mem : Nat → BitVec 32) (junk : Nat → TestJunk 2 2 2 1 2) (inp : PFInputs 2 2 2 1) (z : Z0) (out ref : PFOutputs 2 2 2 1) :
    pfTestMain .plain (some true) zpv genZ0 ⟨headerBytes (eventOf [caseDump]).run (eventOf [caseDump]).lumi (eventOf [caseDump]).event ++ writeMany [caseDump], false, mem⟩ junk inp z out ref = .ok 0 := by
  refine C117_trailer_bench (kind := .plain) trivial rfl zpv genZ0 (eventOf [caseDump]) ⟨by decide, fun r hr => ?_⟩ (by decide) (by decide) (fun x hx => ?_) mem junk inp z out ref
  · have hr : r ∈ [caseDump] := hr
    rw [List.mem_singleton] at hr
    subst hr
    exact ⟨by decide, by decide, by decide, by decide⟩
  · have e : barrel [eventOf [caseDump]] = [(keepRegion caseDump, 0)] := rfl
    rw [e, List.mem_singleton] at hx
    subst hx
    rw [case_kept]
    exact C116_pieces case_made ⟨by decide, by decide, by decide, by decide, by decide, by decide⟩ (by decide) (by decide)

end Verif
