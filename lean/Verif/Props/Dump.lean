import Verif.Proofs.Dump
import Verif.Proofs.Arith
import Verif.Props.PFOutputs
/-! # C42–C46 — dump files and conversions -/
namespace Verif
open Spec

/-! ### C42 -/

/-- **C42.** Integers are stored least significant byte first. -/
theorem C42_bytes (k : Nat) (v : BitVec (8 * k)) : (leBytes k v).length = k ∧ leVal (leBytes k v) = v.toNat := by
  refine ⟨leBytes_length k v, ?_⟩
  have h : ∀ bs : List Byte, leVal bs = bs.foldr (fun b acc => b.toNat + 256 * acc) 0 := by
    intro bs
    induction bs with
    | nil => rfl
    | cons b bs ih => rw [leVal, ih, List.foldr_cons]
  rw [h]
  unfold leBytes
  rw [List.range_eq_range', leBytes_val_aux v k 0]
  have := v.isLt
  simp [Nat.mod_eq_of_lt this]

/-- **C42.** A cluster, a track, a muon takes 13, 29, 9 bytes. -/
theorem C42_sizes (c : CaloCluster) (t : PropagatedTrack) (m : Muon) :
    (Dump.write c).length = 13 ∧ (Dump.write t).length = 29 ∧ (Dump.write m).length = 9 := by
  refine ⟨?_, ?_, ?_⟩ <;>
    simp [Dump.write, boolBytes, leBytes_length]

/-- **C42.** Reading back a cluster, a track or a muon, whatever the object read into and the following bytes:
all stored fields come back, the transient ones are reset, exactly the bytes written are consumed. -/
theorem C42_objects (rest : List Byte) (eof : Bool) (junk : Nat → BitVec 32) :
    (∀ x c : CaloCluster, ∃ j, Dump.read x ⟨Dump.write c ++ rest, eof, junk⟩ = (keepCluster c, ⟨rest, eof, j⟩)) ∧
    (∀ x t : PropagatedTrack, ∃ j, Dump.read x ⟨Dump.write t ++ rest, eof, junk⟩ = (keepTrack t, ⟨rest, eof, j⟩)) ∧
    (∀ x m : Muon, ∃ j, Dump.read x ⟨Dump.write m ++ rest, eof, junk⟩ = (m, ⟨rest, eof, j⟩)) :=
  ⟨fun x c => parses_calo x c rest eof junk, fun x t => parses_track x t rest eof junk,
    fun x m => parses_muon x m rest eof junk⟩

/-- **C42.** The same for whole regions (vectors shorter than `2^32`), and for vectors of regions, even when the
vector read into already holds other regions. -/
theorem C42_regions (rest : List Byte) (eof : Bool) (junk : Nat → BitVec 32) :
    (∀ x r : InputRegion, regionFits r → ∃ j, Dump.read x ⟨Dump.write r ++ rest, eof, junk⟩ = (keepRegion r, ⟨rest, eof, j⟩)) ∧
    (∀ xs rs : List InputRegion, rs.length < 2 ^ 32 → (∀ r ∈ rs, regionFits r) →
      ∃ j, readMany xs ⟨writeMany rs ++ rest, eof, junk⟩ = (rs.map keepRegion, ⟨rest, eof, j⟩)) :=
  ⟨fun x r hr => parses_region x r hr rest eof junk,
    fun xs rs hl hr => parses_readMany xs rs hl (fun x y hy => parses_region x y (hr y hy)) rest eof junk⟩

/-- **C42.** And for an event in the dump format. -/
theorem C42_event (x e : DumpEvent) (he : eventFits e) (rest : List Byte) (eof : Bool) (junk : Nat → BitVec 32) :
    ∃ j, x.readFromFile ⟨eventBytes e ++ rest, eof, junk⟩ = (none, storedEvent e, ⟨rest, eof, j⟩) :=
  readFromFile_event x e he rest eof junk

/-- **C42**, a case: a cluster with all fields set, followed by other bytes. -/
example : (Dump.read (T := CaloCluster) ⟨1, 1, 1, 1, 1, 1, false, true⟩
    ⟨Dump.write (T := CaloCluster) ⟨0x1234, 5, 6, 0xFFFF, 8, 9, true, true⟩ ++ [7, 7], false, fun _ => 0⟩).1 =
      ⟨0x1234, 5, 6, 0xFFFF, 8, 9, true, false⟩ ∧
    Dump.write (T := CaloCluster) ⟨0x1234, 5, 6, 0xFFFF, 8, 9, true, true⟩ =
      [0x34, 0x12, 5, 0, 6, 0, 0xFF, 0xFF, 8, 0, 9, 0, 1] := by
  constructor <;> decide +kernel

/-! ### C43 -/

/-- **C43.** Reading an event returns false if fewer than four bytes are left; in all other cases control
reaches the end of the function without a `return`. -/
theorem C43_outcome (x : DumpEvent) (f : CFile) :
    (x.readFromFile f).1 = if 4 ≤ f.bytes.length then none else some false := readFromFile_outcome x f

/-- **C43.** So, as the C++ standard has it, every use of the reader on a file with at least four bytes is
undefined. -/
theorem C43_undefined (genZ0 : BitVec 32) (f : CFile) (h : 4 ≤ f.bytes.length) (he : f.eof = false) :
    (DumpReader.new genZ0 f).nextEvent none = .error .noReturn ∧ (DumpReader.new genZ0 f).seek none = .error .noReturn := by
  have ho := readFromFile_outcome (DumpEvent.new genZ0) f
  rw [if_pos h] at ho
  constructor
  · unfold DumpReader.nextEvent DumpReader.new
    simp only [he, ho, Bool.false_eq_true, if_false]
    rfl
  · apply seek_refill_error
    unfold DumpReader.refill DumpReader.new
    rw [if_pos (by left; rfl)]
    simp only [he, ho, Bool.false_eq_true, if_false]
    rfl

/-- **C43.** At the end of the file it returns false, and goes on doing so. -/
theorem C43_end (fall : Option Bool) (s : DumpReader) (h : s.file.bytes.length < 4) :
    ∃ s', s.nextEvent fall = .ok (false, s') ∧ s'.file.eof = true ∧ s'.nextEvent fall = .ok (false, s') := by
  unfold DumpReader.nextEvent
  by_cases he : s.file.eof = true
  · rw [if_pos he]
    exact ⟨s, rfl, he, by rw [if_pos he]⟩
  · rw [if_neg he]
    have ho := readFromFile_outcome s.event s.file
    rw [if_neg (by omega)] at ho
    obtain ⟨_, _, h3⟩ := readFromFile_end s.event s.file h
    generalize s.event.readFromFile s.file = q at *
    obtain ⟨r, ev, f⟩ := q
    simp only [] at ho h3
    subst ho
    refine ⟨{ s with event := ev, file := f }, rfl, h3, ?_⟩
    rw [if_pos h3]

/-- **C43.** A reader that found nothing has the event of the constructor: zeros and no regions (`genZ0` is not initialised). -/
theorem C43_nothing (fall : Option Bool) (genZ0 : BitVec 32) (junk : Nat → BitVec 32) :
    ∃ s', (DumpReader.new genZ0 ⟨[], false, junk⟩).nextEvent fall = .ok (false, s') ∧ s'.event = ⟨0, 0, 0, 0, genZ0, 0, 0, 0, 0, []⟩ ∧ s'.iregion = 0 := by
  refine ⟨⟨⟨[], true, junk⟩, ⟨0, 0, 0, 0, genZ0, 0, 0, 0, 0, []⟩, 0⟩, ?_, rfl, rfl⟩
  have e : fread1 4 0 ⟨[], false, junk⟩ = (false, 0, ⟨[], true, junk⟩) := by
    unfold fread1
    rw [if_neg (by simp)]
    show (false, ofLeBytes 4 (([] : List Byte) ++ (leBytes 4 0).drop 0), _) = _
    rw [show ofLeBytes 4 (([] : List Byte) ++ (leBytes 4 0).drop 0) = 0 by decide]
  unfold DumpReader.nextEvent DumpReader.new DumpEvent.readFromFile DumpEvent.new
  dsimp only
  rw [e]
  rfl

/-- **C43**, a case: a file of one byte. -/
example : ∃ s', (DumpReader.new 0 ⟨[5], false, fun _ => 0⟩).nextEvent none = .ok (false, s') := by
  obtain ⟨s', h, _⟩ := C43_end none (DumpReader.new 0 ⟨[5], false, fun _ => 0⟩) (by decide)
  exact ⟨s', h⟩

/-! ### C44 -/

/-- **C44.** A region is skipped exactly when its `etaCenter` is, as a `float`, beyond 1.5 in magnitude. -/
theorem C44_barrel_cut (x : BitVec 32) : farEta x = true ↔ beyond x := by
  have hx := x.isLt
  unfold farEta beyond floatMag
  simp only [Bool.and_eq_true, decide_eq_true_eq]
  generalize hn : x.toNat = n at *
  generalize he : n / 2 ^ 23 % 2 ^ 8 = e
  generalize hm : n % 2 ^ 23 = m
  have hmb : m < 2 ^ 23 := by omega
  have heb : e < 256 := by omega
  have hdec : n % 2 ^ 31 = e * 2 ^ 23 + m := by omega
  rw [hdec]
  by_cases h255 : e = 255
  · subst h255
    constructor
    · rintro ⟨_, h⟩; exact Or.inr ⟨rfl, by omega⟩
    · rintro (⟨h, _⟩ | ⟨_, h⟩)
      · omega
      · subst h; decide
  · have hfin : e < 255 := by omega
    have key : (0x3FC00000 < e * 2 ^ 23 + m) ↔ (if e = 0 then m else (2 ^ 23 + m) * 2 ^ (e - 1)) > 3 * 2 ^ 148 := by
      by_cases h0 : e = 0
      · rw [if_pos h0]
        subst h0
        constructor <;> intro h <;> omega
      · rw [if_neg h0]
        rcases Nat.lt_trichotomy e 127 with hl | hl | hl
        · have : (2 ^ 23 + m) * 2 ^ (e - 1) ≤ 2 ^ 24 * 2 ^ 125 :=
            Nat.mul_le_mul (by omega) (Nat.pow_le_pow_right (by decide) (by omega))
          have h2 : (2 : Nat) ^ 24 * 2 ^ 125 = 2 ^ 149 := by rw [← Nat.pow_add]
          constructor
          · intro h; omega
          · intro h; rw [h2] at this; omega
        · subst hl
          have : (2 ^ 23 + m) * 2 ^ (127 - 1) > 3 * 2 ^ 148 ↔ 2 ^ 23 + m > 3 * 2 ^ 22 := by
            have h2 : (3 : Nat) * 2 ^ 148 = 3 * 2 ^ 22 * 2 ^ 126 := by norm_num
            rw [h2]
            constructor
            · intro h; exact Nat.lt_of_mul_lt_mul_right h
            · intro h; exact Nat.mul_lt_mul_of_pos_right h (by positivity)
          rw [this]
          omega
        · have : 2 ^ 23 * 2 ^ 127 ≤ (2 ^ 23 + m) * 2 ^ (e - 1) :=
            Nat.mul_le_mul (by omega) (Nat.pow_le_pow_right (by decide) (by omega))
          have h2 : (2 : Nat) ^ 23 * 2 ^ 127 = 2 ^ 150 := by rw [← Nat.pow_add]
          constructor
          · intro _; rw [h2] at this; omega
          · intro _; omega
    rw [key]
    constructor
    · rintro ⟨h, _⟩; exact Or.inl ⟨hfin, h⟩
    · rintro (⟨_, h⟩ | ⟨h, _⟩)
      · exact ⟨h, by omega⟩
      · omega

/-- **C44.** On a file of events with non-zero number and at least one region each (and if the missing `return`
yields true), `n` successive calls of `nextRegion`, for any `n`, deliver the barrel regions of the events in
order, each converted and padded, with the vertex of its event, and after the last one return false. -/
theorem C44_regions {NT NC NE NM : Nat} (zpv : BitVec 32 → Z0) (evs : List DumpEvent)
    (hev : ∀ e ∈ evs, eventFits e ∧ e.event ≠ 0 ∧ e.regions ≠ []) (junk : Nat → BitVec 32) (genZ0 : BitVec 32)
    (n : Nat) (inp : PFInputs NT NC NE NM) (z : Z0) :
    calls (some true) zpv n (DumpReader.new genZ0 ⟨evs.flatMap eventBytes, false, junk⟩) inp z =
      .ok ((List.range n).map fun k => ((barrel evs)[k]?).map fun x => (regionInputs NT NC NE NM x.1, zpv x.2)) :=
  calls_ok zpv n _ inp z _ (Or.inl ⟨evs, hev, rfl, rfl, Or.inl ⟨rfl, rfl⟩⟩)

/-- **C44**, why events need a region: the reader indexes an empty vector otherwise. -/
theorem C44_no_region_oob (genZ0 : BitVec 32) (e : DumpEvent) (he : e.regions = []) (rest : List Byte) (junk : Nat → BitVec 32) :
    (DumpReader.new genZ0 ⟨eventBytes e ++ rest, false, junk⟩).seek (some true) = .error .oob := by
  obtain ⟨j, hr⟩ := readFromFile_event (DumpEvent.new genZ0) e ⟨by rw [he]; decide, by rw [he]; simp⟩ rest false junk
  have h : (DumpReader.new genZ0 ⟨eventBytes e ++ rest, false, junk⟩).refill (some true) =
      .ok (true, ⟨⟨rest, false, j⟩, storedEvent e, 0⟩) := by
    unfold DumpReader.refill DumpReader.new
    rw [if_pos (by left; rfl)]
    simp only [hr, Bool.false_eq_true, if_false]
    rfl
  rw [seek_refill_true h]
  have : (storedEvent e).regions = [] := by show e.regions.map keepRegion = []; rw [he]; rfl
  simp only [this]
  rfl

/-- **C44**, why event numbers must not be zero: after one region of such an event the reader goes to the next
event, so its other regions are never delivered. -/
theorem C44_event_zero_skips {NT NC NE NM : Nat} (zpv : BitVec 32 → Z0) (genZ0 : BitVec 32) (e : DumpEvent) (he : eventFits e)
    (hz : e.event = 0) (r : InputRegion) (rs : List InputRegion) (hr : e.regions = r :: rs) (hb : farEta r.etaCenter = false)
    (junk : Nat → BitVec 32) (inp : PFInputs NT NC NE NM) (z : Z0) :
    calls (some true) zpv 2 (DumpReader.new genZ0 ⟨eventBytes e, false, junk⟩) inp z =
      .ok [some (regionInputs NT NC NE NM (keepRegion r), zpv e.z0), none] := by
  obtain ⟨j, hread⟩ := readFromFile_event (DumpEvent.new genZ0) e he [] false junk
  rw [List.append_nil] at hread
  have h : (DumpReader.new genZ0 ⟨eventBytes e, false, junk⟩).refill (some true) =
      .ok (true, ⟨⟨[], false, j⟩, storedEvent e, 0⟩) := by
    unfold DumpReader.refill DumpReader.new
    rw [if_pos (by left; rfl)]
    simp only [hread, Bool.false_eq_true, if_false]
    rfl
  have hreg : (storedEvent e).regions = keepRegion r :: rs.map keepRegion := by
    show e.regions.map keepRegion = _; rw [hr]; rfl
  have hs := seek_refill_true h
  simp only [hreg, List.getElem?_cons_zero] at hs
  rw [if_neg (by rw [show (keepRegion r).etaCenter = r.etaCenter from rfl, hb]; simp)] at hs
  have hp : Pend ⟨⟨[], false, j⟩, storedEvent e, 0 + 1⟩ [] :=
    Or.inl ⟨[], by simp, rfl, rfl, Or.inl ⟨hz, rfl⟩⟩
  have hc := calls_ok (NT := NT) (NC := NC) (NE := NE) (NM := NM) zpv 1 _ (regionInputs NT NC NE NM (keepRegion r)) (zpv e.z0) [] hp
  unfold calls DumpReader.nextRegion
  rw [hs]
  simp only [Run.ok_bind, Bool.not_true, Bool.false_eq_true, if_false, hreg, List.getElem?_cons_zero, fw_many_eq]
  have hc' : calls (some true) zpv 1 ⟨⟨[], false, j⟩, storedEvent e, 0 + 1⟩ (regionInputs NT NC NE NM (keepRegion r)) (zpv (storedEvent e).z0) =
    .ok [none] := hc
  unfold regionInputs at hc'
  rw [hc', Run.ok_bind]
  rfl

/-- **C44**, and if the missing `return` yields false nothing is ever delivered. -/
theorem C44_fall_false (genZ0 : BitVec 32) (f : CFile) :
    ∃ s', (DumpReader.new genZ0 f).seek (some false) = .ok (false, s') := by
  by_cases he : f.eof = true
  · refine ⟨_, seek_refill_false (s' := DumpReader.new genZ0 f) ?_⟩
    unfold DumpReader.refill
    rw [if_pos (by left; rfl), if_pos (by exact he)]
  · have ho := readFromFile_outcome (DumpEvent.new genZ0) f
    have hb : fellOff (some false) ((DumpEvent.new genZ0).readFromFile f).1 = .ok false := by
      rw [ho]; split <;> rfl
    refine ⟨⟨((DumpEvent.new genZ0).readFromFile f).2.2, ((DumpEvent.new genZ0).readFromFile f).2.1, 0⟩,
      seek_refill_false ?_⟩
    unfold DumpReader.refill DumpReader.new
    rw [if_pos (by left; rfl), if_neg he]
    simp only [hb]
    rfl

/-- A region with one muon, at `etaCenter` of the given pattern. -/
def dumpRegion (eta : BitVec 32) (pt : BitVec 16) : InputRegion :=
  ⟨eta, 0, 0, 0, 0, 0, 0, [], [], [], [⟨pt, 1, 2, 3, true⟩]⟩

/-- An event with two barrel regions (0 and 1.5) and an endcap one (2.0). -/
def dumpEvent (n : BitVec 64) : DumpEvent :=
  ⟨1, 2, n, 0, 0, 0, 0, 0, 0, [dumpRegion 0 10, dumpRegion 0x40000000#32 20, dumpRegion 0x3FC00000#32 30]⟩

theorem dumpEvent_fits (n : BitVec 64) : eventFits (dumpEvent n) := by
  refine ⟨by show 3 < 2 ^ 32; decide, fun r hr => ?_⟩
  simp only [dumpEvent, List.mem_cons, List.not_mem_nil, or_false] at hr
  rcases hr with rfl | rfl | rfl <;> exact ⟨by simp [dumpRegion], by simp [dumpRegion], by simp [dumpRegion], by simp [dumpRegion]⟩

/-- **C44**, a case: two events of three regions; the five calls give the four barrel regions, then nothing. -/
example : (calls (NT := 1) (NC := 1) (NE := 1) (NM := 1) (some true) (fun _ => 3) 5
    (DumpReader.new 0 ⟨[dumpEvent 7, dumpEvent 8].flatMap eventBytes, false, fun _ => 0⟩)
    ⟨fun _ => EmCaloObj.clear, fun _ => HadCaloObj.clear, fun _ => TkObj.clear, fun _ => MuObj.clear⟩ 0).map
      (fun l => l.map fun o => o.map fun p => ((p.1.mu 0).hwPt, p.2)) =
    .ok [some (10, 3), some (30, 3), some (10, 3), some (30, 3), none] := by
  rw [C44_regions _ _ (fun e he => by
    simp only [List.mem_cons, List.not_mem_nil, or_false] at he
    rcases he with rfl | rfl <;> exact ⟨dumpEvent_fits _, by simp [dumpEvent], by simp [dumpEvent]⟩)]
  decide +kernel

/-! ### C45 -/

/-- **C45.** `convert<NMAX>` writes the first `NMAX` objects, converted, in order, and nulls the other slots,
whatever was in the array. -/
theorem C45_truncate_pad {NMAX : Nat} {A B : Type} (conv : A → B) (clear : B) (inn : List A) (out : Arr NMAX B) (i : Fin NMAX) :
    (∀ h : i.val < inn.length, fw_many conv clear inn out i = conv inn[i.val]) ∧
    (inn.length ≤ i.val → fw_many conv clear inn out i = clear) := by
  rw [fw_many_eq]
  unfold padded
  exact ⟨fun h => by rw [List.getElem?_eq_getElem h], fun h => by rw [List.getElem?_eq_none h]⟩

/-- **C45.** Values in range are preserved, and the quality of a track is that of its stubs and chi2. -/
theorem C45_track (t : PropagatedTrack) :
    (fw_track t).hwPt.toInt = t.hwPt.toInt ∧ (fw_track t).hwPtErr.toInt = t.hwCaloPtErr.toInt ∧
    (-512 ≤ t.hwEta.toInt ∧ t.hwEta.toInt < 512 → (fw_track t).hwEta.toInt = t.hwEta.toInt) ∧
    (-512 ≤ t.hwPhi.toInt ∧ t.hwPhi.toInt < 512 → (fw_track t).hwPhi.toInt = t.hwPhi.toInt) ∧
    (-512 ≤ t.hwZ0.toInt ∧ t.hwZ0.toInt < 512 → (fw_track t).hwZ0.toInt = t.hwZ0.toInt) ∧
    ((fw_track t).hwTightQuality = true ↔ 6 ≤ t.hwStubs.toNat ∧ t.hwChi2.toNat < 500) := by
  refine ⟨reg16_toInt (pt_range _).1 (pt_range _).2, reg16_toInt (pt_range _).1 (pt_range _).2,
    fun h => reg10_toInt h.1 h.2, fun h => reg10_toInt h.1 h.2, fun h => reg10_toInt h.1 h.2, ?_⟩
  unfold fw_track
  simp

/-- **C45.** The same for clusters. -/
theorem C45_cluster (c : CaloCluster) :
    (fw_had c).hwPt.toInt = c.hwPt.toInt ∧ (fw_had c).hwEmPt.toInt = c.hwEmPt.toInt ∧ (fw_had c).hwIsEM = c.isEM ∧
    (fw_em c).hwPt.toInt = c.hwPt.toInt ∧ (fw_em c).hwPtErr.toInt = c.hwPtErr.toInt ∧
    (-512 ≤ c.hwEta.toInt ∧ c.hwEta.toInt < 512 → (fw_had c).hwEta.toInt = c.hwEta.toInt ∧ (fw_em c).hwEta.toInt = c.hwEta.toInt) ∧
    (-512 ≤ c.hwPhi.toInt ∧ c.hwPhi.toInt < 512 → (fw_had c).hwPhi.toInt = c.hwPhi.toInt ∧ (fw_em c).hwPhi.toInt = c.hwPhi.toInt) :=
  ⟨reg16_toInt (pt_range _).1 (pt_range _).2, reg16_toInt (pt_range _).1 (pt_range _).2, rfl,
    reg16_toInt (pt_range _).1 (pt_range _).2, reg16_toInt (pt_range _).1 (pt_range _).2,
    fun h => ⟨reg10_toInt h.1 h.2, reg10_toInt h.1 h.2⟩, fun h => ⟨reg10_toInt h.1 h.2, reg10_toInt h.1 h.2⟩⟩

/-- **C45.** And muons, whose pt error is zero. -/
theorem C45_muon (m : Muon) :
    (fw_mu m).hwPt.toInt = m.hwPt.toInt ∧ (fw_mu m).hwPtErr = 0 ∧
    (-512 ≤ m.hwEta.toInt ∧ m.hwEta.toInt < 512 → (fw_mu m).hwEta.toInt = m.hwEta.toInt) ∧
    (-512 ≤ m.hwPhi.toInt ∧ m.hwPhi.toInt < 512 → (fw_mu m).hwPhi.toInt = m.hwPhi.toInt) :=
  ⟨reg16_toInt (pt_range _).1 (pt_range _).2, rfl, fun h => reg10_toInt h.1 h.2, fun h => reg10_toInt h.1 h.2⟩

/-- **C45**, out of range: a track at eta 600 (2.6 in physical units) appears at eta -424. -/
example : (fw_track { (Dump.zero : PropagatedTrack) with hwEta := 600 }).hwEta.toInt = -424 := by decide +kernel

/-! ### C46 -/

/-- **C46.** Neutral particles: one particle for each slot of positive pt, in slot order, after those already in
the vector. -/
theorem C46_neutrals {NMAX : Nat} (junk : Fin NMAX → PFParticle) (inn : Arr NMAX PFNeutralObj) (out : List PFParticle) :
    dpf_neutrals junk inn out = out ++
      ((List.finRange NMAX).filter fun i => decide ((inn i).hwPt.toInt > 0)).map fun i => dpf_neutral (junk i) (inn i) := by
  unfold dpf_neutrals loop
  generalize List.finRange NMAX = l
  induction l generalizing out with
  | nil => simp
  | cons i l ih =>
    rw [List.foldl_cons, ih, List.filter_cons]
    beta_reduce
    by_cases h : (inn i).hwPt.toInt > 0
    · rw [if_pos h, if_pos (decide_eq_true h), List.map_cons, List.append_assoc]; rfl
    · rw [if_neg h, if_neg (by simpa using h)]

/-- **C46.** Charged particles: if every slot of positive pt has a track, one particle for each, in order, with
that track; otherwise the assertion fails. -/
theorem C46_chargeds {NMAX : Nat} (junk : Fin NMAX → PFParticle) (inn : Arr NMAX PFChargedObj)
    (srctracks : List PropagatedTrack) (out : List PFParticle) :
    ((∀ i, (inn i).hwPt.toInt > 0 → i.val < srctracks.length) →
      dpf_chargeds junk inn srctracks out = .ok (out ++
        ((List.finRange NMAX).filter fun i => decide ((inn i).hwPt.toInt > 0)).map fun i =>
          dpf_charged (junk i) (inn i) (srctracks.getD i.val Dump.zero))) ∧
    ((∃ i, (inn i).hwPt.toInt > 0 ∧ srctracks.length ≤ i.val) →
      dpf_chargeds junk inn srctracks out = .error .assertFail) := by
  unfold dpf_chargeds loopM
  have key : ∀ (l : List (Fin NMAX)) (out : List PFParticle),
      ((∀ i ∈ l, (inn i).hwPt.toInt > 0 → i.val < srctracks.length) →
        l.foldlM (fun s i => if (inn i).hwPt.toInt > 0 then do
            cassert (decide (i.val < srctracks.length))
            match srctracks[i.val]? with
            | some t => .ok (s ++ [dpf_charged (junk i) (inn i) t])
            | none => .error .oob
          else .ok s) out = (.ok (out ++ (l.filter fun i => decide ((inn i).hwPt.toInt > 0)).map fun i =>
            dpf_charged (junk i) (inn i) (srctracks.getD i.val Dump.zero)) : Run (List PFParticle))) ∧
      ((∃ i ∈ l, (inn i).hwPt.toInt > 0 ∧ srctracks.length ≤ i.val) →
        l.foldlM (fun s i => if (inn i).hwPt.toInt > 0 then do
            cassert (decide (i.val < srctracks.length))
            match srctracks[i.val]? with
            | some t => .ok (s ++ [dpf_charged (junk i) (inn i) t])
            | none => .error .oob
          else .ok s) out = (.error .assertFail : Run (List PFParticle))) := by
    intro l
    induction l with
    | nil => intro out; exact ⟨fun _ => by simp; rfl, fun ⟨i, hi, _⟩ => by simp at hi⟩
    | cons i l ih =>
      intro out
      by_cases h : (inn i).hwPt.toInt > 0
      · by_cases hl : i.val < srctracks.length
        · have hstep : (if (inn i).hwPt.toInt > 0 then do
              cassert (decide (i.val < srctracks.length))
              match srctracks[i.val]? with
              | some t => .ok (out ++ [dpf_charged (junk i) (inn i) t])
              | none => .error .oob
            else .ok out) = (.ok (out ++ [dpf_charged (junk i) (inn i) (srctracks.getD i.val Dump.zero)]) : Run (List PFParticle)) := by
            rw [if_pos h]
            unfold cassert
            rw [if_pos (decide_eq_true hl), Run.ok_bind, List.getD_eq_getElem?_getD, List.getElem?_eq_getElem hl]
            rfl
          rw [List.foldlM_cons, hstep, Run.ok_bind]
          obtain ⟨i1, i2⟩ := ih (out ++ [dpf_charged (junk i) (inn i) (srctracks.getD i.val Dump.zero)])
          refine ⟨fun hall => ?_, fun hex => i2 ?_⟩
          · rw [i1 (fun j hj => hall j (List.mem_cons_of_mem _ hj)), List.filter_cons, if_pos (decide_eq_true h),
              List.map_cons, List.append_assoc]
            rfl
          · obtain ⟨j, hj, h2, h3⟩ := hex
            rcases List.mem_cons.mp hj with e | e
            · subst e; omega
            · exact ⟨j, e, h2, h3⟩
        · refine ⟨fun hall => absurd (hall i List.mem_cons_self h) hl, fun _ => ?_⟩
          rw [List.foldlM_cons, if_pos h]
          unfold cassert
          rw [if_neg (by simpa using hl)]
          rfl
      · rw [List.foldlM_cons, if_neg h, Run.ok_bind, List.filter_cons, if_neg (by simpa using h)]
        obtain ⟨i1, i2⟩ := ih out
        refine ⟨fun hall => i1 (fun j hj => hall j (List.mem_cons_of_mem _ hj)), fun hex => i2 ?_⟩
        obtain ⟨j, hj, h2, h3⟩ := hex
        rcases List.mem_cons.mp hj with e | e
        · subst e; exact absurd h2 h
        · exact ⟨j, e, h2, h3⟩
  obtain ⟨k1, k2⟩ := key (List.finRange NMAX) out
  exact ⟨fun h => k1 (fun i _ => h i), fun ⟨i, h1, h2⟩ => k2 ⟨i, List.mem_finRange i, h1, h2⟩⟩

/-- **C46.** The fields of a particle: pt and position of the PF object, id code 0 (charged hadron), 1 (electron),
4 (muon), 2 (neutral hadron), 3 (photon), whatever the uninitialised local held. -/
theorem C46_fields (pf : PFParticle) (c : PFChargedObj) (n : PFNeutralObj) (t : PropagatedTrack) :
    ((dpf_charged pf c t).hwPt.toInt = c.hwPt.toInt ∧ (dpf_charged pf c t).hwEta.toInt = c.hwEta.toInt ∧
      (dpf_charged pf c t).hwPhi.toInt = c.hwPhi.toInt ∧ (dpf_charged pf c t).track = t ∧
      ((dpf_charged pf c t).hwId = 1 ↔ c.hwId = 3) ∧ ((dpf_charged pf c t).hwId = 4 ↔ c.hwId = 4) ∧
      ((dpf_charged pf c t).hwId = 0 ↔ c.hwId ≠ 3 ∧ c.hwId ≠ 4) ∧
      (dpf_charged pf c t).hwVtxEta.toInt = c.hwEta.toInt ∧ (dpf_charged pf c t).hwVtxPhi.toInt = c.hwPhi.toInt ∧
      (dpf_charged pf c t).cluster.hwPt = 0 ∧ (dpf_charged pf c t).hwStatus = 0) ∧
    ((dpf_neutral pf n).hwPt.toInt = n.hwPt.toInt ∧ (dpf_neutral pf n).hwEta.toInt = n.hwEta.toInt ∧
      (dpf_neutral pf n).hwPhi.toInt = n.hwPhi.toInt ∧ (dpf_neutral pf n).cluster.hwPt.toInt = n.hwPt.toInt ∧
      ((dpf_neutral pf n).hwId = 3 ↔ n.hwId = 2) ∧ ((dpf_neutral pf n).hwId = 2 ↔ n.hwId ≠ 2) ∧
      (dpf_neutral pf n).hwVtxEta.toInt = n.hwEta.toInt ∧ (dpf_neutral pf n).hwVtxPhi.toInt = n.hwPhi.toInt ∧
      (dpf_neutral pf n).track.hwPt = 0 ∧ (dpf_neutral pf n).hwStatus = 0) := by
  have r16 : ∀ x : BitVec 16, (reg 16 x.toInt).toInt = x.toInt := fun x => reg16_toInt (pt_range _).1 (pt_range _).2
  have r10 : ∀ x : BitVec 10, (reg 16 x.toInt).toInt = x.toInt := fun x => by
    have h1 := BitVec.le_toInt x
    have h2 := @BitVec.toInt_lt 10 x
    exact reg16_toInt (by omega) (by omega)
  refine ⟨⟨r16 _, r10 _, r10 _, rfl, ?_, ?_, ?_, r10 _, r10 _, rfl, rfl⟩, r16 _, r10 _, r10 _, r16 _, ?_, ?_, r10 _, r10 _, rfl, rfl⟩
  all_goals
    first | simp only [dpf_charged] | simp only [dpf_neutral]
  · generalize c.hwId = x; revert x; decide
  · generalize c.hwId = x; revert x; decide
  · generalize c.hwId = x; revert x; decide
  · generalize n.hwId = x; revert x; decide
  · generalize n.hwId = x; revert x; decide

/-- **C46.** When the charged list comes from the PF algorithm run on a region, converting it with the track list
of that region (longer or shorter than the array) never fails, and the particle of slot `i` has the pt of track `i`. -/
theorem C46_after_pf {NT NC NE NM NS : Nat} (r : InputRegion) (old : PFOutputs NT NE NS NM) (mem : PFScratch NC NS)
    (out : PFOutputs NT NE NS NM) (hrun : pfalgo3_full (regionInputs NT NC NE NM r) old mem = .ok out)
    (junk : Fin NT → PFParticle) (parts : List PFParticle) :
    dpf_chargeds junk out.outch r.track parts = .ok (parts ++
        ((List.finRange NT).filter fun i => decide ((out.outch i).hwPt.toInt > 0)).map fun i =>
          dpf_charged (junk i) (out.outch i) (r.track.getD i.val Dump.zero)) ∧
    ∀ i, (out.outch i).hwPt.toInt > 0 →
      (dpf_charged (junk i) (out.outch i) (r.track.getD i.val Dump.zero)).hwPt = (r.track.getD i.val Dump.zero).hwPt := by
  have hcopy : ∀ i, (out.outch i).hwPt.toInt > 0 → (out.outch i).hwPt = (padded NT fw_track TkObj.clear r.track i).hwPt := by
    intro i hi
    rcases C03_charged_copy _ old mem out hrun i with h | h
    · rw [h] at hi; exact absurd hi (by decide)
    · exact h.1
  have hlen : ∀ i, (out.outch i).hwPt.toInt > 0 → i.val < r.track.length := by
    intro i hi
    by_contra hc
    have := hcopy i hi
    unfold padded at this
    rw [List.getElem?_eq_none (by omega)] at this
    rw [this] at hi
    exact absurd hi (by decide)
  refine ⟨(C46_chargeds junk out.outch r.track parts).1 hlen, fun i hi => ?_⟩
  have h1 := hcopy i hi
  have h2 := hlen i hi
  unfold padded at h1
  rw [List.getElem?_eq_getElem h2] at h1
  rw [List.getD_eq_getElem?_getD, List.getElem?_eq_getElem h2]
  show reg 16 (out.outch i).hwPt.toInt = r.track[i.val].hwPt
  rw [h1]
  show reg 16 (reg 16 (r.track[i.val]).hwPt.toInt).toInt = _
  simp [reg]

/-- **C46**, a case: slots 0 and 2 positive, three tracks; and with two tracks the assertion fails. -/
example : (dpf_chargeds (NMAX := 3) (fun _ => ⟨0, 0, 0, 9, 0, 0, 9, Dump.zero, Dump.zero, true, 9, 9⟩)
      (fun i => ⟨if i.val = 1 then 0 else 20, 3, 4, 3, 0⟩) [Dump.zero, Dump.zero, Dump.zero] []).map
        (fun l => l.map fun p => (p.hwPt, p.hwId)) = .ok [(20, 1), (20, 1)] ∧
    (dpf_chargeds (NMAX := 3) (fun _ => ⟨0, 0, 0, 9, 0, 0, 9, Dump.zero, Dump.zero, true, 9, 9⟩)
      (fun i => ⟨if i.val = 1 then 0 else 20, 3, 4, 3, 0⟩) [Dump.zero, Dump.zero] []).map
        (fun l => l.map fun p => (p.hwPt, p.hwId)) = .error .assertFail := by
  constructor <;> decide +kernel

end Verif
