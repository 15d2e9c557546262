import Verif.Model.VertexTest
import Verif.Spec.Vertex
import Verif.Spec.RegionizerFiles
/-! # What the vertex test bench should compute and write -/
namespace Verif.Spec
open scoped BigOperators

/-- The tracks of sector `k` of the dump go alternately to sectors `2 k` and `2 k + 1`; unused places are empty. -/
def TracksOf (e : DumpEvent) (trk : BhvTracks) : Prop :=
  ∀ (s : Fin 24) (i : Fin 18) r, e.regions[s.val / 2]? = some r →
    trk s i = match r.track[2 * i.val + s.val % 2]? with
      | some x => fw_track x
      | none => TkObj.clear

/-- No negative pt among the tracks the bench takes. -/
def PtOK (e : DumpEvent) : Prop := ∀ r ∈ e.regions, ∀ x ∈ r.track.take 36, 0 ≤ x.hwPt.toInt

/-- Content of bin `b` of sector `s`. -/
def sectorBin (trk : BhvTracks) (s : Fin 24) (b : Nat) : Int := binContent (trackEntries (trk s)) b

/-- The vertex: the centre of the first bin with the largest total, and that total. -/
def IsVertex (trk : BhvTracks) (bin z sum : Int) : Prop :=
  ∃ b : Fin 72, bin = b.val ∧ z = 8 * (b.val : Int) - 284 ∧ sum = ∑ s, sectorBin trk s b ∧
    FirstMax (fun b : Fin 72 => ∑ s, sectorBin trk s b) b

/-- Tracks of negative pt do not count. -/
def positive (trk : BhvTracks) : BhvTracks := fun s i =>
  if (trk s i).hwPt.toInt < 0 then { trk s i with hwPt := 0 } else trk s i

/-- A bin on a link: its number and a valid bit. -/
def binWord (z0 : Int) : Nat :=
  match zBin z0 with
  | some b => b + 2 ^ 28
  | none => 0

/-- A 32-bit two's complement word. -/
def word32 (x : Int) : Nat := (x % 2 ^ 32).toNat

/-- Word `j` of the debug input frame of clock `ic`. -/
def inDebugWord (trk : BhvTracks) (ic : Fin 36) (j : Nat) : Nat :=
  if h : j < 48 then
    let t := trk ⟨j / 2, by show _ < 24; omega⟩ ⟨ic.val / 2, by show _ < 18; omega⟩
    if j % 2 = 0 then binWord t.hwZ0.toInt else word32 (t.hwPt.toInt / 2)
  else 0

/-- Word `j` of the output frame of clock `ic`. -/
def outWord (bin sum : Int) (ic j : Nat) : Nat :=
  if ic ≠ 0 then 0 else if j = 0 then 1 else if j = 1 then word32 sum else if j = 2 then word32 bin else 0

/-- Word `j` of the debug output frame of clock `ic`. -/
def outDebugWord (test : Nat) (trk : BhvTracks) (ic j : Nat) : Nat :=
  if h : 3 ≤ j ∧ j < 51 then
    let s : Fin 24 := ⟨(j - 3) / 2, by omega⟩
    if j % 2 = 1 then (if ic = 0 then 2 ^ 16 else 0) + 2 * ic + (test % 2) * 2 ^ 24
    else word32 (sectorBin trk s (2 * ic + 1) * 2 ^ 16 + sectorBin trk s (2 * ic))
  else 0

/-- Line `k` for the tracks of sector 0: frame number, a flag, bin, half the pt; each track twice. -/
def inLine (frame : Nat) (trk : BhvTracks) (k : Fin 36) : List Int :=
  let t := trk 0 ⟨k.val / 2, by show _ < 18; omega⟩
  [(frame : Int) + (k.val : Int), 1 - (k.val : Int) % 2, (((zBin t.hwZ0.toInt).getD 0 : Nat) : Int), t.hwPt.toInt / 2]

/-- Line `k` for the histogram of sector 0: frame number, bin, contents of the bin and of the next. -/
def outLine (frame : Nat) (trk : BhvTracks) (k : Fin 36) : List Int :=
  [(frame : Int) + (k.val : Int), 2 * (k.val : Int), sectorBin trk 0 (2 * k.val), sectorBin trk 0 (2 * k.val + 1)]

/-- What test number `test` computes from event `e` and writes. -/
structure TestOf (toZ0 : BitVec 32 → Z0) (test : Nat) (e : DumpEvent) (t : BhvTest) : Prop where
  tracks : TracksOf e t.track_in
  pv_gen : t.pv_gen = toZ0 e.genZ0
  pv_cmssw : t.pv_cmssw = toZ0 e.z0
  ref : IsVertex (positive t.track_in) t.pvbin_ref.toNat t.pv_ref.toInt t.ptsum_ref
  hw : PtOK e → IsVertex t.track_in t.pvbin_hw.toNat t.pv_hw.toInt t.ptsum_hw.toInt
  hw_range : t.pvbin_hw.toNat < 72 ∧ t.pv_hw.toInt = 8 * (t.pvbin_hw.toNat : Int) - 284
  inLines : t.inLines.length = 36 ∧ ∀ k : Fin 36, t.inLines[k.val]? = some
    (inLine (36 * (test - 1)) t.track_in k)
  outLines : PtOK e → t.outLines.length = 36 ∧ ∀ k : Fin 36, t.outLines[k.val]? = some
    (outLine (36 * (test - 1)) t.track_in k)
  inFrames : t.inFrames.length = 18 ∧ ∀ (ic : Fin 18), ∃ w, t.inFrames[ic.val]? = some w ∧ ∀ c (hc : c < 72),
    ((w ⟨2 * c, by omega⟩).toNat, (w ⟨2 * c + 1, by omega⟩).toNat) = if h : c < 24 then tkWords (t.track_in ⟨c, h⟩ ic) else (0, 0)
  inDebug : t.inDebug.length = 36 ∧ ∀ (ic : Fin 36), ∃ w, t.inDebug[ic.val]? = some w ∧ ∀ j : Fin 144,
    (w j).toNat = inDebugWord t.track_in ic j.val
  outFrames : t.outFrames.length = 36 ∧ ∀ (ic : Fin 36), ∃ w, t.outFrames[ic.val]? = some w ∧ ∀ j : Fin 144,
    (w j).toNat = outWord t.pvbin_hw.toNat t.ptsum_hw.toInt ic.val j.val
  outDebug : t.outDebug.length = 36 ∧ (PtOK e → ∀ (ic : Fin 36), ∃ w, t.outDebug[ic.val]? = some w ∧ ∀ j : Fin 144,
    (w j).toNat = outDebugWord test t.track_in ic.val j.val)

/-- Two positions at most half a centimetre apart. -/
def near (a b : Z0) : Bool := decide (-10 ≤ a.toInt - b.toInt ∧ a.toInt - b.toInt ≤ 10)

/-- Firmware and reference disagree. -/
def mismatch (t : BhvTest) : Bool := decide (t.pv_ref.toInt ≠ t.pv_hw.toInt ∨ t.ptsum_hw.toInt ≠ t.ptsum_ref)

/-- The counters after some tests. -/
def statsOf (ts : List BhvTest) : BhvStats where
  ngood := ts.countP fun t => near t.pv_ref t.pv_gen
  ntot := ts.length
  ncmssw_good := ts.countP fun t => near t.pv_gen t.pv_cmssw
  nagree := ts.countP fun t => near t.pv_ref t.pv_cmssw
  nerr := ts.countP mismatch
  resol := ((ts.filter fun t => near t.pv_ref t.pv_gen).map fun t => (t.pv_gen.toInt - t.pv_ref.toInt) ^ 2).sum
  cmssw_resol := ((ts.filter fun t => near t.pv_gen t.pv_cmssw).map fun t => (t.pv_gen.toInt - t.pv_cmssw.toInt) ^ 2).sum
  test_in_frame := 36 * ts.length
  test_out_frame := 36 * ts.length

end Verif.Spec
