import Verif.Model.RegionizerTest
import Verif.Model.Encoding
import Verif.Model.Serializer
/-!
# The files written by regionizer/regionizer_test.cpp

`dump_in.txt` and `dump_out.txt` are lists of lines, a line the list of the numbers printed on it (`dump_o` prints the
fields of an object, `dump_z` those of a cleared one); their text is in `Verif.Model.Text`.  The MP7 pattern files are those of the serializer, fed with
one event per two clocks.
-/
namespace Verif
variable {sz : RegSizes} {NC NE NT NM : Nat}

/-- `N_CLOCKS` — regionizer/firmware/regionizer.h:8 -/
def N_CLOCKS : Nat := 36

/-- What `dump_o` prints — regionizer/regionizer_test.cpp:18-21 -/
def hadFields (o : HadCaloObj) : List Int :=
  [o.hwPt.toInt, o.hwEta.toInt, o.hwPhi.toInt, o.hwEmPt.toInt, if o.hwIsEM then 1 else 0]
/-- regionizer/regionizer_test.cpp:25-28 -/
def emFields (o : EmCaloObj) : List Int := [o.hwPt.toInt, o.hwEta.toInt, o.hwPhi.toInt, o.hwPtErr.toInt]
/-- regionizer/regionizer_test.cpp:33-36 (`hwTightQuality` is not printed) -/
def tkFields (o : TkObj) : List Int :=
  [o.hwPt.toInt, o.hwEta.toInt, o.hwPhi.toInt, o.hwPtErr.toInt, o.hwZ0.toInt]
/-- regionizer/regionizer_test.cpp:40-43 -/
def muFields (o : MuObj) : List Int := [o.hwPt.toInt, o.hwEta.toInt, o.hwPhi.toInt, o.hwPtErr.toInt]

/-- `dump_o(f, a[i])` if `i` is below the limit and `send`, else `dump_z` — the pattern of lines 160-161 etc. -/
def dumpObj {N : Nat} {T A : Type} (fields : T → List A) (clear : T) (a : Arr N T) (i limit : Nat) (send : Bool) :
    Run (List A) :=
  if i < limit ∧ send = true then do
    let o ← a.read i
    .ok (fields o)
  else .ok (fields clear)

/-- Concatenation of what the iterations of a loop print. -/
def printLoop {n : Nat} {A : Type} (f : Fin n → Run (List A)) : Run (List A) :=
  loopM (fun i out => do
    let x ← f i
    .ok (out ++ x)) []

/-- One line of `dump_in.txt` — regionizer/regionizer_test.cpp:155-180; `frame` is `frame_in` after the increment. -/
def dumpInLine (frame test : Int) (d : RegRecord sz NC NE NT NM) (ic : Fin N_CLOCKS) : Run (List Int) := do
  let iobj := ic.val / 2
  let send := ic.val % 2 == 0
  let calo ← printLoop fun is : Fin N_IN_SECTORS => dumpObj hadFields HadCaloObj.clear (d.inp.calo is) iobj sz.calo send
  let em ← printLoop fun is : Fin N_IN_SECTORS => dumpObj emFields EmCaloObj.clear (d.inp.em is) iobj sz.em send
  let iobj := ic.val
  let track ← printLoop fun is : Fin N_IN_SECTORS => do
    let x ← dumpObj tkFields TkObj.clear (d.inp.track is) (iobj + 0) (sz.track / 2) send
    let y ← dumpObj tkFields TkObj.clear (d.inp.track is) (iobj + 1) (sz.track / 2) send
    .ok (x ++ y)
  let iobj := ic.val / 2
  let mu ← printLoop fun is : Fin N_MUON_SECTORS => dumpObj muFields MuObj.clear (d.mu_in is) iobj NM send
  .ok ([frame, test, (ic.val / 2 : Nat)] ++ calo ++ em ++ track ++ mu)

/-- One object of a line of `dump_out.txt` — the pattern of lines 224-225 etc. -/
def dumpSlot {K N : Nat} {T A : Type} (fields : T → List A) (clear : T) (regions : Arr K (Arr N T)) (ic : Nat) (i : Fin N) :
    Run (List A) :=
  if ic / 2 < N_OUT_REGIONS then do
    let r ← regions.read (ic / 2)
    .ok (fields (r i))
  else .ok (fields clear)

/-- One line of `dump_out.txt` — regionizer/regionizer_test.cpp:221-242 -/
def dumpOutLine (frame : Int) (d : RegRecord sz NC NE NT NM) (ic : Fin N_CLOCKS) : Run (List Int) := do
  let calo ← printLoop fun i : Fin NC => dumpSlot hadFields HadCaloObj.clear d.calo ic i
  let em ← printLoop fun i : Fin NE => dumpSlot emFields EmCaloObj.clear d.em ic i
  let track ← printLoop fun i : Fin NT => dumpSlot tkFields TkObj.clear d.track ic i
  let mu ← printLoop fun i : Fin NM => dumpSlot muFields MuObj.clear d.mu ic i
  .ok ([frame] ++ calo ++ em ++ track ++ mu ++ [1])

/-- `calo_in_transposed`, `emcalo_in_transposed`, `mu_in_transposed` — regionizer/regionizer_test.cpp:182-184, 187-189;
`old` is what the local array held. -/
def transposeIn {K N : Nat} {T : Type} (src : Arr K (Arr N T)) (old : Arr N (Arr K T)) : Arr N (Arr K T) :=
  loop (fun (is : Fin K) (a : Arr N (Arr K T)) =>
    loop (fun (io : Fin N) (a : Arr N (Arr K T)) => a.set io ((a io).set is (src is io))) a) old

/-- `track_in_transposed` — regionizer/regionizer_test.cpp:185 -/
def transposeTracks {N : Nat} (src : Arr N_IN_SECTORS (Arr N TkObj)) (old : Arr (N / 2) (Arr (2 * N_IN_SECTORS) TkObj)) :
    Run (Arr (N / 2) (Arr (2 * N_IN_SECTORS) TkObj)) :=
  loopM (fun (is : Fin N_IN_SECTORS) (a : Arr (N / 2) (Arr (2 * N_IN_SECTORS) TkObj)) =>
    loopM (fun (io : Fin N) (a : Arr (N / 2) (Arr (2 * N_IN_SECTORS) TkObj)) => do
      let row ← a.read (io.val / 2)
      let row ← row.write (2 * is.val + io.val % 2) (src is io)
      a.write (io.val / 2) row) a) old

/-- What the local transposed arrays held before. -/
structure TransMem (sz : RegSizes) (NM : Nat) where
  calo : Arr sz.calo (Arr N_IN_SECTORS HadCaloObj)
  em : Arr sz.em (Arr N_IN_SECTORS EmCaloObj)
  track : Arr (sz.track / 2) (Arr (2 * N_IN_SECTORS) TkObj)
  mu : Arr NM (Arr N_MUON_SECTORS MuObj)

/-- `if (ic < limit) mp7_pack<…>(a[ic], …)` -/
def packIf {K : Nat} {A : Type} (pack : A → MP7Event → Run MP7Event) (a : Arr K A) (ic limit : Nat) (w : MP7Event) : Run MP7Event :=
  if ic < limit then do
    let x ← a.read ic
    pack x w
  else .ok w

/-- The cleared words. -/
def zeroWords : MP7Event := fun _ => 0

/-- What is written on one of the 18 frames of a test: the inputs (all, calorimeter, tracks, muons) and the outputs. -/
structure RegFrames where
  inAll : List MP7Event
  inCalo : List MP7Event
  inTrack : List MP7Event
  inMu : List MP7Event
  outAll : List MP7Event
  outCalo : List MP7Event
  outTrack : List MP7Event
  outMu : List MP7Event

/-- The frames of the input files — regionizer/regionizer_test.cpp:191-208 -/
def mp7InFrames (t : TransMem sz NM) (ic : Fin (N_CLOCKS / 2)) : Run (MP7Event × MP7Event × MP7Event × MP7Event) := do
  let w ← packIf (mp7_pack_had 0) t.calo ic sz.calo zeroWords
  let w ← packIf (mp7_pack_em (2 * N_IN_SECTORS)) t.em ic sz.em w
  let w ← packIf (mp7_pack_tk (4 * N_IN_SECTORS)) t.track ic (sz.track / 2) w
  let all ← packIf (mp7_pack_mu (8 * N_IN_SECTORS)) t.mu ic NM w
  let calo ← packIf (mp7_pack_had 0) t.calo ic sz.calo zeroWords
  let track ← packIf (mp7_pack_tk 0) t.track ic (sz.track / 2) zeroWords
  let mu ← packIf (mp7_pack_mu 0) t.mu ic NM zeroWords
  .ok (all, calo, track, mu)

/-- The frames of the output files — regionizer/regionizer_test.cpp:245-262 -/
def mp7OutFrames (d : RegRecord sz NC NE NT NM) (ic : Fin (N_CLOCKS / 2)) : Run (MP7Event × MP7Event × MP7Event × MP7Event) := do
  let w ← packIf (mp7_pack_had 0) d.calo ic N_OUT_REGIONS zeroWords
  let w ← packIf (mp7_pack_em (2 * NC)) d.em ic N_OUT_REGIONS w
  let w ← packIf (mp7_pack_tk (2 * (NC + NE))) d.track ic N_OUT_REGIONS w
  let all ← packIf (mp7_pack_mu (2 * (NC + NE + NT))) d.mu ic N_OUT_REGIONS w
  let calo ← packIf (mp7_pack_had 0) d.calo ic N_OUT_REGIONS zeroWords
  let track ← packIf (mp7_pack_tk 0) d.track ic N_OUT_REGIONS zeroWords
  let mu ← packIf (mp7_pack_mu 0) d.mu ic N_OUT_REGIONS zeroWords
  .ok (all, calo, track, mu)

/-- The frames of one test — regionizer/regionizer_test.cpp:182-208, 245-262 -/
def regFrames (old : TransMem sz NM) (d : RegRecord sz NC NE NT NM) : Run RegFrames := do
  let track ← transposeTracks d.inp.track old.track
  let t : TransMem sz NM := ⟨transposeIn d.inp.calo old.calo, transposeIn d.inp.em old.em, track, transposeIn d.mu_in old.mu⟩
  let i ← buildM (fun ic => mp7InFrames t ic)
  let o ← buildM (fun ic => mp7OutFrames d ic)
  .ok ⟨List.ofFn fun ic => (i ic).1, List.ofFn fun ic => (i ic).2.1, List.ofFn fun ic => (i ic).2.2.1, List.ofFn fun ic => (i ic).2.2.2,
    List.ofFn fun ic => (o ic).1, List.ofFn fun ic => (o ic).2.1, List.ofFn fun ic => (o ic).2.2.1, List.ofFn fun ic => (o ic).2.2.2⟩

/-- The frames of all tests, in order.  (`old t` is what the local arrays hold at test `t`.) -/
def allFrames (old : Nat → TransMem sz NM) : List (RegRecord sz NC NE NT NM) → Run (List RegFrames)
  | [] => .ok []
  | d :: ds => do
    let f ← regFrames (old ds.length) d
    let fs ← allFrames old ds
    .ok (f :: fs)

/-- A multiplexed pattern file — regionizer/regionizer_test.cpp:103-110 -/
def muxFile (evs : List MP7Event) : Run (List PatRow) := mp7_file 2 1 0 evs

/-- A file without multiplexing, each event pushed twice — regionizer/regionizer_test.cpp:111-112, 255, 258 -/
def nomuxFile (evs : List MP7Event) : Run (List PatRow) := mp7_file 1 0 0 (evs.flatMap fun e => [e, e])

end Verif
