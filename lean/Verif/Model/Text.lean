import Verif.Model.Serializer
import Verif.Model.PFTest
import Verif.Model.RegionizerFiles
import Verif.Model.VertexTest
import Verif.Model.PuppiTest
/-!
# The text of the files and messages

What the `printf` and `fprintf` calls write, as lists of characters.  The conversions used are `%s`, `%d`, `%u`, `%i` and
`%x` with widths and the flags `0`, `+` and space.
-/
namespace Verif

/-- `%0wu` (`b = 10`) and `%0wx` (`b = 16`) of a number -/
def fmtZ (b w n : Nat) : List Char :=
  let s := Nat.toDigits b n
  List.replicate (w - s.length) '0' ++ s

/-- `%wd`, `%+wd` and `% wd`; `plus` is what stands for the sign of a number that is not negative -/
def fmtD (plus : List Char) (w : Nat) (x : Int) : List Char :=
  let s := (if x < 0 then ['-'] else plus) ++ Nat.toDigits 10 x.natAbs
  List.replicate (w - s.length) ' ' ++ s

/-- `%wd` -/
abbrev fmtN (w : Nat) (x : Int) : List Char := fmtD [] w x
/-- `% wd` -/
abbrev fmtS (w : Nat) (x : Int) : List Char := fmtD [' '] w x
/-- `%+wd` -/
abbrev fmtP (w : Nat) (x : Int) : List Char := fmtD ['+'] w x

/-- A `bool` or a small unsigned number as `int`. -/
def b2i (b : Bool) : Int := if b then 1 else 0

/-! ## MP7PatternSerializer -/

/-- The `Board` line — utils/pattern_serializer.cpp:12 -/
def mp7_boardLine (board : List Char) : List Char := "Board ".toList ++ board
/-- The `Quad/Chan` line — utils/pattern_serializer.cpp:13-14 -/
def mp7_quadLine (nlinks : Nat) : List Char :=
  " Quad/Chan :    ".toList ++ (List.range nlinks).flatMap fun i =>
    "q".toList ++ fmtZ 10 2 (i / 4) ++ "c".toList ++ fmtN 1 (i % 4 : Nat) ++ "      ".toList
/-- The `Link` line — utils/pattern_serializer.cpp:15-16 -/
def mp7_linkLine (nlinks : Nat) : List Char :=
  "      Link :     ".toList ++ (List.range nlinks).flatMap fun i => fmtZ 10 2 i ++ "         ".toList
/-- A row — utils/pattern_serializer.cpp:57-60 -/
def mp7_rowLine (row : PatRow) : List Char :=
  "Frame ".toList ++ fmtZ 10 4 row.1.toNat ++ " :".toList ++ row.2.flatMap fun w => " 1v".toList ++ fmtZ 16 8 w.toNat

/-- A whole file — utils/pattern_serializer.cpp:12-17, 57-61 -/
def mp7_text (board : List Char) (nmux : Nat) (nempty : Int) (nlinks : Nat) (events : List MP7Event) : Run (List Char) := do
  let (c, _) ← mp7_new nmux nempty nlinks
  let rows ← mp7_file nmux nempty nlinks events
  .ok (mp7_boardLine board ++ ['\n'] ++ mp7_quadLine c.nlinks ++ ['\n'] ++ mp7_linkLine c.nlinks ++ ['\n'] ++
    rows.flatMap fun r => mp7_rowLine r ++ ['\n'])

/-! ## CTP7PatternSerializer -/

/-- The line between the two rulers — utils/pattern_serializer.cpp:184-186 -/
def ctp7_linkLine (isInput : Bool) (nchann_max : Nat) : List Char :=
  (if isInput then "Input ".toList else "Output ".toList) ++
    (List.range nchann_max).flatMap fun i => "LINK_".toList ++ fmtZ 10 2 i ++ " ".toList
/-- The ruler — utils/pattern_serializer.cpp:183, 188 -/
def ctp7_ruler : List Char := List.replicate 120 '='
/-- A row — utils/pattern_serializer.cpp:212-216, 226-227 -/
def ctp7_rowLine (row : PatRow) : List Char :=
  "0x".toList ++ fmtZ 16 5 row.1.toNat ++ row.2.flatMap fun w => " 0x".toList ++ fmtZ 16 8 w.toNat
/-- A whole file — utils/pattern_serializer.cpp:178-231 -/
def ctp7_text (nchann_max : Nat) (isInput : Bool) (nmux : Nat) (events : List (MP7Event × Nat)) : Run (List Char) := do
  let rows ← ctp7_file nmux events
  .ok (ctp7_ruler ++ ['\n'] ++ ctp7_linkLine isInput nchann_max ++ ['\n'] ++ ctp7_ruler ++ ['\n'] ++
    rows.flatMap fun r => ctp7_rowLine r ++ ['\n'])

/-! ## HumanReadablePatternSerializer -/

/-- utils/pattern_serializer.cpp:130 -/
def hr_had (i : Nat) (o : HadCaloObj) : List Char :=
  "   calo  ".toList ++ fmtN 3 i ++ ", hwPt ".toList ++ fmtS 7 o.hwPt.toInt ++ "   hwEmPt  ".toList ++ fmtS 7 o.hwEmPt.toInt ++
  "    hwEta ".toList ++ fmtP 7 o.hwEta.toInt ++ "   hwPhi ".toList ++ fmtP 7 o.hwPhi.toInt ++ "   hwIsEM ".toList ++ fmtN 1 (b2i o.hwIsEM)
/-- utils/pattern_serializer.cpp:136 -/
def hr_em (i : Nat) (o : EmCaloObj) : List Char :=
  "   em    ".toList ++ fmtN 3 i ++ ", hwPt ".toList ++ fmtS 7 o.hwPt.toInt ++ "   hwPtErr ".toList ++ fmtS 7 o.hwPtErr.toInt ++
  "    hwEta ".toList ++ fmtP 7 o.hwEta.toInt ++ "   hwPhi ".toList ++ fmtP 7 o.hwPhi.toInt
/-- utils/pattern_serializer.cpp:142 -/
def hr_track (i : Nat) (o : TkObj) : List Char :=
  "   track ".toList ++ fmtN 3 i ++ ", hwPt ".toList ++ fmtS 7 o.hwPt.toInt ++ "   hwPtErr ".toList ++ fmtS 7 o.hwPtErr.toInt ++
  "    hwEta ".toList ++ fmtP 7 o.hwEta.toInt ++ "   hwPhi ".toList ++ fmtP 7 o.hwPhi.toInt ++ "     hwZ0 ".toList ++ fmtP 7 o.hwZ0.toInt
/-- utils/pattern_serializer.cpp:148 -/
def hr_mu (i : Nat) (o : MuObj) : List Char :=
  "   muon  ".toList ++ fmtN 3 i ++ ", hwPt ".toList ++ fmtS 7 o.hwPt.toInt ++ "   hwPtErr ".toList ++ fmtS 7 o.hwPtErr.toInt ++
  "    hwEta ".toList ++ fmtP 7 o.hwEta.toInt ++ "   hwPhi ".toList ++ fmtP 7 o.hwPhi.toInt
/-- utils/pattern_serializer.cpp:156-157 -/
def hr_ch (i : Nat) (o : PFChargedObj) : List Char :=
  "   charged pf ".toList ++ fmtN 3 i ++ ", hwPt ".toList ++ fmtS 7 o.hwPt.toInt ++ "   hwEta ".toList ++ fmtP 7 o.hwEta.toInt ++
  "   hwPhi ".toList ++ fmtP 7 o.hwPhi.toInt ++ "   hwId ".toList ++ fmtN 1 o.hwId.toNat ++ "      hwZ0 ".toList ++ fmtP 7 o.hwZ0.toInt
/-- `label` is `photon `, `neutral` — utils/pattern_serializer.cpp:160-161, 164-165 -/
def hr_ne (label : List Char) (i : Nat) (o : PFNeutralObj) : List Char :=
  "   ".toList ++ label ++ " pf ".toList ++ fmtN 3 i ++ ", hwPt ".toList ++ fmtS 7 o.hwPt.toInt ++ "   hwEta ".toList ++ fmtP 7 o.hwEta.toInt ++
  "   hwPhi ".toList ++ fmtP 7 o.hwPhi.toInt ++ "   hwId ".toList ++ fmtN 1 o.hwId.toNat
/-- utils/pattern_serializer.cpp:168-169 (`hwZ0` is not printed) -/
def hr_pfmu (i : Nat) (o : PFChargedObj) : List Char :=
  "   muon    pf ".toList ++ fmtN 3 i ++ ", hwPt ".toList ++ fmtS 7 o.hwPt.toInt ++ "   hwEta ".toList ++ fmtP 7 o.hwEta.toInt ++
  "   hwPhi ".toList ++ fmtP 7 o.hwPhi.toInt ++ "   hwId ".toList ++ fmtN 1 o.hwId.toNat

/-- A loop printing one line per object. -/
def hrLines {N : Nat} {T : Type} (line : Nat → T → List Char) (a : Arr N T) : List Char :=
  (List.finRange N).flatMap fun i => line i.val (a i) ++ ['\n']

variable {NT NC NE NM NS : Nat}

/-- `dump_inputs` — utils/pattern_serializer.cpp:121-126 -/
def hr_inputs (inp : PFInputs NT NC NE NM) : List Char :=
  hrLines hr_had inp.hadcalo ++ hrLines hr_em inp.emcalo ++ hrLines hr_track inp.track ++ hrLines hr_mu inp.mu

/-- `dump_outputs` — utils/pattern_serializer.cpp:153-172 -/
def hr_outputs (out : PFOutputs NT NE NS NM) : List Char :=
  hrLines hr_ch out.outch ++ hrLines (hr_ne "photon ".toList) out.outpho ++ hrLines (hr_ne "neutral".toList) out.outne ++
    hrLines hr_pfmu out.outmu

/-- `operator()` — utils/pattern_serializer.cpp:110-119; `k` is `ipattern_` -/
def hr_event (k : BitVec 32) (inp : PFInputs NT NC NE NM) (out : PFOutputs NT NE NS NM) : List Char :=
  "Frame ".toList ++ fmtZ 10 4 k.toNat ++ ":\n".toList ++ hr_inputs inp ++ hr_outputs out ++ ['\n']

/-- A whole file: one `operator()` per event. -/
def hr_file (events : List (PFInputs NT NC NE NM × PFOutputs NT NE NS NM)) : List Char :=
  (events.foldl (fun (st : BitVec 32 × List Char) e => (st.1 + 1, st.2 ++ hr_event st.1 e.1 e.2)) (0, [])).2

/-! ## The dumps of the regionizer and vertex benches -/

/-- `dump_o` — regionizer/regionizer_test.cpp:20 -/
def hadText (o : HadCaloObj) : List Char :=
  "       ".toList ++ fmtN 4 o.hwPt.toInt ++ " ".toList ++ fmtS 4 o.hwEta.toInt ++ " ".toList ++ fmtS 4 o.hwPhi.toInt ++ " ".toList ++
    fmtN 3 o.hwEmPt.toInt ++ " ".toList ++ fmtN 1 (b2i o.hwIsEM)
/-- regionizer/regionizer_test.cpp:27 -/
def emText (o : EmCaloObj) : List Char :=
  "       ".toList ++ fmtN 4 o.hwPt.toInt ++ " ".toList ++ fmtS 4 o.hwEta.toInt ++ " ".toList ++ fmtS 4 o.hwPhi.toInt ++ " ".toList ++
    fmtN 3 o.hwPtErr.toInt
/-- regionizer/regionizer_test.cpp:35 -/
def tkText (o : TkObj) : List Char :=
  "       ".toList ++ fmtN 4 o.hwPt.toInt ++ " ".toList ++ fmtS 4 o.hwEta.toInt ++ " ".toList ++ fmtS 4 o.hwPhi.toInt ++ " ".toList ++
    fmtN 4 o.hwPtErr.toInt ++ " ".toList ++ fmtN 4 o.hwZ0.toInt
/-- regionizer/regionizer_test.cpp:42 -/
def muText (o : MuObj) : List Char :=
  "       ".toList ++ fmtN 4 o.hwPt.toInt ++ " ".toList ++ fmtS 4 o.hwEta.toInt ++ " ".toList ++ fmtS 4 o.hwPhi.toInt ++ " ".toList ++
    fmtN 4 o.hwPtErr.toInt

variable {sz : RegSizes}

/-- The text of a line of `dump_in.txt` — regionizer/regionizer_test.cpp:158-179 (`%04d` of the positive frame number) -/
def dumpInText (frame test : Nat) (d : RegRecord sz NC NE NT NM) (ic : Fin N_CLOCKS) : Run (List Char) := do
  let iobj := ic.val / 2
  let send := ic.val % 2 == 0
  let calo ← printLoop fun is : Fin N_IN_SECTORS => dumpObj hadText HadCaloObj.clear (d.inp.calo is) iobj sz.calo send
  let em ← printLoop fun is : Fin N_IN_SECTORS => dumpObj emText EmCaloObj.clear (d.inp.em is) iobj sz.em send
  let iobj := ic.val
  let track ← printLoop fun is : Fin N_IN_SECTORS => do
    let x ← dumpObj tkText TkObj.clear (d.inp.track is) (iobj + 0) (sz.track / 2) send
    let y ← dumpObj tkText TkObj.clear (d.inp.track is) (iobj + 1) (sz.track / 2) send
    .ok (x ++ y)
  let iobj := ic.val / 2
  let mu ← printLoop fun is : Fin N_MUON_SECTORS => dumpObj muText MuObj.clear (d.mu_in is) iobj NM send
  .ok ("Frame ".toList ++ fmtZ 10 4 frame ++ " : ".toList ++ fmtN 2 test ++ " ".toList ++ fmtN 2 (ic.val / 2 : Nat) ++
    calo ++ em ++ track ++ mu ++ ['\n'])

/-- The text of a line of `dump_out.txt` — regionizer/regionizer_test.cpp:222-239 -/
def dumpOutText (frame : Nat) (d : RegRecord sz NC NE NT NM) (ic : Fin N_CLOCKS) : Run (List Char) := do
  let calo ← printLoop fun i : Fin NC => dumpSlot hadText HadCaloObj.clear d.calo ic i
  let em ← printLoop fun i : Fin NE => dumpSlot emText EmCaloObj.clear d.em ic i
  let track ← printLoop fun i : Fin NT => dumpSlot tkText TkObj.clear d.track ic i
  let mu ← printLoop fun i : Fin NM => dumpSlot muText MuObj.clear d.mu ic i
  .ok ("Frame ".toList ++ fmtZ 10 4 frame ++ " :".toList ++ calo ++ em ++ track ++ mu ++ "       ".toList ++ fmtN 0 1 ++ ['\n'])

/-- The text of a line of `bhv_dump_in.txt` — vertexing/bram_hist_vtx_test.cpp:54 -/
def bhvInText (frame go bin pt : Int) : List Char :=
  "Frame ".toList ++ fmtN 4 frame ++ " : ".toList ++ fmtN 1 go ++ "  ".toList ++ fmtN 3 bin ++ "  ".toList ++ fmtN 6 pt ++ ['\n']
/-- The text of a line of `bhv_dump_out.txt` — vertexing/bram_hist_vtx_test.cpp:84 -/
def bhvOutText (frame b x y : Int) : List Char :=
  "Frame ".toList ++ fmtN 4 frame ++ " : ".toList ++ fmtN 3 b ++ "   ".toList ++ fmtN 6 x ++ "   ".toList ++ fmtN 6 y ++ ['\n']

/-- A line of the PF+PUPPI bench — puppi/simple_pfpuppi_test.cpp:88 -/
def puppiText (l : PuppiLine) : List Char :=
  "hwpt = ".toList ++ fmtN 0 l.hwPt ++ ", hwptpuppi = ".toList ++ fmtN 0 l.hwPtPuppi ++ ", hwptpuppi-ref = ".toList ++
    fmtN 0 l.hwPtPuppiRef ++ " \n".toList

end Verif
