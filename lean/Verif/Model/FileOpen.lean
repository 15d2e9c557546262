import Verif.Model.PFTestOutput
import Verif.Model.RegionizerTestOutput
import Verif.Model.VertexTestOutput
/-!
# Files that cannot be opened

utils/pattern_serializer.cpp (the three serializers), utils/DiscretePFInputs_IO.h (the reader) and the three benches that write
files (simple_fullpfalgo_test.cpp, regionizer/regionizer_test.cpp, vertexing/bram_hist_vtx_test.cpp), when `fopen` may return a null
pointer or the file name is empty.  `Verif.Model.Serializer`, `Verif.Model.Text` and the `...TestOutput` models take every file to be
open.  `fprintf` to or `fclose` of a null `FILE*` is undefined: `Fault.nullFile`.  Writing to a file that is open does not fail.
-/
namespace Verif
variable {NT NC NE NM NS : Nat}

/-- The names that `fopen(name, "w")` can open. -/
abbrev Writable := List Char → Bool

/-- A `FILE *file_`: null, the standard output, or an open file. -/
inductive Handle where
  | null
  | stdout
  | file
  deriving DecidableEq

/-- `fopen(name, "w")` -/
def fopenW (can : Writable) (name : List Char) : Handle := if can name then .file else .null

/-- `fprintf(file_, ...)`: whether it is defined -/
def Handle.fprintf : Handle → Run Unit
  | .null => .error .nullFile
  | _ => .ok ()

/-- Constructor of `MP7PatternSerializer` — utils/pattern_serializer.cpp:7-24: the divisions of the initialisers, the header,
then the buffer. -/
def mp7_open (can : Writable) (fname : List Char) (nmux : Nat) (nempty : Int) (nlinks : Nat) :
    Run (MP7Conf × MP7State nmux × Handle) :=
  if nmux = 0 then .error .divByZero
  else if fname ≠ [] then do
    let h := fopenW can fname
    h.fprintf
    let (c, s) ← mp7_new nmux nempty nlinks
    .ok (c, s, h)
  else do
    let (c, s) ← mp7_new nmux nempty nlinks
    .ok (c, s, .null)

/-- `operator()` — utils/pattern_serializer.cpp:35-53 -/
def mp7_send {n : Nat} (c : MP7Conf) (h : Handle) (event : MP7Event) (s : MP7State n) : Run (MP7State n) :=
  if h = .null then .ok s else mp7_call c event s

/-- Destructor — utils/pattern_serializer.cpp:26-33: the rows of the file, if there is one, and what is printed -/
def mp7_end {n : Nat} (c : MP7Conf) (h : Handle) (fname : List Char) (s : MP7State n) : Run (Option (List PatRow) × List Char) :=
  if h = .null then .ok (none, [])
  else do
    let rows ← mp7_close c s
    .ok (some rows, savedMessage "MP7".toList s.ipattern fname)

/-- A whole life. -/
def mp7_life (can : Writable) (fname : List Char) (nmux : Nat) (nempty : Int) (nlinks : Nat) (events : List MP7Event) :
    Run (Option (List PatRow) × List Char) := do
  let (c, s, h) ← mp7_open can fname nmux nempty nlinks
  let s ← events.foldlM (fun s e => mp7_send c h e s) s
  mp7_end c h fname s

/-- Constructor of `CTP7PatternSerializer` — utils/pattern_serializer.cpp:178-190 -/
def ctp7_open (can : Writable) (fname : List Char) (nmux : Nat) : Run (CTP7State × Handle) :=
  if nmux = 0 then .error .divByZero
  else if fname ≠ [] then do
    let h := fopenW can fname
    h.fprintf
    .ok ({ ipattern := 0, rows := [] }, h)
  else .ok ({ ipattern := 0, rows := [] }, .null)

/-- `operator()` — utils/pattern_serializer.cpp:201-206 -/
def ctp7_send (h : Handle) (nmux : Nat) (event : MP7Event) (nchann : Nat) (s : CTP7State) : Run CTP7State :=
  if h = .null then .ok s else ctp7_call nmux event nchann s

/-- Destructor — utils/pattern_serializer.cpp:192-199 -/
def ctp7_end (h : Handle) (fname : List Char) (s : CTP7State) : Option (List PatRow) × List Char :=
  if h = .null then (none, []) else (some s.rows, savedMessage "CTP7".toList s.ipattern fname)

/-- A whole life; the `ipattern = ...` lines are in `Verif.Model.PFTestOutput`. -/
def ctp7_life (can : Writable) (fname : List Char) (nmux : Nat) (events : List (MP7Event × Nat)) :
    Run (Option (List PatRow) × List Char) := do
  let (s, h) ← ctp7_open can fname nmux
  let s ← events.foldlM (fun s e => ctp7_send h nmux e.1 e.2 s) s
  .ok (ctp7_end h fname s)

/-- The human-readable serializer: `file_`, `ipattern_`, what has gone to the file and to the standard output —
utils/pattern_serializer.h:62-87 -/
structure HRState where
  handle : Handle
  ipattern : BitVec 32
  text : List Char
  screen : List Char

/-- Constructor — utils/pattern_serializer.cpp:90-100 -/
def hr_open (can : Writable) (fname : List Char) : HRState :=
  { handle := if fname ≠ [] then (if fname = "-".toList then .stdout else fopenW can fname) else .null,
    ipattern := 0, text := [], screen := [] }

/-- `fprintf(file_, ...)` of a text -/
def HRState.put (s : HRState) (t : List Char) : Run HRState :=
  match s.handle with
  | .null => .error .nullFile
  | .stdout => .ok { s with screen := s.screen ++ t }
  | .file => .ok { s with text := s.text ++ t }

/-- `operator()` — utils/pattern_serializer.cpp:110-119 -/
def hr_send (inp : PFInputs NT NC NE NM) (out : PFOutputs NT NE NS NM) (s : HRState) : Run HRState :=
  if s.handle = .null then .ok s
  else do
    let s ← s.put ("Frame ".toList ++ fmtZ 10 4 s.ipattern.toNat ++ ":\n".toList)
    let s ← s.put (hr_inputs inp)
    let s ← s.put (hr_outputs out)
    let s ← s.put ['\n']
    .ok { s with ipattern := s.ipattern + 1 }

/-- `dump_inputs` called directly — utils/pattern_serializer.cpp:121-126; with no object at all nothing is printed -/
def hr_dump_inputs (inp : PFInputs NT NC NE NM) (s : HRState) : Run HRState :=
  if NC = 0 ∧ NE = 0 ∧ NT = 0 ∧ NM = 0 then .ok s else s.put (hr_inputs inp)

/-- Destructor — utils/pattern_serializer.cpp:102-108: the file, if there is one, and the standard output -/
def hr_end (fname : List Char) (s : HRState) : Option (List Char) × List Char :=
  if s.handle = .file then (some s.text, s.screen ++ savedMessage "human readable".toList s.ipattern fname) else (none, s.screen)

/-- A whole life. -/
def hr_life (can : Writable) (fname : List Char) (events : List (PFInputs NT NC NE NM × PFOutputs NT NE NS NM)) :
    Run (Option (List Char) × List Char) := do
  let s ← events.foldlM (fun s e => hr_send e.1 e.2 s) (hr_open can fname)
  .ok (hr_end fname s)

/-- Constructor of the reader — utils/DiscretePFInputs_IO.h:36-39: what is printed, and the reader; `file` is the result of
`fopen(fileName, "rb")`. -/
def DumpReader.open (fileName : List Char) (genZ0 : BitVec 32) (file : Option CFile) : List Char × Run DumpReader :=
  match file with
  | none => ("ERROR: cannot read '".toList ++ fileName ++ "'\n".toList, .error .assertFail)
  | some f => ([], .ok (DumpReader.new genZ0 f))

/-- The pattern files of the bench in the order of their constructors, with the arguments `nmux` and `nempty` of the MP7 ones —
simple_fullpfalgo_test.cpp:28-33 -/
def mp7Names (II : Nat) : List (List Char × Nat × Int) :=
  [("mp7_input_patterns.txt".toList, II, (II : Int) - 1), ("mp7_output_patterns.txt".toList, II, (II : Int) - 1),
   ("mp7_input_patterns_magic.txt".toList, II, -(II : Int) + 1), ("mp7_output_patterns_magic.txt".toList, II, -(II : Int) + 1),
   ("mp7_input_patterns_nomux.txt".toList, 1, 0), ("mp7_output_patterns_nomux.txt".toList, 1, 0)]
/-- simple_fullpfalgo_test.cpp:36-37 -/
def ctp7Names : List (List Char) := ["ctp7_input_patterns_nomux.txt".toList, "ctp7_output_patterns_nomux.txt".toList]
/-- simple_fullpfalgo_test.cpp:39 -/
def hrName : List Char := "human_readable_patterns.txt".toList

/-- The constructors of the serializers of the bench — simple_fullpfalgo_test.cpp:27-40 -/
def Build.construct (can : Writable) : Build → Run Unit
  | .plain => .ok ()
  | .mp7 II _ => (mp7Names II).forM fun x => do
    let _ ← mp7_open can x.1 x.2.1 x.2.2 0
    .ok ()
  | .ctp7 _ _ _ => ctp7Names.forM fun x => do
    let _ ← ctp7_open can x 1
    .ok ()

/-- The destructors of the pattern serializers, after that of `serHR` — simple_fullpfalgo_test.cpp:27-38 -/
def Build.patternsSay (b : Build) (evs : List (TestEvent NT NC NE NM NS b.nin b.nout)) : Run (List Char) :=
  match b with
  | .plain => .ok []
  | .mp7 II _ => do
    let i := evs.map (·.data_in)
    let o := evs.map (·.data_out)
    let o3 ← mp7_count 1 0 0 o
    let i3 ← mp7_count 1 0 0 i
    let o2 ← mp7_count II (-(II : Int) + 1) 0 o
    let i2 ← mp7_count II (-(II : Int) + 1) 0 i
    let o1 ← mp7_count II ((II : Int) - 1) 0 o
    let i1 ← mp7_count II ((II : Int) - 1) 0 i
    .ok (savedMessage "MP7".toList o3 "mp7_output_patterns_nomux.txt".toList ++ savedMessage "MP7".toList i3 "mp7_input_patterns_nomux.txt".toList ++
      savedMessage "MP7".toList o2 "mp7_output_patterns_magic.txt".toList ++ savedMessage "MP7".toList i2 "mp7_input_patterns_magic.txt".toList ++
      savedMessage "MP7".toList o1 "mp7_output_patterns.txt".toList ++ savedMessage "MP7".toList i1 "mp7_input_patterns.txt".toList)
  | .ctp7 _ _ _ => do
    let o ← ctp7_count (evs.map fun e => asEvent e.data_out)
    let i ← ctp7_count (evs.map fun e => asEvent e.data_in)
    .ok (savedMessage "CTP7".toList o "ctp7_output_patterns_nomux.txt".toList ++
      savedMessage "CTP7".toList i "ctp7_input_patterns_nomux.txt".toList)

/-- `main` when files may fail to open — simple_fullpfalgo_test.cpp:11-145: what has been printed before the first test, and the
exit status with the rest of the standard output and the human-readable file, if there is one.  Past the constructors the pattern
files are open (`Verif.Model.PFTestFiles`); `debugHR` prints to the standard output and has no message at the end. -/
def benchRun (can : Writable) (b : Build) (fall : Option Bool) (zpv : BitVec 32 → Z0) (genZ0 : BitVec 32) (file : Option CFile)
    (junk : Nat → TestJunk NT NC NE NM NS) (inp : PFInputs NT NC NE NM) (z : Z0) (out ref : PFOutputs NT NE NS NM) :
    List Char × Run (Int × List Char × Option (List Char)) :=
  let (text0, reader) := DumpReader.open "regions_TTbar_PU140.dump".toList genZ0 file
  (text0, do
    let s ← reader
    b.construct can
    let (st, t, evs) ← benchLoop b fall zpv junk NTEST 1 0 s inp z out ref
    let (hr, hrSays) ← hr_life can hrName (evs.map fun e => (e.inp, e.out))
    let d ← b.patternsSay evs
    .ok (st, t ++ (hrSays ++ d), hr))

/-! ## The regionizer and vertex benches -/

variable {sz : RegSizes}

/-- A dump file that the program writes itself is null. -/
def nullDump (can : Writable) (a b : List Char) : Bool := !can a || !can b

/-- Constructing the MP7 serializers with the given names, `nmux`, `nempty` and `nlinks`. -/
def openAll (can : Writable) (names : List (List Char × Nat × Int × Nat)) : Run Unit :=
  names.forM fun x => do
    let _ ← mp7_open can x.1 x.2.1 x.2.2.1 x.2.2.2
    .ok ()

/-- regionizer/regionizer_test.cpp:103-112 -/
def regNames : List (List Char × Nat × Int × Nat) :=
  [("mp7_input.txt".toList, 2, 1, 0), ("mp7_input_calo.txt".toList, 2, 1, 0), ("mp7_input_track.txt".toList, 2, 1, 0),
   ("mp7_input_mu.txt".toList, 2, 1, 0), ("mp7_output.txt".toList, 2, 1, 0), ("mp7_output_calo.txt".toList, 2, 1, 0),
   ("mp7_output_track.txt".toList, 2, 1, 0), ("mp7_output_mu.txt".toList, 2, 1, 0), ("mp7_output_calo_nomux.txt".toList, 1, 0, 0),
   ("mp7_output_track_nomux.txt".toList, 1, 0, 0)]

/-- vertexing/bram_hist_vtx_test.cpp:27-30 -/
def bhvNames : List (List Char × Nat × Int × Nat) :=
  [("mp7_input.txt".toList, 2, 1, 0), ("mp7_input_debug.txt".toList, 1, 0, 0), ("mp7_output.txt".toList, 1, 0, 3),
   ("mp7_output_debug.txt".toList, 1, 0, 0)]

/-- The rest of `main` of the regionizer bench when `f_in` or `f_out` is null: a test that has filled the streams uses both
(lines 158, 222), and so does the end of `main` (line 303); the `return`s with 2 and 3 use neither — regionizer/regionizer_test.cpp:119-304.
(With only `f_out` null, another fault of the first test may come before.) -/
def regNullRun (mp7 : Bool) (fall : Option Bool) (s : DumpReader) (inp : Nat → RegIn sz NM) (old : Nat → TransMem sz NM) (NC NE NT : Nat) : Run (Int × List Char) := do
  let (b, s) ← s.nextEvent fall
  if !b then .error .nullFile
  else if s.event.regions.length ≠ N_IN_SECTORS then do
    let d ← if mp7 then regDestructorsSay (NC := NC) (NE := NE) (NT := NT) old [] else .ok []
    .ok (2, configText sz NC NE NT ++ sectorsMessage s.event.regions.length ++ d)
  else do
    let text0 ← fillSectorsSays s.event.regions (inp 49) RegFibers.empty
    let st ← fillSectors s.event.regions (inp 49) RegFibers.empty
    let d ← if mp7 then regDestructorsSay (NC := NC) (NE := NE) (NT := NT) old [] else .ok []
    match st with
    | none => .ok (3, configText sz NC NE NT ++ text0 ++ d)
    | some (inp, f) =>
      match fillMuons (merge_muon_in inp.mu) f with
      | none => .ok (3, configText sz NC NE NT ++ (text0 ++ fillMuonsSays (merge_muon_in inp.mu) f) ++ d)
      | some _ => .error .nullFile

/-- `main` of the regionizer bench when files may fail to open — regionizer/regionizer_test.cpp:48-305; `debug` prints to the
standard output. -/
def regBenchRun (can : Writable) (mp7 : Bool) (fall : Option Bool) (genZ0 : BitVec 32) (file : Option CFile)
    (mem : Nat → Arr N_OUT_REGIONS (Arr NC HadCaloObj)) (inp : Nat → RegIn sz NM) (old : Nat → TransMem sz NM) (NE NT : Nat) :
    List Char × Run (Int × List Char) :=
  let (text0, reader) := DumpReader.open "barrel_sectors_1x12_TTbar_PU140.dump".toList genZ0 file
  (text0, do
    let s ← reader
    if mp7 then openAll can regNames else .ok ()
    if nullDump can "dump_in.txt".toList "dump_out.txt".toList then regNullRun mp7 fall s inp old NC NE NT
    else
      let (st, t, ds) ← regBenchLoop (NE := NE) (NT := NT) fall mem inp 50 1 s RegFibers.empty
      let d ← if mp7 then regDestructorsSay old ds else .ok []
      .ok (st, configText sz NC NE NT ++ t ++ d))

/-- The rest of `main` of the vertex bench when `test_in` or `test_out` is null: every test uses both (lines 54, 84) and so does the
end of `main` (lines 124-125); the `return` with 2 uses neither — vertexing/bram_hist_vtx_test.cpp:32-130 -/
def bhvNullRun (fall : Option Bool) (s : DumpReader) : Run (Int × List Char) := do
  let (b, s) ← s.nextEvent fall
  if !b then .error .nullFile
  else if s.event.regions.length ≠ N_IN_SECTORS then do
    let d ← bhvDestructorsSay []
    .ok (2, sectorsMessage s.event.regions.length ++ d)
  else .error .nullFile

/-- `main` of the vertex bench when files may fail to open — vertexing/bram_hist_vtx_test.cpp:9-130 -/
noncomputable def bhvBenchRun (can : Writable) (F : FloatText) (fall : Option Bool) (toZ0 : BitVec 32 → Z0) (mem : Nat → BhvMem) (genZ0 : BitVec 32)
    (file : Option CFile) : List Char × Run (Int × List Char) :=
  let (text0, reader) := DumpReader.open "barrel_alltracks_sectors_1x12_TTbar_PU140.dump".toList genZ0 file
  (text0, do
    let s ← reader
    openAll can bhvNames
    if nullDump can "bhv_dump_in.txt".toList "bhv_dump_out.txt".toList then bhvNullRun fall s
    else
      let (code, text, ts, st) ← bhvBenchLoop fall toZ0 mem 250 1 s BhvStats.zero
      let d ← bhvDestructorsSay ts
      .ok (code, text ++ (if code = 0 then F.summary st else []) ++ d))

end Verif
