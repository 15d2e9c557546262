import Verif.Model.RegionizerFiles
import Verif.Model.PFTestOutput
/-!
# regionizer/regionizer_test.cpp: what the bench prints

The standard output of the bench as text.  `printf` writes in program order; the destructors of the serializers print at
`return`.
-/
namespace Verif
variable {sz : RegSizes} {NC NE NT NM : Nat}

/-- `hwPt` for `count_nonzero` — utils/test_utils.h:11-15 -/
instance : HasPt HadCaloObj := ⟨HadCaloObj.hwPt, fun x p => { x with hwPt := p }⟩

/-- `printf("… %2d \n", n)` -/
def sizeLine (what : List Char) (n : Nat) : List Char := what ++ (fmtN 2 n ++ " \n".toList)

/-- The configuration — regionizer/regionizer_test.cpp:55-66 -/
def configText (sz : RegSizes) (NC NE NT : Nat) : List Char :=
  " --- Configuration --- \n".toList ++ (" Sectors: ".toList ++ (fmtN 0 N_IN_SECTORS ++ " \n".toList)) ++
  sizeLine "    max N(Calo), input:     ".toList sz.calo ++ sizeLine "    max N(Calo), eta slice: ".toList sz.caloEta ++
  sizeLine "    max N(EmCalo), input:     ".toList sz.em ++ sizeLine "    max N(EmCalo), eta slice: ".toList sz.emEta ++
  sizeLine "    max N(Track), input:     ".toList sz.track ++ sizeLine "    max N(Track), eta slice: ".toList sz.trackEta ++
  (" Regions: ".toList ++ (fmtN 0 N_OUT_REGIONS ++ (" (".toList ++ (fmtN 0 N_OUT_REGIONS_ETA ++ (" x ".toList ++
    (fmtN 0 N_OUT_REGIONS_PHI ++ " )\n".toList)))))) ++
  sizeLine "    max N(Calo): ".toList NC ++ sizeLine "    max N(EmCalo): ".toList NE ++ sizeLine "    max N(Track): ".toList NT

/-- What `fill_stream` prints when it returns false — regionizer/regionizer_test.cpp:13 -/
def streamMessage (name : List Char) (isector : Nat) : List Char :=
  "ERROR: ".toList ++ (name ++ (" stream for sector ".toList ++ (fmtN 0 isector ++ " is not empty\n".toList)))

/-- What filling the streams of one sector prints — regionizer/regionizer_test.cpp:125-142 -/
def fillSectorSays (is : Fin N_IN_SECTORS) (r : InputRegion) (inp : RegIn sz NM) (f : RegFibers) : List Char :=
  let inp := { inp with calo := inp.calo.set is (fw_many fw_had HadCaloObj.clear r.calo (inp.calo is)) }
  match fill_stream f.calo is (inp.calo is) 1 0 with
  | none => streamMessage "calo stream".toList is
  | some s =>
  let f := { f with calo := s }
  match fill_stream f.caloRef is (inp.calo is) 1 0 with
  | none => streamMessage "calo ref stream".toList is
  | some s =>
  let f := { f with caloRef := s }
  let inp := { inp with em := inp.em.set is (fw_many fw_em EmCaloObj.clear r.emcalo (inp.em is)) }
  match fill_stream f.em is (inp.em is) 1 0 with
  | none => streamMessage "emcalo stream".toList is
  | some s =>
  let f := { f with em := s }
  match fill_stream f.emRef is (inp.em is) 1 0 with
  | none => streamMessage "emcalo ref stream".toList is
  | some s =>
  let f := { f with emRef := s }
  let inp := { inp with track := inp.track.set is (fw_many fw_track TkObj.clear r.track (inp.track is)) }
  match fill_stream f.track (fiberIdx (NFPS := 2) is 0) (inp.track is) 2 0 with
  | none => streamMessage "track stream ".toList (2 * is.val + 0)
  | some s =>
  let f := { f with track := s }
  match fill_stream f.trackRef (fiberIdx (NFPS := 2) is 0) (inp.track is) 2 0 with
  | none => streamMessage "track ref stream".toList (2 * is.val + 0)
  | some s =>
  let f := { f with trackRef := s }
  match fill_stream f.track (fiberIdx (NFPS := 2) is 1) (inp.track is) 2 1 with
  | none => streamMessage "track stream ".toList (2 * is.val + 1)
  | some s =>
  let f := { f with track := s }
  match fill_stream f.trackRef (fiberIdx (NFPS := 2) is 1) (inp.track is) 2 1 with
  | none => streamMessage "track ref stream".toList (2 * is.val + 1)
  | some _ => []

/-- What filling the calorimeter and track streams prints, up to the first failure — regionizer/regionizer_test.cpp:124-145 -/
def fillSectorsSays (regions : List InputRegion) (inp : RegIn sz NM) (f : RegFibers) : Run (List Char) := do
  let (t, _) ← loopM (fun (is : Fin N_IN_SECTORS) (st : List Char × Option (RegIn sz NM × RegFibers)) =>
    match st with
    | (t, none) => .ok (t, none)
    | (t, some (inp, f)) =>
      match regions[is.val]? with
      | none => .error .oob
      | some r => do
        let st ← fillSector is r inp f
        .ok (t ++ fillSectorSays is r inp f, st)) ([], some (inp, f))
  .ok t

/-- What filling the muon streams prints, up to the first failure — regionizer/regionizer_test.cpp:148-153 -/
def fillMuonsSays (mu_in : Arr N_MUON_SECTORS (Arr NM MuObj)) (f : RegFibers) : List Char :=
  (loop (fun (is : Fin N_MUON_SECTORS) (st : List Char × Option RegFibers) =>
    match st with
    | (t, none) => (t, none)
    | (t, some f) =>
      match fill_stream f.mu is (mu_in is) 1 0 with
      | none => (t ++ streamMessage "mu stream".toList is, none)
      | some s =>
      let f := { f with mu := s }
      match fill_stream f.muRef is (mu_in is) 1 0 with
      | none => (t ++ streamMessage "mu ref stream".toList is, none)
      | some s => (t, some { f with muRef := s })) ([], some f)).1

/-- `for (i) { if (!equals(ref[i], out[i], what, ir*100+i)) { errors++; break; } }` — regionizer/regionizer_test.cpp:269-281;
the text and the errors so far. -/
def compareBreak {T : Type} {N : Nat} (equals : T → T → Bool) (message : Nat → T → T → List Char) (base : Nat) (ref out : Arr N T)
    (st : List Char × Nat) : List Char × Nat :=
  loopBreak (fun i st => if !equals (ref i) (out i) then ((st.1 ++ message (base + i.val) (ref i) (out i), st.2 + 1), true) else (st, false))
    (List.finRange N) st

/-- The comparison: what is printed and the number of errors — regionizer/regionizer_test.cpp:267-282 -/
def regCompare (calo caloRef : Arr N_OUT_REGIONS (Arr NC HadCaloObj)) (em emRef : Arr N_OUT_REGIONS (Arr NE EmCaloObj))
    (track trackRef : Arr N_OUT_REGIONS (Arr NT TkObj)) (mu muRef : Arr N_OUT_REGIONS (Arr NM MuObj)) : List Char × Nat :=
  loop (fun ir st =>
    let st := compareBreak had_equals (had_message "regionized hadcalo".toList) (ir.val * 100) (caloRef ir) (calo ir) st
    let st := compareBreak em_equals (em_message "regionized emcalo".toList) (ir.val * 100) (emRef ir) (em ir) st
    let st := compareBreak track_equals (track_message "regionized track".toList) (ir.val * 100) (trackRef ir) (track ir) st
    compareBreak mu_equals (mu_message "regionized muon".toList) (ir.val * 100) (muRef ir) (mu ir) st) ([], 0)

/-- The dump after an error: the inputs of a sector — regionizer/regionizer_test.cpp:287-288 -/
def sectorDump (is : Nat) {N : Nat} (calo : Arr N HadCaloObj) : List Char :=
  "INPUT SECTOR ".toList ++ (fmtN 0 is ++ (" (FOUND ".toList ++ (fmtN 0 (count_nonzero calo) ++ "): \n".toList))) ++ hrLines hr_had calo

/-- The dump after an error: a region — regionizer/regionizer_test.cpp:291-294 -/
def regionDump (ir : Nat) (calo caloRef : Arr NC HadCaloObj) : List Char :=
  "OUTPUT REGION ".toList ++ (fmtN 0 ir ++ (" (ETA ".toList ++ (fmtN 0 (ir / N_OUT_REGIONS_PHI : Nat) ++ (" PHI ".toList ++
    (fmtN 0 (ir % N_OUT_REGIONS_PHI : Nat) ++ (") (REF; FOUND ".toList ++ (fmtN 0 (count_nonzero caloRef) ++ "): \n".toList))))))) ++
  hrLines hr_had caloRef ++
  ("OUTPUT REGION ".toList ++ (fmtN 0 ir ++ " (TEST): \n".toList)) ++ hrLines hr_had calo

/-- What is printed once the errors are counted — regionizer/regionizer_test.cpp:284-300 -/
def regVerdictText (test errors : Nat) (calo_in : Arr N_IN_SECTORS (Arr sz.calo HadCaloObj)) (calo caloRef : Arr N_OUT_REGIONS (Arr NC HadCaloObj)) :
    List Char :=
  if errors ≠ 0 then
    "Error in computing test ".toList ++ (fmtN 0 test ++ (" (".toList ++ (fmtN 0 errors ++ ")\n".toList))) ++
    (List.finRange N_IN_SECTORS).flatMap (fun is => sectorDump is.val (calo_in is)) ++
    (List.finRange N_OUT_REGIONS).flatMap (fun ir => regionDump ir.val (calo ir) (caloRef ir))
  else "Passed test ".toList ++ (fmtN 0 test ++ "\n".toList)

/-- One test, once the event is read — regionizer/regionizer_test.cpp:124-300: as `regTestStep`, with what is printed. -/
def regBenchStep (test : Nat) (mem : Arr N_OUT_REGIONS (Arr NC HadCaloObj)) (regions : List InputRegion) (inp : RegIn sz NM) (f : RegFibers) :
    Run (Option Int × List Char × Option (RegRecord sz NC NE NT NM) × RegFibers) := do
  let says ← fillSectorsSays regions inp f
  let st ← fillSectors regions inp f
  match st with
  | none => .ok (some 3, says, none, f)
  | some (inp, f) =>
    let mu_in := merge_muon_in inp.mu
    let says := says ++ fillMuonsSays mu_in f
    match fillMuons mu_in f with
    | none => .ok (some 3, says, none, f)
    | some f =>
      let (calo_f, calo) ← regionize sz.calo sz.caloEta mem f.calo
      let (caloRef_f, caloRef) ← regionize_ref (NFPS := 1) sz.calo sz.caloEta NC f.caloRef
      let (em_f, em) ← regionize_ref (NFPS := 1) sz.em sz.emEta NE f.em
      let (emRef_f, emRef) ← regionize_ref (NFPS := 1) sz.em sz.emEta NE f.emRef
      let (track_f, track) ← regionize_ref (NFPS := 2) sz.track sz.trackEta NT f.track
      let (trackRef_f, trackRef) ← regionize_ref (NFPS := 2) sz.track sz.trackEta NT f.trackRef
      let (mu_f, mu) ← regionize_muon_ref NM f.mu
      let (muRef_f, muRef) ← regionize_muon_ref NM f.muRef
      let f : RegFibers := ⟨calo_f, caloRef_f, em_f, emRef_f, track_f, trackRef_f, mu_f, muRef_f⟩
      let d := ⟨inp, mu_in, calo, em, track, mu⟩
      let (report, errors) := regCompare calo caloRef em emRef track trackRef mu muRef
      let says := says ++ report ++ regVerdictText test errors inp.calo calo caloRef
      if errors ≠ 0 then .ok (some 1, says, some d, f)
      else .ok (none, says, some d, f)

/-- regionizer/regionizer_test.cpp:123 -/
def sectorsMessage (n : Nat) : List Char := "ERROR: Mismatching number of input regions: ".toList ++ (fmtN 0 n ++ "\n".toList)

/-- The loop over tests — regionizer/regionizer_test.cpp:119-302: as `regTestLoop`, with what is printed; `test` is the number
of the next test. -/
def regBenchLoop (fall : Option Bool) (mem : Nat → Arr N_OUT_REGIONS (Arr NC HadCaloObj)) (inp : Nat → RegIn sz NM) :
    Nat → Nat → DumpReader → RegFibers → Run (Int × List Char × List (RegRecord sz NC NE NT NM))
  | 0, _, _, _ => .ok (0, [], [])
  | n + 1, test, s, f => do
    let (b, s) ← s.nextEvent fall
    if !b then .ok (0, [], [])
    else if s.event.regions.length ≠ N_IN_SECTORS then .ok (2, sectorsMessage s.event.regions.length, [])
    else
      let (ret, says, d, f) ← regBenchStep test (mem n) s.event.regions (inp n) f
      match ret with
      | some code => .ok (code, says, d.toList)
      | none =>
        let (code, t, ds) ← regBenchLoop fall mem inp n (test + 1) s f
        .ok (code, says ++ t, d.toList ++ ds)

/-- The destructors of the MP7 serializers, in the reverse order of the declarations — regionizer/regionizer_test.cpp:103-112
(`debug` writes to the standard output and its destructor prints nothing) -/
def regDestructorsSay (old : Nat → TransMem sz NM) (ds : List (RegRecord sz NC NE NT NM)) : Run (List Char) := do
  let fs ← allFrames old ds
  let mux (fname : List Char) (evs : List MP7Event) : Run (List Char) := do
    let n ← mp7_count 2 1 0 evs
    .ok (savedMessage "MP7".toList n fname)
  let nomux (fname : List Char) (evs : List MP7Event) : Run (List Char) := do
    let n ← mp7_count 1 0 0 (evs.flatMap fun e => [e, e])
    .ok (savedMessage "MP7".toList n fname)
  let t1 ← nomux "mp7_output_track_nomux.txt".toList (fs.flatMap (·.outTrack))
  let t2 ← nomux "mp7_output_calo_nomux.txt".toList (fs.flatMap (·.outCalo))
  let t3 ← mux "mp7_output_mu.txt".toList (fs.flatMap (·.outMu))
  let t4 ← mux "mp7_output_track.txt".toList (fs.flatMap (·.outTrack))
  let t5 ← mux "mp7_output_calo.txt".toList (fs.flatMap (·.outCalo))
  let t6 ← mux "mp7_output.txt".toList (fs.flatMap (·.outAll))
  let t7 ← mux "mp7_input_mu.txt".toList (fs.flatMap (·.inMu))
  let t8 ← mux "mp7_input_track.txt".toList (fs.flatMap (·.inTrack))
  let t9 ← mux "mp7_input_calo.txt".toList (fs.flatMap (·.inCalo))
  let t10 ← mux "mp7_input.txt".toList (fs.flatMap (·.inAll))
  .ok (t1 ++ t2 ++ t3 ++ t4 ++ t5 ++ t6 ++ t7 ++ t8 ++ t9 ++ t10)

/-- `main` — regionizer/regionizer_test.cpp:48-305: the exit status and the standard output.  `mp7` tells whether `MP7` is
defined; `old` is what the transposed arrays of that build held. -/
def regBenchMain (mp7 : Bool) (fall : Option Bool) (genZ0 : BitVec 32) (file : CFile) (mem : Nat → Arr N_OUT_REGIONS (Arr NC HadCaloObj))
    (inp : Nat → RegIn sz NM) (old : Nat → TransMem sz NM) (NE NT : Nat) : Run (Int × List Char) := do
  let (st, t, ds) ← regBenchLoop (NE := NE) (NT := NT) fall mem inp 50 1 (DumpReader.new genZ0 file) RegFibers.empty
  let d ← if mp7 then regDestructorsSay old ds else .ok []
  .ok (st, configText sz NC NE NT ++ t ++ d)

end Verif
