import Verif.Model.Regionizer
import Verif.Model.Encoding
import Verif.Model.Compare
import Verif.Model.Convert
/-!
# regionizer/regionizer_test.cpp

The exit status, the contents of the `dump_in.txt` and `dump_out.txt` lines and the words given to the MP7
pattern serializers.  Left out: printouts, number formatting, the serializers (`Verif.Model.Serializer`).  The
constants of regionizer.h that only size this program's arrays are the parameters in `RegSizes`.
-/
namespace Verif

/-- `NCALO_PER_SECTOR`, `NCALO_PER_SECTOR_PER_ETA`, ... — regionizer/firmware/regionizer.h:38-45 -/
structure RegSizes where
  calo : Nat
  caloEta : Nat
  em : Nat
  emEta : Nat
  track : Nat
  trackEta : Nat

/-- The values in the source — regionizer/firmware/regionizer.h:38-45 -/
def RegSizes.source : RegSizes := ⟨15, 7, 12, 7, 20, 9⟩

/-- The writing loop of `fill_stream`, from index `i` on — regionizer/regionizer_test.cpp:14 (`step` is positive) -/
def fillLoop {N : Nat} {T : Type} (data : Arr N T) (step i : Nat) : List T :=
  if h : i < N ∧ 0 < step then data ⟨i, h.1⟩ :: fillLoop data step (i + step) else []
termination_by N - i

/-- `fill_stream` on stream `k` — regionizer/regionizer_test.cpp:11-16; `none` when it returns false -/
def fill_stream {K N : Nat} {T : Type} (streams : Arr K (List T)) (k : Fin K) (data : Arr N T) (step offset : Nat) :
    Option (Arr K (List T)) :=
  if !(streams k).isEmpty then none
  else some (streams.set k (streams k ++ fillLoop data step offset))

/-- The streams — regionizer/regionizer_test.cpp:69-89 -/
structure RegFibers where
  calo : Arr N_IN_SECTORS (List HadCaloObj)
  caloRef : Arr N_IN_SECTORS (List HadCaloObj)
  em : Arr N_IN_SECTORS (List EmCaloObj)
  emRef : Arr N_IN_SECTORS (List EmCaloObj)
  track : Arr (2 * N_IN_SECTORS) (List TkObj)
  trackRef : Arr (2 * N_IN_SECTORS) (List TkObj)
  mu : Arr N_MUON_SECTORS (List MuObj)
  muRef : Arr N_MUON_SECTORS (List MuObj)

/-- `hls::stream`s are created empty. -/
def RegFibers.empty : RegFibers :=
  ⟨fun _ => [], fun _ => [], fun _ => [], fun _ => [], fun _ => [], fun _ => [], fun _ => [], fun _ => []⟩

/-- `calo_in`, `emcalo_in`, `track_in`, `mu_in_cmssw` — regionizer/regionizer_test.cpp:68-86 -/
structure RegIn (sz : RegSizes) (NM : Nat) where
  calo : Arr N_IN_SECTORS (Arr sz.calo HadCaloObj)
  em : Arr N_IN_SECTORS (Arr sz.em EmCaloObj)
  track : Arr N_IN_SECTORS (Arr sz.track TkObj)
  mu : Arr N_IN_SECTORS (Arr NM MuObj)

variable {sz : RegSizes} {NC NE NT NM : Nat}

/-- Filling the streams of one sector — regionizer/regionizer_test.cpp:125-142; `none` is `return 3` -/
def fillSector (is : Fin N_IN_SECTORS) (r : InputRegion) (inp : RegIn sz NM) (f : RegFibers) :
    Run (Option (RegIn sz NM × RegFibers)) := do
  let inp := { inp with calo := inp.calo.set is (fw_many fw_had HadCaloObj.clear r.calo (inp.calo is)) }
  let _ ← loopM (fun (i : Fin sz.calo) (_ : Unit) => cassert (decide ((inp.calo is i).hwPt.toInt ≥ 0))) ()
  match fill_stream f.calo is (inp.calo is) 1 0 with
  | none => .ok none
  | some s =>
  let f := { f with calo := s }
  match fill_stream f.caloRef is (inp.calo is) 1 0 with
  | none => .ok none
  | some s =>
  let f := { f with caloRef := s }
  let inp := { inp with em := inp.em.set is (fw_many fw_em EmCaloObj.clear r.emcalo (inp.em is)) }
  match fill_stream f.em is (inp.em is) 1 0 with
  | none => .ok none
  | some s =>
  let f := { f with em := s }
  match fill_stream f.emRef is (inp.em is) 1 0 with
  | none => .ok none
  | some s =>
  let f := { f with emRef := s }
  let inp := { inp with track := inp.track.set is (fw_many fw_track TkObj.clear r.track (inp.track is)) }
  match fill_stream f.track (fiberIdx (NFPS := 2) is 0) (inp.track is) 2 0 with
  | none => .ok none
  | some s =>
  let f := { f with track := s }
  match fill_stream f.trackRef (fiberIdx (NFPS := 2) is 0) (inp.track is) 2 0 with
  | none => .ok none
  | some s =>
  let f := { f with trackRef := s }
  match fill_stream f.track (fiberIdx (NFPS := 2) is 1) (inp.track is) 2 1 with
  | none => .ok none
  | some s =>
  let f := { f with track := s }
  match fill_stream f.trackRef (fiberIdx (NFPS := 2) is 1) (inp.track is) 2 1 with
  | none => .ok none
  | some s =>
  let f := { f with trackRef := s }
  let inp := { inp with mu := inp.mu.set is (fw_many fw_mu MuObj.clear r.muon (inp.mu is)) }
  .ok (some (inp, f))

/-- Filling the calorimeter and track streams — regionizer/regionizer_test.cpp:124-145.  After a `return 3` the
remaining iterations are skipped. -/
def fillSectors (regions : List InputRegion) (inp : RegIn sz NM) (f : RegFibers) : Run (Option (RegIn sz NM × RegFibers)) :=
  loopM (fun (is : Fin N_IN_SECTORS) (st : Option (RegIn sz NM × RegFibers)) =>
    match st with
    | none => .ok none
    | some (inp, f) =>
      match regions[is.val]? with
      | none => .error .oob
      | some r => fillSector is r inp f) (some (inp, f))

/-- Filling the muon streams — regionizer/regionizer_test.cpp:148-153; `none` is `return 3` -/
def fillMuons (mu_in : Arr N_MUON_SECTORS (Arr NM MuObj)) (f : RegFibers) : Option RegFibers :=
  loop (fun (is : Fin N_MUON_SECTORS) (st : Option RegFibers) =>
    match st with
    | none => none
    | some f =>
      match fill_stream f.mu is (mu_in is) 1 0 with
      | none => none
      | some s =>
      let f := { f with mu := s }
      match fill_stream f.muRef is (mu_in is) 1 0 with
      | none => none
      | some s => some { f with muRef := s }) (some f)

/-- What one test writes to its files: inputs, 4-fold muons, and the regions (of the "firmware" side). -/
structure RegRecord (sz : RegSizes) (NC NE NT NM : Nat) where
  inp : RegIn sz NM
  mu_in : Arr N_MUON_SECTORS (Arr NM MuObj)
  calo : Arr N_OUT_REGIONS (Arr NC HadCaloObj)
  em : Arr N_OUT_REGIONS (Arr NE EmCaloObj)
  track : Arr N_OUT_REGIONS (Arr NT TkObj)
  mu : Arr N_OUT_REGIONS (Arr NM MuObj)

/-- `for (i) { if (!equals(ref[i], out[i])) { errors++; break; } }` -/
def oneError {N : Nat} {T : Type} (eq : T → T → Bool) (ref out : Arr N T) : Nat :=
  if (List.finRange N).all (fun i => eq (ref i) (out i)) then 0 else 1

/-- The error count — regionizer/regionizer_test.cpp:268-282 -/
def regErrors (calo caloRef : Arr N_OUT_REGIONS (Arr NC HadCaloObj)) (em emRef : Arr N_OUT_REGIONS (Arr NE EmCaloObj))
    (track trackRef : Arr N_OUT_REGIONS (Arr NT TkObj)) (mu muRef : Arr N_OUT_REGIONS (Arr NM MuObj)) : Nat :=
  loop (fun ir errors => errors + oneError had_equals (caloRef ir) (calo ir) + oneError em_equals (emRef ir) (em ir) +
    oneError track_equals (trackRef ir) (track ir) + oneError mu_equals (muRef ir) (mu ir)) 0

/-- One test, once the event is read — regionizer/regionizer_test.cpp:124-300; returns the exit status if the
program ends here, or the streams.  `mem` is the uninitialised memory of `merge_smart`. -/
def regTestStep (mem : Arr N_OUT_REGIONS (Arr NC HadCaloObj)) (regions : List InputRegion) (inp : RegIn sz NM) (f : RegFibers) :
    Run (Option Int × Option (RegRecord sz NC NE NT NM) × RegFibers) := do
  let st ← fillSectors regions inp f
  match st with
  | none => .ok (some 3, none, f)
  | some (inp, f) =>
    let mu_in := merge_muon_in inp.mu
    match fillMuons mu_in f with
    | none => .ok (some 3, none, f)
    | some f =>
      let (calo_f, calo) ← regionize sz.calo sz.caloEta mem f.calo
      let (caloRef_f, caloRef) ← regionize_ref (NFPS := 1) sz.calo sz.caloEta NC f.caloRef
      let (em_f, em) ← regionize_ref (NFPS := 1) sz.em sz.emEta NE f.em
      let (emRef_f, emRef) ← regionize_ref (NFPS := 1) sz.em sz.emEta NE f.emRef
      let (track_f, track) ← regionize_ref (NFPS := 2) sz.track sz.trackEta NT f.track
      let (trackRef_f, trackRef) ← regionize_ref (NFPS := 2) sz.track sz.trackEta NT f.trackRef
      let (mu_f, mu) ← regionize_muon_ref NM f.mu
      let (muRef_f, muRef) ← regionize_muon_ref NM f.muRef
      let f : RegFibers := ⟨calo_f, caloRef_f, em_f, emRef_f, track_f, trackRef_f, mu_f, muRef_f⟩
      let d := ⟨inp, mu_in, calo, em, track, mu⟩
      if regErrors calo caloRef em emRef track trackRef mu muRef ≠ 0 then .ok (some 1, some d, f)
      else .ok (none, some d, f)

/-- The loop over tests, with `n` still to do — regionizer/regionizer_test.cpp:119-302; returns the exit status
and the records of the tests.  (`inp` need not be carried over: it is overwritten.) -/
def regTestLoop (fall : Option Bool) (mem : Nat → Arr N_OUT_REGIONS (Arr NC HadCaloObj)) (inp : Nat → RegIn sz NM) :
    Nat → DumpReader → RegFibers → Run (Int × List (RegRecord sz NC NE NT NM))
  | 0, _, _ => .ok (0, [])
  | n + 1, s, f => do
    let (b, s) ← s.nextEvent fall
    if !b then .ok (0, [])
    else if s.event.regions.length ≠ N_IN_SECTORS then .ok (2, [])
    else
      let (ret, d, f) ← regTestStep (mem n) s.event.regions (inp n) f
      match ret with
      | some code => .ok (code, d.toList)
      | none =>
        let (code, ds) ← regTestLoop fall mem inp n s f
        .ok (code, d.toList ++ ds)

/-- `main` — regionizer/regionizer_test.cpp:48-305 (`NTEST` is 50) -/
def regTestMain (fall : Option Bool) (genZ0 : BitVec 32) (file : CFile) (mem : Nat → Arr N_OUT_REGIONS (Arr NC HadCaloObj))
    (inp : Nat → RegIn sz NM) : Run (Int × List (RegRecord sz NC NE NT NM)) :=
  regTestLoop fall mem inp 50 (DumpReader.new genZ0 file) RegFibers.empty

end Verif
