import Verif.Model.PFTestFiles
/-!
# simple_fullpfalgo_test.cpp: what the bench prints

The standard output of the bench as text: the messages of the reader, of the comparisons, of the bench itself and of the
destructors of the serializers.  `g_debug_` is 0 (simple_fullpfalgo_ref.cpp:8; the bench does not set it), so the reference
prints nothing.  `std::cout` and `printf` write to the same stream in program order.
-/
namespace Verif
variable {NT NC NE NM NS : Nat}

/-! ## utils/test_utils.cpp: the messages of the comparisons -/

/-- The beginning of each of these messages: `Mismatch at %s[%d] ref vs test, hwPt % 7d % 7d` -/
def mismatchHead (what : List Char) (idx : Nat) (ref out : Pt) : List Char :=
  "Mismatch at ".toList ++ (what ++ ("[".toList ++ (fmtN 0 idx ++ ("] ref vs test, hwPt ".toList ++
    (fmtS 7 ref.toInt ++ (" ".toList ++ fmtS 7 out.toInt))))))
/-- ` % 7d % 7d` and ` %+7d %+7d`; `fmt` is `fmtS` or `fmtP` -/
def mismatchPair (name : List Char) (fmt : Int → List Char) (ref out : Int) : List Char := name ++ (fmt ref ++ (" ".toList ++ fmt out))

/-- utils/test_utils.cpp:12-13 -/
def had_message (what : List Char) (idx : Nat) (ref out : HadCaloObj) : List Char :=
  mismatchHead what idx ref.hwPt out.hwPt ++ (mismatchPair "   hwEmPt ".toList (fmtS 7) ref.hwEmPt.toInt out.hwEmPt.toInt ++
    (mismatchPair "   hwEta ".toList (fmtP 7) ref.hwEta.toInt out.hwEta.toInt ++ (mismatchPair "   hwPhi ".toList (fmtP 7) ref.hwPhi.toInt out.hwPhi.toInt ++
      (mismatchPair "   hwId ".toList (fmtN 1) (b2i ref.hwIsEM) (b2i out.hwIsEM) ++ "\n".toList))))
/-- utils/test_utils.cpp:25-26 -/
def em_message (what : List Char) (idx : Nat) (ref out : EmCaloObj) : List Char :=
  mismatchHead what idx ref.hwPt out.hwPt ++ (mismatchPair "   hwPtErr ".toList (fmtS 7) ref.hwPtErr.toInt out.hwPtErr.toInt ++
    (mismatchPair "   hwEta ".toList (fmtP 7) ref.hwEta.toInt out.hwEta.toInt ++ (mismatchPair "   hwPhi ".toList (fmtP 7) ref.hwPhi.toInt out.hwPhi.toInt ++
      "\n".toList)))
/-- utils/test_utils.cpp:39-40 -/
def track_message (what : List Char) (idx : Nat) (ref out : TkObj) : List Char :=
  mismatchHead what idx ref.hwPt out.hwPt ++ (mismatchPair "   hwPtErr ".toList (fmtS 7) ref.hwPtErr.toInt out.hwPtErr.toInt ++
    (mismatchPair "   hwEta ".toList (fmtP 7) ref.hwEta.toInt out.hwEta.toInt ++ (mismatchPair "   hwPhi ".toList (fmtP 7) ref.hwPhi.toInt out.hwPhi.toInt ++
      (mismatchPair "   hwZ0 ".toList (fmtP 7) ref.hwZ0.toInt out.hwZ0.toInt ++ "\n".toList))))
/-- utils/test_utils.cpp:52-53 -/
def mu_message (what : List Char) (idx : Nat) (ref out : MuObj) : List Char :=
  mismatchHead what idx ref.hwPt out.hwPt ++ (mismatchPair "   hwPtErr ".toList (fmtS 7) ref.hwPtErr.toInt out.hwPtErr.toInt ++
    (mismatchPair "   hwEta ".toList (fmtP 7) ref.hwEta.toInt out.hwEta.toInt ++ (mismatchPair "   hwPhi ".toList (fmtP 7) ref.hwPhi.toInt out.hwPhi.toInt ++
      "\n".toList)))
/-- utils/test_utils.cpp:66-71 -/
def ch_message (what : List Char) (idx : Nat) (ref out : PFChargedObj) : List Char :=
  mismatchHead what idx ref.hwPt out.hwPt ++
    (mismatchPair "   hwEta ".toList (fmtP 7) ref.hwEta.toInt out.hwEta.toInt ++ (mismatchPair "   hwPhi ".toList (fmtP 7) ref.hwPhi.toInt out.hwPhi.toInt ++
      (mismatchPair "   hwId ".toList (fmtN 1) ref.hwId.toNat out.hwId.toNat ++
        (mismatchPair "      hwZ0 ".toList (fmtP 7) ref.hwZ0.toInt out.hwZ0.toInt ++ "   \n".toList))))
/-- utils/test_utils.cpp:83-87 -/
def ne_message (what : List Char) (idx : Nat) (ref out : PFNeutralObj) : List Char :=
  mismatchHead what idx ref.hwPt out.hwPt ++
    (mismatchPair "   hwEta ".toList (fmtP 7) ref.hwEta.toInt out.hwEta.toInt ++ (mismatchPair "   hwPhi ".toList (fmtP 7) ref.hwPhi.toInt out.hwPhi.toInt ++
      (mismatchPair "   hwId ".toList (fmtN 1) ref.hwId.toNat out.hwId.toNat ++ " \n".toList)))

/-! ## utils/DiscretePFInputs_IO.h: the messages of the reader -/

/-- utils/DiscretePFInputs_IO.h:75 -/
def beginMessage (run lumi : BitVec 32) (event : BitVec 64) : List Char :=
  "Beginning of run ".toList ++ (fmtN 0 run.toNat ++ (", lumi ".toList ++ (fmtN 0 lumi.toNat ++ (", event ".toList ++ (fmtN 0 event.toNat ++ " \n".toList)))))
/-- utils/DiscretePFInputs_IO.h:57 -/
def regionMessage (iregion : Nat) (r : InputRegion) : List Char :=
  "Read region ".toList ++ (fmtN 0 iregion ++ (" with ".toList ++ (fmtN 0 r.track.length ++ (" tracks, ".toList ++ (fmtN 0 r.emcalo.length ++
    (" em calo, ".toList ++ (fmtN 0 r.calo.length ++ (" had calo, ".toList ++ (fmtN 0 r.muon.length ++ " muons\n".toList)))))))))

/-- What the first part of the private `nextRegion` prints when it goes from `s` to `s'`: something if it has read an event —
utils/DiscretePFInputs_IO.h:72-77 -/
def DumpReader.refillSays (s s' : DumpReader) : List Char :=
  if s.event.event = 0 ∨ s.iregion = s.event.regions.length then beginMessage s'.event.run s'.event.lumi s'.event.event else []

/-- What the private `nextRegion` prints — utils/DiscretePFInputs_IO.h:70-85 -/
def DumpReader.seekSays (fall : Option Bool) (s : DumpReader) : List Char :=
  match h : s.refill fall with
  | .error _ => []
  | .ok (false, _) => []
  | .ok (true, s') =>
    match h2 : s'.event.regions[s'.iregion]? with
    | none => s.refillSays s'
    | some r =>
      if farEta r.etaCenter then s.refillSays s' ++ DumpReader.seekSays fall { s' with iregion := s'.iregion + 1 }
      else s.refillSays s'
termination_by (s.file.bytes.length, s.event.regions.length - s.iregion)
decreasing_by
  have hlt : s'.iregion < s'.event.regions.length := (List.getElem?_eq_some_iff.mp h2).1
  rcases DumpReader.refill_shrinks h with h1 | h1
  · subst h1
    exact Prod.Lex.right _ (by omega)
  · exact Prod.Lex.left _ _ h1

/-- What the public `nextRegion` prints — utils/DiscretePFInputs_IO.h:42-60 -/
def DumpReader.nextRegionSays (fall : Option Bool) (s : DumpReader) : List Char :=
  s.seekSays fall ++ match s.seek fall with
    | .ok (true, s') =>
      match s'.event.regions[s'.iregion]? with
      | some r => regionMessage s'.iregion r
      | none => []
    | _ => []

/-! ## utils/pattern_serializer.cpp: the messages of the serializers -/

/-- `std::cout << "ipattern = " << ipattern_ << std::endl` — utils/pattern_serializer.cpp:210, 222 -/
def ipatternMessage (ip : BitVec 32) : List Char := "ipattern = ".toList ++ (fmtN 0 ip.toNat ++ "\n".toList)

/-- The loop over the empty rows — utils/pattern_serializer.cpp:221-229 -/
def ctp7_empties_says : Nat → BitVec 32 → List Char
  | 0, _ => []
  | j + 1, ip => ipatternMessage ip ++ if ip > 1023 then [] else ctp7_empties_says j (ip + 1)

/-- `operator()` and `print` with `nmux_ = 1` — utils/pattern_serializer.cpp:201-231 -/
def ctp7_call_says (ip : BitVec 32) : List Char :=
  if ip > 1023 then [] else ipatternMessage ip ++ if ip > 1023 then [] else ctp7_empties_says 5 (ip + 1)

/-- `ipattern_` of an MP7 serializer after the events. -/
def mp7_count (nmux : Nat) (nempty : Int) (nlinks : Nat) (events : List MP7Event) : Run (BitVec 32) := do
  let (c, s) ← mp7_new nmux nempty nlinks
  let s ← events.foldlM (fun s e => mp7_call c e s) s
  .ok s.ipattern

/-- `ipattern_` of a CTP7 serializer after the events. -/
def ctp7_count (events : List (MP7Event × Nat)) : Run (BitVec 32) := do
  let s ← events.foldlM (fun s e => ctp7_call 1 e.1 e.2 s) { ipattern := 0, rows := [] }
  .ok s.ipattern

/-- `ipattern_` of the human-readable serializer after the events — utils/pattern_serializer.cpp:118 -/
def hr_count (n : Nat) : BitVec 32 := (List.range n).foldl (fun k _ => k + 1) 0

/-- The destructors — utils/pattern_serializer.cpp:31, 105, 198; `what` is `MP7`, `human readable` or `CTP7` -/
def savedMessage (what : List Char) (n : BitVec 32) (fname : List Char) : List Char :=
  "Saved ".toList ++ (fmtN 0 n.toNat ++ (" ".toList ++ (what ++ (" patterns to ".toList ++ (fname ++ ".\n".toList)))))

/-! ## simple_fullpfalgo_test.cpp -/

/-- How the bench is compiled, with the constants its output depends on. -/
inductive Build where
  | plain
  | mp7 (II : Nat) (validate : Bool)
  | ctp7 (nin nout : Nat) (validate : Bool)

/-- The same, as in `pfTestMain`. -/
def Build.kind : Build → TestKind
  | .plain => .plain
  | .mp7 _ v => .wrapped 144 144 v
  | .ctp7 nin nout v => .wrapped nin nout v

/-- The numbers of channels. -/
def Build.nin : Build → Nat
  | .plain => 0
  | .mp7 _ _ => 144
  | .ctp7 nin _ _ => nin
@[inherit_doc Build.nin] def Build.nout : Build → Nat
  | .plain => 0
  | .mp7 _ _ => 144
  | .ctp7 _ nout _ => nout

/-- One test — simple_fullpfalgo_test.cpp:64-99 (no words without the wrapping) -/
def Build.test (b : Build) (inp : PFInputs NT NC NE NM) (out : PFOutputs NT NE NS NM) (junk : TestJunk NT NC NE NM NS) :
    Run (TestEvent NT NC NE NM NS b.nin b.nout) :=
  match b with
  | .plain => do
    let out ← pfalgo3_full inp out junk.mem
    .ok ⟨inp, out, fun _ => 0, fun _ => 0⟩
  | .mp7 _ _ => wrappedTest 144 144 inp out junk
  | .ctp7 nin nout _ => wrappedTest nin nout inp out junk

/-- The comparison of one list — simple_fullpfalgo_test.cpp:115-131: the messages, the errors and the number of objects. -/
def compareList {T : Type} {N : Nat} (equals : T → T → Bool) (message : Nat → T → T → List Char) (pt : T → Pt) (ref out : Arr N T)
    (st : List Char × Nat × Nat) : (List Char × Nat × Nat) × Nat :=
  loop (fun (i : Fin N) (st : (List Char × Nat × Nat) × Nat) =>
    let st := if !equals (ref i) (out i) then ((st.1.1 ++ message i.val (ref i) (out i), st.1.2.1 + 1, st.1.2.2), st.2) else st
    if (pt (ref i)).toInt > 0 then ((st.1.1, st.1.2.1, st.1.2.2 + 1), st.2 + 1) else st) (st, 0)

/-- The validation — simple_fullpfalgo_test.cpp:112-141: what is printed, and the number of errors.  `debugHR` prints to the
standard output. -/
def validation (test : Nat) (inp : PFInputs NT NC NE NM) (ref out : PFOutputs NT NE NS NM) : List Char × Nat :=
  let (st, nch) := compareList pf_equals_ch (ch_message "PF Charged".toList) PFChargedObj.hwPt ref.outch out.outch ([], 0, 0)
  let (st, npho) := compareList pf_equals_ne (ne_message "Photon".toList) PFNeutralObj.hwPt ref.outpho out.outpho st
  let (st, nneu) := compareList pf_equals_ne (ne_message "PF Neutral".toList) PFNeutralObj.hwPt ref.outne out.outne st
  let (st, _) := compareList pf_equals_ch (ch_message "PF Muon".toList) PFChargedObj.hwPt ref.outmu out.outmu st
  let (says, errors, ntot) := st
  if errors ≠ 0 then
    (says ++ ("Error in computing test ".toList ++ (fmtN 0 test ++ (" (".toList ++ (fmtN 0 errors ++ ")\n".toList)))) ++
      "Inputs: \n".toList ++ hr_inputs inp ++ "Reference output: \n".toList ++ hr_outputs ref ++
      "Current output: \n".toList ++ hr_outputs out, errors)
  else
    (says ++ ("Passed test ".toList ++ (fmtN 0 test ++ (" (".toList ++ (fmtN 0 ntot ++ (", ".toList ++ (fmtN 0 nch ++ (", ".toList ++
      (fmtN 0 npho ++ (", ".toList ++ (fmtN 0 nneu ++ ")\n".toList)))))))))), errors)

/-- What the serializers print in one test: only those of the CTP7 build — simple_fullpfalgo_test.cpp:94 -/
def Build.serializersSay : Build → BitVec 32 → List Char
  | .ctp7 _ _ _, ip => ctp7_call_says ip ++ ctp7_call_says ip
  | _, _ => []

/-- `ipattern_` of the two CTP7 serializers after a call — utils/pattern_serializer.cpp:201-231 -/
def Build.serializersStep {b : Build} (e : TestEvent NT NC NE NM NS b.nin b.nout) (ip : BitVec 32) : Run (BitVec 32) :=
  match b with
  | .ctp7 _ _ _ => do
    let s ← ctp7_call 1 (asEvent e.data_in).1 (asEvent e.data_in).2 { ipattern := ip, rows := [] }
    .ok s.ipattern
  | _ => .ok ip

/-- The loop over tests — simple_fullpfalgo_test.cpp:43-143: the exit status, what is printed and the events written.  `n` is
the number of tests still to do, `test` the number of this one, `ip` the `ipattern_` of the CTP7 serializers. -/
def benchLoop (b : Build) (fall : Option Bool) (zpv : BitVec 32 → Z0) (junk : Nat → TestJunk NT NC NE NM NS) :
    Nat → Nat → BitVec 32 → DumpReader → PFInputs NT NC NE NM → Z0 → PFOutputs NT NE NS NM → PFOutputs NT NE NS NM →
      Run (Int × List Char × List (TestEvent NT NC NE NM NS b.nin b.nout))
  | 0, _, _, _, _, _, _, _ => .ok (0, [], [])
  | n + 1, test, ip, s, inp, z, out, ref => do
    let says := s.nextRegionSays fall
    let (more, s, inp, z) ← s.nextRegion fall zpv (initInputs inp) z
    if !more then .ok (0, says, [])
    else
      let ref ← pfalgo3_full_ref inp ref (junk n).memref
      let e ← b.test inp out (junk n)
      let says := says ++ b.serializersSay ip
      let ip ← b.serializersStep e ip
      if b.kind.validates then do
        let (report, errors) := validation test inp ref e.out
        if errors ≠ 0 then .ok (1, says ++ report, [e])
        else do
          let (st, t, l) ← benchLoop b fall zpv junk n (test + 1) ip s inp z e.out ref
          .ok (st, says ++ report ++ t, e :: l)
      else do
        let (st, t, l) ← benchLoop b fall zpv junk n (test + 1) ip s inp z e.out ref
        .ok (st, says ++ t, e :: l)

/-- The destructors at `return`, in the reverse order of the declarations — simple_fullpfalgo_test.cpp:27-40 -/
def Build.destructorsSay (b : Build) (evs : List (TestEvent NT NC NE NM NS b.nin b.nout)) : Run (List Char) :=
  let hr := savedMessage "human readable".toList (hr_count evs.length) "human_readable_patterns.txt".toList
  match b with
  | .plain => .ok hr
  | .mp7 II _ => do
    let i := evs.map (·.data_in)
    let o := evs.map (·.data_out)
    let o3 ← mp7_count 1 0 0 o
    let i3 ← mp7_count 1 0 0 i
    let o2 ← mp7_count II (-(II : Int) + 1) 0 o
    let i2 ← mp7_count II (-(II : Int) + 1) 0 i
    let o1 ← mp7_count II ((II : Int) - 1) 0 o
    let i1 ← mp7_count II ((II : Int) - 1) 0 i
    .ok (hr ++ savedMessage "MP7".toList o3 "mp7_output_patterns_nomux.txt".toList ++ savedMessage "MP7".toList i3 "mp7_input_patterns_nomux.txt".toList ++
      savedMessage "MP7".toList o2 "mp7_output_patterns_magic.txt".toList ++ savedMessage "MP7".toList i2 "mp7_input_patterns_magic.txt".toList ++
      savedMessage "MP7".toList o1 "mp7_output_patterns.txt".toList ++ savedMessage "MP7".toList i1 "mp7_input_patterns.txt".toList)
  | .ctp7 _ _ _ => do
    let o ← ctp7_count (evs.map fun e => asEvent e.data_out)
    let i ← ctp7_count (evs.map fun e => asEvent e.data_in)
    .ok (hr ++ savedMessage "CTP7".toList o "ctp7_output_patterns_nomux.txt".toList ++
      savedMessage "CTP7".toList i "ctp7_input_patterns_nomux.txt".toList)

/-- `main` — simple_fullpfalgo_test.cpp:11-145: the exit status and the standard output.  The parameters are those of
`pfTestMain`. -/
def benchMain (b : Build) (fall : Option Bool) (zpv : BitVec 32 → Z0) (genZ0 : BitVec 32) (file : CFile)
    (junk : Nat → TestJunk NT NC NE NM NS) (inp : PFInputs NT NC NE NM) (z : Z0) (out ref : PFOutputs NT NE NS NM) : Run (Int × List Char) := do
  let (st, t, evs) ← benchLoop b fall zpv junk NTEST 1 0 (DumpReader.new genZ0 file) inp z out ref
  let d ← b.destructorsSay evs
  .ok (st, t ++ d)

end Verif
