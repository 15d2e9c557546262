import Verif.Spec.PFTestOutput
import Verif.Spec.RegionizerTest
/-! # What the regionizer test bench should print

As in `Verif.Spec.PFTestOutput`, a text is read as lines of words and numbers. -/
namespace Verif.Spec
variable {NC NE NT NM : Nat}

/-- The configuration: the sizes of the inputs, of their eta slices and of the regions. -/
def configLines (sz : RegSizes) (NC NE NT : Nat) : List (List Token) :=
  [say "--- Configuration ---",
   say "Sectors" ++ [.num 12],
   say "max N Calo input" ++ [.num sz.calo], say "max N Calo eta slice" ++ [.num sz.caloEta],
   say "max N EmCalo input" ++ [.num sz.em], say "max N EmCalo eta slice" ++ [.num sz.emEta],
   say "max N Track input" ++ [.num sz.track], say "max N Track eta slice" ++ [.num sz.trackEta],
   say "Regions" ++ [.num 18, .num 3] ++ say "x" ++ [.num 6],
   say "max N Calo" ++ [.num NC], say "max N EmCalo" ++ [.num NE], say "max N Track" ++ [.num NT]]

/-- The first slot that differs, if any; slots are numbered from `base`. -/
noncomputable def firstMismatch {N : Nat} {T : Type} (same : T → T → Prop) (what : String) (pairs : T → T → List (String × Int × Int)) (base : Nat)
    (ref out : Arr N T) : List (List Token) :=
  open Classical in
  ((List.finRange N).filterMap fun i => if same (ref i) (out i) then none else some (mismatchLine what (base + i.val) (pairs (ref i) (out i)))).take 1

/-- The mismatches of the 18 regions: at most one per region and class of objects. -/
noncomputable def regMismatches (calo caloRef : Fin 18 → Arr NC HadCaloObj) (em emRef : Fin 18 → Arr NE EmCaloObj)
    (track trackRef : Fin 18 → Arr NT TkObj) (mu muRef : Fin 18 → Arr NM MuObj) : List (List Token) :=
  (List.finRange 18).flatMap fun ir =>
    firstMismatch (SameObj HadCaloObj.hwPt hadFields) "regionized hadcalo" hadPairs (100 * ir.val) (caloRef ir) (calo ir) ++
    firstMismatch (SameObj EmCaloObj.hwPt emFields) "regionized emcalo" emPairs (100 * ir.val) (emRef ir) (em ir) ++
    firstMismatch (SameObj TkObj.hwPt trackFields) "regionized track" trackPairs (100 * ir.val) (trackRef ir) (track ir) ++
    firstMismatch (SameObj MuObj.hwPt muFields) "regionized muon" muPairs (100 * ir.val) (muRef ir) (mu ir)

/-- The calorimeter clusters of a sector or region. -/
def caloLines {N : Nat} (calo : Arr N HadCaloObj) : List (List Token) :=
  objectLines "calo" (fun o => [("hwPt", o.hwPt.toInt), ("hwEmPt", o.hwEmPt.toInt), ("hwEta", o.hwEta.toInt), ("hwPhi", o.hwPhi.toInt),
    ("hwIsEM", if o.hwIsEM then 1 else 0)]) calo

/-- After an error: the number of clusters of positive pt in each sector and region, and all the clusters. -/
def errorDump {N : Nat} (calo_in : Fin 12 → Arr N HadCaloObj) (calo caloRef : Fin 18 → Arr NC HadCaloObj) : List (List Token) :=
  ((List.finRange 12).flatMap fun is =>
    (say "INPUT SECTOR" ++ [.num is.val] ++ say "FOUND" ++ [.num (nonEmpty HadCaloObj.hwPt (calo_in is))]) :: caloLines (calo_in is)) ++
  ((List.finRange 18).flatMap fun ir =>
    (say "OUTPUT REGION" ++ [.num ir.val] ++ say "ETA" ++ [.num (ir.val / 6 : Nat)] ++ say "PHI" ++ [.num (ir.val % 6 : Nat)] ++ say "REF; FOUND" ++
      [.num (nonEmpty HadCaloObj.hwPt (caloRef ir))]) :: caloLines (caloRef ir) ++
    ((say "OUTPUT REGION" ++ [.num ir.val] ++ say "TEST") :: caloLines (calo ir)))

def passed (test : Nat) : List Token := say "Passed test" ++ [.num test]

/-- The names given to the streams in messages. -/
def streamNames : List String := ["calo stream", "calo ref stream", "emcalo stream", "emcalo ref stream", "track stream ", "track ref stream", "mu stream", "mu ref stream"]

/-- The complaint that the stream `k` of a class still holds objects of the previous test. -/
def streamLine (name : String) (k : Nat) : List Token := say "ERROR" ++ say name ++ say "stream for sector" ++ [.num k] ++ say "is not empty"

/-- The complaint that an event has `n` sectors. -/
def sectorsLine (n : Nat) : List Token := say "ERROR Mismatching number of input regions" ++ [.num n]

/-- The report on a test. -/
noncomputable def regReport (test : Nat) {N : Nat} (calo_in : Fin 12 → Arr N HadCaloObj) (calo caloRef : Fin 18 → Arr NC HadCaloObj)
    (em emRef : Fin 18 → Arr NE EmCaloObj) (track trackRef : Fin 18 → Arr NT TkObj) (mu muRef : Fin 18 → Arr NM MuObj) : List (List Token) :=
  let m := regMismatches calo caloRef em emRef track trackRef mu muRef
  if m = [] then [passed test] else m ++ errorLine test m.length :: errorDump calo_in calo caloRef

/-- The ten pattern files of the MP7 build: 36 rows per test in each. -/
def regSaved (tests : Nat) : List (List Token) :=
  ["mp7_output_track_nomux.txt", "mp7_output_calo_nomux.txt", "mp7_output_mu.txt", "mp7_output_track.txt", "mp7_output_calo.txt",
    "mp7_output.txt", "mp7_input_mu.txt", "mp7_input_track.txt", "mp7_input_calo.txt", "mp7_input.txt"].map fun f => savedLine (36 * tests) "MP7" f

/-- What is printed when the first `k` tests pass, the program then says `last` and ends, having recorded `records` tests. -/
def regOutput (mp7 : Bool) (sz : RegSizes) (NC NE NT k : Nat) (last : List (List Token)) (records : Nat) : List (List Token) :=
  configLines sz NC NE NT ++ (List.range k).map (fun i => passed (i + 1)) ++ last ++ if mp7 then regSaved records else []

end Verif.Spec
