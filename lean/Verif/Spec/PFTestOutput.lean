import Verif.Spec.Text
import Verif.Spec.Dump
import Verif.Spec.Compare
/-!
# What the PF test bench should print

A text is read as lines of words and numbers, so that the widths and the punctuation do not matter.
-/
namespace Verif.Spec
variable {NT NC NE NM NS : Nat}

/-- A number or a word. -/
inductive Token where
  | num (n : Int)
  | word (w : List Char)
  deriving DecidableEq

/-- What stands between words. -/
def isGap (c : Char) : Bool := isSep c || c == '(' || c == ')' || c == '[' || c == ']'

/-- A word that reads as a number is one. -/
def token (s : List Char) : Token :=
  match int s with
  | some n => .num n
  | none => .word s

/-- The words and numbers of a line. -/
def tokens (s : List Char) : List Token := ((split isGap s).filter fun w => !w.isEmpty).map token

/-- A text, line by line. -/
def report (s : List Char) : List (List Token) := (lines s).map tokens

/-- The words of a phrase. -/
def say (s : String) : List Token := tokens s.toList

/-! ## The lines -/

def beginLine (e : DumpEvent) : List Token :=
  say "Beginning of run" ++ [.num e.run.toNat] ++ say "lumi" ++ [.num e.lumi.toNat] ++ say "event" ++ [.num e.event.toNat]

/-- Number `i` of the event, with all its objects, also those that do not fit the arrays. -/
def regionLine (i : Nat) (r : InputRegion) : List Token :=
  say "Read region" ++ [.num i] ++ say "with" ++ [.num r.track.length] ++ say "tracks" ++ [.num r.emcalo.length] ++ say "em calo" ++
    [.num r.calo.length] ++ say "had calo" ++ [.num r.muon.length] ++ say "muons"

/-- Slot `i` of the list `what` differs: the name and the two values of every field. -/
def mismatchLine (what : String) (i : Nat) (fields : List (String × Int × Int)) : List Token :=
  say "Mismatch at" ++ say what ++ [.num i] ++ say "ref vs test" ++ fields.flatMap fun f => say f.1 ++ [.num f.2.1, .num f.2.2]

def chPairs (a b : PFChargedObj) : List (String × Int × Int) :=
  [("hwPt", a.hwPt.toInt, b.hwPt.toInt), ("hwEta", a.hwEta.toInt, b.hwEta.toInt), ("hwPhi", a.hwPhi.toInt, b.hwPhi.toInt),
    ("hwId", a.hwId.toNat, b.hwId.toNat), ("hwZ0", a.hwZ0.toInt, b.hwZ0.toInt)]
def nePairs (a b : PFNeutralObj) : List (String × Int × Int) :=
  [("hwPt", a.hwPt.toInt, b.hwPt.toInt), ("hwEta", a.hwEta.toInt, b.hwEta.toInt), ("hwPhi", a.hwPhi.toInt, b.hwPhi.toInt),
    ("hwId", a.hwId.toNat, b.hwId.toNat)]

def hadPairs (a b : HadCaloObj) : List (String × Int × Int) :=
  [("hwPt", a.hwPt.toInt, b.hwPt.toInt), ("hwEmPt", a.hwEmPt.toInt, b.hwEmPt.toInt), ("hwEta", a.hwEta.toInt, b.hwEta.toInt),
    ("hwPhi", a.hwPhi.toInt, b.hwPhi.toInt), ("hwId", if a.hwIsEM then 1 else 0, if b.hwIsEM then 1 else 0)]
def emPairs (a b : EmCaloObj) : List (String × Int × Int) :=
  [("hwPt", a.hwPt.toInt, b.hwPt.toInt), ("hwPtErr", a.hwPtErr.toInt, b.hwPtErr.toInt), ("hwEta", a.hwEta.toInt, b.hwEta.toInt),
    ("hwPhi", a.hwPhi.toInt, b.hwPhi.toInt)]
def trackPairs (a b : TkObj) : List (String × Int × Int) :=
  [("hwPt", a.hwPt.toInt, b.hwPt.toInt), ("hwPtErr", a.hwPtErr.toInt, b.hwPtErr.toInt), ("hwEta", a.hwEta.toInt, b.hwEta.toInt),
    ("hwPhi", a.hwPhi.toInt, b.hwPhi.toInt), ("hwZ0", a.hwZ0.toInt, b.hwZ0.toInt)]
def muPairs (a b : MuObj) : List (String × Int × Int) :=
  [("hwPt", a.hwPt.toInt, b.hwPt.toInt), ("hwPtErr", a.hwPtErr.toInt, b.hwPtErr.toInt), ("hwEta", a.hwEta.toInt, b.hwEta.toInt),
    ("hwPhi", a.hwPhi.toInt, b.hwPhi.toInt)]

/-- A line for every slot that differs. -/
noncomputable def mismatches {N : Nat} {T : Type} (same : T → T → Prop) (what : String) (pairs : T → T → List (String × Int × Int)) (ref out : Arr N T) :
    List (List Token) :=
  open Classical in
  (List.finRange N).filterMap fun i => if same (ref i) (out i) then none else some (mismatchLine what i.val (pairs (ref i) (out i)))

/-- The slots that differ, in the order charged, photons, neutrals, muons. -/
noncomputable def allMismatches (ref out : PFOutputs NT NE NS NM) : List (List Token) :=
  mismatches (SameObj PFChargedObj.hwPt chFields) "PF Charged" chPairs ref.outch out.outch ++
  mismatches (SameObj PFNeutralObj.hwPt neFields) "Photon" nePairs ref.outpho out.outpho ++
  mismatches (SameObj PFNeutralObj.hwPt neFields) "PF Neutral" nePairs ref.outne out.outne ++
  mismatches (SameObj PFChargedObj.hwPt chFields) "PF Muon" chPairs ref.outmu out.outmu

/-- A line for every object. -/
def objectLines {N : Nat} {T : Type} (what : String) (fields : T → List (String × Int)) (a : Arr N T) : List (List Token) :=
  (List.finRange N).map fun i => say what ++ [.num i.val] ++ (fields (a i)).flatMap fun f => say f.1 ++ [.num f.2]

def inputLines (inp : PFInputs NT NC NE NM) : List (List Token) :=
  objectLines "calo" (fun o => [("hwPt", o.hwPt.toInt), ("hwEmPt", o.hwEmPt.toInt), ("hwEta", o.hwEta.toInt), ("hwPhi", o.hwPhi.toInt),
    ("hwIsEM", if o.hwIsEM then 1 else 0)]) inp.hadcalo ++
  objectLines "em" (fun o => [("hwPt", o.hwPt.toInt), ("hwPtErr", o.hwPtErr.toInt), ("hwEta", o.hwEta.toInt), ("hwPhi", o.hwPhi.toInt)]) inp.emcalo ++
  objectLines "track" (fun o => [("hwPt", o.hwPt.toInt), ("hwPtErr", o.hwPtErr.toInt), ("hwEta", o.hwEta.toInt), ("hwPhi", o.hwPhi.toInt),
    ("hwZ0", o.hwZ0.toInt)]) inp.track ++
  objectLines "muon" (fun o => [("hwPt", o.hwPt.toInt), ("hwPtErr", o.hwPtErr.toInt), ("hwEta", o.hwEta.toInt), ("hwPhi", o.hwPhi.toInt)]) inp.mu

def outputLines (out : PFOutputs NT NE NS NM) : List (List Token) :=
  objectLines "charged pf" (fun o => [("hwPt", o.hwPt.toInt), ("hwEta", o.hwEta.toInt), ("hwPhi", o.hwPhi.toInt), ("hwId", o.hwId.toNat),
    ("hwZ0", o.hwZ0.toInt)]) out.outch ++
  objectLines "photon pf" (fun o => [("hwPt", o.hwPt.toInt), ("hwEta", o.hwEta.toInt), ("hwPhi", o.hwPhi.toInt), ("hwId", o.hwId.toNat)]) out.outpho ++
  objectLines "neutral pf" (fun o => [("hwPt", o.hwPt.toInt), ("hwEta", o.hwEta.toInt), ("hwPhi", o.hwPhi.toInt), ("hwId", o.hwId.toNat)]) out.outne ++
  objectLines "muon pf" (fun o => [("hwPt", o.hwPt.toInt), ("hwEta", o.hwEta.toInt), ("hwPhi", o.hwPhi.toInt), ("hwId", o.hwId.toNat)]) out.outmu

/-- The number of objects of positive pt. -/
def nonEmpty {N : Nat} {T : Type} (pt : T → Pt) (a : Arr N T) : Nat := (List.finRange N).countP fun i => decide (0 < (pt (a i)).toInt)

def passedLine (test : Nat) (ref : PFOutputs NT NE NS NM) : List Token :=
  let nch := nonEmpty PFChargedObj.hwPt ref.outch
  let npho := nonEmpty PFNeutralObj.hwPt ref.outpho
  let nneu := nonEmpty PFNeutralObj.hwPt ref.outne
  let nmu := nonEmpty PFChargedObj.hwPt ref.outmu
  say "Passed test" ++ [.num test, .num ((nch + npho + nneu + nmu : Nat) : Int), .num nch, .num npho, .num nneu]

def errorLine (test errors : Nat) : List Token := say "Error in computing test" ++ [.num test, .num errors]

/-- The verdict on a test. -/
noncomputable def verdictLines (test : Nat) (inp : PFInputs NT NC NE NM) (ref out : PFOutputs NT NE NS NM) : List (List Token) :=
  let m := allMismatches ref out
  if m = [] then [passedLine test ref]
  else m ++ [errorLine test m.length, say "Inputs"] ++ inputLines inp ++ [say "Reference output"] ++ outputLines ref ++
    [say "Current output"] ++ outputLines out

/-- The CTP7 serializers count their rows, up to 1024, in every test (`test` from 1), six per event. -/
def ctpLines (test : Nat) : List (List Token) :=
  if 6 * (test - 1) < 1024 then
    let one := ((List.range 6).filter fun j => 6 * (test - 1) + j ≤ 1024).map fun j => say "ipattern =" ++ [.num ((6 * (test - 1) + j : Nat) : Int)]
    one ++ one
  else []

def savedLine (n : Nat) (what fname : String) : List Token :=
  say "Saved" ++ [.num n] ++ say what ++ say "patterns to" ++ [.word (fname.toList ++ ['.'])]

/-! ## A run -/

/-- What a reader finds in a dump: events, and the barrel regions in them with their numbers. -/
inductive Item where
  | event (e : DumpEvent)
  | region (i : Nat) (r : InputRegion)

def regionItems (rs : List InputRegion) (i0 : Nat) : List Item :=
  ((rs.zipIdx i0).filter fun x => !farEta x.1.etaCenter).map fun x => .region x.2 x.1

def items (dump : List DumpEvent) : List Item := dump.flatMap fun e => .event e :: regionItems (e.regions.map keepRegion) 0

/-- The lines of a run of at most `n` tests, the next one with number `test`, given the results of the reference and of the
firmware on the regions.  `extra` is what else is printed in each test. -/
noncomputable def runLines (NC : Nat) (validate : Bool) (extra : Nat → List (List Token)) :
    Nat → Nat → List Item → List (PFOutputs NT NE NS NM × PFOutputs NT NE NS NM) → List (List Token)
  | 0, _, _, _ => []
  | _ + 1, _, [], _ => []
  | n + 1, test, .event e :: is, rs => beginLine e :: runLines NC validate extra (n + 1) test is rs
  | _ + 1, _, .region _ _ :: _, [] => []
  | n + 1, test, .region i r :: is, (ref, out) :: rs =>
    regionLine i r :: (extra test ++
      if validate then
        verdictLines test (regionInputs NT NC NE NM r) ref out ++ (open Classical in if Agree ref out then runLines NC validate extra n (test + 1) is rs else [])
      else runLines NC validate extra n (test + 1) is rs)

end Verif.Spec
