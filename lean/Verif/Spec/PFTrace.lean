import Verif.Model.PFRefDebug
import Verif.Spec.PFGhosts
import Verif.Spec.VertexTestOutput
import Verif.Spec.Discrete
/-!
# What the reference should say when debugging

A trace is a list of lines; a line is a list of phrases, integers and numbers with two decimals.  The text is read as lines of words and
numbers (`Verif.Spec.PFTestOutput`).  The decisions in a trace are those of the specification of the algorithm (`Verif.Spec.PF`).
-/
open Classical

namespace Verif.Spec
variable {NT NC NE NM : Nat}

/-- What is assumed of the floating-point types and of `printf`: rounding to nearest, with any rule for ties. -/
structure PrintsCents (F : DebugText) : Prop where
  ieee : IEEE F.R
  nearest : ∀ x : ℝ, 0 ≤ x → |(F.hundredths x : ℝ) - 100 * x| ≤ 1 / 2

/-- A number with decimals, with or without a sign. -/
def signedDecimal : List Char → Option ℚ
  | '-' :: s => (decimal s).map fun q => -q
  | '+' :: s => decimal s
  | s => decimal s

/-- The word is a number of hundredths, at most `tol` from `x`. -/
def Cents (w : List Char) (x tol : ℝ) : Prop := ∃ n : ℤ, signedDecimal w = some (n / 100 : ℚ) ∧ |(n : ℝ) / 100 - x| ≤ tol

/-- A part of a line. -/
inductive Piece where
  | say (s : String)
  | int (n : Int)
  | dec (x tol : ℝ)

/-- The words of a line are those of a trace. -/
def LineReads : List Piece → List Token → Prop
  | [], ts => ts = []
  | .say s :: ps, ts => ∃ rest, ts = say s ++ rest ∧ LineReads ps rest
  | .int n :: ps, ts => ∃ rest, ts = .num n :: rest ∧ LineReads ps rest
  | .dec x tol :: ps, ts => ∃ w rest, ts = .word w :: rest ∧ Cents w x tol ∧ LineReads ps rest

/-- The lines of a text are those of a trace. -/
def TextReads (trace : List (List Piece)) (text : List Char) : Prop := List.Forall₂ LineReads trace (report text)

/-! ## The parts -/

/-- A pt, and its value in GeV, exactly. -/
noncomputable def ptPieces (n : Int) : List Piece := [.int n, .dec (n / 4) 0]

/-- An angle, and its value in radians. -/
noncomputable def anglePieces (n : Int) : List Piece := [.int n, .dec (n * quarterDegree) (1 / 200 + 1 / 10 ^ 6)]

/-- A root: two decimals, and the digits of a `float`. -/
noncomputable def rootPiece (sign : ℝ) (n : Int) : Piece := .dec (sign * √n) (1 / 200 + √n / 2 ^ 22)

noncomputable def flag (b : Prop) : Int := if b then 1 else 0

/-- A line if `p`. -/
noncomputable def lineIf (p : Prop) (l : List Piece) : List (List Piece) := if p then [l] else []

/-- Lines for every index. -/
def forAll (n : Nat) (f : Fin n → List (List Piece)) : List (List Piece) := (List.finRange n).flatMap f

variable (inp : PFInputs NT NC NE NM)

/-! ## Inputs -/

noncomputable def inputTrace : List (List Piece) :=
  (forAll NT fun i => lineIf ((inp.track i).hwPt ≠ 0) <|
    [.say "FW \t track", .int i.val, .say "pt"] ++ ptPieces (inp.track i).hwPt.toInt ++ [.say "calo eta"] ++ anglePieces (inp.track i).hwEta.toInt ++
      [.say "calo phi"] ++ anglePieces (inp.track i).hwPhi.toInt ++ [.say "calo ptErr"] ++ ptPieces (inp.track i).hwPtErr.toInt) ++
  (forAll NE fun i => lineIf ((inp.emcalo i).hwPt ≠ 0) <|
    [.say "FW \t EM", .int i.val, .say "pt"] ++ ptPieces (inp.emcalo i).hwPt.toInt ++ [.say "calo eta"] ++ anglePieces (inp.emcalo i).hwEta.toInt ++
      [.say "calo phi"] ++ anglePieces (inp.emcalo i).hwPhi.toInt ++ [.say "calo ptErr"] ++ ptPieces (inp.emcalo i).hwPtErr.toInt) ++
  (forAll NC fun i => lineIf ((inp.hadcalo i).hwPt ≠ 0) <|
    [.say "FW \t calo", .int i.val, .say "pt"] ++ ptPieces (inp.hadcalo i).hwPt.toInt ++ [.say "calo eta"] ++ anglePieces (inp.hadcalo i).hwEta.toInt ++
      [.say "calo phi"] ++ anglePieces (inp.hadcalo i).hwPhi.toInt ++ [.say "calo emPt"] ++ ptPieces (inp.hadcalo i).hwEmPt.toInt ++
      [.say "isEM", .int (flag ((inp.hadcalo i).hwIsEM = true))]) ++
  (forAll NM fun i => lineIf ((inp.mu i).hwPt ≠ 0) <|
    [.say "FW \t muon", .int i.val, .say "pt"] ++ ptPieces (inp.mu i).hwPt.toInt ++ [.say "muon eta"] ++ anglePieces (inp.mu i).hwEta.toInt ++
      [.say "muon phi"] ++ anglePieces (inp.mu i).hwPhi.toInt)

/-! ## Decisions -/

/-- Every muon, with its track. -/
noncomputable def muTrace (m : Fin NM) : List (List Piece) :=
  (forAll NT fun t => lineIf (MuMatch inp m t) [.say "FW \t muon", .int m.val, .say "linked to track", .int t.val]) ++
  lineIf (0 < (inp.mu m).hwPt.toInt ∧ ¬ ∃ t, MuMatch inp m t) [.say "FW \t muon", .int m.val, .say "not linked to any track"]

/-- Every track that has an EM cluster. -/
noncomputable def tkEmTrace (t : Fin NT) : List (List Piece) :=
  forAll NE fun c => lineIf (0 < (inp.track t).hwPt.toInt ∧ EmMatch inp t c)
    [.say "FW \t track", .int t.val, .say "pt", .int (inp.track t).hwPt.toInt, .say "matched to em calo", .int c.val, .say "pt", .int (inp.emcalo c).hwPt.toInt]

/-- Every EM cluster, with the pt of its tracks. -/
noncomputable def sumTrace (c : Fin NE) : List (List Piece) :=
  lineIf (0 < (inp.emcalo c).hwPt.toInt)
    [.say "FW \t emcalo", .int c.val, .say "pt", .int (inp.emcalo c).hwPt.toInt, .say "has sumtk", .int (emTrackPt inp c)]

/-- The nature of every EM cluster: a photon if it has no track; otherwise an electron, an electron and a photon or a pion. -/
noncomputable def emTrace (c : Fin NE) : List (List Piece) :=
  lineIf (emTrackPt inp c ≠ 0)
    ([.say "FW \t emcalo", .int c.val, .say "pt", .int (inp.emcalo c).hwPt.toInt, .say "ptdiff", .int (emDiff inp c),
      .say "match window", rootPiece (-1) (4 * emErr2 inp c), .say "/", rootPiece 1 (3 * emErr2 inp c / 2)] ++
      .say "flagged as" ::
      (if ¬ IsEM inp c then [.say "pion"]
       else if photonPt inp c = 0 then [.say "electron"]
       else [.say "electron + photon of pt", .int (photonPt inp c)])) ++
  lineIf (emTrackPt inp c = 0 ∧ 0 < (inp.emcalo c).hwPt.toInt)
    [.say "FW \t emcalo", .int c.val, .say "pt", .int (inp.emcalo c).hwPt.toInt, .say "flagged as photon"]

/-- Every electron. -/
noncomputable def eleTrace (t : Fin NT) : List (List Piece) :=
  lineIf (0 < (inp.track t).hwPt.toInt ∧ IsEle inp t)
    [.say "FW \t track", .int t.val, .say "pt", .int (inp.track t).hwPt.toInt, .say "flagged as electron."]

/-- Every EM cluster, with its calorimeter cluster. -/
noncomputable def emHadTrace (c : Fin NE) : List (List Piece) :=
  let start : List Piece := [.say "FW \t emcalo", .int c.val, .say "pt", .int (inp.emcalo c).hwPt.toInt, .say "isEM", .int (flag (IsEM inp c)),
    .say "matched to hadcalo"]
  (forAll NC fun h => lineIf (0 < (inp.emcalo c).hwPt.toInt ∧ HadMatch inp c h) <|
    start ++ [.int h.val, .say "pt", .int (inp.hadcalo h).hwPt.toInt, .say "emPt", .int (inp.hadcalo h).hwEmPt.toInt,
      .say "isEM", .int (flag ((inp.hadcalo h).hwIsEM = true))]) ++
  lineIf (0 < (inp.emcalo c).hwPt.toInt ∧ ¬ ∃ h, HadMatch inp c h)
    (start ++ [.int (-1), .say "pt", .int (-1), .say "emPt", .int (-1), .say "isEM", .int 0])

/-- Every calorimeter cluster, with what the EM clusters leave of it. -/
noncomputable def hadTrace (h : Fin NC) : List (List Piece) :=
  let start : List Piece := [.say "FW \t calo", .int h.val, .say "pt", .int (inp.hadcalo h).hwPt.toInt]
  let small := 16 * ((inp.hadcalo h).hwPt.toInt - emSub inp h) ≤ (inp.hadcalo h).hwPt.toInt
  let pos := 0 < (inp.hadcalo h).hwPt.toInt
  lineIf pos (start ++ [.say "has a subtracted pt of", .int ((inp.hadcalo h).hwPt.toInt - emSub inp h), .say "empt", .int (inp.hadcalo h).hwEmPt.toInt,
    .say "->", .int ((inp.hadcalo h).hwEmPt.toInt - emSub inp h), .say "isem", .int (flag ((inp.hadcalo h).hwIsEM = true)),
    .say "keep", .int (flag (HasHadronicEM inp h))]) ++
  (lineIf (pos ∧ small) (start ++ [.say "--> discarded zero pt"]) ++
  lineIf (pos ∧ ¬ small ∧ Removed inp refVariant h) (start ++ [.say "--> discarded zero em"]))

/-- Every track that is linked to what is left of a calorimeter cluster. -/
noncomputable def tkHadTrace (t : Fin NT) : List (List Piece) :=
  forAll NC fun h => lineIf (0 < (inp.track t).hwPt.toInt ∧ HadronLink inp refVariant t h)
    [.say "FW \t track", .int t.val, .say "pt", .int (inp.track t).hwPt.toInt, .say "matched to calo'", .int h.val, .say "pt", .int (hadPt inp refVariant h)]

/-- What is left of every calorimeter cluster: the pt of its tracks, and the neutral pt. -/
noncomputable def neutralTrace (more : Bool) (h : Fin NC) : List (List Piece) :=
  let pos := 0 < hadPt inp refVariant h
  lineIf (pos ∧ more = true ∧ 0 < caloTrackPt inp refVariant h)
    ([.say "FW \t calo'", .int h.val, .say "pt"] ++ ptPieces (hadPt inp refVariant h) ++ [.say "eta"] ++ anglePieces (inp.hadcalo h).hwEta.toInt ++
      [.say "has a sum track pt", .int (caloTrackPt inp refVariant h), .say "difference", .int (caloDiff inp refVariant h),
       .say "+-", rootPiece 1 (caloTrackErr2 (noGhosts inp) refVariant h)]) ++
  lineIf pos [.say "FW \t calo'", .int h.val, .say "pt", .int (hadPt inp refVariant h), .say "--->", .int (neutralPt (noGhosts inp) refVariant h)]

/-- Everything, in order; `more` adds the inputs and the sums of the tracks. -/
noncomputable def pfTrace (more : Bool) : List (List Piece) :=
  (if more then inputTrace inp else []) ++ (forAll NM (muTrace inp) ++ ((forAll NT (tkEmTrace inp) ++ (forAll NE (sumTrace inp) ++
    (forAll NE (emTrace inp) ++ (forAll NT (eleTrace inp) ++ (forAll NE (emHadTrace inp) ++ forAll NC (hadTrace inp)))))) ++
    (forAll NT (tkHadTrace inp) ++ forAll NC (neutralTrace inp more))))

end Verif.Spec
