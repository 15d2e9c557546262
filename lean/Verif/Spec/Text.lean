/-!
# Reading text back

Written against what the files are supposed to look like, without reference to how they are printed.
-/
namespace Verif.Spec

/-- The value of a digit. -/
def digitVal (c : Char) : Option Nat := "0123456789abcdef".toList.idxOf? c

/-- The number written in base `b`. -/
def number (b : Nat) : List Char → Option Nat
  | [] => none
  | c :: cs => (c :: cs).foldlM (fun n c => do
      let d ← digitVal c
      if d < b then some (b * n + d) else none) 0

/-- An integer, with or without a sign. -/
def int : List Char → Option Int
  | '-' :: cs => (number 10 cs).map fun (n : Nat) => -(n : Int)
  | '+' :: cs => (number 10 cs).map fun (n : Nat) => (n : Int)
  | cs => (number 10 cs).map fun (n : Nat) => (n : Int)

/-- The pieces between separators. -/
def split (sep : Char → Bool) : List Char → List (List Char)
  | [] => [[]]
  | c :: cs =>
    if sep c then [] :: split sep cs
    else match split sep cs with
      | [] => [[c]]
      | w :: ws => (c :: w) :: ws

/-- What separates the words of a line. -/
def isSep (c : Char) : Bool := c == ' ' || c == ',' || c == ':' || c == '\n'

/-- The integers in a text, in order. -/
def ints (s : List Char) : List Int := (split isSep s).filterMap int

/-- The lines of a text that ends with the end of a line. -/
def lines (s : List Char) : List (List Char) := (split (· == '\n') s).dropLast

/-- A word of a pattern file: a two-character prefix and eight hexadecimal digits. -/
def hexWord (a b : Char) : List Char → Option Nat
  | x :: y :: ds => if x = a ∧ y = b ∧ ds.length = 8 then number 16 ds else none
  | _ => none

/-- A row of an MP7 pattern file: `Frame <number> : 1v<word> 1v<word> …` -/
def mp7Row (line : List Char) : Option (Nat × List Nat) :=
  match split (· == ' ') line with
  | f :: n :: c :: ws => if f = "Frame".toList ∧ c = ":".toList then do
      let n ← number 10 n
      let ws ← ws.mapM (hexWord '1' 'v')
      some (n, ws)
    else none
  | _ => none

/-- An MP7 pattern file: three lines of header and the rows. -/
def mp7Read (s : List Char) : Option (List (Nat × List Nat)) := ((lines s).drop 3).mapM mp7Row

/-- A row of a CTP7 pattern file: `0x<number> 0x<word> 0x<word> …` -/
def ctp7Row (line : List Char) : Option (Nat × List Nat) :=
  match split (· == ' ') line with
  | ('0' :: 'x' :: n) :: ws => do
      let n ← number 16 n
      let ws ← ws.mapM (hexWord '0' 'x')
      some (n, ws)
  | _ => none

/-- A CTP7 pattern file: three lines of header and the rows. -/
def ctp7Read (s : List Char) : Option (List (Nat × List Nat)) := ((lines s).drop 3).mapM ctp7Row

/-- A label of a link: a prefix of letters and the number. -/
def label (pre : List Char) (s : List Char) : Option Nat := if pre.isPrefixOf s then number 10 (s.drop pre.length) else none

/-- The header of an MP7 pattern file: the name of the board. -/
def mp7Board (s : List Char) : Option (List Char) :=
  match lines s with
  | l :: _ => if "Board ".toList.isPrefixOf l then some (l.drop 6) else none
  | _ => none

/-- The header of a CTP7 pattern file: between two rulers of 120 characters, the direction and the links. -/
def ctp7Header (s : List Char) : Option (Bool × List Nat) :=
  match lines s with
  | r :: l :: r' :: _ =>
    if r = List.replicate 120 '=' ∧ r' = List.replicate 120 '=' then
      match split (· == ' ') l with
      | d :: ws => do
        let b ← if d = "Input".toList then some true else if d = "Output".toList then some false else none
        let ns ← ws.dropLast.mapM (label "LINK_".toList)
        some (b, ns)
      | _ => none
    else none
  | _ => none

/-- `s` stands at column `col` (from 0) of the line. -/
def At (line : List Char) (col : Nat) (s : List Char) : Prop := s <+: line.drop col

end Verif.Spec

namespace Verif.Spec

/-- Event `k` of a pattern file in which an event takes `nmux` rows: word `w` stands in row `w % nmux` of it, on link `w / nmux`. -/
def fileEvent (nmux k : Nat) (rows : List (Nat × List Nat)) : Option (List Nat) :=
  (List.range 144).mapM fun w => rows[k * nmux + w % nmux]?.bind fun r => r.2[w / nmux]?

end Verif.Spec
