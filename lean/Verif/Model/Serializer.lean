import Verif.Model.Data
/-!
# utils/pattern_serializer.{h,cpp}

A pattern file is the list of its rows: the frame number and the words printed on it; the headers and the
decimal/hexadecimal formatting are in `Verif.Model.Text`.  `file_` is assumed open (with an empty file name every
call returns at once).  `unsigned` members that never change are natural numbers, `ipattern_` is a 32-bit
register.  `HumanReadablePatternSerializer`, which only prints, is in `Verif.Model.Text`.
-/
namespace Verif

/-- One row of a pattern file. -/
abbrev PatRow := BitVec 32 × List Word

/-- One event: `MP7DataWord event[MP7_NCHANN]` -/
abbrev MP7Event := Arr 144 Word

/-- The constant members — utils/pattern_serializer.h:43-44 -/
structure MP7Conf where
  nlinks : Nat
  nmux : Nat
  nchann : Nat
  nempty : Nat
  fillmagic : Bool

/-- The varying members and the file — utils/pattern_serializer.h:45-57 -/
structure MP7State (nmux : Nat) where
  ipattern : BitVec 32
  buffer : Arr nmux MP7Event
  rows : List PatRow

/-- Constructor — utils/pattern_serializer.cpp:7-24.  With `nmux = 1` the buffer has no element and is never
used; here it is a zero one. -/
def mp7_new (nmux : Nat) (nempty : Int) (nlinks : Nat) : Run (MP7Conf × MP7State nmux) :=
  if nmux = 0 then .error .divByZero
  else
    let c : MP7Conf :=
      { nlinks := if nlinks ≠ 0 then nlinks else 144 / nmux, nmux := nmux, nchann := 144 / nmux,
        nempty := nempty.natAbs, fillmagic := decide (nempty < 0) }
    let s : MP7State nmux := { ipattern := 0, buffer := fun _ _ => 0, rows := [] }
    if nmux > 1 then do
      cassert (decide (144 % nmux = 0))
      .ok (c, s)
    else .ok (c, s)

/-- `print` — utils/pattern_serializer.cpp:54-62 -/
def mp7_print {n : Nat} (c : MP7Conf) (iframe : BitVec 32) (event : MP7Event) (s : MP7State n) : Run (MP7State n) := do
  let words ← buildM (fun i : Fin c.nlinks => event.read i.val)
  .ok { s with rows := s.rows ++ [(iframe, List.ofFn words)] }

/-- `flush` — utils/pattern_serializer.cpp:73-78 (with `zero`, 79-85) -/
def mp7_flush {n : Nat} (c : MP7Conf) (s : MP7State n) : Run (MP7State n) := do
  let s ← loopM (fun (im : Fin n) (s : MP7State n) =>
    mp7_print c (s.ipattern - BitVec.ofNat 32 n + 1 + BitVec.ofNat 32 im.val) (s.buffer im) s) s
  .ok { s with buffer := fun _ _ => 0 }

/-- `push` — utils/pattern_serializer.cpp:63-72 -/
def mp7_push {n : Nat} (c : MP7Conf) (event : MP7Event) (s : MP7State n) : Run (MP7State n) := do
  let imux := s.ipattern.toNat % n
  let offs := imux * c.nchann
  let (buffer, _) ← loopM (fun (ic : Fin c.nchann) (st : Arr n MP7Event × Nat) =>
    loopM (fun (im : Fin n) (st : Arr n MP7Event × Nat) => do
      let x ← event.read st.2
      let row ← (st.1 im).write (offs + ic.val) x
      .ok (st.1.set im row, st.2 + 1)) st) (s.buffer, 0)
  let s := { s with buffer := buffer }
  if imux = n - 1 then mp7_flush c s else .ok s

/-- `if (nmux_ == 1) print(ipattern_, event); else push(event); ipattern_++;` —
utils/pattern_serializer.cpp:38-40, 48-50 -/
def mp7_emit {n : Nat} (c : MP7Conf) (event : MP7Event) (s : MP7State n) : Run (MP7State n) := do
  let s ← if c.nmux = 1 then mp7_print c s.ipattern event s else mp7_push c event s
  .ok { s with ipattern := s.ipattern + 1 }

/-- The empty or magic event — utils/pattern_serializer.cpp:42-47 -/
def mp7_filler (fillmagic : Bool) (ipattern : BitVec 32) (iempty : Nat) : MP7Event := fun j =>
  if fillmagic then
    ((ipattern <<< 16) &&& 0xFFFF0000#32) ||| ((BitVec.ofNat 32 iempty <<< 8) &&& 0xFF00#32) |||
      (BitVec.ofNat 32 j.val &&& 0xFF#32)
  else 0

/-- `operator()` — utils/pattern_serializer.cpp:35-53 -/
def mp7_call {n : Nat} (c : MP7Conf) (event : MP7Event) (s : MP7State n) : Run (MP7State n) := do
  let s ← mp7_emit c event s
  loopM (fun (iempty : Fin c.nempty) (s : MP7State n) =>
    mp7_emit c (mp7_filler c.fillmagic s.ipattern iempty.val) s) s

/-- Destructor — utils/pattern_serializer.cpp:26-33; returns the rows of the file -/
def mp7_close {n : Nat} (c : MP7Conf) (s : MP7State n) : Run (List PatRow) := do
  let s ← if c.nmux > 1 ∧ s.ipattern.toNat % n ≠ 0 then mp7_flush c s else .ok s
  .ok s.rows

/-- A whole life: construct, write the events, destroy. -/
def mp7_file (nmux : Nat) (nempty : Int) (nlinks : Nat) (events : List MP7Event) : Run (List PatRow) := do
  let (c, s) ← mp7_new nmux nempty nlinks
  let s ← events.foldlM (fun s e => mp7_call c e s) s
  mp7_close c s

/-- State of the CTP7 serializer — utils/pattern_serializer.h:102-118 -/
structure CTP7State where
  ipattern : BitVec 32
  rows : List PatRow

/-- `print`, the five empty rows — utils/pattern_serializer.cpp:221-229; `none` once it has returned -/
def ctp7_empties (nchann : Nat) : Nat → CTP7State × BitVec 32 → CTP7State × BitVec 32
  | 0, s => s
  | j + 1, s =>
    if s.1.ipattern > 1023 then s
    else
      let iframe := s.2 + 1
      ctp7_empties nchann j
        ({ ipattern := s.1.ipattern + 1, rows := s.1.rows ++ [(iframe, List.replicate nchann 0)] }, iframe)

/-- `print` — utils/pattern_serializer.cpp:207-231 -/
def ctp7_print (iframe : BitVec 32) (event : MP7Event) (nchann : Nat) (s : CTP7State) : Run CTP7State :=
  if s.ipattern > 1023 then .ok s
  else do
    let words ← buildM (fun i : Fin nchann => event.read i.val)
    let s : CTP7State := { ipattern := s.ipattern + 1, rows := s.rows ++ [(iframe, List.ofFn words)] }
    .ok (ctp7_empties nchann 5 (s, iframe)).1

/-- `operator()` — utils/pattern_serializer.cpp:201-206 -/
def ctp7_call (nmux : Nat) (event : MP7Event) (nchann : Nat) (s : CTP7State) : Run CTP7State :=
  if s.ipattern > 1023 then .ok s
  else if nmux = 1 then ctp7_print s.ipattern event nchann s
  else .ok s

/-- A whole life — utils/pattern_serializer.cpp:178-199 -/
def ctp7_file (nmux : Nat) (events : List (MP7Event × Nat)) : Run (List PatRow) := do
  let s ← events.foldlM (fun s e => ctp7_call nmux e.1 e.2 s) { ipattern := 0, rows := [] }
  .ok s.rows

end Verif
