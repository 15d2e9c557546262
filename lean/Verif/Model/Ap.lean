/-!
# C++ / `ap_int` semantics used by the model

The Xilinx `ap_int` library is not part of /repo; this file states the reading of it on which the
model rests.  (See DESIGN.md, section "Numbers".)

* a register `ap_int<W>` or `ap_uint<W>` is a `BitVec W`;
* reading it inside an expression gives the exact integer (`toInt` for `ap_int`, `toNat` for
  `ap_uint`): the library widens intermediate results, so `+`, `-`, `*` are exact;
* storing an integer in a register keeps the low `W` bits (`BitVec.ofInt W`);
* `x >> k` of a signed quantity rounds towards minus infinity.
-/
namespace Verif

/-- Everything that makes a C++ execution undefined, or stops it. -/
inductive Fault where
  /-- array access out of bounds -/
  | oob
  /-- signed `int` overflow -/
  | intOverflow
  /-- failed `assert` -/
  | assertFail
  /-- end of a non-void function reached without `return` -/
  | noReturn
  /-- read of an empty `hls::stream` -/
  | emptyStream
  /-- integer division by zero -/
  | divByZero
  /-- a null `FILE*` given to `fprintf` -/
  | nullFile
  deriving DecidableEq, Repr

/-- A run of C++ code: a value, or a fault. -/
abbrev Run := Except Fault

/-- C array `T a[n]`. -/
abbrev Arr (n : Nat) (α : Type) := Fin n → α

/-- Result of `int` arithmetic: defined only if the exact result fits in 32 bits. -/
def cint (x : Int) : Run Int :=
  if -2147483648 ≤ x ∧ x ≤ 2147483647 then .ok x else .error .intOverflow

/-- Conversion of a wide integer to `int` (implementation-defined, two's complement). -/
def toCInt (x : Int) : Int := x.bmod 4294967296

/-- Store an exact integer into a `W`-bit register. -/
abbrev reg (w : Nat) (x : Int) : BitVec w := BitVec.ofInt w x

/-- Arithmetic shift right (`>>` on `ap_int` and on `int`): floor division. -/
def shr (x : Int) (k : Nat) : Int := x / (2 ^ k : Nat)

/-- `for (int i = 0; i < n; ++i) body` over a state. -/
def loop {n : Nat} {σ : Type} (body : Fin n → σ → σ) (init : σ) : σ :=
  (List.finRange n).foldl (fun s i => body i s) init

/-- `for (int i = n-1; i >= 0; --i) body` over a state. -/
def loopDown {n : Nat} {σ : Type} (body : Fin n → σ → σ) (init : σ) : σ :=
  (List.finRange n).reverse.foldl (fun s i => body i s) init

/-- The same loop when the body may fault. -/
def loopM {n : Nat} {σ : Type} (body : Fin n → σ → Run σ) (init : σ) : Run σ :=
  (List.finRange n).foldlM (fun s i => body i s) init

/-- `for (int i : is) { …; if (…) break; }`: the body returns the new state and whether it breaks. -/
def loopBreak {n : Nat} {σ : Type} (body : Fin n → σ → σ × Bool) : List (Fin n) → σ → σ
  | [], s => s
  | i :: is, s =>
    let r := body i s
    if r.2 then r.1 else loopBreak body is r.1

/-- Fill an array in index order with values whose computation may fault
(`for (i = 0; i < n; ++i) a[i] = f(i);`, all elements overwritten). -/
def buildM {α : Type} : {n : Nat} → (Fin n → Run α) → Run (Arr n α)
  | 0, _ => .ok (fun i => i.elim0)
  | _ + 1, f => do
    let h ← f 0
    let t ← buildM (fun i => f i.succ)
    .ok (Fin.cases h t)

/-- `a[i] = x`. -/
def Arr.set {n : Nat} {α : Type} (a : Arr n α) (i : Fin n) (x : α) : Arr n α :=
  fun j => if j = i then x else a j

/-- `a[k] = x` with a run-time index. -/
def Arr.write {n : Nat} {α : Type} (a : Arr n α) (k : Nat) (x : α) : Run (Arr n α) :=
  if h : k < n then .ok (a.set ⟨k, h⟩ x) else .error .oob

/-- `a[k]` with a run-time index. -/
def Arr.read {n : Nat} {α : Type} (a : Arr n α) (k : Nat) : Run α :=
  if h : k < n then .ok (a ⟨k, h⟩) else .error .oob

/-- `assert(c)`. -/
def cassert (c : Bool) : Run Unit := if c then .ok () else .error .assertFail

end Verif
