import Verif.Model.Data
/-!
# What the synthesised hardware does with the loops

The pragmas ask for three things the C++ text does not say: registers that all change at the same clock edge
(`ARRAY_PARTITION complete` with unrolled loops), sums done by trees of adders, and calls that start every few clock cycles
before the previous ones have finished (`pipeline II=...`) on a memory with one port (`core=ram_1p`).
Nothing here refers to the model of the code.
-/
namespace Verif.Spec

/-! ### Registers clocked together -/

/-- One clock edge of a row of cells: each computes its new content from the input, its own old content and the old
content of the cell on its left (`none` for the first). -/
def tick {X T : Type} {n : Nat} (cell : X → T → Option T → T) (x : X) (r : Fin n → T) : Fin n → T := fun i =>
  cell x (r i) (if h : i.val = 0 then none else some (r ⟨i.val - 1, by omega⟩))

/-- One clock edge for each input. -/
def ticks {X T : Type} {n : Nat} (cell : X → T → Option T → T) (xs : List X) (r : Fin n → T) : Fin n → T :=
  xs.foldl (fun r x => tick cell x r) r

/-- The cell of a sorter that lets a new object pass before those of equal pt: keep what is above, take what comes
from the left if that makes room, else take the new object. -/
def cellFirst {T : Type} (pt : T → Int) (x : T) (cur : T) : Option T → T
  | none => if pt x < pt cur then cur else x
  | some left => if pt x < pt cur then cur else if pt x < pt left then x else left

/-- The cell of a sorter that puts a new object behind those of equal pt; the object compared is `x.1` and the object stored `x.2`. -/
def cellLast {T : Type} (pt : T → Int) (x : T × T) (cur : T) : Option T → T
  | none => if pt x.1 ≤ pt cur then cur else x.2
  | some left => if pt x.1 ≤ pt cur then cur else if pt x.1 ≤ pt left then x.2 else left

/-! ### Trees of adders -/

/-- A tree of two-input adders over numbered inputs. -/
inductive Adders (n : Nat) where
  | input (i : Fin n)
  | add (l r : Adders n)

/-- The inputs, from left to right. -/
def Adders.inputs {n : Nat} : Adders n → List (Fin n)
  | .input i => [i]
  | .add l r => l.inputs ++ r.inputs

/-- The output of the tree, all wires `w` bits wide. -/
def Adders.output {n w : Nat} (f : Fin n → BitVec w) : Adders n → BitVec w
  | .input i => f i
  | .add l r => l.output f + r.output f

/-- Every input is connected exactly once. -/
def Adders.Complete {n : Nat} (t : Adders n) : Prop := t.inputs.Perm (List.finRange n)

/-! ### A pipelined read-modify-write memory -/

/-- A call that reads one address and writes a value computed from what it read there. -/
structure Access (n : Nat) (T : Type) where
  addr : Fin n
  f : T → T

/-- Call number `k` starts in cycle `II * k`, reads its address in that cycle and writes it `lat` cycles later. How many
of the calls before call `k` have written before it reads. -/
def written (II lat k : Nat) : Nat := ((List.range k).filter (fun j => decide (II * j + lat < II * k))).length

/-- The memory once the first `m` of the calls have written; `none` is a call that does not touch the memory. -/
def pipeline {n : Nat} {T : Type} (II lat : Nat) (calls : List (Option (Access n T))) (h : Fin n → T) : Nat → Fin n → T
  | 0 => h
  | m + 1 => fun b => match calls[m]? with
    | some (some c) => if b = c.addr then c.f (pipeline II lat calls h (min m (written II lat m)) c.addr)
        else pipeline II lat calls h m b
    | _ => pipeline II lat calls h m b
termination_by m => m
decreasing_by all_goals omega

/-- One call on a memory. -/
def access {n : Nat} {T : Type} (h : Fin n → T) : Option (Access n T) → Fin n → T
  | some c => fun b => if b = c.addr then c.f (h c.addr) else h b
  | none => h

/-- The memory after the calls have been made one after the other. -/
def sequential {n : Nat} {T : Type} (calls : List (Option (Access n T))) (h : Fin n → T) : Fin n → T := calls.foldl access h

/-- Two calls are in flight together: the later one reads before the earlier one has written. -/
def Overlap (II lat j k : Nat) : Prop := j < k ∧ II * k ≤ II * j + lat

/-- No cycle has both a read and a write: one port is enough. -/
def OnePort (II lat : Nat) : Prop := ∀ j k, II * j ≠ II * k + lat

end Verif.Spec
