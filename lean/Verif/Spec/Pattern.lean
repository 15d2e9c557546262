import Verif.Model.Serializer
/-! # What pattern files contain -/
namespace Verif.Spec

/-- Word `w` of event `e`; zero if there is no such event. -/
def evWord (P : List MP7Event) (e w : Nat) : Word :=
  match P[e]? with
  | some ev => if h : w < 144 then ev ⟨w, h⟩ else 0
  | none => 0

/-- The layout documented in utils/pattern_serializer.h:8-19: in frame `r` the words of the events of group
`r / nmux`; the links of event `m` of the group are `m * nchann`, ..., and link `c` of an event carries
its word `c * nmux + r % nmux`. -/
def rowWords (nmux nlinks : Nat) (P : List MP7Event) (r : Nat) : List Word :=
  (List.range nlinks).map fun i =>
    evWord P ((r / nmux) * nmux + i / (144 / nmux)) ((i % (144 / nmux)) * nmux + r % nmux)

/-- Filler event at position `p`, `k`-th after a real event: zeros, or 16 bits of `p`, 8 bits of `k` and 8 bits
of the word number. -/
def filler (magic : Bool) (p k : Nat) : MP7Event := fun j =>
  if magic then BitVec.ofNat 16 p ++ (BitVec.ofNat 8 k ++ BitVec.ofNat 8 j.val) else 0

/-- The events with `nempty` fillers after each. -/
def stream (nempty : Nat) (magic : Bool) (evs : List MP7Event) : List MP7Event :=
  (List.range (evs.length * (nempty + 1))).map fun p =>
    if p % (nempty + 1) = 0 then evs.getD (p / (nempty + 1)) (fun _ => 0)
    else filler magic p (p % (nempty + 1) - 1)

/-- Row `i` of a CTP7 file: the words of an event every sixth row. -/
def ctpRow (evs : List (MP7Event × Nat)) (i : Nat) : List Word :=
  match evs[i / 6]? with
  | some (ev, n) => if i % 6 = 0 then (List.range n).map (fun w => if h : w < 144 then ev ⟨w, h⟩ else 0)
      else List.replicate n 0
  | none => []

end Verif.Spec
