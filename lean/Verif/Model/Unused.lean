import Verif.Model.Convert
import Verif.Model.Regionizer
import Verif.Model.PFRef
/-!
# Code that nothing calls

`operator<` of the discrete objects is there for `std::sort` in the program that writes the dumps; `deserialize_ptsort` is under
`#if 0`; `link_ref` is a template that is never instantiated, and `dummy` is a function that is never called.
-/
namespace Verif

/-- `operator<` of `CaloCluster`, `PropagatedTrack`, `Muon` and `PFParticle`, in terms of the two `int16_t hwPt` —
DiscretePFInputs.h:32, 155, 207, 257 -/
def ptBefore (a b : BitVec 16) : Bool := decide (a.toInt > b.toInt)

/-- DiscretePFInputs.h:32 -/
def CaloCluster.before (a b : CaloCluster) : Bool := ptBefore a.hwPt b.hwPt
/-- DiscretePFInputs.h:155 -/
def PropagatedTrack.before (a b : PropagatedTrack) : Bool := ptBefore a.hwPt b.hwPt
/-- DiscretePFInputs.h:207 -/
def Muon.before (a b : Muon) : Bool := ptBefore a.hwPt b.hwPt
/-- DiscretePFInputs.h:257 -/
def PFParticle.before (a b : PFParticle) : Bool := ptBefore a.hwPt b.hwPt

/-- `dummy` — vertexing/firmware/bram_hist_vtx.cpp:43 -/
def bhv_dummy (z0 : Z0) : Bool := decide (z0.toInt > 0)

/-- One read of the stream, and the object goes into the array — regionizer.cpp:11-17 -/
def deserialize_step {T : Type} [RegObj T] {N : Nat} (s : List T × Arr N T) : Run (List T × Arr N T) :=
  match s.1 with
  | [] => .error .emptyStream
  | inn :: rest => .ok (rest, push_in inn s.2)

/-- `deserialize_ptsort` — regionizer/firmware/regionizer.cpp:5-19: what is left of the stream, and `out` -/
def deserialize_ptsort {T : Type} [RegObj T] {N : Nat} (instream : List T) (out : Arr N T) : Run (List T × Arr N T) :=
  loopM (fun (_ : Fin N) s => deserialize_step s) (instream, out)

/-- A row of link bits: all zero, and then the bit of the match — simple_fullpfalgo_ref.cpp:60-61.  Bits beyond the word are
out of bounds. -/
def link_bits (NCAL : Nat) (ibest : Option Nat) : Run (Arr NCAL Bool) :=
  match ibest with
  | none => .ok (fun _ => false)
  | some i => Arr.write (fun _ => false) i true

/-- `link_ref<NCAL,DR2MAX,true,HadCaloObj>` — simple_fullpfalgo_ref.cpp:56-63.  The search goes over `NCALO` clusters (the size of
the calorimeter array of the build), whatever `NCAL` is.  (All the reads come first here; they have no side effects.) -/
def link_ref_calo (NCALO : Nat) {NCAL NT : Nat} (DR2MAX : Int) (calo : Arr NCAL HadCaloObj) (track : Arr NT TkObj) :
    Run (Arr NT (Arr NCAL Bool)) :=
  buildM fun it => do
    let seen ← buildM (fun ic : Fin NCALO => calo.read ic.val)
    link_bits NCAL ((best_match_ref_calo DR2MAX seen (track it)).map Fin.val)

/-- `link_ref<NCAL,DR2MAX,false,EmCaloObj>` — simple_fullpfalgo_ref.cpp:56-63; as above -/
def link_ref_em (NCALO : Nat) {NCAL NT : Nat} (DR2MAX : Int) (calo : Arr NCAL EmCaloObj) (track : Arr NT TkObj) :
    Run (Arr NT (Arr NCAL Bool)) :=
  buildM fun it => do
    let seen ← buildM (fun ic : Fin NCALO => calo.read ic.val)
    link_bits NCAL ((best_match_ref_em DR2MAX seen (track it)).map Fin.val)

end Verif
