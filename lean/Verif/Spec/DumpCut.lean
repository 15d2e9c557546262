import Verif.Spec.Dump
/-! # What a dump that ends too early gives -/
namespace Verif.Spec

/-- A vector after `resize(n)`. -/
def resized {T : Type} [Dump T] (l : List T) (n : BitVec 32) : List T := l.take n.toNat ++ List.replicate (n.toNat - l.length) Dump.zero

/-- A region read when the file has ended, `mem 0` to `mem 3` being what was in memory for the four counts: nothing but the
lengths of its vectors changes. -/
def cutRegion (r : InputRegion) (mem : Nat → BitVec 32) : InputRegion :=
  keepRegion { r with calo := resized r.calo (mem 0), emcalo := resized r.emcalo (mem 1), track := resized r.track (mem 2), muon := resized r.muon (mem 3) }

/-- The same for a list of regions. -/
def cutRegions : List InputRegion → (Nat → BitVec 32) → List InputRegion
  | [], _ => []
  | r :: rs, mem => cutRegion r mem :: cutRegions rs fun i => mem (i + 4)

/-- The beginning of an event, up to the number of its regions. -/
def headerBytes (run lumi : BitVec 32) (event : BitVec 64) : List Byte := leBytes 4 run ++ leBytes 4 lumi ++ leBytes 8 event

end Verif.Spec
