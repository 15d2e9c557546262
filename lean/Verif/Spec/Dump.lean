import Verif.Model.Convert
/-! # What dump files contain -/
namespace Verif.Spec

/-- Value of bytes, least significant first. -/
def leVal : List Byte → Nat
  | [] => 0
  | b :: bs => b.toNat + 256 * leVal bs

/-- What survives of a cluster: everything but `used`. -/
def keepCluster (c : CaloCluster) : CaloCluster := { c with used := false }

/-- What survives of a track: everything but the transient flags. -/
def keepTrack (t : PropagatedTrack) : PropagatedTrack := { t with muonLink := false, used := false, fromPV := false }

/-- What survives of a region. -/
def keepRegion (r : InputRegion) : InputRegion :=
  { r with calo := r.calo.map keepCluster, emcalo := r.emcalo.map keepCluster, track := r.track.map keepTrack }

/-- Regions whose vectors have 32-bit sizes. -/
def regionFits (r : InputRegion) : Prop :=
  r.calo.length < 2 ^ 32 ∧ r.emcalo.length < 2 ^ 32 ∧ r.track.length < 2 ^ 32 ∧ r.muon.length < 2 ^ 32

/-- The format of an event in a dump. -/
def eventBytes (e : DumpEvent) : List Byte :=
  leBytes 4 e.run ++ leBytes 4 e.lumi ++ leBytes 8 e.event ++ writeMany e.regions ++ leBytes 4 e.z0 ++
    leBytes 4 e.genZ0 ++ leBytes 4 e.alphaCMed ++ leBytes 4 e.alphaCRms ++ leBytes 4 e.alphaFMed ++ leBytes 4 e.alphaFRms

def storedEvent (e : DumpEvent) : DumpEvent := { e with regions := e.regions.map keepRegion }

/-- Events whose vectors have 32-bit sizes. -/
def eventFits (e : DumpEvent) : Prop := e.regions.length < 2 ^ 32 ∧ ∀ r ∈ e.regions, regionFits r

/-- Magnitude of a finite `float`, in units of `2^-149`. -/
def floatMag (x : BitVec 32) : Nat :=
  let e := x.toNat / 2 ^ 23 % 2 ^ 8
  let m := x.toNat % 2 ^ 23
  if e = 0 then m else (2 ^ 23 + m) * 2 ^ (e - 1)

/-- `|x| > 1.5`: finite and above `1.5 = 3 * 2^148` units, or infinite. -/
def beyond (x : BitVec 32) : Prop :=
  let e := x.toNat / 2 ^ 23 % 2 ^ 8
  let m := x.toNat % 2 ^ 23
  (e < 255 ∧ floatMag x > 3 * 2 ^ 148) ∨ (e = 255 ∧ m = 0)

/-- Regions to deliver: those of the barrel, with the vertex of their event. -/
def barrel (evs : List DumpEvent) : List (InputRegion × BitVec 32) :=
  evs.flatMap fun e => (e.regions.filter fun r => !farEta r.etaCenter).map fun r => (keepRegion r, e.z0)

/-- The first `N` converted objects, padded. -/
def padded {A B : Type} (N : Nat) (conv : A → B) (clear : B) (l : List A) : Arr N B :=
  fun i => match l[i.val]? with
    | some x => conv x
    | none => clear

/-- The input arrays for a region. -/
def regionInputs (NT NC NE NM : Nat) (r : InputRegion) : PFInputs NT NC NE NM :=
  { track := padded NT fw_track TkObj.clear r.track
    hadcalo := padded NC fw_had HadCaloObj.clear r.calo
    emcalo := padded NE fw_em EmCaloObj.clear r.emcalo
    mu := padded NM fw_mu MuObj.clear r.muon }

/-- The results of `n` successive calls of `nextRegion`. -/
def calls {NT NC NE NM : Nat} (fall : Option Bool) (zpv : BitVec 32 → Z0) : Nat → DumpReader → PFInputs NT NC NE NM → Z0 →
    Run (List (Option (PFInputs NT NC NE NM × Z0)))
  | 0, _, _, _ => .ok []
  | n + 1, s, inp, z => do
    let (b, s, inp, z) ← s.nextRegion fall zpv inp z
    let rest ← calls fall zpv n s inp z
    .ok ((if b then some (inp, z) else none) :: rest)

end Verif.Spec
