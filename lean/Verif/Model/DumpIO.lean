import Verif.Model.Data
/-!
# DiscretePFInputs.h and utils/DiscretePFInputs_IO.h: the region dump files

A `FILE*` open for reading is what is left of its bytes, its end-of-file flag and a supply of arbitrary values
for the uninitialised local variables that are read into.  The host is little-endian (as the dumps are).
`float`s are their 32-bit patterns.  A `bool` is read as one byte and is true if that is not zero (a byte other
than 0 and 1, which `writeToFile` never produces, would be an invalid `bool`).  I/O errors other than end of
file and failing allocation are not modelled.  The `printf`s are in `Verif.Model.PFTestOutput`, the conversions from
floating point (`fill`, `fillInput`, ..., not used by this repository) in `Verif.Model.Discrete`.
-/
namespace Verif

abbrev Byte := BitVec 8

/-- A file being read. -/
structure CFile where
  bytes : List Byte
  eof : Bool
  junk : Nat → BitVec 32

/-- The bytes of a `k`-byte integer in memory. -/
def leBytes (k : Nat) (v : BitVec (8 * k)) : List Byte :=
  (List.range k).map fun i => v.extractLsb' (8 * i) 8

/-- The `k`-byte integer with the given bytes. -/
def ofLeBytes (k : Nat) (bs : List Byte) : BitVec (8 * k) :=
  BitVec.ofNat (8 * k) (bs.foldr (fun b acc => b.toNat + 256 * acc) 0)

/-- `fread(&x, k, 1, file)`: the number of items read (1 or 0, as a `bool`), the new value of `x`, the file.
When fewer than `k` bytes are left they are used up, `x` gets them in its low bytes (as glibc does; the C
standard leaves `x` indeterminate) and the end-of-file flag is set. -/
def fread1 (k : Nat) (x : BitVec (8 * k)) (f : CFile) : Bool × BitVec (8 * k) × CFile :=
  if k ≤ f.bytes.length then (true, ofLeBytes k (f.bytes.take k), { f with bytes := f.bytes.drop k })
  else (false, ofLeBytes k (f.bytes ++ (leBytes k x).drop f.bytes.length), { f with bytes := [], eof := true })

/-- A computation reading a file. -/
abbrev Rd := StateM CFile

/-- `fread` with the result ignored. -/
def rd (k : Nat) (x : BitVec (8 * k)) : Rd (BitVec (8 * k)) := fun f => (fread1 k x f).2

/-- `fread(&b, 1, 1, file)` for a `bool` -/
def rdBool (b : Bool) : Rd Bool := do
  let x ← rd 1 (if b then 1 else 0)
  pure (x != 0)

/-- `fwrite(&b, 1, 1, file)` for a `bool` -/
def boolBytes (b : Bool) : List Byte := leBytes 1 (if b then 1 else 0)

/-- Objects stored in dump files. -/
class Dump (T : Type) where
  /-- the value-initialised object `T()` -/
  zero : T
  /-- `writeToFile`: the bytes appended -/
  write : T → List Byte
  /-- `readFromFile` -/
  read : T → Rd T

/-- `CaloCluster` — DiscretePFInputs.h:22-29 -/
structure CaloCluster where
  hwPt : BitVec 16
  hwEmPt : BitVec 16
  hwPtErr : BitVec 16
  hwEta : BitVec 16
  hwPhi : BitVec 16
  hwFlags : BitVec 16
  isEM : Bool
  used : Bool
  deriving DecidableEq, Repr

/-- `CaloCluster::writeToFile`, `readFromFile` — DiscretePFInputs.h:63-82 -/
instance : Dump CaloCluster where
  zero := ⟨0, 0, 0, 0, 0, 0, false, false⟩
  write c := leBytes 2 c.hwPt ++ leBytes 2 c.hwEmPt ++ leBytes 2 c.hwPtErr ++ leBytes 2 c.hwEta ++
    leBytes 2 c.hwPhi ++ leBytes 2 c.hwFlags ++ boolBytes c.isEM
  read c := do
    let hwPt ← rd 2 c.hwPt
    let hwEmPt ← rd 2 c.hwEmPt
    let hwPtErr ← rd 2 c.hwPtErr
    let hwEta ← rd 2 c.hwEta
    let hwPhi ← rd 2 c.hwPhi
    let hwFlags ← rd 2 c.hwFlags
    let isEM ← rdBool c.isEM
    pure ⟨hwPt, hwEmPt, hwPtErr, hwEta, hwPhi, hwFlags, isEM, false⟩

/-- `InputTrack` — DiscretePFInputs.h:87-94 -/
structure InputTrack where
  hwInvpt : BitVec 16
  hwVtxEta : BitVec 32
  hwVtxPhi : BitVec 32
  hwCharge : Bool
  hwZ0 : BitVec 16
  hwChi2 : BitVec 16
  hwStubs : BitVec 16
  hwFlags : BitVec 16
  deriving DecidableEq, Repr

/-- `InputTrack::writeToFile`, `readFromFile` — DiscretePFInputs.h:121-140 -/
instance : Dump InputTrack where
  zero := ⟨0, 0, 0, false, 0, 0, 0, 0⟩
  write t := leBytes 2 t.hwInvpt ++ leBytes 4 t.hwVtxEta ++ leBytes 4 t.hwVtxPhi ++ boolBytes t.hwCharge ++
    leBytes 2 t.hwZ0 ++ leBytes 2 t.hwChi2 ++ leBytes 2 t.hwStubs ++ leBytes 2 t.hwFlags
  read t := do
    let hwInvpt ← rd 2 t.hwInvpt
    let hwVtxEta ← rd 4 t.hwVtxEta
    let hwVtxPhi ← rd 4 t.hwVtxPhi
    let hwCharge ← rdBool t.hwCharge
    let hwZ0 ← rd 2 t.hwZ0
    let hwChi2 ← rd 2 t.hwChi2
    let hwStubs ← rd 2 t.hwStubs
    let hwFlags ← rd 2 t.hwFlags
    pure ⟨hwInvpt, hwVtxEta, hwVtxPhi, hwCharge, hwZ0, hwChi2, hwStubs, hwFlags⟩

/-- `PropagatedTrack` — DiscretePFInputs.h:144-152 -/
structure PropagatedTrack extends InputTrack where
  hwPt : BitVec 16
  hwPtErr : BitVec 16
  hwCaloPtErr : BitVec 16
  hwEta : BitVec 16
  hwPhi : BitVec 16
  muonLink : Bool
  used : Bool
  fromPV : Bool
  deriving DecidableEq, Repr

/-- `PropagatedTrack::writeToFile`, `readFromFile` — DiscretePFInputs.h:176-193 -/
instance : Dump PropagatedTrack where
  zero := ⟨Dump.zero, 0, 0, 0, 0, 0, false, false, false⟩
  write t := Dump.write t.toInputTrack ++ leBytes 2 t.hwPt ++ leBytes 2 t.hwPtErr ++ leBytes 2 t.hwCaloPtErr ++
    leBytes 2 t.hwEta ++ leBytes 2 t.hwPhi
  read t := do
    let base ← Dump.read t.toInputTrack
    let hwPt ← rd 2 t.hwPt
    let hwPtErr ← rd 2 t.hwPtErr
    let hwCaloPtErr ← rd 2 t.hwCaloPtErr
    let hwEta ← rd 2 t.hwEta
    let hwPhi ← rd 2 t.hwPhi
    pure ⟨base, hwPt, hwPtErr, hwCaloPtErr, hwEta, hwPhi, false, false, false⟩

/-- `Muon` — DiscretePFInputs.h:199-204 -/
structure Muon where
  hwPt : BitVec 16
  hwEta : BitVec 16
  hwPhi : BitVec 16
  hwFlags : BitVec 16
  hwCharge : Bool
  deriving DecidableEq, Repr

/-- `Muon::writeToFile`, `readFromFile` — DiscretePFInputs.h:225-238 -/
instance : Dump Muon where
  zero := ⟨0, 0, 0, 0, false⟩
  write m := leBytes 2 m.hwPt ++ leBytes 2 m.hwEta ++ leBytes 2 m.hwPhi ++ leBytes 2 m.hwFlags ++ boolBytes m.hwCharge
  read m := do
    let hwPt ← rd 2 m.hwPt
    let hwEta ← rd 2 m.hwEta
    let hwPhi ← rd 2 m.hwPhi
    let hwFlags ← rd 2 m.hwFlags
    let hwCharge ← rdBool m.hwCharge
    pure ⟨hwPt, hwEta, hwPhi, hwFlags, hwCharge⟩

/-- `writeManyToFile` — DiscretePFInputs.h:279-284 (at most `2^32 - 1` objects are written) -/
def writeMany {T : Type} [Dump T] (objs : List T) : List Byte :=
  leBytes 4 (BitVec.ofNat 32 objs.length) ++ ((objs.take (objs.length % 2 ^ 32)).map Dump.write).flatten

/-- `objs[i].readFromFile(file)` for all objects, in order -/
def readEach {T : Type} [Dump T] : List T → Rd (List T)
  | [] => pure []
  | x :: xs => do
    let x' ← Dump.read x
    let xs' ← readEach xs
    pure (x' :: xs')

/-- The value of an uninitialised local variable. -/
def uninit : Rd (BitVec 32) := fun f => (f.junk 0, { f with junk := fun i => f.junk (i + 1) })

/-- `readManyFromFile` — DiscretePFInputs.h:286-292.  Elements already in the vector are read over. -/
def readMany {T : Type} [Dump T] (objs : List T) : Rd (List T) := do
  let number ← uninit
  let number ← rd 4 number
  readEach (objs.take number.toNat ++ List.replicate (number.toNat - objs.length) Dump.zero)

/-- `InputRegion` — DiscretePFInputs.h:295-301 -/
structure InputRegion where
  etaCenter : BitVec 32
  etaMin : BitVec 32
  etaMax : BitVec 32
  phiCenter : BitVec 32
  phiHalfWidth : BitVec 32
  etaExtra : BitVec 32
  phiExtra : BitVec 32
  calo : List CaloCluster
  emcalo : List CaloCluster
  track : List PropagatedTrack
  muon : List Muon
  deriving DecidableEq, Repr

/-- `InputRegion::writeToFile`, `readFromFile` — DiscretePFInputs.h:308-335 -/
instance : Dump InputRegion where
  zero := ⟨0, 0, 0, 0, 0, 0, 0, [], [], [], []⟩
  write r := leBytes 4 r.etaCenter ++ leBytes 4 r.etaMin ++ leBytes 4 r.etaMax ++ leBytes 4 r.phiCenter ++
    leBytes 4 r.phiHalfWidth ++ leBytes 4 r.etaExtra ++ leBytes 4 r.phiExtra ++ writeMany r.calo ++
    writeMany r.emcalo ++ writeMany r.track ++ writeMany r.muon
  read r := do
    let etaCenter ← rd 4 r.etaCenter
    let etaMin ← rd 4 r.etaMin
    let etaMax ← rd 4 r.etaMax
    let phiCenter ← rd 4 r.phiCenter
    let phiHalfWidth ← rd 4 r.phiHalfWidth
    let etaExtra ← rd 4 r.etaExtra
    let phiExtra ← rd 4 r.phiExtra
    let calo ← readMany r.calo
    let emcalo ← readMany r.emcalo
    let track ← readMany r.track
    let muon ← readMany r.muon
    pure ⟨etaCenter, etaMin, etaMax, phiCenter, phiHalfWidth, etaExtra, phiExtra, calo, emcalo, track, muon⟩

/-- `Event` — utils/DiscretePFInputs_IO.h:13-17 -/
structure DumpEvent where
  run : BitVec 32
  lumi : BitVec 32
  event : BitVec 64
  z0 : BitVec 32
  genZ0 : BitVec 32
  alphaCMed : BitVec 32
  alphaCRms : BitVec 32
  alphaFMed : BitVec 32
  alphaFRms : BitVec 32
  regions : List InputRegion

/-- `Event()` — utils/DiscretePFInputs_IO.h:19; `genZ0` is left uninitialised -/
def DumpEvent.new (genZ0 : BitVec 32) : DumpEvent := ⟨0, 0, 0, 0, genZ0, 0, 0, 0, 0, []⟩

/-- The rest of `Event::readFromFile`, when there was a run number — utils/DiscretePFInputs_IO.h:22-30 -/
def DumpEvent.readRest (e : DumpEvent) : Rd DumpEvent := do
  let lumi ← rd 4 e.lumi
  let event ← rd 8 e.event
  let regions ← readMany e.regions
  let z0 ← rd 4 e.z0
  let genZ0 ← rd 4 e.genZ0
  let alphaCMed ← rd 4 e.alphaCMed
  let alphaCRms ← rd 4 e.alphaCRms
  let alphaFMed ← rd 4 e.alphaFMed
  let alphaFRms ← rd 4 e.alphaFRms
  pure ⟨e.run, lumi, event, z0, genZ0, alphaCMed, alphaCRms, alphaFMed, alphaFRms, regions⟩

/-- `Event::readFromFile` — utils/DiscretePFInputs_IO.h:20-31.  The result is `some false` when `return false`
is executed and `none` when control reaches the end of the function, which has no `return` there. -/
def DumpEvent.readFromFile (e : DumpEvent) (f : CFile) : Option Bool × DumpEvent × CFile :=
  let r := fread1 4 e.run f
  if r.1 then (none, ({ e with run := r.2.1 } : DumpEvent).readRest r.2.2)
  else (some false, { e with run := r.2.1 }, r.2.2)

/-- What the caller of a function that ended without `return` gets: undefined behaviour (`none`), or, to follow
what the program does when compiled so that it survives, some value. -/
def fellOff (fall : Option Bool) : Option Bool → Run Bool
  | some b => .ok b
  | none => match fall with
    | none => .error .noReturn
    | some b => .ok b

/-- `DiscretePFInputs` — utils/DiscretePFInputs_IO.h:34-90.  `iregion_` does not exceed the number of regions,
which is below `2^32`, so it is a natural number. -/
structure DumpReader where
  file : CFile
  event : DumpEvent
  iregion : Nat

/-- Constructor — utils/DiscretePFInputs_IO.h:36-39 (the file exists) -/
def DumpReader.new (genZ0 : BitVec 32) (f : CFile) : DumpReader := ⟨f, DumpEvent.new genZ0, 0⟩

/-- `nextEvent` — utils/DiscretePFInputs_IO.h:62-66 -/
def DumpReader.nextEvent (fall : Option Bool) (s : DumpReader) : Run (Bool × DumpReader) :=
  if s.file.eof then .ok (false, s)
  else do
    let (r, event, file) := s.event.readFromFile s.file
    let b ← fellOff fall r
    .ok (b, { s with event := event, file := file })

/-- `fabs(x) > 1.5` on the bit pattern of a `float`: compare the pattern without its sign with that of 1.5;
patterns above infinity are NaN -/
def farEta (x : BitVec 32) : Bool :=
  decide (0x3FC00000 < x.toNat % 2 ^ 31) && decide (x.toNat % 2 ^ 31 ≤ 0x7F800000)

/-- Reading never adds bytes. -/
def Shrinks {α : Type} (m : Rd α) : Prop := ∀ f, (m f).2.bytes.length ≤ f.bytes.length

theorem Shrinks.bind {α β : Type} {m : Rd α} {k : α → Rd β} (h : Shrinks m) (hk : ∀ a, Shrinks (k a)) :
    Shrinks (m >>= k) := fun f => Nat.le_trans (hk (m f).1 (m f).2) (h f)

theorem Shrinks.pure {α : Type} (a : α) : Shrinks (Pure.pure a : Rd α) := fun _ => Nat.le_refl _

theorem shrinks_rd (k : Nat) (x : BitVec (8 * k)) : Shrinks (rd k x) := by
  intro f
  unfold rd fread1
  split <;> simp

theorem shrinks_rdBool (x : Bool) : Shrinks (rdBool x) := (shrinks_rd _ _).bind fun _ => .pure _

theorem shrinks_uninit : Shrinks uninit := fun _ => Nat.le_refl _

theorem shrinks_readEach {T : Type} [Dump T] (h : ∀ x : T, Shrinks (Dump.read x)) : ∀ xs : List T, Shrinks (readEach xs)
  | [] => .pure _
  | x :: xs => (h x).bind fun _ => (shrinks_readEach h xs).bind fun _ => .pure _

theorem shrinks_readMany {T : Type} [Dump T] (h : ∀ x : T, Shrinks (Dump.read x)) (xs : List T) : Shrinks (readMany xs) :=
  shrinks_uninit.bind fun _ => (shrinks_rd _ _).bind fun _ => shrinks_readEach h _

theorem shrinks_calo (x : CaloCluster) : Shrinks (Dump.read x) := by
  iterate 6 refine (shrinks_rd _ _).bind fun _ => ?_
  exact (shrinks_rdBool _).bind fun _ => .pure _

theorem shrinks_itrack (x : InputTrack) : Shrinks (Dump.read x) := by
  iterate 3 refine (shrinks_rd _ _).bind fun _ => ?_
  refine (shrinks_rdBool _).bind fun _ => ?_
  iterate 4 refine (shrinks_rd _ _).bind fun _ => ?_
  exact .pure _

theorem shrinks_track (x : PropagatedTrack) : Shrinks (Dump.read x) := by
  refine (shrinks_itrack _).bind fun _ => ?_
  iterate 5 refine (shrinks_rd _ _).bind fun _ => ?_
  exact .pure _

theorem shrinks_muon (x : Muon) : Shrinks (Dump.read x) := by
  iterate 4 refine (shrinks_rd _ _).bind fun _ => ?_
  exact (shrinks_rdBool _).bind fun _ => .pure _

theorem shrinks_region (x : InputRegion) : Shrinks (Dump.read x) := by
  iterate 7 refine (shrinks_rd _ _).bind fun _ => ?_
  refine (shrinks_readMany shrinks_calo _).bind fun _ => ?_
  refine (shrinks_readMany shrinks_calo _).bind fun _ => ?_
  refine (shrinks_readMany shrinks_track _).bind fun _ => ?_
  exact (shrinks_readMany shrinks_muon _).bind fun _ => .pure _

theorem shrinks_rest (e : DumpEvent) : Shrinks e.readRest := by
  iterate 2 refine (shrinks_rd _ _).bind fun _ => ?_
  refine (shrinks_readMany shrinks_region _).bind fun _ => ?_
  iterate 6 refine (shrinks_rd _ _).bind fun _ => ?_
  exact .pure _

theorem fread1_shrinks (k : Nat) (x : BitVec (8 * k)) (f : CFile) (hk : 0 < k) (h : (fread1 k x f).1 = true) :
    (fread1 k x f).2.2.bytes.length < f.bytes.length := by
  unfold fread1 at *
  by_cases hl : k ≤ f.bytes.length
  · rw [if_pos hl]; simp; omega
  · rw [if_neg hl] at h; simp at h

/-- Reading an event uses up bytes, unless it returns false. -/
theorem DumpEvent.readFromFile_shrinks (e : DumpEvent) (f : CFile) (h : (e.readFromFile f).1 = none) :
    (e.readFromFile f).2.2.bytes.length < f.bytes.length := by
  rw [DumpEvent.readFromFile] at *
  have h2 := fread1_shrinks 4 e.run f (by decide)
  generalize fread1 4 e.run f = r at *
  by_cases hg : r.1 = true
  · rw [if_pos hg]
    dsimp only
    have h1 := fun e' => shrinks_rest e' r.2.2
    exact Nat.lt_of_le_of_lt (h1 _) (h2 hg)
  · rw [if_neg hg] at h
    cases h

/-- The first part of the private `nextRegion`: get the next event if needed — utils/DiscretePFInputs_IO.h:72-77;
the result tells whether to go on -/
def DumpReader.refill (fall : Option Bool) (s : DumpReader) : Run (Bool × DumpReader) :=
  if s.event.event = 0 ∨ s.iregion = s.event.regions.length then
    if s.file.eof then .ok (false, s)
    else do
      let r := s.event.readFromFile s.file
      let b ← fellOff fall r.1
      .ok (b, { file := r.2.2, event := r.2.1, iregion := if b then 0 else s.iregion })
  else .ok (true, s)

theorem DumpReader.refill_shrinks {fall : Option Bool} {s s' : DumpReader} (h : s.refill fall = .ok (true, s')) :
    s' = s ∨ s'.file.bytes.length < s.file.bytes.length := by
  unfold DumpReader.refill at h
  split at h
  · split at h
    · cases h
    · right
      have h2 := s.event.readFromFile_shrinks s.file
      generalize hq : s.event.readFromFile s.file = q at *
      obtain ⟨r, ev, f⟩ := q
      cases r with
      | none =>
        cases fall with
        | none => cases h
        | some b => cases h; exact h2 rfl
      | some b =>
        exfalso
        have : b = true := by cases h; rfl
        subst this
        unfold DumpEvent.readFromFile at hq
        simp only [] at hq
        split at hq <;> cases hq
  · left; cases h; rfl

/-- The private `nextRegion` — utils/DiscretePFInputs_IO.h:70-85 -/
def DumpReader.seek (fall : Option Bool) (s : DumpReader) : Run (Bool × DumpReader) :=
  match h : s.refill fall with
  | .error e => .error e
  | .ok (false, s') => .ok (false, s')
  | .ok (true, s') =>
    match h2 : s'.event.regions[s'.iregion]? with
    | none => .error .oob
    | some r =>
      if farEta r.etaCenter then DumpReader.seek fall { s' with iregion := s'.iregion + 1 }
      else .ok (true, s')
termination_by (s.file.bytes.length, s.event.regions.length - s.iregion)
decreasing_by
  have hlt : s'.iregion < s'.event.regions.length := (List.getElem?_eq_some_iff.mp h2).1
  rcases DumpReader.refill_shrinks h with h1 | h1
  · subst h1
    exact Prod.Lex.right _ (by omega)
  · exact Prod.Lex.left _ _ h1

end Verif
