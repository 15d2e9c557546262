import Verif.Model.Data
/-!
# regionizer/firmware/regionizer.{h,cpp} and regionizer/regionizer_ref.cpp

`hls::stream<T>` is the list of the values still in the FIFO.  The template functions are modelled for any
object type with `hwPt`, `hwEta`, `hwPhi` and `clear` (`RegObj`).  The sizes `N_OBJ_PER_SECTOR`,
`N_OBJ_PER_SECTOR_PER_ETA`, `N_OBJ_PER_REGION`, `N_FIBERS_PER_SECTOR` and `NMU` are parameters; the numbers
of sectors and regions and their geometry are those of the source.  Loops over `ie` whose iterations touch
disjoint memory are written as one array expression.
-/
namespace Verif

/-- What the regionizer uses of an object. -/
class RegObj (T : Type) where
  pt : T → Pt
  eta : T → EtaPhi
  phi : T → EtaPhi
  setEta : T → EtaPhi → T
  setPhi : T → EtaPhi → T
  clear : T

instance : RegObj HadCaloObj where
  pt := (·.hwPt); eta := (·.hwEta); phi := (·.hwPhi)
  setEta o x := { o with hwEta := x }
  setPhi o x := { o with hwPhi := x }
  clear := HadCaloObj.clear

instance : RegObj EmCaloObj where
  pt := (·.hwPt); eta := (·.hwEta); phi := (·.hwPhi)
  setEta o x := { o with hwEta := x }
  setPhi o x := { o with hwPhi := x }
  clear := EmCaloObj.clear

instance : RegObj TkObj where
  pt := (·.hwPt); eta := (·.hwEta); phi := (·.hwPhi)
  setEta o x := { o with hwEta := x }
  setPhi o x := { o with hwPhi := x }
  clear := TkObj.clear

instance : RegObj MuObj where
  pt := (·.hwPt); eta := (·.hwEta); phi := (·.hwPhi)
  setEta o x := { o with hwEta := x }
  setPhi o x := { o with hwPhi := x }
  clear := MuObj.clear

/-- Sizes — regionizer/firmware/regionizer.h:7-15 -/
abbrev N_IN_SECTORS : Nat := 12
@[inherit_doc N_IN_SECTORS] abbrev N_MUON_SECTORS : Nat := 4
@[inherit_doc N_IN_SECTORS] abbrev N_OUT_REGIONS_ETA : Nat := 3
@[inherit_doc N_IN_SECTORS] abbrev N_OUT_REGIONS_PHI : Nat := 6
@[inherit_doc N_IN_SECTORS] abbrev N_OUT_REGIONS : Nat := 18

/-- `_ETA_025` and `_PHI_PIO6` — regionizer/firmware/regionizer.h:17-18 -/
abbrev ETA_025 : Int := 57
@[inherit_doc ETA_025] abbrev PHI_SEC_SIZE : Int := 120

/-- `ETA_MIN`, `ETA_MAX`, `ETA_SHIFT` — regionizer/firmware/regionizer.h:20-22 -/
def ETA_MIN (ie : Fin 3) : Int := if ie = 0 then -6 * ETA_025 else if ie = 1 then -3 * ETA_025 else ETA_025
@[inherit_doc ETA_MIN]
def ETA_MAX (ie : Fin 3) : Int := if ie = 0 then -ETA_025 else if ie = 1 then 3 * ETA_025 else 6 * ETA_025
@[inherit_doc ETA_MIN]
def ETA_SHIFT (ie : Fin 3) : Int := if ie = 0 then 3 * ETA_025 else if ie = 1 then 0 else -3 * ETA_025

/-- `IN_SECTOR_OF_REGION` — regionizer/firmware/regionizer.h:29-31 -/
def IN_SECTOR_OF_REGION (ip : Fin 6) : Fin 12 × Fin 12 × Fin 12 :=
  match ip with
  | 0 => (0, 1, 2)
  | 1 => (2, 3, 4)
  | 2 => (4, 5, 6)
  | 3 => (6, 7, 8)
  | 4 => (8, 9, 10)
  | 5 => (10, 11, 0)

/-- `PHI_SHIFT` — regionizer/firmware/regionizer.h:34 -/
def PHI_SHIFT (k : Fin 3) : Int := if k = 0 then -PHI_SEC_SIZE else if k = 1 then 0 else PHI_SEC_SIZE

/-- `ETA_FID_SIZE` — regionizer/firmware/regionizer.h:19 (not used by the code) -/
def ETA_FID_SIZE : Int := 3 * ETA_025
/-- `PHI_FID_SIZE`, "fiducial size of a region in … phi" — regionizer/firmware/regionizer.h:35-36 (not used by the code) -/
def PHI_FID_SIZE : Int := 2 * PHI_SEC_SIZE

/-- `instream.read()` on fiber `k`. -/
def readFiber {NF : Nat} {T : Type} (fibers : Arr NF (List T)) (k : Fin NF) : Run (T × Arr NF (List T)) :=
  match fibers k with
  | [] => .error .emptyStream
  | x :: rest => .ok (x, fibers.set k rest)

section
variable {T : Type} [RegObj T] {NSEC NSE NREG NFPS NMU : Nat}

/-- `o.hwEta += d` -/
def addEta (o : T) (d : EtaPhi) : T := RegObj.setEta o (reg 10 ((RegObj.eta o).toInt + d.toInt))
/-- `o.hwPhi += d` with a register `d` -/
def addPhi (o : T) (d : EtaPhi) : T := RegObj.setPhi o (reg 10 ((RegObj.phi o).toInt + d.toInt))
/-- `o.hwPhi += d` with an `int` `d` -/
def addPhiI (o : T) (d : Int) : T := RegObj.setPhi o (reg 10 ((RegObj.phi o).toInt + d))

/-- Body of the insertion loops: `in.hwPt` is compared, `val` is stored —
regionizer/firmware/regionizer.cpp:26-33, 74-81, 87-94; regionizer/regionizer_ref.cpp:7-13, 21-28 -/
def push_step (inn val : T) (i : Fin NSE) (out : Arr NSE T) : Arr NSE T :=
  if (RegObj.pt (out i)).toInt < (RegObj.pt inn).toInt then
    if h : i.val = 0 then out.set i val
    else
      let prev : Fin NSE := ⟨i.val - 1, by omega⟩
      if (RegObj.pt (out prev)).toInt ≥ (RegObj.pt inn).toInt then out.set i val
      else out.set i (out prev)
  else out

/-- `push_in` — regionizer/regionizer_ref.cpp:5-15 -/
def push_in (inn : T) (out : Arr NSE T) : Arr NSE T := loopDown (push_step inn inn) out

/-- `push_in_sector_eta` — regionizer/firmware/regionizer.cpp:23-36; the bounds are passed as `etaphi_t` -/
def push_in_sector_eta (inn : T) (out : Arr NSE T) (etaMin etaMax etaShift : EtaPhi) : Arr NSE T :=
  if etaMin.toInt ≤ (RegObj.eta inn).toInt ∧ (RegObj.eta inn).toInt ≤ etaMax.toInt then
    loopDown (push_step inn (addEta inn etaShift)) out
  else out

/-- `push_in_sector_ref` — regionizer/regionizer_ref.cpp:18-31 -/
def push_in_sector_ref (inn : T) (out : Arr NSE T) (etaMin etaMax etaShift : EtaPhi) : Arr NSE T :=
  if etaMin.toInt ≤ (RegObj.eta inn).toInt ∧ (RegObj.eta inn).toInt ≤ etaMax.toInt then
    loopDown (push_step inn (addEta inn etaShift)) out
  else out

/-- The work area of the deserializers: for each sector and eta slice a list of objects. -/
abbrev Work (T : Type) (NIS NSE : Nat) := Arr NIS (Arr 3 (Arr NSE T))

/-- `deserialize_ptsort_eta` — regionizer/firmware/regionizer.cpp:39-57; returns the streams and the lists -/
def deserialize_ptsort_eta (NSEC NSE : Nat) (instream : Arr N_IN_SECTORS (List T)) :
    Run (Arr N_IN_SECTORS (List T) × Work T N_IN_SECTORS NSE) :=
  loopM (fun (_ : Fin NSEC) s =>
    loopM (fun (is : Fin N_IN_SECTORS) (s : Arr N_IN_SECTORS (List T) × Work T N_IN_SECTORS NSE) => do
      let (inn, fibers) ← readFiber s.1 is
      .ok (fibers, s.2.set is (fun ie => push_in_sector_eta inn (s.2 is ie)
        (reg 10 (ETA_MIN ie)) (reg 10 (ETA_MAX ie)) (reg 10 (ETA_SHIFT ie))))) s)
    (instream, fun _ _ _ => RegObj.clear)

/-- One insertion pass of `merge_smart` — regionizer/firmware/regionizer.cpp:72-83, 85-96 -/
def merge_pass (list : Arr NSE T) (phiShift : EtaPhi) (tmp : Arr NREG T) : Arr NREG T :=
  loop (fun (it : Fin NSE) tmp =>
    loopDown (push_step (list it)
      (if (RegObj.pt (list it)).toInt > 0 then addPhi (list it) phiShift else list it)) tmp) tmp

/-- `merge_smart` — regionizer/firmware/regionizer.cpp:60-101; `tmp0` is the uninitialised `tmp` -/
def merge_smart (tmp0 : Arr NREG T) (list1 : Arr NSE T) (phiShift1 : EtaPhi) (list2 : Arr NSE T)
    (phiShift2 : EtaPhi) (list3 : Arr NSE T) (phiShift3 : EtaPhi) : Run (Arr NREG T) := do
  let tmp ← loopM (fun (i : Fin NSE) (tmp : Arr NREG T) =>
    tmp.write i.val (if (RegObj.pt (list1 i)).toInt > 0 then addPhi (list1 i) phiShift1 else list1 i)) tmp0
  let tmp : Arr NREG T := fun i => if NSE ≤ i.val then RegObj.clear else tmp i
  let tmp := merge_pass list2 phiShift2 tmp
  .ok (merge_pass list3 phiShift3 tmp)

/-- Eta and phi index of a region, `ir = N_OUT_REGIONS_PHI*ie + ip` -/
def regionEta (ir : Fin N_OUT_REGIONS) : Fin 3 := ⟨ir.val / 6, by have h : ir.val < 18 := ir.isLt; omega⟩
@[inherit_doc regionEta] def regionPhi (ir : Fin N_OUT_REGIONS) : Fin 6 := ⟨ir.val % 6, by omega⟩

/-- `regionize_hadcalo` — regionizer/firmware/regionizer.cpp:112-122 (with `merge_hadcalo`, 103-110),
for any object type; returns the streams and the regions.  `mem` is the uninitialised `tmp` of the merges. -/
def regionize (NSEC NSE : Nat) (mem : Arr N_OUT_REGIONS (Arr NREG T)) (fibers : Arr N_IN_SECTORS (List T)) :
    Run (Arr N_IN_SECTORS (List T) × Arr N_OUT_REGIONS (Arr NREG T)) := do
  let (fibers, work) ← deserialize_ptsort_eta NSEC NSE fibers
  let regions ← buildM (fun ir =>
    let s := IN_SECTOR_OF_REGION (regionPhi ir)
    let ie := regionEta ir
    merge_smart (mem ir) (work s.1 ie) (reg 10 (PHI_SHIFT 0)) (work s.2.1 ie) (reg 10 (PHI_SHIFT 1))
      (work s.2.2 ie) (reg 10 (PHI_SHIFT 2)))
  .ok (fibers, regions)

/-- State of `merge_sectors_ref`: the three cursors and the output. -/
structure MergeSt (T : Type) (NREG : Nat) where
  i1 : Nat
  i2 : Nat
  i3 : Nat
  out : Arr NREG T
  brk : Bool

/-- The loop of `merge_sectors_ref` — regionizer/regionizer_ref.cpp:39-59.  `brk` records the `break`:
once set, the remaining iterations are skipped. -/
def merge_sectors_step (list1 : Arr NSE T) (phiShift1 : EtaPhi) (list2 : Arr NSE T)
    (phiShift2 : EtaPhi) (list3 : Arr NSE T) (phiShift3 : EtaPhi) (i : Fin NREG) (s : MergeSt T NREG) :
    Run (MergeSt T NREG) :=
  if s.brk then .ok s else
  let pt1 : Pt := if h : s.i1 < NSE then RegObj.pt (list1 ⟨s.i1, h⟩) else reg 16 0
  let pt2 : Pt := if h : s.i2 < NSE then RegObj.pt (list2 ⟨s.i2, h⟩) else reg 16 0
  let pt3 : Pt := if h : s.i3 < NSE then RegObj.pt (list3 ⟨s.i3, h⟩) else reg 16 0
  if pt1.toInt ≥ pt2.toInt ∧ pt1.toInt ≥ pt3.toInt then
    if pt1.toInt = 0 then .ok { s with brk := true }
    else do
      let o ← list1.read s.i1
      .ok { s with i1 := s.i1 + 1, out := s.out.set i (addPhi o phiShift1) }
  else if pt1.toInt < pt2.toInt ∧ pt2.toInt ≥ pt3.toInt then do
    cassert (decide (s.i2 < NSE))
    let o ← list2.read s.i2
    .ok { s with i2 := s.i2 + 1, out := s.out.set i (addPhi o phiShift2) }
  else do
    cassert (decide (s.i3 < NSE))
    let o ← list3.read s.i3
    .ok { s with i3 := s.i3 + 1, out := s.out.set i (addPhi o phiShift3) }

/-- `merge_sectors_ref` — regionizer/regionizer_ref.cpp:34-60 -/
def merge_sectors_ref (NREG : Nat) (list1 : Arr NSE T) (phiShift1 : EtaPhi) (list2 : Arr NSE T)
    (phiShift2 : EtaPhi) (list3 : Arr NSE T) (phiShift3 : EtaPhi) : Run (Arr NREG T) := do
  let s ← loopM (merge_sectors_step list1 phiShift1 list2 phiShift2 list3 phiShift3)
    { i1 := 0, i2 := 0, i3 := 0, out := fun _ => RegObj.clear, brk := false }
  .ok s.out

/-- Index of fiber `f` of sector `is`: `N_FIBERS_PER_SECTOR*is+f` — regionizer/regionizer_ref.cpp:78 -/
def fiberIdx (is : Fin N_IN_SECTORS) (f : Fin NFPS) : Fin (NFPS * N_IN_SECTORS) :=
  ⟨NFPS * is.val + f.val, by
    have h1 := is.isLt
    have h2 := f.isLt
    calc NFPS * is.val + f.val < NFPS * is.val + NFPS := by omega
      _ = NFPS * (is.val + 1) := by rw [Nat.mul_add, Nat.mul_one]
      _ ≤ NFPS * N_IN_SECTORS := Nat.mul_le_mul_left _ h1⟩

/-- Deserializing part of `regionize_ref` — regionizer/regionizer_ref.cpp:66-86 -/
def deserialize_ref (NSEC NSE : Nat) (instream : Arr (NFPS * N_IN_SECTORS) (List T)) :
    Run (Arr (NFPS * N_IN_SECTORS) (List T) × Work T N_IN_SECTORS NSE) :=
  loopM (fun (_ : Fin (NSEC / NFPS)) s =>
    loopM (fun (is : Fin N_IN_SECTORS) s =>
      loopM (fun (f : Fin NFPS) (s : Arr (NFPS * N_IN_SECTORS) (List T) × Work T N_IN_SECTORS NSE) => do
        let (inn, fibers) ← readFiber s.1 (fiberIdx is f)
        .ok (fibers, s.2.set is (fun ie => push_in_sector_ref inn (s.2 is ie)
          (reg 10 (ETA_MIN ie)) (reg 10 (ETA_MAX ie)) (reg 10 (ETA_SHIFT ie))))) s) s)
    (instream, fun _ _ _ => RegObj.clear)

/-- `regionize_ref` — regionizer/regionizer_ref.cpp:63-112; returns the streams and the regions -/
def regionize_ref (NSEC NSE NREG : Nat) (fibers : Arr (NFPS * N_IN_SECTORS) (List T)) :
    Run (Arr (NFPS * N_IN_SECTORS) (List T) × Arr N_OUT_REGIONS (Arr NREG T)) := do
  let (fibers, work) ← deserialize_ref NSEC NSE fibers
  let regions ← buildM (fun ir =>
    let s := IN_SECTOR_OF_REGION (regionPhi ir)
    let ie := regionEta ir
    merge_sectors_ref NREG (work s.1 ie) (reg 10 (PHI_SHIFT 0)) (work s.2.1 ie) (reg 10 (PHI_SHIFT 1))
      (work s.2.2 ie) (reg 10 (PHI_SHIFT 2)))
  .ok (fibers, regions)

end

/-- `merge_muon_in` — regionizer/regionizer_ref.cpp:125-139 -/
def merge_muon_in {NMU : Nat} (in_cmssw : Arr N_IN_SECTORS (Arr NMU MuObj)) : Arr N_MUON_SECTORS (Arr NMU MuObj) :=
  loop (fun (ics : Fin N_IN_SECTORS) out =>
    let is : Fin 4 := ⟨ics.val / 3, by have h : ics.val < 12 := ics.isLt; omega⟩
    loop (fun (io : Fin NMU) (out : Arr N_MUON_SECTORS (Arr NMU MuObj)) =>
      let mu := addPhiI (in_cmssw ics io) (PHI_SHIFT ⟨ics.val % 3, by omega⟩)
      out.set is (push_in mu (out is))) out)
    (fun _ _ => RegObj.clear)

/-- Deserializing part of `regionize_muon_ref` — regionizer/regionizer_ref.cpp:144-160 -/
def deserialize_muon (NMU : Nat) (instream : Arr N_MUON_SECTORS (List MuObj)) :
    Run (Arr N_MUON_SECTORS (List MuObj) × Work MuObj N_MUON_SECTORS NMU) :=
  loopM (fun (_ : Fin NMU) s =>
    loopM (fun (is : Fin N_MUON_SECTORS) (s : Arr N_MUON_SECTORS (List MuObj) × Work MuObj N_MUON_SECTORS NMU) => do
      let (inn, fibers) ← readFiber s.1 is
      .ok (fibers, s.2.set is (fun ie => push_in_sector_ref inn (s.2 is ie)
        (reg 10 (ETA_MIN ie)) (reg 10 (ETA_MAX ie)) (reg 10 (ETA_SHIFT ie))))) s)
    (instream, fun _ _ _ => RegObj.clear)

/-- One region of `regionize_muon_ref` — regionizer/regionizer_ref.cpp:172-212 -/
def muon_region {NMU : Nat} (work : Work MuObj N_MUON_SECTORS NMU) (ir : Fin N_OUT_REGIONS) : Arr NMU MuObj :=
  let ie := regionEta ir
  let ip := (regionPhi ir).val
  let is := 2 * ip
  have hip : ip < 6 := (regionPhi ir).isLt
  let a : Fin 4 := ⟨is / 3, by omega⟩
  let b : Fin 4 := ⟨(is / 3 + 1) % 4, by omega⟩
  match ip % 3 with
  | 0 => work a ie
  | 1 =>
    let r := loop (fun (io : Fin NMU) r =>
      let mu := work a ie io
      if mu.hwPhi.toInt > PHI_SEC_SIZE / 2 then push_in (addPhiI mu (-(2 * PHI_SEC_SIZE))) r else r)
      (fun _ => RegObj.clear)
    loop (fun (io : Fin NMU) r =>
      let mu := work b ie io
      if mu.hwPhi.toInt ≤ PHI_SEC_SIZE / 2 then push_in (addPhiI mu PHI_SEC_SIZE) r else r) r
  | _ =>
    let r := loop (fun (io : Fin NMU) r =>
      let mu := work a ie io
      if mu.hwPhi.toInt > (-PHI_SEC_SIZE).tdiv 2 then push_in (addPhiI mu (-PHI_SEC_SIZE)) r else r)
      (fun _ => RegObj.clear)
    loop (fun (io : Fin NMU) r =>
      let mu := work b ie io
      if mu.hwPhi.toInt ≤ (-PHI_SEC_SIZE).tdiv 2 then push_in (addPhiI mu (2 * PHI_SEC_SIZE)) r else r) r

/-- `regionize_muon_ref` — regionizer/regionizer_ref.cpp:141-215 -/
def regionize_muon_ref (NMU : Nat) (instream : Arr N_MUON_SECTORS (List MuObj)) :
    Run (Arr N_MUON_SECTORS (List MuObj) × Arr N_OUT_REGIONS (Arr NMU MuObj)) := do
  let (fibers, work) ← deserialize_muon NMU instream
  .ok (fibers, fun ir => muon_region work ir)

end Verif
