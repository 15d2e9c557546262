import Verif.Model.Data
/-!
# vertexing/firmware/bram_hist_vtx.{h,cpp}, vertexing/bram_hist_vtx_ref.cpp

`NS` is `BHV_NSECTORS` (`2*N_IN_SECTORS`) and `NTK` is `BHV_NTRACKS`.
-/
namespace Verif

variable {NS NTK : Nat}

/-- `BHV_NBINS` — vertexing/firmware/bram_hist_vtx.h:23 -/
abbrev BHV_NBINS : Nat := 72
/-- `BHV_NHALFBINS` — vertexing/firmware/bram_hist_vtx.h:24 -/
abbrev BHV_NHALFBINS : Nat := 36
/-- `BHV_MAXPT`, `BHV_MAXBIN` — vertexing/firmware/bram_hist_vtx.h:18-20 -/
abbrev BHV_MAXPT : Int := 100
@[inherit_doc BHV_MAXPT] abbrev BHV_MAXBIN : Int := 511

/-- `ptsum_t` — vertexing/firmware/bram_hist_vtx.h:4 -/
abbrev PtSum := BitVec 9
/-- `twoptsums_t` — vertexing/firmware/bram_hist_vtx.h:5 -/
abbrev TwoPtSums := BitVec 18
/-- `zbin_t` — vertexing/firmware/bram_hist_vtx.h:6 -/
abbrev ZBin := BitVec 10

/-- `zbin_vt` — vertexing/firmware/bram_hist_vtx.h:7-10 -/
structure ZBinV where
  bin : ZBin
  valid : Bool
  deriving DecidableEq, Repr

/-- `fetch_bin_ref` — vertexing/firmware/bram_hist_vtx.h:29-38 -/
def fetch_bin_ref (z0 : Z0) : ZBinV :=
  let zbin : Int := shr z0.toInt 3 + BHV_NHALFBINS
  let r : Int × Bool := if zbin < 0 then (0, false) else (zbin, true)
  let r : Int × Bool := if r.1 > BHV_NBINS - 1 then (0, false) else r
  ⟨reg 10 r.1, r.2⟩

/-- `bin_center_ref` — vertexing/firmware/bram_hist_vtx.h:39-42.  The left shift of a negative `z` is
read as multiplication by 8. -/
def bin_center_ref (iz : ZBin) : Z0 :=
  let z : Int := (iz.toNat : Int) - BHV_NHALFBINS
  reg 10 (z * 8 + 4)

/-- Bit 9 of a two's complement `int`: `sum & (BHV_MAXBIN+1)`. -/
def bit9 (sum : Int) : Bool := decide (sum / 512 % 2 = 1)

/-- `bhv_add_track` — vertexing/firmware/bram_hist_vtx.cpp:3-13 -/
def bhv_add_track (zbin : ZBinV) (tkpt : Pt) (hist : Arr BHV_NBINS PtSum) : Run (Arr BHV_NBINS PtSum) :=
  if zbin.valid then do
    let pt : Pt := reg 16 (shr tkpt.toInt 1)
    let pt : Pt := if pt.toInt > BHV_MAXPT then reg 16 BHV_MAXPT else pt
    let old ← hist.read zbin.bin.toNat
    let sum : Int := (old.toNat : Int) + pt.toInt
    hist.write zbin.bin.toNat (if bit9 sum then reg 9 BHV_MAXBIN else reg 9 sum)
  else .ok hist

/-- The two sums of a half-bin over the sectors — vertexing/firmware/bram_hist_vtx.cpp:22-30 -/
def bhv_pair_sums (hist : Arr NS (Arr BHV_NHALFBINS TwoPtSums)) (i : Fin BHV_NHALFBINS) : Run (Int × Int) :=
  loopM (fun is (s : Int × Int) => do
      let s1 : PtSum := (hist is i).extractLsb' 0 9
      let s2 : PtSum := (hist is i).extractLsb' 9 9
      let sum1 ← cint (s.1 + (s1.toNat : Int))
      let sum2 ← cint (s.2 + (s2.toNat : Int))
      .ok (sum1, sum2)) (0, 0)

/-- `bhv_find_pv` — vertexing/firmware/bram_hist_vtx.cpp:15-40; returns the bin and `*sumpt` -/
def bhv_find_pv (hist : Arr NS (Arr BHV_NHALFBINS TwoPtSums)) : Run (ZBin × Pt) := do
  let best ← loopM (fun i (s : ZBin × Int) => do
      let (sum1, sum2) ← bhv_pair_sums hist i
      .ok (if sum1 > sum2 then
            if sum1 > s.2 then (reg 10 (2 * (i.val : Int) + 1), sum1) else s
          else if sum2 > s.2 then (reg 10 (2 * (i.val : Int)), sum2) else s))
    ((0 : ZBin), (0 : Int))
  .ok (best.1, reg 16 best.2)

/-- One track of the reference — vertexing/bram_hist_vtx_ref.cpp:9-18 -/
def bhv_ref_add (t : TkObj) (histo : Arr BHV_NBINS PtSum) : Run (Arr BHV_NBINS PtSum) :=
  let tkpt : Pt := reg 16 (shr t.hwPt.toInt 1)
  if tkpt.toInt > 0 then do
    let tkpt : Pt := if tkpt.toInt > BHV_MAXPT then reg 16 BHV_MAXPT else tkpt
    let bin := fetch_bin_ref t.hwZ0
    cassert (decide (bin.bin.toNat < BHV_NBINS))
    if bin.valid then do
      let old ← histo.read bin.bin.toNat
      let newsum : Int := (old.toNat : Int) + tkpt.toInt
      histo.write bin.bin.toNat (reg 9 (if newsum > BHV_MAXBIN then BHV_MAXBIN else newsum))
    else .ok histo
  else .ok histo

/-- Filling the histograms of the reference — vertexing/bram_hist_vtx_ref.cpp:5-20 -/
def bhv_ref_histos (tracks : Arr NS (Arr NTK TkObj)) : Run (Arr NS (Arr BHV_NBINS PtSum)) :=
  buildM fun is => loopM (fun it h => bhv_ref_add (tracks is it) h) (fun _ => 0)

/-- `bhv_find_pv_ref` — vertexing/bram_hist_vtx_ref.cpp:4-34; returns `pvbin`, `pv`, `pvsum` -/
def bhv_find_pv_ref (tracks : Arr NS (Arr NTK TkObj)) : Run (ZBin × Z0 × Int) := do
  let histos ← bhv_ref_histos tracks
  let best ← loopM (fun (b : Fin BHV_NBINS) (s : Int × Int) => do
      let sum ← loopM (fun is sum => cint (sum + ((histos is b).toNat : Int))) 0
      .ok (if sum > s.2 then ((b.val : Int), sum) else s)) ((0 : Int), (0 : Int))
  .ok (reg 10 best.1, bin_center_ref (reg 10 best.1), best.2)

/-- The firmware filling one sector — vertexing/bram_hist_vtx_test.cpp:78-87 -/
def bhv_fill (tracks : Arr NTK TkObj) : Run (Arr BHV_NBINS PtSum) :=
  loopM (fun it h => bhv_add_track (fetch_bin_ref (tracks it).hwZ0) (tracks it).hwPt h) (fun _ => 0)

/-- Packing two bins in a word, `( hist[b], hist[b+1] )` — vertexing/bram_hist_vtx_test.cpp:88-90 -/
def bhv_pack (hist : Arr BHV_NBINS PtSum) : Arr BHV_NHALFBINS TwoPtSums := fun tb =>
  have h : tb.val < 36 := tb.isLt
  ((hist ⟨2 * tb.val, show 2 * tb.val < 72 by omega⟩) ++
    (hist ⟨2 * tb.val + 1, show 2 * tb.val + 1 < 72 by omega⟩) : BitVec (9 + 9))

/-- The firmware chain of the test bench — vertexing/bram_hist_vtx_test.cpp:75-94 -/
def bhv_chain (tracks : Arr NS (Arr NTK TkObj)) : Run (ZBin × Z0 × Pt) := do
  let hists ← buildM (fun is => do
    let h ← bhv_fill (tracks is)
    .ok (bhv_pack h))
  let r ← bhv_find_pv hists
  .ok (r.1, bin_center_ref r.1, r.2)

end Verif
