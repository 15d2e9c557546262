import Verif.Proofs.RegionizerFiles
import Verif.Proofs.RegionizerDump
import Verif.Props.RegionizerTest
/-! # C59: what is in the files of the regionizer test bench

The pattern files multiplex two frames and drop the second of each pair (C40); since the bench asks for one empty frame
after each event, only empty frames are dropped, and everything is in the file. -/
namespace Verif
open Spec
variable {sz : RegSizes} {NC NE NT NM : Nat}

/-- **C59.** The input pattern file of any number of tests has 36 rows per test, numbered from 0, and carries in rows
`36 t + 2 ic` and the next, on each of the 72 links, what the layout says — for time slots `ic` = 0, …, 17 of test `t`. -/
theorem C59_mp7_input (heven : sz.track % 2 = 0) (hfit : NC + NE + NT + NM ≤ 72) (old : Nat → TransMem sz NM)
    (ds : List (RegRecord sz NC NE NT NM)) (hn : 36 * ds.length < 2 ^ 32) :
    ∃ fs rows, allFrames old ds = .ok fs ∧ muxFile (fs.flatMap (·.inAll)) = .ok rows ∧ rows.length = 36 * ds.length ∧
      (∀ r (h : r < rows.length), rows[r].1 = BitVec.ofNat 32 r) ∧
      ∀ t d, ds[t]? = some d → ∀ (ic : Fin 18) c, c < 72 → ObjAt rows (36 * t + 2 * ic.val) c (inLink d ic c) := by
  obtain ⟨fs, h1, h2⟩ := allFrames_ok heven hfit old ds
  obtain ⟨h3, h4⟩ := flatMap_frames (g := (·.inAll)) (link := fun d ic c => inLink d ic c) (h2.imp fun _ _ h => h.inAll)
  obtain ⟨rows, h5, h6, h7, h8⟩ := muxFile_rows (fs.flatMap (·.inAll)) (by omega)
  refine ⟨fs, rows, h1, h5, by omega, h7, fun t d hd ic c hc => ?_⟩
  obtain ⟨w, h9, h10⟩ := h4 t d hd ic
  have := h8 _ w h9 c hc
  rw [h10] at this
  rwa [show 2 * (18 * t + ic.val) = 36 * t + 2 * ic.val by omega] at this

/-- **C59.** The same for the output file: in rows `36 t + 2 ir` and the next, the objects of region `ir` of test `t`. -/
theorem C59_mp7_output (heven : sz.track % 2 = 0) (hfit : NC + NE + NT + NM ≤ 72) (old : Nat → TransMem sz NM)
    (ds : List (RegRecord sz NC NE NT NM)) (hn : 36 * ds.length < 2 ^ 32) :
    ∃ fs rows, allFrames old ds = .ok fs ∧ muxFile (fs.flatMap (·.outAll)) = .ok rows ∧ rows.length = 36 * ds.length ∧
      (∀ r (h : r < rows.length), rows[r].1 = BitVec.ofNat 32 r) ∧
      ∀ t d, ds[t]? = some d → ∀ (ir : Fin 18) c, c < 72 → ObjAt rows (36 * t + 2 * ir.val) c (outLink d ir c) := by
  obtain ⟨fs, h1, h2⟩ := allFrames_ok heven hfit old ds
  obtain ⟨h3, h4⟩ := flatMap_frames (g := (·.outAll)) (link := fun d ic c => outLink d ic c) (h2.imp fun _ _ h => h.outAll)
  obtain ⟨rows, h5, h6, h7, h8⟩ := muxFile_rows (fs.flatMap (·.outAll)) (by omega)
  refine ⟨fs, rows, h1, h5, by omega, h7, fun t d hd ic c hc => ?_⟩
  obtain ⟨w, h9, h10⟩ := h4 t d hd ic
  have := h8 _ w h9 c hc
  rw [h10] at this
  rwa [show 2 * (18 * t + ic.val) = 36 * t + 2 * ic.val by omega] at this

/-- **C59.** The development files carry the same links, moved to the front. -/
theorem C59_mp7_parts (heven : sz.track % 2 = 0) (hfit : NC + NE + NT + NM ≤ 72) (old : Nat → TransMem sz NM)
    (ds : List (RegRecord sz NC NE NT NM)) (hn : 36 * ds.length < 2 ^ 32) :
    ∃ fs, allFrames old ds = .ok fs ∧
    (∃ rows, muxFile (fs.flatMap (·.inCalo)) = .ok rows ∧ rows.length = 36 * ds.length ∧ ∀ t d, ds[t]? = some d → ∀ (ic : Fin 18) c, c < 72 →
      ObjAt rows (36 * t + 2 * ic.val) c (if c < 12 then inLink d ic c else (0, 0))) ∧
    (∃ rows, muxFile (fs.flatMap (·.inTrack)) = .ok rows ∧ rows.length = 36 * ds.length ∧ ∀ t d, ds[t]? = some d → ∀ (ic : Fin 18) c, c < 72 →
      ObjAt rows (36 * t + 2 * ic.val) c (if c < 24 then inLink d ic (24 + c) else (0, 0))) ∧
    (∃ rows, muxFile (fs.flatMap (·.inMu)) = .ok rows ∧ rows.length = 36 * ds.length ∧ ∀ t d, ds[t]? = some d → ∀ (ic : Fin 18) c, c < 72 →
      ObjAt rows (36 * t + 2 * ic.val) c (if c < 4 then inLink d ic (48 + c) else (0, 0))) ∧
    (∃ rows, muxFile (fs.flatMap (·.outCalo)) = .ok rows ∧ rows.length = 36 * ds.length ∧ ∀ t d, ds[t]? = some d → ∀ (ic : Fin 18) c, c < 72 →
      ObjAt rows (36 * t + 2 * ic.val) c (if c < NC then outLink d ic c else (0, 0))) ∧
    (∃ rows, muxFile (fs.flatMap (·.outTrack)) = .ok rows ∧ rows.length = 36 * ds.length ∧ ∀ t d, ds[t]? = some d → ∀ (ic : Fin 18) c, c < 72 →
      ObjAt rows (36 * t + 2 * ic.val) c (if c < NT then outLink d ic (NC + NE + c) else (0, 0))) ∧
    (∃ rows, muxFile (fs.flatMap (·.outMu)) = .ok rows ∧ rows.length = 36 * ds.length ∧ ∀ t d, ds[t]? = some d → ∀ (ic : Fin 18) c, c < 72 →
      ObjAt rows (36 * t + 2 * ic.val) c (if c < NM then outLink d ic (NC + NE + NT + c) else (0, 0))) := by
  obtain ⟨fs, h1, h2⟩ := allFrames_ok heven hfit old ds
  have key : ∀ (g : RegFrames → List MP7Event) (link : RegRecord sz NC NE NT NM → Fin 18 → Nat → Nat × Nat),
      (∀ d f, FramesOf d f → FramesAre (g f) (link d)) →
      ∃ rows, muxFile (fs.flatMap g) = .ok rows ∧ rows.length = 36 * ds.length ∧ ∀ t d, ds[t]? = some d → ∀ (ic : Fin 18) c, c < 72 →
        ObjAt rows (36 * t + 2 * ic.val) c (link d ic c) := by
    intro g link hg
    obtain ⟨h3, h4⟩ := flatMap_frames (g := g) (link := link) (h2.imp hg)
    obtain ⟨rows, h5, h6, h7, h8⟩ := muxFile_rows (fs.flatMap g) (by omega)
    refine ⟨rows, h5, by omega, fun t d hd ic c hc => ?_⟩
    obtain ⟨w, h9, h10⟩ := h4 t d hd ic
    have := h8 _ w h9 c hc
    rw [h10] at this
    rwa [show 2 * (18 * t + ic.val) = 36 * t + 2 * ic.val by omega] at this
  exact ⟨fs, h1, key _ _ fun _ _ h => h.inCalo, key _ _ fun _ _ h => h.inTrack, key _ _ fun _ _ h => h.inMu,
    key _ _ fun _ _ h => h.outCalo, key _ _ fun _ _ h => h.outTrack, key _ _ fun _ _ h => h.outMu⟩

/-- **C59.** The files without multiplexing have every frame twice, all 144 words of it. -/
theorem C59_nomux (evs : List MP7Event) (hn : 2 * evs.length < 2 ^ 32) :
    ∃ rows, nomuxFile evs = .ok rows ∧ rows.length = 2 * evs.length ∧
      ∀ r (h : r < rows.length) w, evs[r / 2]? = some w →
        rows[r].1 = BitVec.ofNat 32 r ∧ rows[r].2.length = 144 ∧ ∀ j : Fin 144, rows[r].2[j.val]? = some (w j) := by
  have hlen : (evs.flatMap fun e => [e, e]).length = 2 * evs.length := by
    induction evs with
    | nil => rfl
    | cons a l ih =>
      rw [List.length_cons] at hn
      rw [List.flatMap_cons, List.length_append, ih (by omega), show (a :: l).length = l.length + 1 from rfl]
      show 2 + _ = _
      omega
  have hget : ∀ r : Nat, (evs.flatMap fun e => [e, e])[r]? = evs[r / 2]? := by
    clear hn hlen
    induction evs with
    | nil => intro r; rfl
    | cons a l ih =>
      intro r
      rw [List.flatMap_cons]
      match r with
      | 0 => rfl
      | 1 => rfl
      | r + 2 =>
        rw [show (r + 2) / 2 = r / 2 + 1 by omega]
        exact ih r
  obtain ⟨rows, h1, h2, h3⟩ := mp7_file_rows (n := 1) 0 0 (by decide) (by decide) (by decide) (evs.flatMap fun e => [e, e])
    (by rw [hlen]; simpa using hn)
  rw [show (0 : Int).natAbs + 1 = 1 from rfl, hlen] at h2 h3
  refine ⟨rows, h1, by rw [h2]; omega, fun r h w hw => ?_⟩
  have hr : r < 2 * evs.length := by omega
  rw [h3 r h, if_pos (by omega)]
  refine ⟨rfl, by simp [rowWords], fun j => ?_⟩
  have hj := j.isLt
  dsimp only
  unfold rowWords
  rw [if_neg (by decide), List.getElem?_map, List.getElem?_range (by omega)]
  simp only [Option.map_some]
  congr 1
  rw [show r / 1 * 1 + j.val / (144 / 1) = r by omega, show j.val % (144 / 1) * 1 + r % 1 = j.val by omega]
  unfold evWord
  have hs : (stream (0 : Int).natAbs (decide ((0 : Int) < 0)) (evs.flatMap fun e => [e, e]))[r]? = some w := by
    unfold stream
    rw [List.getElem?_map, List.getElem?_range (by show _ < _ * 1; omega)]
    simp only [Option.map_some]
    rw [if_pos (by show r % 1 = 0; omega), show r / ((0 : Int).natAbs + 1) = r by show r / 1 = r; omega, List.getD_eq_getElem?_getD, hget,
      hw]
    rfl
  rw [hs]
  dsimp only
  rw [dif_pos hj]

/-- **C59.** With an odd number of tracks per sector the transposed array is written out of bounds. -/
theorem C59_odd_tracks (hodd : sz.track % 2 = 1) (old : TransMem sz NM) (d : RegRecord sz NC NE NT NM) :
    regFrames old d = .error .oob := by
  unfold regFrames
  rw [transposeTracks_oob hodd, Run.error_bind]

set_option maxRecDepth 4000 in
private theorem idleLine : (List.finRange N_IN_SECTORS).flatMap (fun _ => hadFields HadCaloObj.clear) ++
    ((List.finRange N_IN_SECTORS).flatMap (fun _ => emFields EmCaloObj.clear) ++
      ((List.finRange N_IN_SECTORS).flatMap (fun _ => tkFields TkObj.clear ++ tkFields TkObj.clear) ++
        (List.finRange N_MUON_SECTORS).flatMap (fun _ => muFields MuObj.clear))) = List.replicate 244 0 := by
  decide

private theorem hadNumbers_eq : hadNumbers = hadFields := rfl
private theorem emNumbers_eq : emNumbers = emFields := rfl
private theorem tkNumbers_eq : tkNumbers = tkFields := rfl
private theorem muNumbers_eq : muNumbers = muFields := rfl

/-- **C59.** The input text file: the objects of a sector are printed one every other clock, tracks in pairs. -/
theorem C59_dump_in (frame test : Int) (d : RegRecord sz NC NE NT NM) (ic : Fin N_CLOCKS) :
    ∃ line, dumpInLine frame test d ic = .ok line ∧ line.length = 247 ∧ ColumnsAt line 0 [frame, test, (ic.val / 2 : Nat)] ∧
      (ic.val % 2 = 0 →
        (∀ (is : Fin 12) (h : ic.val / 2 < sz.calo), ColumnsAt line (3 + 5 * is) (hadNumbers (d.inp.calo is ⟨ic.val / 2, h⟩))) ∧
        (∀ (is : Fin 12) (h : ic.val / 2 < sz.em), ColumnsAt line (63 + 4 * is) (emNumbers (d.inp.em is ⟨ic.val / 2, h⟩))) ∧
        (∀ (is : Fin 12) (b : Fin 2) (h : ic.val + b.val < sz.track / 2),
          ColumnsAt line (111 + 10 * is + 5 * b) (tkNumbers (d.inp.track is ⟨ic.val + b.val, by omega⟩))) ∧
        (∀ (is : Fin 4) (h : ic.val / 2 < NM), ColumnsAt line (231 + 4 * is) (muNumbers (d.mu_in is ⟨ic.val / 2, h⟩)))) ∧
      (ic.val % 2 = 1 → line.drop 3 = List.replicate 244 0) := by
  simp only [hadNumbers_eq, emNumbers_eq, tkNumbers_eq, muNumbers_eq]
  have n12 : N_IN_SECTORS = 12 := rfl
  have n4 : N_MUON_SECTORS = 4 := rfl
  have lc := fun is => flatMap_block (inCaloCols_length d ic.val) is
  have le := fun is => flatMap_block (inEmCols_length d ic.val) is
  have lt := fun is => flatMap_block (inTrackCols_length d ic.val) is
  have lm := fun is => flatMap_block (inMuCols_length d ic.val) is
  have lc' : ((List.finRange N_IN_SECTORS).flatMap (inCaloCols d ic.val)).length = 60 := (lc 0).2
  have le' : ((List.finRange N_IN_SECTORS).flatMap (inEmCols d ic.val)).length = 48 := (le 0).2
  have lt' : ((List.finRange N_IN_SECTORS).flatMap (inTrackCols d ic.val)).length = 120 := (lt 0).2
  have lm' : ((List.finRange N_MUON_SECTORS).flatMap (inMuCols d ic.val)).length = 16 := (lm 0).2
  refine ⟨_, dumpInLine_ok frame test d ic, ?_, ?_, fun hev => ⟨?_, ?_, ?_, ?_⟩, fun hodd => ?_⟩
  · simp only [List.length_append, List.length_cons, List.length_nil]
    omega
  · rfl
  · intro is h
    have his := is.isLt
    have e : inCaloCols d ic.val is = hadFields (d.inp.calo is ⟨ic.val / 2, h⟩) := by
      unfold inCaloCols
      rw [dif_pos ⟨h, by rw [hev]; rfl⟩]
    refine columns_append (pre := [frame, test, (ic.val / 2 : Nat)]) (mid := (List.finRange N_IN_SECTORS).flatMap (inCaloCols d ic))
      (q := 5 * is.val) (by simp only [List.append_assoc]; rfl) rfl (by rw [lc', hadFields_length]; omega) ?_
    rw [hadFields_length, (lc is).1, e]
  · intro is h
    have his := is.isLt
    have e : inEmCols d ic.val is = emFields (d.inp.em is ⟨ic.val / 2, h⟩) := by
      unfold inEmCols
      rw [dif_pos ⟨h, by rw [hev]; rfl⟩]
    refine columns_append (pre := [frame, test, (ic.val / 2 : Nat)] ++ (List.finRange N_IN_SECTORS).flatMap (inCaloCols d ic))
      (mid := (List.finRange N_IN_SECTORS).flatMap (inEmCols d ic))
      (q := 4 * is.val) (by simp only [List.append_assoc]; rfl) (by rw [List.length_append, lc']; rfl) (by rw [le', emFields_length]; omega) ?_
    rw [emFields_length, (le is).1, e]
  · intro is b h
    have his := is.isLt
    have hb := b.isLt
    have e : inTrackCol d ic.val b is = tkFields (d.inp.track is ⟨ic.val + b.val, by omega⟩) := by
      unfold inTrackCol
      rw [dif_pos ⟨h, by rw [hev]; rfl⟩]
    refine columns_append (pre := [frame, test, (ic.val / 2 : Nat)] ++ (List.finRange N_IN_SECTORS).flatMap (inCaloCols d ic) ++
        (List.finRange N_IN_SECTORS).flatMap (inEmCols d ic))
      (mid := (List.finRange N_IN_SECTORS).flatMap (inTrackCols d ic))
      (q := 10 * is.val + 5 * b.val) (by simp only [List.append_assoc]; rfl)
      (by rw [List.length_append, List.length_append, lc', le']; show _ = 3 + 60 + 48 + _; omega) (by rw [lt', tkFields_length]; omega) ?_
    rw [tkFields_length, ← List.drop_drop]
    have hblock := (lt is).1
    have : List.take 5 (List.drop (5 * b.val) (inTrackCols d ic.val is)) = tkFields (d.inp.track is ⟨ic.val + b.val, by omega⟩) := by
      rw [← e]
      unfold inTrackCols
      have h0 := inTrackCol_length d ic.val 0 is
      have h1 := inTrackCol_length d ic.val 1 is
      by_cases hz : b.val = 0
      · rw [hz, Nat.mul_zero, List.drop_zero, List.take_append_of_le_length (by omega), List.take_of_length_le (by omega)]
      · rw [show b.val = 1 by omega, List.drop_append_of_le_length (by omega), List.drop_eq_nil_of_le (by omega), List.nil_append,
          List.take_of_length_le (by omega)]
    rw [← this, ← hblock, List.drop_take, List.take_take]
    congr 1
    omega
  · intro is h
    have his := is.isLt
    have e : inMuCols d ic.val is = muFields (d.mu_in is ⟨ic.val / 2, h⟩) := by
      unfold inMuCols
      rw [dif_pos ⟨h, by rw [hev]; rfl⟩]
    refine columns_append (pre := [frame, test, (ic.val / 2 : Nat)] ++ (List.finRange N_IN_SECTORS).flatMap (inCaloCols d ic) ++
        (List.finRange N_IN_SECTORS).flatMap (inEmCols d ic) ++ (List.finRange N_IN_SECTORS).flatMap (inTrackCols d ic))
      (mid := (List.finRange N_MUON_SECTORS).flatMap (inMuCols d ic)) (post := [])
      (q := 4 * is.val) (by simp only [List.append_assoc, List.append_nil])
      (by rw [List.length_append, List.length_append, List.length_append, lc', le', lt']; rfl) (by rw [lm', muFields_length]; omega) ?_
    rw [muFields_length, (lm is).1, e]
  · have hs : (ic.val % 2 == 0) = false := by rw [hodd]; rfl
    have e1 : inCaloCols d ic.val = fun _ => hadFields HadCaloObj.clear := by
      funext is; unfold inCaloCols; rw [dif_neg (by rw [hs]; simp)]
    have e2 : inEmCols d ic.val = fun _ => emFields EmCaloObj.clear := by
      funext is; unfold inEmCols; rw [dif_neg (by rw [hs]; simp)]
    have e3 : inTrackCols d ic.val = fun _ => tkFields TkObj.clear ++ tkFields TkObj.clear := by
      funext is; unfold inTrackCols inTrackCol; rw [dif_neg (by rw [hs]; simp), dif_neg (by rw [hs]; simp)]
    have e4 : inMuCols d ic.val = fun _ => muFields MuObj.clear := by
      funext is; unfold inMuCols; rw [dif_neg (by rw [hs]; simp)]
    rw [e1, e2, e3, e4]
    simp only [List.append_assoc]
    exact idleLine

/-- **C59.** The text file loses half of the tracks: two tests that differ only in the second half of the tracks of each
sector (and in the quality flags) print the same lines. -/
theorem C59_dump_in_loses_tracks (frame test : Int) (d d' : RegRecord sz NC NE NT NM) (h1 : d.inp.calo = d'.inp.calo)
    (h2 : d.inp.em = d'.inp.em) (h3 : d.mu_in = d'.mu_in)
    (h4 : ∀ is (i : Fin sz.track), i.val < sz.track / 2 → tkNumbers (d.inp.track is i) = tkNumbers (d'.inp.track is i)) (ic : Fin N_CLOCKS) :
    dumpInLine frame test d ic = dumpInLine frame test d' ic := by
  rw [dumpInLine_ok, dumpInLine_ok]
  have e1 : inCaloCols d ic = inCaloCols d' ic := by funext is; unfold inCaloCols; rw [h1]
  have e2 : inEmCols d ic = inEmCols d' ic := by funext is; unfold inEmCols; rw [h2]
  have e3 : inMuCols d ic = inMuCols d' ic := by funext is; unfold inMuCols; rw [h3]
  have e4 : inTrackCols d ic = inTrackCols d' ic := by
    have : ∀ b is, inTrackCol d ic b is = inTrackCol d' ic b is := by
      intro b is
      unfold inTrackCol
      split
      · rename_i h
        exact h4 is _ h.1
      · rfl
    funext is
    unfold inTrackCols
    rw [this, this]
  rw [e1, e2, e3, e4]

/-- **C59.** The output text file: region `ic / 2` in clock `ic`, so each region twice. -/
theorem C59_dump_out (frame : Int) (d : RegRecord sz NC NE NT NM) (ic : Fin N_CLOCKS) (ir : Fin 18) (hir : ir.val = ic.val / 2) :
    ∃ line, dumpOutLine frame d ic = .ok line ∧ line.length = 2 + 5 * NC + 4 * NE + 5 * NT + 4 * NM ∧ ColumnsAt line 0 [frame] ∧
      (∀ i : Fin NC, ColumnsAt line (1 + 5 * i) (hadNumbers (d.calo ir i))) ∧
      (∀ i : Fin NE, ColumnsAt line (1 + 5 * NC + 4 * i) (emNumbers (d.em ir i))) ∧
      (∀ i : Fin NT, ColumnsAt line (1 + 5 * NC + 4 * NE + 5 * i) (tkNumbers (d.track ir i))) ∧
      (∀ i : Fin NM, ColumnsAt line (1 + 5 * NC + 4 * NE + 5 * NT + 4 * i) (muNumbers (d.mu ir i))) := by
  simp only [hadNumbers_eq, emNumbers_eq, tkNumbers_eq, muNumbers_eq]
  obtain ⟨ir', h, hline⟩ := dumpOutLine_ok frame d ic
  obtain rfl : ir' = ir := Fin.ext (h.trans hir.symm)
  have len : ∀ {n k : Nat} {g : Fin n → List Int}, (∀ i, (g i).length = k) → ((List.finRange n).flatMap g).length = k * n := by
    intro n k g hg
    cases n with
    | zero => rw [Nat.mul_zero]; rfl
    | succ n => exact (flatMap_block hg 0).2
  have lc := len (fun i => hadFields_length (d.calo ir' i))
  have le := len (fun i => emFields_length (d.em ir' i))
  have lt := len (fun i => tkFields_length (d.track ir' i))
  have lm := len (fun i => muFields_length (d.mu ir' i))
  have block : ∀ {n k : Nat} (i : Fin n), k * i.val + k ≤ k * n := by
    intro n k i
    rw [← Nat.mul_succ]
    exact Nat.mul_le_mul_left _ i.isLt
  refine ⟨_, hline, ?_, rfl, fun i => ?_, fun i => ?_, fun i => ?_, fun i => ?_⟩
  · simp only [List.length_append, List.length_cons, List.length_nil, lc, le, lt, lm]
    omega
  · refine columns_append (pre := [frame]) (mid := (List.finRange NC).flatMap (fun i => hadFields (d.calo ir' i)))
      (q := 5 * i.val) (by simp only [List.append_assoc]; rfl) rfl (by rw [lc]; exact block i) ?_
    exact (flatMap_block (fun i => hadFields_length (d.calo ir' i)) i).1
  · refine columns_append (pre := [frame] ++ (List.finRange NC).flatMap (fun i => hadFields (d.calo ir' i)))
      (mid := (List.finRange NE).flatMap (fun i => emFields (d.em ir' i)))
      (q := 4 * i.val) (by simp only [List.append_assoc]; rfl) (by rw [List.length_append, lc]; rfl) (by rw [le]; exact block i) ?_
    exact (flatMap_block (fun i => emFields_length (d.em ir' i)) i).1
  · refine columns_append (pre := [frame] ++ (List.finRange NC).flatMap (fun i => hadFields (d.calo ir' i)) ++
        (List.finRange NE).flatMap (fun i => emFields (d.em ir' i)))
      (mid := (List.finRange NT).flatMap (fun i => tkFields (d.track ir' i)))
      (q := 5 * i.val) (by simp only [List.append_assoc]; rfl) (by rw [List.length_append, List.length_append, lc, le]; rfl)
      (by rw [lt]; exact block i) ?_
    exact (flatMap_block (fun i => tkFields_length (d.track ir' i)) i).1
  · refine columns_append (pre := [frame] ++ (List.finRange NC).flatMap (fun i => hadFields (d.calo ir' i)) ++
        (List.finRange NE).flatMap (fun i => emFields (d.em ir' i)) ++ (List.finRange NT).flatMap (fun i => tkFields (d.track ir' i)))
      (mid := (List.finRange NM).flatMap (fun i => muFields (d.mu ir' i)))
      (q := 4 * i.val) (by simp only [List.append_assoc]; rfl)
      (by rw [List.length_append, List.length_append, List.length_append, lc, le, lt]; rfl) (by rw [lm]; exact block i) ?_
    exact (flatMap_block (fun i => muFields_length (d.mu ir' i)) i).1

/-! ## Non-vacuity -/

/-- A record with one object of each kind in it. -/
def exRegRecord : RegRecord .source 15 10 22 2 where
  inp := ⟨fun is i => if is = 3 ∧ i.val = 1 then ⟨100, 40, 5, 7, true⟩ else HadCaloObj.clear,
    fun is i => if is = 4 ∧ i.val = 0 then ⟨12, 3, 1, 2⟩ else EmCaloObj.clear,
    fun is i => if is = 11 ∧ i.val = 19 then ⟨20, 2, -5, 6, 3, true⟩ else TkObj.clear, fun _ _ => MuObj.clear⟩
  mu_in := fun is i => if is = 2 ∧ i.val = 1 then ⟨30, 2, 4, 5⟩ else MuObj.clear
  calo := fun ir i => if ir = 6 ∧ i.val = 14 then ⟨100, 40, 5, 7, true⟩ else HadCaloObj.clear
  em := fun _ _ => EmCaloObj.clear
  track := fun _ _ => TkObj.clear
  mu := fun _ _ => MuObj.clear

/-- **C59**, non-vacuity: the record meets the hypotheses of the pattern file theorems; the objects are on the links one
expects, and the last track of sector 11 is in the pattern file but on no line of the text file. -/
example : RegSizes.source.track % 2 = 0 ∧ 15 + 10 + 22 + 2 ≤ 72 ∧ (inLink exRegRecord 1 3).1 = 100 + 2 ^ 16 * 7 ∧
    inLink exRegRecord 9 47 ≠ (0, 0) ∧ inLink exRegRecord 1 50 ≠ (0, 0) ∧ outLink exRegRecord 6 14 ≠ (0, 0) := by
  decide +kernel

end Verif
