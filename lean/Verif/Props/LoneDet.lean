import Verif.Spec.LoneDet
import Verif.Props.Single
import Verif.Props.Detector
import Verif.Props.AroundDet
/-! # C104: one object of each kind in the whole detector -/
namespace Verif
open Spec
section
variable {T : Type} [RegObj T] [LawfulReg T]

theorem slice_lone {arr : Fin 12 → List T} {s0 : Fin 12} {X : T} (h : Lone arr s0 X) {nse : Nat} (hn : 1 ≤ nse) (ie : Fin 3) (s : Fin 12) :
    slice nse ie (arr s) = if s = s0 ∧ 0 < ptOf X ∧ inSlice ie X = true then [etaRel ie X] else [] := by
  have e : (((arr s).filter (inSlice ie)).map (etaRel ie)).filter (fun o => decide (0 < ptOf o)) =
      (((arr s).filter fun o => decide (0 < ptOf o)).filter (inSlice ie)).map (etaRel ie) := by
    rw [List.filter_map, List.filter_filter, List.filter_filter]
    congr 1
    refine List.filter_congr fun o _ => ?_
    rw [Bool.and_comm]
    simp only [Function.comp, ptOf_etaRel]
  unfold slice best
  rw [e, h s]
  by_cases h1 : s = s0 ∧ 0 < ptOf X
  · rw [if_pos h1]
    by_cases h2 : inSlice ie X = true
    · rw [if_pos ⟨h1.1, h1.2, h2⟩, List.filter_cons_of_pos h2]
      exact List.take_of_length_le hn
    · rw [if_neg fun c => h2 c.2.2, List.filter_cons_of_neg h2]
      exact List.take_nil
  · rw [if_neg h1, if_neg fun c => h1 ⟨c.1, c.2.1⟩]
    exact List.take_nil

theorem region_lone {NFPS NSEC NSE NREG : Nat} {fib rest : Arr (NFPS * N_IN_SECTORS) (List T)} {regions : Arr N_OUT_REGIONS (Arr NREG T)}
    (hrun : regionize_ref NSEC NSE NREG fib = .ok (rest, regions)) {s0 : Fin 12} {X : T} (hl : Lone (arrivals NSEC fib) s0 X)
    (hphi : 0 < ptOf X → -60 ≤ (RegObj.phi X).toInt ∧ (RegObj.phi X).toInt ≤ 60) (hn : 1 ≤ NSE) (hr : 1 ≤ NREG) (ir : Fin 18) :
    regions ir = fun i => if i.val = 0 then viewOf (regionEta ir) (regionPhi ir) s0 X else RegObj.clear := by
  have h := C33_ref_content NSEC NSE NREG fib rest regions hrun ir
  change List.ofFn (regions ir) = pad NREG (region NREG NSE (regionEta ir) (regionPhi ir) (arrivals NSEC fib)) at h
  generalize regionPhi ir = ip at *
  generalize regionEta ir = ie at *
  have hc : candidates NSE ie ip (arrivals NSEC fib) = if 0 < ptOf X ∧ Sees ie ip s0 X then [place ie ip s0 X] else [] := by
    unfold candidates
    rw [slice_lone hl hn, slice_lone hl hn, slice_lone hl hn]
    have key : ∀ k : Fin 3, secOf ip k = s0 → 0 < ptOf X → inSlice ie X = true → phiMove (120 * ((k.val : Int) - 1)) (etaRel ie X) = place ie ip s0 X := fun k hk hp hs => by
      rw [← hk]
      exact (sector_inside hs (hphi hp)).2
    by_cases hs : 0 < ptOf X ∧ inSlice ie X = true
    · have hv : ∀ s : Fin 12, (s = s0 ∧ 0 < ptOf X ∧ inSlice ie X = true) ↔ s.val = s0.val := fun s => ⟨fun c => congrArg _ c.1, fun c => ⟨Fin.ext c, hs⟩⟩
      simp only [hv]
      have hi := ip.isLt
      have hs0 := s0.isLt
      have sec : ∀ k : Fin 3, s0.val = (2 * ip.val + k.val) % 12 → secOf ip k = s0 := fun k hk => Fin.ext hk.symm
      by_cases a : s0.val = 2 * ip.val
      · rw [if_pos a.symm, if_neg (by omega), if_neg (by omega), if_pos ⟨hs.1, hs.2, .inl a⟩]
        exact congrArg (fun x => [x]) (key 0 (sec 0 (by show _ = (2 * ip.val + 0) % 12; omega)) hs.1 hs.2)
      · by_cases b : s0.val = 2 * ip.val + 1
        · rw [if_neg (by omega), if_pos b.symm, if_neg (by omega), if_pos ⟨hs.1, hs.2, .inr (.inl b)⟩]
          exact congrArg (fun x => [x]) (key 1 (sec 1 (by show _ = (2 * ip.val + 1) % 12; omega)) hs.1 hs.2)
        · by_cases c : s0.val = (2 * ip.val + 2) % 12
          · rw [if_neg (by omega), if_neg (by omega), if_pos c.symm, if_pos ⟨hs.1, hs.2, .inr (.inr c)⟩]
            exact congrArg (fun x => [x]) (key 2 (sec 2 (by show _ = (2 * ip.val + 2) % 12; omega)) hs.1 hs.2)
          · rw [if_neg (by omega), if_neg (by omega), if_neg (by omega), if_neg fun d => ?_]
            · rfl
            · rcases d.2.2 with d | d | d <;> omega
    · have hv : ∀ s : Fin 12, ¬ (s = s0 ∧ 0 < ptOf X ∧ inSlice ie X = true) := fun s c => hs c.2
      rw [if_neg (hv _), if_neg (hv _), if_neg (hv _), if_neg fun d => hs ⟨d.1, d.2.1⟩]
      rfl
  have hreg : region NREG NSE ie ip (arrivals NSEC fib) = if 0 < ptOf X ∧ Sees ie ip s0 X then [place ie ip s0 X] else [] := by
    unfold region best
    rw [hc]
    by_cases hs : 0 < ptOf X ∧ Sees ie ip s0 X
    · rw [if_pos hs, List.filter_cons_of_pos (by rw [decide_eq_true_iff]; have e : ptOf (place ie ip s0 X) = ptOf X := ptOf_place _ _ _ _; omega)]
      exact List.take_of_length_le hr
    · rw [if_neg hs]
      exact List.take_nil
  rw [hreg] at h
  refine List.ofFn_injective (h.trans ?_)
  obtain ⟨n, rfl⟩ : ∃ n, NREG = n + 1 := ⟨NREG - 1, by omega⟩
  rw [List.ofFn_succ]
  unfold viewOf
  by_cases hs : 0 < ptOf X ∧ Sees ie ip s0 X
  · rw [if_pos hs, pad_of_le (by simp)]
    simp [hs, List.ofFn_const]
  · rw [if_neg hs, pad_of_le (by simp)]
    simp [hs, List.ofFn_const, List.replicate_succ]

/-- **C104.** An object in the barrel is seen by one, two or four regions: two in phi from a sector of even number, two in eta in the overlaps. -/
theorem C104_copies (s : Fin 12) (o : T) (h1 : -342 ≤ (RegObj.eta o).toInt) (h2 : (RegObj.eta o).toInt ≤ 342) :
    ((List.finRange 18).filter fun ir : Fin 18 => decide (Sees (regionEta ir) (regionPhi ir) s o)).length = copies s (RegObj.eta o).toInt := by
  have key : ∀ (b : Fin 3 → Bool) (s : Fin 12), ((List.finRange 18).filter fun ir : Fin 18 => decide (b (regionEta ir) = true ∧
      (s.val = 2 * (regionPhi ir).val ∨ s.val = 2 * (regionPhi ir).val + 1 ∨ s.val = (2 * (regionPhi ir).val + 2) % 12))).length =
      ((if b 0 then 1 else 0) + (if b 1 then 1 else 0) + (if b 2 then 1 else 0)) * (if s.val % 2 = 0 then 2 else 1) := by
    decide +kernel
  refine (key (fun ie => inSlice ie o) s).trans ?_
  unfold copies
  congr 1
  have e : ∀ ie : Fin 3, inSlice ie o = true ↔ etaLo ie ≤ (RegObj.eta o).toInt ∧ (RegObj.eta o).toInt ≤ etaHi ie := fun ie => decide_eq_true_iff
  simp only [e]
  have v : etaLo 0 = -342 ∧ etaHi 0 = -57 ∧ etaLo 1 = -171 ∧ etaHi 1 = 171 ∧ etaLo 2 = 57 ∧ etaHi 2 = 342 := by decide
  obtain ⟨v1, v2, v3, v4, v5, v6⟩ := v
  rw [v1, v2, v3, v4, v5, v6]
  generalize (RegObj.eta o).toInt = x at *
  split <;> split <;> split <;> split <;> omega

theorem sees_inside {ie : Fin 3} {ip : Fin 6} {s : Fin 12} {o : T} (h : Sees ie ip s o) (hphi : -60 ≤ (RegObj.phi o).toInt ∧ (RegObj.phi o).toInt ≤ 60) :
    Inside ie ip s o := by
  have hi := ip.isLt
  have : ∃ k : Fin 3, secOf ip k = s := by
    rcases h.2 with a | a | a
    · exact ⟨0, Fin.ext (by show (2 * ip.val + 0) % 12 = _; omega)⟩
    · exact ⟨1, Fin.ext (by show (2 * ip.val + 1) % 12 = _; omega)⟩
    · exact ⟨2, Fin.ext (by show (2 * ip.val + 2) % 12 = _; omega)⟩
  obtain ⟨k, rfl⟩ := this
  exact (sector_inside h.1 hphi).1

theorem sees_of_inside {ie : Fin 3} {ip : Fin 6} {s : Fin 12} {o : T} (hp : Proper o) (hs : inSlice ie o = true)
    (h1 : -180 < relPhi ip s (RegObj.phi o).toInt) (h2 : relPhi ip s (RegObj.phi o).toInt < 180) : Sees ie ip s o := by
  obtain ⟨k, rfl, -⟩ := inside_sector (ie := ie) hp h1 h2
  refine ⟨hs, ?_⟩
  have hi := ip.isLt
  have hk := k.isLt
  show (2 * ip.val + k.val) % 12 = _ ∨ (2 * ip.val + k.val) % 12 = _ ∨ (2 * ip.val + k.val) % 12 = _
  omega

end

variable {NT NC NE NM NS FE FT : Nat}

/-- The muon of a region. -/
theorem muRegion_lone (inn : Arr N_IN_SECTORS (Arr NM MuObj)) (later : Arr N_MUON_SECTORS (List MuObj)) {rest : Arr N_MUON_SECTORS (List MuObj)}
    {rm : Arr N_OUT_REGIONS (Arr NM MuObj)} (hrun : regionize_muon_ref NM (fun s => List.ofFn (merge_muon_in inn s) ++ later s) = .ok (rest, rm))
    {s0 : Fin 12} {i0 : Fin NM} (honly : ∀ s i, 0 < (inn s i).hwPt.toInt → s = s0 ∧ i = i0)
    (hphi : 0 < (inn s0 i0).hwPt.toInt → -60 ≤ (inn s0 i0).hwPhi.toInt ∧ (inn s0 i0).hwPhi.toInt ≤ 60) (ir : Fin 18) :
    ∃ M, rm ir = (fun m => if m.val = 0 then M else MuObj.clear) ∧
      (M = MuObj.clear ∨ (M = place (regionEta ir) (regionPhi ir) s0 (inn s0 i0) ∧ 0 < (inn s0 i0).hwPt.toInt ∧ Inside (regionEta ir) (regionPhi ir) s0 (inn s0 i0))) ∧
      (0 < (inn s0 i0).hwPt.toInt → inSlice (regionEta ir) (inn s0 i0) = true → -180 < relPhi (regionPhi ir) s0 (inn s0 i0).hwPhi.toInt →
        relPhi (regionPhi ir) s0 (inn s0 i0).hwPhi.toInt < 180 → M = place (regionEta ir) (regionPhi ir) s0 (inn s0 i0)) := by
  obtain ⟨r, h1, h2⟩ := C36_muons inn later fun s i h => by
    obtain ⟨rfl, rfl⟩ := honly s i h
    exact hphi h
  rw [hrun] at h1
  cases h1
  obtain ⟨L, e1, e2, e3, -, e5, e6⟩ := h2 ir
  have hL : ∀ p ∈ L, p = (s0, i0) := fun p hp => by
    obtain ⟨a, b⟩ := honly p.1 p.2 (e5 p hp).1
    exact Prod.ext a b
  have hn : (muIndices inn).length ≤ NM := by
    have nd : (muIndices inn).Nodup := ((List.nodup_finRange 12).product (List.nodup_finRange NM)).filter _
    have all : ∀ p ∈ muIndices inn, p = (s0, i0) := fun p hp => by
      obtain ⟨a, b⟩ := honly p.1 p.2 (of_decide_eq_true (List.mem_filter.mp hp).2)
      exact Prod.ext a b
    have : (muIndices inn).length ≤ 1 := by
      rcases h : muIndices inn with _ | ⟨p, _ | ⟨q, L'⟩⟩
      · exact Nat.zero_le _
      · exact Nat.le_refl _
      · rw [h] at nd all
        rw [all p (by simp), all q (by simp)] at nd
        simp at nd
    have := i0.isLt
    omega
  have hNM := i0.isLt
  obtain ⟨n, rfl⟩ : ∃ n, NM = n + 1 := ⟨NM - 1, by omega⟩
  rcases L with _ | ⟨p, L⟩
  · refine ⟨MuObj.clear, ?_, .inl rfl, fun a b c d => absurd (e6 hn (s0, i0) a b c d) (by simp)⟩
    refine List.ofFn_injective (e1.trans ?_)
    rw [pad_of_le (by simp)]
    simp
    rfl
  · obtain rfl : p = (s0, i0) := hL p (by simp)
    have hLn : L = [] := by
      rcases L with _ | ⟨q, L⟩
      · rfl
      · have := hL q (by simp)
        rw [this] at e2
        simp at e2
    subst hLn
    obtain ⟨q1, q2, q3, q4⟩ := e5 (s0, i0) (by simp)
    refine ⟨place (regionEta ir) (regionPhi ir) s0 (inn s0 i0), ?_, .inr ⟨rfl, q1, q2, q3, q4⟩, fun _ _ _ _ => rfl⟩
    refine List.ofFn_injective (e1.trans ?_)
    rw [pad_of_le (by simp)]
    simp
    exact ⟨rfl, .inr rfl⟩

/-- The detector sends one object of each kind, or less. -/
structure DetEvent.LoneIs (d : DetEvent FE FT NT NC NE NM) (e : LoneEvent) : Prop where
  em : ∃ rest, regionize_ref d.sz.emSec d.sz.emSlice NE d.em = .ok (rest, d.re)
  had : ∃ rest, regionize_ref d.sz.hadSec d.sz.hadSlice NC d.had = .ok (rest, d.rh)
  tk : ∃ rest, regionize_ref d.sz.tkSec d.sz.tkSlice NT d.tk = .ok (rest, d.rt)
  mu : ∃ (inn : Arr N_IN_SECTORS (Arr NM MuObj)) (later rest : Arr N_MUON_SECTORS (List MuObj)) (i0 : Fin NM),
    regionize_muon_ref NM (fun s => List.ofFn (merge_muon_in inn s) ++ later s) = .ok (rest, d.rm) ∧ inn e.sM i0 = e.of.M ∧
      ∀ s i, 0 < (inn s i).hwPt.toInt → s = e.sM ∧ i = i0
  C : Lone (arrivals d.sz.emSec d.em) e.sC e.of.C
  H : Lone (arrivals d.sz.hadSec d.had) e.sH e.of.H
  T : Lone (arrivals d.sz.tkSec d.tk) e.sT e.of.T
  Cphi : 0 < ptOf e.of.C → -60 ≤ e.of.C.hwPhi.toInt ∧ e.of.C.hwPhi.toInt ≤ 60
  Hphi : 0 < ptOf e.of.H → -60 ≤ e.of.H.hwPhi.toInt ∧ e.of.H.hwPhi.toInt ≤ 60
  Tphi : 0 < ptOf e.of.T → -60 ≤ e.of.T.hwPhi.toInt ∧ e.of.T.hwPhi.toInt ≤ 60
  Mphi : 0 < ptOf e.of.M → -60 ≤ e.of.M.hwPhi.toInt ∧ e.of.M.hwPhi.toInt ≤ 60
  room : (1 ≤ d.sz.emSlice ∧ 1 ≤ NE) ∧ (1 ≤ d.sz.hadSlice ∧ 1 ≤ NC) ∧ (1 ≤ d.sz.tkSlice ∧ 1 ≤ NT)

/-- The muon a region has. -/
def MuonSeen (e : LoneEvent) (ir : Fin 18) (M : MuObj) : Prop :=
  (M = MuObj.clear ∨ (M = place (regionEta ir) (regionPhi ir) e.sM e.of.M ∧ 0 < ptOf e.of.M ∧ Inside (regionEta ir) (regionPhi ir) e.sM e.of.M)) ∧
  (0 < ptOf e.of.M → inSlice (regionEta ir) e.of.M = true → -180 < relPhi (regionPhi ir) e.sM e.of.M.hwPhi.toInt →
    relPhi (regionPhi ir) e.sM e.of.M.hwPhi.toInt < 180 → M = place (regionEta ir) (regionPhi ir) e.sM e.of.M)

/-- Where a region is centred. -/
def centre (ir : Fin 18) : Pos := ⟨etaC (regionEta ir), 120 * (2 * (regionPhi ir).val + 1)⟩

theorem centre_covers : ∀ ir : Fin 18, Covers (regionEta ir) (regionPhi ir) (centre ir) ∧ dirIn (regionEta ir) (regionPhi ir) (centre ir) = (0, 0) := by
  unfold Covers centre
  decide +kernel

theorem dist2_centre {ir : Fin 18} {s : Fin 12} {o : TkObj} (h : Inside (regionEta ir) (regionPhi ir) s o) :
    dist2 (place (regionEta ir) (regionPhi ir) s o).hwEta (place (regionEta ir) (regionPhi ir) s o).hwPhi 0 0 = detDist2 (centre ir) (posOf s o) := by
  obtain ⟨hc, hd⟩ := centre_covers ir
  have := dist2_dirIn hc h
  rw [hd] at this
  rw [← this]
  unfold dist2
  rw [← sq_abs (circ _ 0), ← sq_abs (circ (place (regionEta ir) (regionPhi ir) s o).hwPhi 0), circ_abs_symm, circ_abs_symm _ 0, sq_abs, sq_abs]
  rfl

/-- The empty EM slots of the region, which are at its centre, do not take the track from its EM cluster: the track is 9 units or more away from the centre,
or not closer to it than to the cluster. -/
def _root_.Verif.Spec.LoneEvent.Away (e : LoneEvent) (ir : Fin 18) : Prop :=
  0 < ptOf e.of.T → Sees (regionEta ir) (regionPhi ir) e.sT e.of.T → 0 < ptOf e.of.C → Sees (regionEta ir) (regionPhi ir) e.sC e.of.C →
    84 ≤ detDist2 (centre ir) (posOf e.sT e.of.T) ∨ detDist2 (posOf e.sT e.of.T) (posOf e.sC e.of.C) ≤ detDist2 (centre ir) (posOf e.sT e.of.T)

/-- Each region has at most one object of each kind. -/
theorem lone_board {d : DetEvent FE FT NT NC NE NM} {e : LoneEvent} (h : d.LoneIs e) (ir : Fin 18)
    (haway : e.Away ir) :
    ∃ M, MuonSeen e ir M ∧ ∃ t0 c0 h0 m0, OneEach (boardOf d.re d.rh d.rt d.rm ir) (e.view (regionEta ir) (regionPhi ir) M) t0 c0 h0 m0 := by
  obtain ⟨_, r1⟩ := h.em
  obtain ⟨_, r2⟩ := h.had
  obtain ⟨_, r3⟩ := h.tk
  obtain ⟨inn, later, rest, i0, r4, r5, r6⟩ := h.mu
  obtain ⟨⟨n1, n2⟩, ⟨n3, n4⟩, n5, n6⟩ := h.room
  obtain ⟨M, q1, q2, q3⟩ := muRegion_lone inn later r4 r6 (by rw [r5]; exact h.Mphi) ir
  rw [r5] at q2 q3
  have w1 := region_lone r1 h.C h.Cphi n1 n2 ir
  have w2 := region_lone r2 h.H h.Hphi n3 n4 ir
  have w3 := region_lone r3 h.T h.Tphi n5 n6 ir
  refine ⟨M, ⟨q2, q3⟩, ⟨0, n6⟩, ⟨0, n2⟩, ⟨0, n4⟩, ⟨0, by have := i0.isLt; omega⟩, ?_⟩
  have ne : ∀ {n : Nat} {hn : 0 < n} {i : Fin n}, i ≠ ⟨0, hn⟩ → ¬ i.val = 0 := fun hi c => hi (Fin.ext c)
  refine ⟨?_, ?_, ?_, ?_, fun t ht => ?_, fun c hc => ?_, fun c hc => ?_, fun m hm => ?_, fun hp c hc => ?_, fun hp => ?_⟩
  · exact (congrFun w3 _).trans (if_pos rfl)
  · exact (congrFun w1 _).trans (if_pos rfl)
  · exact (congrFun w2 _).trans (if_pos rfl)
  · exact (congrFun q1 _).trans (if_pos rfl)
  · rw [show (boardOf d.re d.rh d.rt d.rm ir).track t = TkObj.clear from (congrFun w3 _).trans (if_neg (ne ht))]
    exact ⟨rfl, rfl⟩
  · rw [show (boardOf d.re d.rh d.rt d.rm ir).emcalo c = EmCaloObj.clear from (congrFun w1 _).trans (if_neg (ne hc))]
    rfl
  · rw [show (boardOf d.re d.rh d.rt d.rm ir).hadcalo c = HadCaloObj.clear from (congrFun w2 _).trans (if_neg (ne hc))]
    exact ⟨rfl, rfl⟩
  · rw [show (boardOf d.re d.rh d.rt d.rm ir).mu m = MuObj.clear from (congrFun q1 _).trans (if_neg (ne hm))]
    decide
  · rw [show (boardOf d.re d.rh d.rt d.rm ir).emcalo c = EmCaloObj.clear from (congrFun w1 _).trans (if_neg (ne hc))]
    change (viewOf (regionEta ir) (regionPhi ir) e.sT e.of.T).hwPt.toInt ≠ 0 at hp
    have hlt : (⟨0, n2⟩ : Fin NE) < c := Fin.lt_def.mpr (Nat.pos_of_ne_zero (ne hc))
    by_cases hs : 0 < ptOf e.of.T ∧ Sees (regionEta ir) (regionPhi ir) e.sT e.of.T
    · have eT : (e.view (regionEta ir) (regionPhi ir) M).T = place (regionEta ir) (regionPhi ir) e.sT e.of.T := if_pos hs
      have iT := sees_inside hs.2 (h.Tphi hs.1)
      rw [eT, show (EmCaloObj.clear).hwEta = 0 from rfl, show (EmCaloObj.clear).hwPhi = 0 from rfl]
      by_cases hs' : 0 < ptOf e.of.C ∧ Sees (regionEta ir) (regionPhi ir) e.sC e.of.C
      · have eC : (e.view (regionEta ir) (regionPhi ir) M).C = place (regionEta ir) (regionPhi ir) e.sC e.of.C := if_pos hs'
        have iC := sees_inside hs'.2 (h.Cphi hs'.1)
        have d := dr2_place iT iC
        rw [eC, dist2_centre iT]
        change dist2 (place (regionEta ir) (regionPhi ir) e.sT e.of.T).hwEta (place (regionEta ir) (regionPhi ir) e.sT e.of.T).hwPhi
          (place (regionEta ir) (regionPhi ir) e.sC e.of.C).hwEta (place (regionEta ir) (regionPhi ir) e.sC e.of.C).hwPhi = _ at d
        rw [d]
        rcases haway hs.1 hs.2 hs'.1 hs'.2 with a | a
        · exact .inl a
        · rcases lt_or_eq_of_le a with b | b
          · exact .inr (.inl b)
          · exact .inr (.inr ⟨b, hlt⟩)
      · have eC : (e.view (regionEta ir) (regionPhi ir) M).C = EmCaloObj.clear := if_neg hs'
        rw [eC]
        exact .inr (.inr ⟨rfl, hlt⟩)
    · unfold viewOf at hp
      rw [if_neg hs] at hp
      exact absurd rfl hp
  · change (viewOf (regionEta ir) (regionPhi ir) e.sT e.of.T).hwPt.toInt = 0 at hp
    show (viewOf (regionEta ir) (regionPhi ir) e.sT e.of.T).hwPtErr.toInt = 0
    unfold viewOf at hp ⊢
    by_cases hs : 0 < ptOf e.of.T ∧ Sees (regionEta ir) (regionPhi ir) e.sT e.of.T
    · rw [if_pos hs] at hp
      have : ptOf e.of.T = 0 := hp
      omega
    · rw [if_neg hs]
      rfl

theorem view_good {e : LoneEvent} (hg : e.of.Good) (ie : Fin 3) (ip : Fin 6) (M : MuObj) : (e.view ie ip M).Good := by
  have hT : (e.view ie ip M).T = place ie ip e.sT e.of.T ∨ (e.view ie ip M).T = TkObj.clear := by
    show viewOf _ _ _ _ = _ ∨ viewOf _ _ _ _ = _
    unfold viewOf
    split
    · exact .inl rfl
    · exact .inr rfl
  have hC : (e.view ie ip M).C = place ie ip e.sC e.of.C ∨ (e.view ie ip M).C = EmCaloObj.clear := by
    show viewOf _ _ _ _ = _ ∨ viewOf _ _ _ _ = _
    unfold viewOf
    split
    · exact .inl rfl
    · exact .inr rfl
  have hH : (e.view ie ip M).H = place ie ip e.sH e.of.H ∨ (e.view ie ip M).H = HadCaloObj.clear := by
    show viewOf _ _ _ _ = _ ∨ viewOf _ _ _ _ = _
    unfold viewOf
    split
    · exact .inl rfl
    · exact .inr rfl
  obtain ⟨g1, g2, g3, g4, g5, g6⟩ := hg
  constructor
  · rcases hT with h | h <;> show 0 ≤ (e.view ie ip M).T.hwPt.toInt <;> rw [h]
    · exact g1
    · decide
  · rcases hT with h | h <;> show 0 ≤ (e.view ie ip M).T.hwPtErr.toInt ∧ (e.view ie ip M).T.hwPtErr.toInt ≤ 16384 <;> rw [h]
    · exact g2
    · decide
  · rcases hC with h | h <;> show 0 ≤ (e.view ie ip M).C.hwPt.toInt <;> rw [h]
    · exact g3
    · decide
  · rcases hC with h | h <;> rw [h]
    · exact g4
    · decide
  · rcases hH with h | h <;> show 0 ≤ (e.view ie ip M).H.hwPt.toInt <;> rw [h]
    · exact g5
    · decide
  · rcases hH with h | h <;> rw [h]
    · exact g6
    · decide

/-- **C104.** Every region gives, from the firmware and from the reference, the candidates of the objects it sees, in closed form. -/
theorem C104_regions {d : DetEvent FE FT NT NC NE NM} {e : LoneEvent} (h : d.LoneIs e) (hg : e.of.Good) (ir : Fin 18)
    (haway : e.Away ir)
    (old : PFOutputs NT NE NS NM) (mem : PFScratch NC NS) (rmem : Arr NC PFNeutralObj) :
    ∃ M, MuonSeen e ir M ∧ ∃ out out', pfalgo3_full (boardOf d.re d.rh d.rt d.rm ir) old mem = .ok out ∧
      pfalgo3_full_ref (boardOf d.re d.rh d.rt d.rm ir) old rmem = .ok out' ∧
      MakesOne (e.view (regionEta ir) (regionPhi ir) M) out ∧ MakesOne (e.view (regionEta ir) (regionPhi ir) M) out' := by
  obtain ⟨M, hM, t0, c0, h0, m0, H⟩ := lone_board h ir haway
  have g := view_good hg (regionEta ir) (regionPhi ir) M
  obtain ⟨out, h1, h2⟩ := C103_single H g old mem
  obtain ⟨out', h1', h2'⟩ := C103_single_ref H g old rmem
  exact ⟨M, hM, out, out', h1, h1', h2, h2'⟩


/-! ### The same particle in every region -/

/-- The same objects at the same distances from each other, in other coordinates. -/
structure Alike (a b : Single) : Prop where
  p : b.p = a.p
  err : b.err = a.err
  tight : b.T.hwTightQuality = a.T.hwTightQuality
  E : b.E = a.E
  σ : b.C.hwPtErr.toInt = a.C.hwPtErr.toInt
  q : b.q = a.q
  em : b.H.hwEmPt.toInt = a.H.hwEmPt.toInt
  isEM : b.H.hwIsEM = a.H.hwIsEM
  M : b.M.hwPt.toInt = a.M.hwPt.toInt
  mt : 0 < a.M.hwPt.toInt → a.p ≠ 0 → dist2 b.M.hwEta b.M.hwPhi b.T.hwEta b.T.hwPhi = dist2 a.M.hwEta a.M.hwPhi a.T.hwEta a.T.hwPhi
  tc : a.p ≠ 0 → a.E ≠ 0 → dist2 b.T.hwEta b.T.hwPhi b.C.hwEta b.C.hwPhi = dist2 a.T.hwEta a.T.hwPhi a.C.hwEta a.C.hwPhi
  ch : a.E ≠ 0 → a.q ≠ 0 → dist2 b.C.hwEta b.C.hwPhi b.H.hwEta b.H.hwPhi = dist2 a.C.hwEta a.C.hwPhi a.H.hwEta a.H.hwPhi
  th : a.p ≠ 0 → a.q ≠ 0 → dist2 b.T.hwEta b.T.hwPhi b.H.hwEta b.H.hwPhi = dist2 a.T.hwEta a.T.hwPhi a.H.hwEta a.H.hwPhi

/-- What is null is null in all respects, and no pt is negative. -/
structure Clean (a : Single) : Prop where
  p : 0 ≤ a.p
  E : 0 ≤ a.E ∧ (a.E = 0 → a.C.hwPtErr.toInt = 0)
  q : 0 ≤ a.q ∧ (a.q = 0 → a.H.hwEmPt.toInt = 0)

theorem alike {a b : Single} (h : Alike a b) (c : Clean a) :
    b.photon = a.photon ∧ b.neutral = a.neutral ∧ (b.kept ↔ a.kept) ∧ (a.p ≠ 0 → ((b.electron ↔ a.electron) ∧ (b.mu ↔ a.mu))) := by
  have mu : b.mu ↔ a.mu := by
    unfold Single.mu
    rw [h.M, h.p]
    by_cases hM : 0 < a.M.hwPt.toInt
    · by_cases hp : a.p = 0
      · constructor <;> rintro ⟨-, -, x⟩ <;> omega
      · rw [h.mt hM hp]
    · constructor <;> rintro ⟨x, -, -⟩ <;> exact absurd x hM
  obtain ⟨c1, c2, c3⟩ := c
  have near : a.p ≠ 0 → a.E ≠ 0 → (b.nearEm ↔ a.nearEm) := fun hp hE => by
    unfold Single.nearEm
    rw [mu, h.tc hp hE]
  have inEm : a.E ≠ 0 → b.inEm = a.inEm := fun hE => by
    unfold Single.inEm
    rw [h.p]
    by_cases hp : a.p = 0
    · rw [hp]
      simp
    · simp only [near hp hE]
  have isEM : a.E ≠ 0 → (b.isEM ↔ a.isEM) := fun hE => by
    unfold Single.isEM
    rw [inEm hE, h.E, h.σ]
  have none : ∀ x : Single, x.E = 0 → x.C.hwPtErr.toInt = 0 → 0 < x.p → ¬ x.electron := fun x hE hσ hp => by
    rintro ⟨hn, hx⟩
    have e : x.inEm = x.p := if_pos hn
    unfold Single.isEM at hx
    rw [e, hE, hσ] at hx
    rcases hx with hx | hx | ⟨-, hx⟩
    · omega
    · omega
    · have := sq_nonneg (0 - x.p)
      omega
  have electron : a.p ≠ 0 → (b.electron ↔ a.electron) := fun hp => by
    by_cases hE : a.E = 0
    · have n1 := none a hE (c2.2 hE) (by omega)
      have n2 := none b (h.E.trans hE) (h.σ.trans (c2.2 hE)) (by rw [h.p]; omega)
      exact ⟨fun x => absurd x n2, fun x => absurd x n1⟩
    · unfold Single.electron
      rw [near hp hE, isEM hE]
  have zero : ∀ x : Single, 0 ≤ x.p → x.E = 0 → x.photon = 0 := fun x hp hE => by
    unfold Single.photon
    have h0 : 0 ≤ x.inEm := by unfold Single.inEm; split <;> omega
    split
    · exact hE
    · rw [if_neg]
      rintro ⟨x1, -⟩
      omega
  have photon : b.photon = a.photon := by
    by_cases hE : a.E = 0
    · rw [zero a c1 hE, zero b (by rw [h.p]; exact c1) (h.E.trans hE)]
    · unfold Single.photon
      rw [inEm hE, h.E, h.σ]
  have sub : b.sub = a.sub := by
    unfold Single.sub
    rw [h.E]
    by_cases hE : a.E = 0
    · rw [hE]
      simp
    · have inHad : b.inHad ↔ a.inHad := by
        unfold Single.inHad
        rw [h.E, h.em]
        by_cases hq : a.q = 0
        · have := c3.2 hq
          constructor <;> rintro ⟨x, -⟩ <;> omega
        · rw [h.ch hE hq]
      simp only [inHad, isEM hE]
  have rest : b.rest = a.rest := by
    have noise : b.noise ↔ a.noise := by
      unfold Single.noise
      rw [h.q, sub, h.em, h.isEM]
    unfold Single.rest
    rw [h.q, sub]
    simp only [noise]
  have ends : a.p ≠ 0 → (b.ends ↔ a.ends) := fun hp => by
    unfold Single.ends
    rw [h.p, h.err, rest]
    by_cases hq : a.q = 0
    · have hs : 0 ≤ a.sub := by unfold Single.sub; split <;> omega
      have hr : a.rest = 0 := if_pos (.inl (by rw [hq]; omega))
      rw [hr]
      constructor <;> rintro ⟨x, -⟩ <;> omega
    · rw [h.th hp hq]
  refine ⟨photon, ?_, ?_, fun hp => ⟨electron hp, mu⟩⟩
  · unfold Single.neutral
    rw [h.p, h.err, rest]
    by_cases hp : a.p = 0
    · rw [if_neg fun x => x.2.2.2 hp, if_neg fun x => x.2.2.2 hp]
    · simp only [ends hp, electron hp, mu]
  · unfold Single.kept
    rw [h.p, h.tight]
    by_cases hp : a.p = 0
    · constructor <;> exact fun x => absurd hp x.1
    · rw [mu, electron hp, ends hp]


/-- The region sees everything there is. -/
structure SeesAll (e : LoneEvent) (ir : Fin 18) : Prop where
  T : 0 < ptOf e.of.T → Sees (regionEta ir) (regionPhi ir) e.sT e.of.T
  C : 0 < ptOf e.of.C → Sees (regionEta ir) (regionPhi ir) e.sC e.of.C
  H : 0 < ptOf e.of.H → Sees (regionEta ir) (regionPhi ir) e.sH e.of.H
  M : 0 < ptOf e.of.M → inSlice (regionEta ir) e.of.M = true ∧ -180 < relPhi (regionPhi ir) e.sM e.of.M.hwPhi.toInt ∧
    relPhi (regionPhi ir) e.sM e.of.M.hwPhi.toInt < 180

theorem viewOf_pos {T : Type} [RegObj T] {ie : Fin 3} {ip : Fin 6} {s : Fin 12} {o : T} (h : 0 < ptOf o) (hs : Sees ie ip s o) : viewOf ie ip s o = place ie ip s o :=
  if_pos ⟨h, hs⟩

theorem viewOf_null {T : Type} [RegObj T] {ie : Fin 3} {ip : Fin 6} {s : Fin 12} {o : T} (h : ¬ 0 < ptOf o) : viewOf ie ip s o = RegObj.clear :=
  if_neg fun c => h c.1

theorem lone_alike {d : DetEvent FE FT NT NC NE NM} {e : LoneEvent} (h : d.LoneIs e) {ir ir' : Fin 18} (ha : SeesAll e ir)
    (ha' : SeesAll e ir') {M M' : MuObj} (hM : MuonSeen e ir M) (hM' : MuonSeen e ir' M') :
    Alike (e.view (regionEta ir) (regionPhi ir) M) (e.view (regionEta ir') (regionPhi ir') M') := by
  have eT : ∀ j : Fin 18, SeesAll e j → (0 < ptOf e.of.T ∧ viewOf (regionEta j) (regionPhi j) e.sT e.of.T = place (regionEta j) (regionPhi j) e.sT e.of.T ∧
      Inside (regionEta j) (regionPhi j) e.sT e.of.T) ∨ (¬ 0 < ptOf e.of.T ∧ viewOf (regionEta j) (regionPhi j) e.sT e.of.T = TkObj.clear) := fun j hj => by
    by_cases c : 0 < ptOf e.of.T
    · exact .inl ⟨c, viewOf_pos c (hj.T c), sees_inside (hj.T c) (h.Tphi c)⟩
    · exact .inr ⟨c, viewOf_null c⟩
  have eC : ∀ j : Fin 18, SeesAll e j → (0 < ptOf e.of.C ∧ viewOf (regionEta j) (regionPhi j) e.sC e.of.C = place (regionEta j) (regionPhi j) e.sC e.of.C ∧
      Inside (regionEta j) (regionPhi j) e.sC e.of.C) ∨ (¬ 0 < ptOf e.of.C ∧ viewOf (regionEta j) (regionPhi j) e.sC e.of.C = EmCaloObj.clear) := fun j hj => by
    by_cases c : 0 < ptOf e.of.C
    · exact .inl ⟨c, viewOf_pos c (hj.C c), sees_inside (hj.C c) (h.Cphi c)⟩
    · exact .inr ⟨c, viewOf_null c⟩
  have eH : ∀ j : Fin 18, SeesAll e j → (0 < ptOf e.of.H ∧ viewOf (regionEta j) (regionPhi j) e.sH e.of.H = place (regionEta j) (regionPhi j) e.sH e.of.H ∧
      Inside (regionEta j) (regionPhi j) e.sH e.of.H) ∨ (¬ 0 < ptOf e.of.H ∧ viewOf (regionEta j) (regionPhi j) e.sH e.of.H = HadCaloObj.clear) := fun j hj => by
    by_cases c : 0 < ptOf e.of.H
    · exact .inl ⟨c, viewOf_pos c (hj.H c), sees_inside (hj.H c) (h.Hphi c)⟩
    · exact .inr ⟨c, viewOf_null c⟩
  have eM : ∀ (j : Fin 18) (M : MuObj), SeesAll e j → MuonSeen e j M → (0 < ptOf e.of.M ∧ M = place (regionEta j) (regionPhi j) e.sM e.of.M ∧
      Inside (regionEta j) (regionPhi j) e.sM e.of.M) ∨ (¬ 0 < ptOf e.of.M ∧ M = MuObj.clear) := fun j M hj hM => by
    by_cases c : 0 < ptOf e.of.M
    · obtain ⟨s1, s2, s3⟩ := hj.M c
      exact .inl ⟨c, hM.2 c s1 s2 s3, s1, le_of_lt s2, le_of_lt s3⟩
    · exact .inr ⟨c, hM.1.resolve_right fun x => c x.2.1⟩
  have cl : ∀ {n : Nat}, (0 : BitVec n).toInt = 0 := fun {n} => by simp
  constructor
  · show (viewOf _ _ _ _ : TkObj).hwPt.toInt = (viewOf _ _ _ _ : TkObj).hwPt.toInt
    rcases eT ir ha with ⟨c, a, -⟩ | ⟨c, a⟩ <;> rcases eT ir' ha' with ⟨c', a', -⟩ | ⟨c', a'⟩ <;> first | exact absurd c c' | exact absurd c' c | (rw [a, a'] <;> rfl)
  · show (viewOf _ _ _ _ : TkObj).hwPtErr.toInt = (viewOf _ _ _ _ : TkObj).hwPtErr.toInt
    rcases eT ir ha with ⟨c, a, -⟩ | ⟨c, a⟩ <;> rcases eT ir' ha' with ⟨c', a', -⟩ | ⟨c', a'⟩ <;> first | exact absurd c c' | exact absurd c' c | (rw [a, a'] <;> rfl)
  · show (viewOf _ _ _ _ : TkObj).hwTightQuality = (viewOf _ _ _ _ : TkObj).hwTightQuality
    rcases eT ir ha with ⟨c, a, -⟩ | ⟨c, a⟩ <;> rcases eT ir' ha' with ⟨c', a', -⟩ | ⟨c', a'⟩ <;> first | exact absurd c c' | exact absurd c' c | (rw [a, a'] <;> rfl)
  · show (viewOf _ _ _ _ : EmCaloObj).hwPt.toInt = (viewOf _ _ _ _ : EmCaloObj).hwPt.toInt
    rcases eC ir ha with ⟨c, a, -⟩ | ⟨c, a⟩ <;> rcases eC ir' ha' with ⟨c', a', -⟩ | ⟨c', a'⟩ <;> first | exact absurd c c' | exact absurd c' c | (rw [a, a'] <;> rfl)
  · show (viewOf _ _ _ _ : EmCaloObj).hwPtErr.toInt = (viewOf _ _ _ _ : EmCaloObj).hwPtErr.toInt
    rcases eC ir ha with ⟨c, a, -⟩ | ⟨c, a⟩ <;> rcases eC ir' ha' with ⟨c', a', -⟩ | ⟨c', a'⟩ <;> first | exact absurd c c' | exact absurd c' c | (rw [a, a'] <;> rfl)
  · show (viewOf _ _ _ _ : HadCaloObj).hwPt.toInt = (viewOf _ _ _ _ : HadCaloObj).hwPt.toInt
    rcases eH ir ha with ⟨c, a, -⟩ | ⟨c, a⟩ <;> rcases eH ir' ha' with ⟨c', a', -⟩ | ⟨c', a'⟩ <;> first | exact absurd c c' | exact absurd c' c | (rw [a, a'] <;> rfl)
  · show (viewOf _ _ _ _ : HadCaloObj).hwEmPt.toInt = (viewOf _ _ _ _ : HadCaloObj).hwEmPt.toInt
    rcases eH ir ha with ⟨c, a, -⟩ | ⟨c, a⟩ <;> rcases eH ir' ha' with ⟨c', a', -⟩ | ⟨c', a'⟩ <;> first | exact absurd c c' | exact absurd c' c | (rw [a, a'] <;> rfl)
  · show (viewOf _ _ _ _ : HadCaloObj).hwIsEM = (viewOf _ _ _ _ : HadCaloObj).hwIsEM
    rcases eH ir ha with ⟨c, a, -⟩ | ⟨c, a⟩ <;> rcases eH ir' ha' with ⟨c', a', -⟩ | ⟨c', a'⟩ <;> first | exact absurd c c' | exact absurd c' c | (rw [a, a'] <;> rfl)
  · show M'.hwPt.toInt = M.hwPt.toInt
    rcases eM ir M ha hM with ⟨c, a, -⟩ | ⟨c, a⟩ <;> rcases eM ir' M' ha' hM' with ⟨c', a', -⟩ | ⟨c', a'⟩ <;> first | exact absurd c c' | exact absurd c' c | (rw [a, a'] <;> rfl)
  · intro m p
    change 0 < M.hwPt.toInt at m
    change (viewOf _ _ _ _ : TkObj).hwPt.toInt ≠ 0 at p
    show dist2 M'.hwEta M'.hwPhi (viewOf _ _ _ _ : TkObj).hwEta (viewOf _ _ _ _ : TkObj).hwPhi = dist2 M.hwEta M.hwPhi (viewOf _ _ _ _ : TkObj).hwEta (viewOf _ _ _ _ : TkObj).hwPhi
    rcases eM ir M ha hM with ⟨c, a, i⟩ | ⟨c, a⟩
    · obtain ⟨-, a', i'⟩ := (eM ir' M' ha' hM').resolve_right fun x => x.1 c
      rcases eT ir ha with ⟨k, b, j⟩ | ⟨k, b⟩
      · obtain ⟨-, b', j'⟩ := (eT ir' ha').resolve_right fun x => x.1 k
        rw [a, a', b, b']
        exact (dr2_place i' j').trans (dr2_place i j).symm
      · rw [b] at p
        exact absurd rfl p
    · rw [a] at m
      exact absurd m (by decide)
  · intro p m
    change (viewOf _ _ _ _ : TkObj).hwPt.toInt ≠ 0 at p
    change (viewOf _ _ _ _ : EmCaloObj).hwPt.toInt ≠ 0 at m
    show dist2 (viewOf _ _ _ _ : TkObj).hwEta (viewOf _ _ _ _ : TkObj).hwPhi (viewOf _ _ _ _ : EmCaloObj).hwEta (viewOf _ _ _ _ : EmCaloObj).hwPhi =
      dist2 (viewOf _ _ _ _ : TkObj).hwEta (viewOf _ _ _ _ : TkObj).hwPhi (viewOf _ _ _ _ : EmCaloObj).hwEta (viewOf _ _ _ _ : EmCaloObj).hwPhi
    rcases eT ir ha with ⟨c, a, i⟩ | ⟨c, a⟩
    · obtain ⟨-, a', i'⟩ := (eT ir' ha').resolve_right fun x => x.1 c
      rcases eC ir ha with ⟨k, b, j⟩ | ⟨k, b⟩
      · obtain ⟨-, b', j'⟩ := (eC ir' ha').resolve_right fun x => x.1 k
        rw [a, a', b, b']
        exact (dr2_place i' j').trans (dr2_place i j).symm
      · rw [b] at m
        exact absurd rfl m
    · rw [a] at p
      exact absurd rfl p
  · intro p m
    change (viewOf _ _ _ _ : EmCaloObj).hwPt.toInt ≠ 0 at p
    change (viewOf _ _ _ _ : HadCaloObj).hwPt.toInt ≠ 0 at m
    show dist2 (viewOf _ _ _ _ : EmCaloObj).hwEta (viewOf _ _ _ _ : EmCaloObj).hwPhi (viewOf _ _ _ _ : HadCaloObj).hwEta (viewOf _ _ _ _ : HadCaloObj).hwPhi =
      dist2 (viewOf _ _ _ _ : EmCaloObj).hwEta (viewOf _ _ _ _ : EmCaloObj).hwPhi (viewOf _ _ _ _ : HadCaloObj).hwEta (viewOf _ _ _ _ : HadCaloObj).hwPhi
    rcases eC ir ha with ⟨c, a, i⟩ | ⟨c, a⟩
    · obtain ⟨-, a', i'⟩ := (eC ir' ha').resolve_right fun x => x.1 c
      rcases eH ir ha with ⟨k, b, j⟩ | ⟨k, b⟩
      · obtain ⟨-, b', j'⟩ := (eH ir' ha').resolve_right fun x => x.1 k
        rw [a, a', b, b']
        exact (dr2_place i' j').trans (dr2_place i j).symm
      · rw [b] at m
        exact absurd rfl m
    · rw [a] at p
      exact absurd rfl p
  · intro p m
    change (viewOf _ _ _ _ : TkObj).hwPt.toInt ≠ 0 at p
    change (viewOf _ _ _ _ : HadCaloObj).hwPt.toInt ≠ 0 at m
    show dist2 (viewOf _ _ _ _ : TkObj).hwEta (viewOf _ _ _ _ : TkObj).hwPhi (viewOf _ _ _ _ : HadCaloObj).hwEta (viewOf _ _ _ _ : HadCaloObj).hwPhi =
      dist2 (viewOf _ _ _ _ : TkObj).hwEta (viewOf _ _ _ _ : TkObj).hwPhi (viewOf _ _ _ _ : HadCaloObj).hwEta (viewOf _ _ _ _ : HadCaloObj).hwPhi
    rcases eT ir ha with ⟨c, a, i⟩ | ⟨c, a⟩
    · obtain ⟨-, a', i'⟩ := (eT ir' ha').resolve_right fun x => x.1 c
      rcases eH ir ha with ⟨k, b, j⟩ | ⟨k, b⟩
      · obtain ⟨-, b', j'⟩ := (eH ir' ha').resolve_right fun x => x.1 k
        rw [a, a', b, b']
        exact (dr2_place i' j').trans (dr2_place i j).symm
      · rw [b] at m
        exact absurd rfl m
    · rw [a] at p
      exact absurd rfl p

theorem view_clean {e : LoneEvent} (hg : e.of.Good) (ie : Fin 3) (ip : Fin 6) (M : MuObj) : Clean (e.view ie ip M) := by
  have g := view_good hg ie ip M
  refine ⟨g.p, ⟨g.E, fun h => ?_⟩, g.q, fun h => ?_⟩
  · change (viewOf _ _ _ _ : EmCaloObj).hwPt.toInt = 0 at h
    show (viewOf _ _ _ _ : EmCaloObj).hwPtErr.toInt = 0
    unfold viewOf at h ⊢
    by_cases c : 0 < ptOf e.of.C ∧ Sees ie ip e.sC e.of.C
    · rw [if_pos c] at h
      have : ptOf e.of.C = 0 := h
      omega
    · rw [if_neg c]
      rfl
  · change (viewOf _ _ _ _ : HadCaloObj).hwPt.toInt = 0 at h
    show (viewOf _ _ _ _ : HadCaloObj).hwEmPt.toInt = 0
    unfold viewOf at h ⊢
    by_cases c : 0 < ptOf e.of.H ∧ Sees ie ip e.sH e.of.H
    · rw [if_pos c] at h
      have : ptOf e.of.H = 0 := h
      omega
    · rw [if_neg c]
      rfl

/-- **C104.** All regions that see everything there is give the same candidates: same pts, same types, same vertices. -/
theorem C104_same_everywhere {d : DetEvent FE FT NT NC NE NM} {e : LoneEvent} (h : d.LoneIs e) (hg : e.of.Good) {ir ir' : Fin 18} (ha : SeesAll e ir)
    (ha' : SeesAll e ir') {M M' : MuObj} (hM : MuonSeen e ir M) (hM' : MuonSeen e ir' M') :
    let a := e.view (regionEta ir) (regionPhi ir) M
    let b := e.view (regionEta ir') (regionPhi ir') M'
    (b.charged.map fun c => (c.hwPt, c.hwId, c.hwZ0)) = (a.charged.map fun c => (c.hwPt, c.hwId, c.hwZ0)) ∧
      (b.muons.map fun c => (c.hwPt, c.hwId, c.hwZ0)) = (a.muons.map fun c => (c.hwPt, c.hwId, c.hwZ0)) ∧
      (b.photons.map fun x => (x.1, x.2.2.2)) = (a.photons.map fun x => (x.1, x.2.2.2)) ∧
      (b.neutrals.map fun x => (x.1, x.2.2.2)) = (a.neutrals.map fun x => (x.1, x.2.2.2)) := by
  intro a b
  have al := lone_alike h ha ha' hM hM'
  have c := view_clean hg (regionEta ir) (regionPhi ir) M
  obtain ⟨e1, e2, e3, e4⟩ := alike al c
  have hT : b.T.hwPt = a.T.hwPt ∧ b.T.hwZ0 = a.T.hwZ0 := by
    show (viewOf _ _ _ _ : TkObj).hwPt = (viewOf _ _ _ _ : TkObj).hwPt ∧ (viewOf _ _ _ _ : TkObj).hwZ0 = (viewOf _ _ _ _ : TkObj).hwZ0
    by_cases c : 0 < ptOf e.of.T
    · rw [viewOf_pos c (ha.T c), viewOf_pos c (ha'.T c)]
      exact ⟨rfl, rfl⟩
    · rw [viewOf_null c, viewOf_null c]
      exact ⟨rfl, rfl⟩
  refine ⟨?_, ?_, ?_, ?_⟩
  · unfold Single.charged
    by_cases k : a.kept
    · obtain ⟨x, y⟩ := e4 k.1
      rw [if_pos k, if_pos (e3.mpr k)]
      simp only [List.map_cons, List.map_nil, hT.1, hT.2]
      by_cases z : a.electron
      · rw [if_pos z, if_pos (x.mpr z)]
      · rw [if_neg z, if_neg fun w => z (x.mp w)]
        by_cases z : a.mu
        · rw [if_pos z, if_pos (y.mpr z)]
        · rw [if_neg z, if_neg fun w => z (y.mp w)]
    · rw [if_neg k, if_neg fun w => k (e3.mp w)]
  · unfold Single.muons
    have y : b.mu ↔ a.mu := by
      by_cases p : a.p = 0
      · have n : ∀ x : Single, x.p = 0 → ¬ x.mu := fun x hx hm => by
          obtain ⟨m1, -, m3⟩ := hm
          omega
        exact ⟨fun w => absurd w (n b (al.p.trans p)), fun w => absurd w (n a p)⟩
      · exact (e4 p).2
    by_cases z : a.mu
    · rw [if_pos z, if_pos (y.mpr z)]
      simp only [List.map_cons, List.map_nil, hT.1, hT.2]
    · rw [if_neg z, if_neg fun w => z (y.mp w)]
  · show (List.map _ (if b.photon = 0 then [] else _)) = List.map _ (if a.photon = 0 then [] else _)
    have e1 : b.photon = a.photon := e1
    rw [e1]
    by_cases z : a.photon = 0
    · rw [if_pos z, if_pos z]
    · rw [if_neg z, if_neg z]
      rfl
  · show (List.map _ (if b.neutral = 0 then [] else _)) = List.map _ (if a.neutral = 0 then [] else _)
    have e2 : b.neutral = a.neutral := e2
    rw [e2]
    by_cases z : a.neutral = 0
    · rw [if_pos z, if_pos z]
    · rw [if_neg z, if_neg z]
      rfl

/-- **C104.** The region responsible for one of the objects sees all of them, if they are within 57 units of it; and there is such a region. -/
theorem C104_responsible {X : Type} [RegObj X] [LawfulReg X] (e : LoneEvent) (s : Fin 12) (o : X) (ho : Proper o)
    (hT : 0 < ptOf e.of.T → Proper e.of.T ∧ detDist2 (posOf s o) (posOf e.sT e.of.T) ≤ 57 ^ 2)
    (hC : 0 < ptOf e.of.C → Proper e.of.C ∧ detDist2 (posOf s o) (posOf e.sC e.of.C) ≤ 57 ^ 2)
    (hH : 0 < ptOf e.of.H → Proper e.of.H ∧ detDist2 (posOf s o) (posOf e.sH e.of.H) ≤ 57 ^ 2)
    (hM : 0 < ptOf e.of.M → Proper e.of.M ∧ detDist2 (posOf s o) (posOf e.sM e.of.M) ≤ 57 ^ 2) :
    (∃ ir : Fin 18, Fiducial (regionEta ir) (regionPhi ir) (posOf s o)) ∧
      ∀ ir : Fin 18, Fiducial (regionEta ir) (regionPhi ir) (posOf s o) → SeesAll e ir := by
  refine ⟨C71_cover _, fun ir hf => ⟨fun c => ?_, fun c => ?_, fun c => ?_, fun c => ?_⟩⟩
  · obtain ⟨p, q⟩ := hT c
    obtain ⟨x, y, z⟩ := near_inside hf ho p q
    exact sees_of_inside p x.1 y z
  · obtain ⟨p, q⟩ := hC c
    obtain ⟨x, y, z⟩ := near_inside hf ho p q
    exact sees_of_inside p x.1 y z
  · obtain ⟨p, q⟩ := hH c
    obtain ⟨x, y, z⟩ := near_inside hf ho p q
    exact sees_of_inside p x.1 y z
  · obtain ⟨p, q⟩ := hM c
    obtain ⟨x, y, z⟩ := near_inside hf ho p q
    exact ⟨x.1, y, z⟩


/-! ### Examples -/

/-- A hadron of 25 GeV in a cluster of 50, with a bit of EM energy and a soft muon, in sector 2 where four regions overlap. -/
def loneEvent : LoneEvent :=
  ⟨⟨⟨100, 10, 100, 10, 7, false⟩, ⟨20, 1, 103, 14⟩, ⟨200, 100, 12, 40, false⟩, ⟨12, 0, 101, 11⟩⟩, 2, 2, 2, 2⟩

@[inherit_doc loneEvent] def loneFibre {T : Type} [RegObj T] (X : T) : Arr (1 * N_IN_SECTORS) (List T) := fun k => if k = 2 then [X] else [RegObj.clear]

/-- **C104**, non-vacuity: the event meets the hypotheses; regions 6, 7, 12 and 13 see it, all of it; and this is what comes out of each. -/
theorem C104_example : (∃ d : DetEvent 1 1 2 2 2 1, d.LoneIs loneEvent) ∧ loneEvent.of.Good ∧
    copies loneEvent.sT loneEvent.of.T.hwEta.toInt = 4 ∧ ∀ ir ∈ ([6, 7, 12, 13] : List (Fin 18)), SeesAll loneEvent ir ∧ loneEvent.Away ir ∧
      (loneEvent.view (regionEta ir) (regionPhi ir) (place (regionEta ir) (regionPhi ir) loneEvent.sM loneEvent.of.M)).charged.map (fun c => (c.hwPt, c.hwId, c.hwZ0)) = [(100, 0, 7)] ∧
      (loneEvent.view (regionEta ir) (regionPhi ir) (place (regionEta ir) (regionPhi ir) loneEvent.sM loneEvent.of.M)).photons = [] ∧
      (loneEvent.view (regionEta ir) (regionPhi ir) (place (regionEta ir) (regionPhi ir) loneEvent.sM loneEvent.of.M)).muons = [] ∧
      (loneEvent.view (regionEta ir) (regionPhi ir) (place (regionEta ir) (regionPhi ir) loneEvent.sM loneEvent.of.M)).neutrals.map (fun x => (x.1, x.2.2.2)) = [(100, 1)] := by
  refine ⟨?_, ?_, by decide +kernel, fun ir hir => ⟨?_, ?_⟩⟩
  · obtain ⟨re, e1, -⟩ := regionize_ref_ok (NFPS := 1) 1 1 2 (loneFibre loneEvent.of.C) (by decide)
    obtain ⟨rh, e2, -⟩ := regionize_ref_ok (NFPS := 1) 1 1 2 (loneFibre loneEvent.of.H) (by decide)
    obtain ⟨rt, e3, -⟩ := regionize_ref_ok (NFPS := 1) 1 1 2 (loneFibre loneEvent.of.T) (by decide)
    obtain ⟨rm, e4, -⟩ := C36_muons (NMU := 1) (fun s _ => if s = 2 then loneEvent.of.M else MuObj.clear) (fun _ => []) (by decide +kernel)
    refine ⟨⟨⟨1, 1, 1, 1, 1, 1⟩, loneFibre loneEvent.of.C, loneFibre loneEvent.of.H, loneFibre loneEvent.of.T, re, rh, rt, rm⟩, ?_⟩
    refine ⟨⟨_, e1⟩, ⟨_, e2⟩, ⟨_, e3⟩, ⟨_, _, _, 0, e4, rfl, by decide +kernel⟩, ?_, ?_, ?_, by decide +kernel, by decide +kernel, by decide +kernel, by decide +kernel,
      by dsimp only; decide⟩
    · unfold Lone; dsimp only; decide +kernel
    · unfold Lone; dsimp only; decide +kernel
    · unfold Lone; dsimp only; decide +kernel
  · constructor <;> decide +kernel
  · revert ir
    have k : ∀ ir ∈ ([6, 7, 12, 13] : List (Fin 18)), Sees (regionEta ir) (regionPhi ir) loneEvent.sT loneEvent.of.T ∧
        Sees (regionEta ir) (regionPhi ir) loneEvent.sC loneEvent.of.C ∧ Sees (regionEta ir) (regionPhi ir) loneEvent.sH loneEvent.of.H ∧
        inSlice (regionEta ir) loneEvent.of.M = true ∧ -180 < relPhi (regionPhi ir) loneEvent.sM loneEvent.of.M.hwPhi.toInt ∧
        relPhi (regionPhi ir) loneEvent.sM loneEvent.of.M.hwPhi.toInt < 180 := by decide +kernel
    intro ir hir
    obtain ⟨a, b, c, d⟩ := k ir hir
    exact ⟨fun _ => a, fun _ => b, fun _ => c, fun _ => d⟩
  · revert ir
    unfold LoneEvent.Away; decide +kernel

/-- A photon of 12 GeV at the edge of the middle eta slice: its EM cluster outside, its calorimeter cluster inside. -/
def edgePhoton : LoneEvent := ⟨⟨TkObj.clear, ⟨48, 2, 172, 0⟩, ⟨50, 171, 0, 48, false⟩, MuObj.clear⟩, 0, 3, 3, 0⟩

/-- **C104.** A region that sees only part makes something else of it: the outer region sees a photon, the middle one, which is not responsible for it,
a neutral hadron. -/
theorem C104_edge : SeesAll edgePhoton 13 ∧ Fiducial (regionEta 13) (regionPhi 13) (posOf edgePhoton.sC edgePhoton.of.C) ∧
    (edgePhoton.view (regionEta 13) (regionPhi 13) MuObj.clear).photons.map (·.1) = [48] ∧
    (edgePhoton.view (regionEta 13) (regionPhi 13) MuObj.clear).neutrals = [] ∧
    (edgePhoton.view (regionEta 7) (regionPhi 7) MuObj.clear).photons = [] ∧
    (edgePhoton.view (regionEta 7) (regionPhi 7) MuObj.clear).neutrals.map (·.1) = [50] := by
  refine ⟨⟨by decide +kernel, by decide +kernel, by decide +kernel, by decide +kernel⟩, by unfold Fiducial; decide +kernel, by decide +kernel, by decide +kernel, by decide +kernel, by decide +kernel⟩

end Verif
