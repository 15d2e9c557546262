import Verif.Spec.DetSym
import Verif.Props.System
import Verif.Props.Symmetry
/-! # C86: turning and reflecting the detector -/
namespace Verif
open Spec

section
variable {T : Type} [RegObj T] [LawfulReg T] {NFPS NREG : Nat}

theorem ran_long {NSEC NSE : Nat} {fib rest : Arr (NFPS * N_IN_SECTORS) (List T)}
    {regions : Arr N_OUT_REGIONS (Arr NREG T)} (hrun : regionize_ref NSEC NSE NREG fib = .ok (rest, regions)) :
    ∀ k, NSEC / NFPS ≤ (fib k).length := by
  intro k
  by_contra hk
  have := (C37_ref_consumes NSEC NSE NREG fib).2 ⟨k, by omega⟩
  rw [hrun] at this
  cases this

/-- C86: the detector turned by `j` times 60 degrees: every region finds what the region `j` steps before found. -/
theorem C86_turn (NSEC NSE j : Nat) (fib fib' rest : Arr (NFPS * N_IN_SECTORS) (List T))
    (regions : Arr N_OUT_REGIONS (Arr NREG T)) (hrun : regionize_ref NSEC NSE NREG fib = .ok (rest, regions))
    (hturn : ∀ s f, fib' (fiberIdx (turnSector j s) f) = fib (fiberIdx s f)) :
    ∃ rest' regions', regionize_ref NSEC NSE NREG fib' = .ok (rest', regions') ∧
      (∀ s f, rest' (fiberIdx (turnSector j s) f) = rest (fiberIdx s f)) ∧
      ∀ ir ir', Turned j ir ir' → regions' ir' = regions ir := by
  have hlen := ran_long hrun
  have hsur : ∀ s : Fin 12, ∃ s0, turnSector j s0 = s := fun s => by
    refine ⟨⟨(s.val + (12 - 2 * j % 12)) % 12, Nat.mod_lt _ (by decide)⟩, Fin.ext ?_⟩
    show ((s.val + (12 - 2 * j % 12)) % 12 + 2 * j) % 12 = s.val
    have := s.isLt
    omega
  have hlen' : ∀ k, NSEC / NFPS ≤ (fib' k).length := fun k => by
    obtain ⟨s, f, rfl⟩ := fiberIdx_surj k
    obtain ⟨s0, rfl⟩ := hsur s
    rw [hturn]; exact hlen _
  obtain ⟨regions', h'⟩ := (C37_ref_consumes NSEC NSE NREG fib').1 hlen'
  have hr : rest = fun k => (fib k).drop (NSEC / NFPS) := by
    obtain ⟨r0, h0⟩ := (C37_ref_consumes NSEC NSE NREG fib).1 hlen
    rw [hrun] at h0
    cases h0; rfl
  refine ⟨_, regions', h', fun s f => by rw [hr, hturn], fun ir ir' ht => ?_⟩
  have e := C33_ref_content NSEC NSE NREG fib rest regions hrun ir
  have e' := C33_ref_content NSEC NSE NREG fib' _ regions' h' ir'
  refine List.ofFn_injective ?_
  rw [e, e', ht.1]
  have harr : ∀ s, interleave NFPS (NSEC / NFPS) (fun f => fib' (fiberIdx (turnSector j s) f)) =
      interleave NFPS (NSEC / NFPS) (fun f => fib (fiberIdx s f)) := fun s => by
    congr 1; funext f; exact hturn s f
  have hp := ht.2
  generalize regionPhi ir' = ip' at *
  generalize regionPhi ir = ip at *
  have h6 := ip.isLt
  unfold region candidates
  have e0 : (⟨2 * ip'.val, by omega⟩ : Fin 12) = turnSector j ⟨2 * ip.val, by omega⟩ := by
    apply Fin.ext; show 2 * ip'.val = (2 * ip.val + 2 * j) % 12; omega
  have e1 : (⟨2 * ip'.val + 1, by omega⟩ : Fin 12) = turnSector j ⟨2 * ip.val + 1, by omega⟩ := by
    apply Fin.ext; show 2 * ip'.val + 1 = (2 * ip.val + 1 + 2 * j) % 12; omega
  have e2 : (⟨(2 * ip'.val + 2) % 12, by omega⟩ : Fin 12) = turnSector j ⟨(2 * ip.val + 2) % 12, by omega⟩ := by
    apply Fin.ext; show (2 * ip'.val + 2) % 12 = ((2 * ip.val + 2) % 12 + 2 * j) % 12; omega
  rw [e0, e1, e2]
  simp only [harr]

theorem ptOf_flip (o : T) : ptOf (flipEta o) = ptOf o := by
  unfold ptOf flipEta; rw [LawfulReg.pt_setEta]

omit [LawfulReg T] in
/-- `best` commutes with maps that keep the pt. -/
theorem best_map_pt {g : T → T} (hg : ∀ x, ptOf (g x) = ptOf x) (n : Nat) (l : List T) :
    best n (l.map g) = (best n l).map g := by
  unfold best
  rw [List.filter_map, List.map_take]
  rw [show ((fun o => decide (0 < ptOf o)) ∘ g) = fun o : T => decide (0 < ptOf o) from funext fun o => by
    show decide (0 < ptOf (g o)) = _; rw [hg]]
  rw [List.map_insertionSort (r := byPt) (s := byPt) g]
  intro a _ b _
  unfold byPt
  rw [hg, hg]

end

/-- Setting eta twice, setting eta and phi, and the null object. -/
class EtaReg (T : Type) [RegObj T] : Prop where
  twice : ∀ (x : T) a b, RegObj.setEta (RegObj.setEta x a) b = RegObj.setEta x b
  swap : ∀ (x : T) a b, RegObj.setPhi (RegObj.setEta x a) b = RegObj.setEta (RegObj.setPhi x b) a
  null : RegObj.setEta (RegObj.clear : T) (-(RegObj.eta (RegObj.clear : T))) = RegObj.clear

instance : EtaReg HadCaloObj := ⟨fun _ _ _ => rfl, fun _ _ _ => rfl, rfl⟩
instance : EtaReg EmCaloObj := ⟨fun _ _ _ => rfl, fun _ _ _ => rfl, rfl⟩
instance : EtaReg TkObj := ⟨fun _ _ _ => rfl, fun _ _ _ => rfl, rfl⟩
instance : EtaReg MuObj := ⟨fun _ _ _ => rfl, fun _ _ _ => rfl, rfl⟩

theorem toInt_neg10 : ∀ x : EtaPhi, (-x).toInt = if x.toInt = -512 then -512 else -x.toInt := by
  have h : ∀ n : Fin 1024, (-(BitVec.ofFin n : BitVec 10)).toInt =
      if (BitVec.ofFin n : BitVec 10).toInt = -512 then -512 else -(BitVec.ofFin n : BitVec 10).toInt := by
    decide +kernel
  exact fun x => h x.toFin

section
variable {T : Type} [RegObj T] [LawfulReg T] [EtaReg T] {NFPS NREG : Nat}

omit [EtaReg T] in
theorem eta_flip (o : T) : RegObj.eta (flipEta o) = -RegObj.eta o := LawfulReg.eta_setEta _ _

omit [EtaReg T] in
theorem inSlice_flip {ie ie' : Fin 3} (h : ie'.val + ie.val = 2) (o : T) : inSlice ie' (flipEta o) = inSlice ie o := by
  unfold inSlice
  rw [eta_flip, toInt_neg10]
  generalize (RegObj.eta o).toInt = x
  have h1 : etaLo ie' = -etaHi ie ∧ etaHi ie' = -etaLo ie ∧ -342 ≤ etaLo ie ∧ etaHi ie ≤ 342 :=
    (by decide : ∀ a b : Fin 3, b.val + a.val = 2 → etaLo b = -etaHi a ∧ etaHi b = -etaLo a ∧ -342 ≤ etaLo a ∧ etaHi a ≤ 342) _ _ h
  rw [h1.1, h1.2.1]
  by_cases hx : x = -512
  · rw [if_pos hx]
    refine decide_eq_decide.mpr ⟨fun h => ?_, fun h => ?_⟩ <;> omega
  · rw [if_neg hx]
    refine decide_eq_decide.mpr ⟨fun h => ?_, fun h => ?_⟩ <;> omega

theorem etaRel_flip {ie ie' : Fin 3} (h : ie'.val + ie.val = 2) (o : T) : etaRel ie' (flipEta o) = flipEta (etaRel ie o) := by
  unfold etaRel
  rw [eta_flip]
  unfold flipEta
  rw [EtaReg.twice, EtaReg.twice, LawfulReg.eta_setEta]
  congr 1
  have h1 : etaC ie' = -etaC ie := (by decide : ∀ a b : Fin 3, b.val + a.val = 2 → etaC b = -etaC a) _ _ h
  rw [h1, sub_eq_add_neg, sub_eq_add_neg, BitVec.ofInt_add, BitVec.ofInt_add, BitVec.ofInt_toInt, BitVec.ofInt_toInt,
    BitVec.ofInt_neg, BitVec.ofInt_neg, BitVec.neg_add]
  exact (BitVec.sub_eq_add_neg _ _).symm

theorem phiMove_flip (d : Int) (o : T) : phiMove d (flipEta o) = flipEta (phiMove d o) := by
  unfold phiMove flipEta
  rw [LawfulReg.phi_setEta, EtaReg.swap, LawfulReg.eta_setPhi]

theorem slice_flip {ie ie' : Fin 3} (h : ie'.val + ie.val = 2) (n : Nat) (l : List T) :
    slice n ie' (l.map flipEta) = (slice n ie l).map flipEta := by
  unfold slice
  rw [List.filter_map, show inSlice ie' ∘ (flipEta : T → T) = inSlice ie from funext (inSlice_flip h), List.map_map,
    show etaRel ie' ∘ (flipEta : T → T) = flipEta ∘ etaRel ie from funext (etaRel_flip h), ← List.map_map,
    best_map_pt ptOf_flip]

theorem region_flip {ie ie' : Fin 3} (h : ie'.val + ie.val = 2) (nreg nse : Nat) (ip : Fin 6) (arr : Fin 12 → List T) :
    region nreg nse ie' ip (fun s => (arr s).map flipEta) = (region nreg nse ie ip arr).map flipEta := by
  have hm : ∀ d (l : List T), (l.map flipEta).map (phiMove d) = (l.map (phiMove d)).map flipEta := fun d l => by
    rw [List.map_map, List.map_map]
    congr 1
    funext o; exact phiMove_flip d o
  unfold region candidates
  rw [slice_flip h, slice_flip h, slice_flip h, hm, hm, hm, ← List.map_append, ← List.map_append, best_map_pt ptOf_flip]

omit [LawfulReg T] in
theorem pad_flip (n : Nat) (l : List T) : pad n (l.map flipEta) = (pad n l).map flipEta := by
  unfold pad
  rw [List.map_take, List.map_append, List.map_replicate, show flipEta (RegObj.clear : T) = RegObj.clear from EtaReg.null]

omit [RegObj T] [LawfulReg T] [EtaReg T] in
theorem interleave_map {U : Type} (g : T → U) (nf n : Nat) (fiber : Fin nf → List T) :
    interleave nf n (fun f => (fiber f).map g) = (interleave nf n fiber).map g := by
  unfold interleave
  rw [List.map_flatMap]
  congr 1; funext io
  rw [List.map_flatMap]
  congr 1; funext f
  rw [List.map_take, List.map_drop]

/-- C86: the detector reflected in eta: the regions are reflected, object by object. -/
theorem C86_flip (NSEC NSE : Nat) (fib rest : Arr (NFPS * N_IN_SECTORS) (List T))
    (regions : Arr N_OUT_REGIONS (Arr NREG T)) (hrun : regionize_ref NSEC NSE NREG fib = .ok (rest, regions)) :
    ∃ regions', regionize_ref NSEC NSE NREG (fun k => (fib k).map flipEta) = .ok (fun k => (rest k).map flipEta, regions') ∧
      ∀ ir ir', Flipped ir ir' → ∀ i, regions' ir' i = flipEta (regions ir i) := by
  have hlen := ran_long hrun
  obtain ⟨regions', h'⟩ := (C37_ref_consumes NSEC NSE NREG (fun k => (fib k).map flipEta)).1 (fun k => by
    rw [List.length_map]; exact hlen k)
  have hr : rest = fun k => (fib k).drop (NSEC / NFPS) := by
    obtain ⟨r0, h0⟩ := (C37_ref_consumes NSEC NSE NREG fib).1 hlen
    rw [hrun] at h0
    cases h0; rfl
  refine ⟨regions', ?_, fun ir ir' hf i => ?_⟩
  · rw [h', hr]
    simp only [List.map_drop]
  · have e := C33_ref_content NSEC NSE NREG fib rest regions hrun ir
    have e' := C33_ref_content NSEC NSE NREG _ _ regions' h' ir'
    rw [hf.2] at e'
    simp only [interleave_map] at e'
    rw [region_flip hf.1, pad_flip, ← e, List.map_ofFn] at e'
    exact congrFun (List.ofFn_injective e') i

end

/-! ### Muons -/

section
variable {NM : Nat}

theorem mu_long {fib rest : Arr N_MUON_SECTORS (List MuObj)} {regions : Arr N_OUT_REGIONS (Arr NM MuObj)}
    (hrun : regionize_muon_ref NM fib = .ok (rest, regions)) : ∀ k, NM ≤ (fib k).length := by
  intro k
  by_contra hk
  have := (C37_muon_consumes (NMU := NM) fib).2 ⟨k, by omega⟩
  rw [hrun] at this
  cases this

/-- C86: the four muon sectors turned by half a turn: the muons of the regions are turned.  (The six regions and the four
muon sectors only have half turns in common.) -/
theorem C86_muon_half_turn (fib fib' rest : Arr N_MUON_SECTORS (List MuObj)) (regions : Arr N_OUT_REGIONS (Arr NM MuObj))
    (hrun : regionize_muon_ref NM fib = .ok (rest, regions)) (hturn : ∀ s, fib' (turnMuSector 2 s) = fib s) :
    ∃ rest' regions', regionize_muon_ref NM fib' = .ok (rest', regions') ∧ (∀ s, rest' (turnMuSector 2 s) = rest s) ∧
      ∀ ir ir', Turned 3 ir ir' → regions' ir' = regions ir := by
  have hlen := mu_long hrun
  have hsur : ∀ s : Fin 4, turnMuSector 2 (turnMuSector 2 s) = s := by decide
  have hlen' : ∀ k, NM ≤ (fib' k).length := fun k => by
    rw [← hsur k, hturn]; exact hlen _
  obtain ⟨work, w1, w2⟩ := deserialize_muon_ok fib hlen
  obtain ⟨work', w1', w2'⟩ := deserialize_muon_ok fib' hlen'
  have hw : ∀ s ie, work' (turnMuSector 2 s) ie = work s ie := fun s ie => by
    have h1 := w2' (turnMuSector 2 s) ie
    rw [hturn] at h1
    exact Holds.unique h1 (w2 s ie)
  unfold regionize_muon_ref at hrun ⊢
  rw [w1, Run.ok_bind] at hrun
  cases hrun
  rw [w1', Run.ok_bind]
  refine ⟨_, _, rfl, fun s => by rw [hturn], fun ir ir' ht => ?_⟩
  have hp := ht.2
  have h6 := (regionPhi ir).isLt
  have hA : muA (regionPhi ir') = turnMuSector 2 (muA (regionPhi ir)) :=
    (by decide : ∀ a b : Fin 6, b.val = (a.val + 3) % 6 → muA b = turnMuSector 2 (muA a)) _ _ hp
  have hB : muB (regionPhi ir') = turnMuSector 2 (muB (regionPhi ir)) :=
    (by decide : ∀ a b : Fin 6, b.val = (a.val + 3) % 6 → muB b = turnMuSector 2 (muB a)) _ _ hp
  have h3 : (regionPhi ir').val % 3 = (regionPhi ir).val % 3 := by omega
  show muon_region work' ir' = muon_region work ir
  by_cases h0 : (regionPhi ir).val % 3 = 0
  · rw [muon_region_zero work ir h0, muon_region_zero work' ir' (by omega), hA, ht.1, hw]
  · have e := muon_region_pick work ir h0
    have e' := muon_region_pick work' ir' (by omega)
    rw [hA, hB, ht.1, hw, hw] at e'
    refine Holds.unique e' ?_
    have : muPick (regionPhi ir') = muPick (regionPhi ir) := by
      funext A B
      unfold muPick
      rw [h3]
    rw [this]; exact e

theorem muPick_flip (ip : Fin 6) (A B : List MuObj) : muPick ip (A.map flipEta) (B.map flipEta) = (muPick ip A B).map flipEta := by
  have hm : ∀ d (l : List MuObj), (l.map flipEta).map (phiMove d) = (l.map (phiMove d)).map flipEta := fun d l => by
    rw [List.map_map, List.map_map]
    congr 1
  unfold muPick
  simp only [List.filter_map, hm]
  split <;> (rw [List.map_append]; rfl)

/-- C86: the muons reflected. -/
theorem C86_muon_flip (fib rest : Arr N_MUON_SECTORS (List MuObj)) (regions : Arr N_OUT_REGIONS (Arr NM MuObj))
    (hrun : regionize_muon_ref NM fib = .ok (rest, regions)) :
    ∃ regions', regionize_muon_ref NM (fun k => (fib k).map flipEta) = .ok (fun k => (rest k).map flipEta, regions') ∧
      ∀ ir ir', Flipped ir ir' → ∀ i, regions' ir' i = flipEta (regions ir i) := by
  have hlen := mu_long hrun
  obtain ⟨work, w1, w2⟩ := deserialize_muon_ok fib hlen
  obtain ⟨work', w1', w2'⟩ := deserialize_muon_ok (NMU := NM) (fun k => (fib k).map flipEta) (fun k => by
    rw [List.length_map]; exact hlen k)
  have hw : ∀ s (ie ie' : Fin 3), ie'.val + ie.val = 2 → work' s ie' = fun i => flipEta (work s ie i) := fun s ie ie' h => by
    have h1 := w2' s ie'
    rw [← List.map_take, slice_flip h] at h1
    refine Holds.unique h1 ?_
    unfold Holds
    rw [pad_flip, ← show List.ofFn (work s ie) = _ from w2 s ie, List.map_ofFn]
    rfl
  unfold regionize_muon_ref at hrun ⊢
  rw [w1, Run.ok_bind] at hrun
  cases hrun
  rw [w1', Run.ok_bind]
  refine ⟨fun ir => muon_region work' ir, by simp only [List.map_drop], fun ir ir' hf i => ?_⟩
  suffices h : muon_region work' ir' = fun i => flipEta (muon_region work ir i) by
    exact congrFun h i
  have hl : ∀ s, List.ofFn (work' s (regionEta ir')) = (List.ofFn (work s (regionEta ir))).map flipEta := fun s => by
    rw [hw s _ _ hf.1, List.map_ofFn]; rfl
  by_cases h0 : (regionPhi ir).val % 3 = 0
  · rw [muon_region_zero work ir h0, muon_region_zero work' ir' (by rw [hf.2]; exact h0), hf.2, hw _ _ _ hf.1]
  · have e := muon_region_pick work ir h0
    have e' := muon_region_pick work' ir' (by rw [hf.2]; exact h0)
    rw [hf.2, hl, hl, muPick_flip, best_map_pt ptOf_flip] at e'
    refine Holds.unique e' ?_
    unfold Holds at e ⊢
    rw [pad_flip, ← e, List.map_ofFn]
    rfl

end

/-- C86: a turn by 60 degrees is not a symmetry of the muon regionizer: a muon on the border of sectors 11 and 0 is
delivered to region 0 of the central slice, but turned by two sectors it is not delivered to the next region. -/
theorem C86_muon_sixth_turn :
    let mu : MuObj := { MuObj.clear with hwPt := reg 16 40, hwPhi := reg 10 (-60) }
    let inn : Fin 12 → Arr N_IN_SECTORS (Arr 1 MuObj) := fun s ics _ => if ics = s then mu else MuObj.clear
    (regionize_muon_ref 1 (fun s => List.ofFn (merge_muon_in (inn 0) s))).map
        (fun o => ((o.2 6 0).hwPt.toInt, (o.2 6 0).hwPhi.toInt)) = .ok (40, -180) ∧
    (regionize_muon_ref 1 (fun s => List.ofFn (merge_muon_in (inn (turnSector 1 0)) s))).map
        (fun o => ((o.2 7 0).hwPt.toInt, (o.2 7 0).hwPhi.toInt)) = .ok (0, 0) ∧ Turned 1 6 7 := by
  refine ⟨?_, ?_, ?_⟩
  · decide +kernel
  · decide +kernel
  · unfold Turned; decide

/-! ### The boards -/

section
variable {NT NC NE NM NS N N' FE FT : Nat}

/-- C86: half a turn of the whole detector: the board of each region gets exactly the inputs that the board of the
opposite region got before. -/
theorem C86_boards_half_turn (sz : SystemSizes) (em em' re0 : Arr (FE * N_IN_SECTORS) (List EmCaloObj))
    (had had' rh0 : Arr N_IN_SECTORS (List HadCaloObj)) (tk tk' rt0 : Arr (FT * N_IN_SECTORS) (List TkObj))
    (mu mu' rm0 : Arr N_MUON_SECTORS (List MuObj)) (memh memh' : Arr N_OUT_REGIONS (Arr NC HadCaloObj))
    (re : Arr N_OUT_REGIONS (Arr NE EmCaloObj)) (rh : Arr N_OUT_REGIONS (Arr NC HadCaloObj))
    (rt : Arr N_OUT_REGIONS (Arr NT TkObj)) (rm : Arr N_OUT_REGIONS (Arr NM MuObj)) (hN : sz.hadSlice ≤ NC)
    (he : regionize_ref sz.emSec sz.emSlice NE em = .ok (re0, re))
    (hh : regionize sz.hadSec sz.hadSlice memh had = .ok (rh0, rh))
    (ht : regionize_ref sz.tkSec sz.tkSlice NT tk = .ok (rt0, rt)) (hm : regionize_muon_ref NM mu = .ok (rm0, rm))
    (te : ∀ s f, em' (fiberIdx (turnSector 3 s) f) = em (fiberIdx s f)) (th : ∀ s, had' (turnSector 3 s) = had s)
    (tt : ∀ s f, tk' (fiberIdx (turnSector 3 s) f) = tk (fiberIdx s f)) (tm : ∀ s, mu' (turnMuSector 2 s) = mu s) :
    ∃ e h t m, regionize_ref sz.emSec sz.emSlice NE em' = .ok e ∧ regionize sz.hadSec sz.hadSlice memh' had' = .ok h ∧
      regionize_ref sz.tkSec sz.tkSlice NT tk' = .ok t ∧ regionize_muon_ref NM mu' = .ok m ∧
      ∀ ir ir', Turned 3 ir ir' → boardOf e.2 h.2 t.2 m.2 ir' = boardOf re rh rt rm ir := by
  obtain ⟨e0, e, a1, -, a2⟩ := C86_turn sz.emSec sz.emSlice 3 em em' re0 re he te
  rw [C32_agree sz.hadSec sz.hadSlice hN] at hh
  have one : ∀ (s : Fin 12) (f : Fin 1), fiberIdx s f = s := fun s f => by
    apply Fin.ext; show 1 * s.val + f.val = s.val; omega
  obtain ⟨h0, h, b1, -, b2⟩ := C86_turn (NFPS := 1) sz.hadSec sz.hadSlice 3 had had' rh0 rh hh (fun s f => by
    have h1 : (fiberIdx (NFPS := 1) (turnSector 3 s) f : Fin 12) = turnSector 3 s := one _ _
    have h2 : (fiberIdx (NFPS := 1) s f : Fin 12) = s := one _ _
    exact (congrArg had' h1).trans ((th s).trans (congrArg had h2).symm))
  obtain ⟨t0, t, c1, -, c2⟩ := C86_turn sz.tkSec sz.tkSlice 3 tk tk' rt0 rt ht tt
  obtain ⟨m0, m, d1, -, d2⟩ := C86_muon_half_turn mu mu' rm0 rm hm tm
  refine ⟨(e0, e), (h0, h), (t0, t), (m0, m), a1, ?_, c1, d1, fun ir ir' hr => ?_⟩
  · rw [C32_agree sz.hadSec sz.hadSlice hN]; exact b1
  · show boardOf e h t m ir' = _
    unfold boardOf
    rw [a2 ir ir' hr, b2 ir ir' hr, c2 ir ir' hr, d2 ir ir' hr]

/-- C86: the whole detector reflected: the board of each region gets the reflected inputs of the board on the other side. -/
theorem C86_boards_flip (sz : SystemSizes) (em re0 : Arr (FE * N_IN_SECTORS) (List EmCaloObj))
    (had rh0 : Arr N_IN_SECTORS (List HadCaloObj)) (tk rt0 : Arr (FT * N_IN_SECTORS) (List TkObj))
    (mu rm0 : Arr N_MUON_SECTORS (List MuObj)) (memh memh' : Arr N_OUT_REGIONS (Arr NC HadCaloObj))
    (re : Arr N_OUT_REGIONS (Arr NE EmCaloObj)) (rh : Arr N_OUT_REGIONS (Arr NC HadCaloObj))
    (rt : Arr N_OUT_REGIONS (Arr NT TkObj)) (rm : Arr N_OUT_REGIONS (Arr NM MuObj)) (hN : sz.hadSlice ≤ NC)
    (he : regionize_ref sz.emSec sz.emSlice NE em = .ok (re0, re))
    (hh : regionize sz.hadSec sz.hadSlice memh had = .ok (rh0, rh))
    (ht : regionize_ref sz.tkSec sz.tkSlice NT tk = .ok (rt0, rt)) (hm : regionize_muon_ref NM mu = .ok (rm0, rm)) :
    ∃ e h t m, regionize_ref sz.emSec sz.emSlice NE (fun k => (em k).map flipEta) = .ok e ∧
      regionize sz.hadSec sz.hadSlice memh' (fun k => (had k).map flipEta) = .ok h ∧
      regionize_ref sz.tkSec sz.tkSlice NT (fun k => (tk k).map flipEta) = .ok t ∧
      regionize_muon_ref NM (fun k => (mu k).map flipEta) = .ok m ∧
      ∀ ir ir', Flipped ir ir' → boardOf e.2 h.2 t.2 m.2 ir' = (mirror true false).inputs (boardOf re rh rt rm ir) := by
  obtain ⟨e, a1, a2⟩ := C86_flip sz.emSec sz.emSlice em re0 re he
  rw [C32_agree sz.hadSec sz.hadSlice hN] at hh
  obtain ⟨h, b1, b2⟩ := C86_flip (NFPS := 1) sz.hadSec sz.hadSlice had rh0 rh hh
  obtain ⟨t, c1, c2⟩ := C86_flip sz.tkSec sz.tkSlice tk rt0 rt ht
  obtain ⟨m, d1, d2⟩ := C86_muon_flip mu rm0 rm hm
  refine ⟨(_, e), (fun k => (rh0 k).map flipEta, h), (_, t), (_, m), a1, ?_, c1, d1, fun ir ir' hr => ?_⟩
  · rw [C32_agree sz.hadSec sz.hadSlice hN]; exact b1
  · show boardOf e h t m ir' = _
    unfold boardOf Motion.inputs mirror
    simp only [PFInputs.mk.injEq]
    refine ⟨funext fun i => ?_, funext fun i => ?_, funext fun i => ?_, funext fun i => ?_⟩
    · rw [a2 ir ir' hr i]; rfl
    · rw [b2 ir ir' hr i]; rfl
    · rw [c2 ir ir' hr i]; rfl
    · rw [d2 ir ir' hr i]; rfl

theorem mergeNeutrals_motion (g : Motion) {pho pho' : Arr NE PFNeutralObj} {ne ne' : Arr NS PFNeutralObj}
    (hp : ∀ i, g.Neutral (pho i) (pho' i)) (hn : ∀ i, g.Neutral (ne i) (ne' i)) (n : Fin (NE + NS)) :
    g.Neutral (mergeNeutrals pho ne n) (mergeNeutrals pho' ne' n) := by
  unfold mergeNeutrals
  by_cases h : n.val < NE
  · rw [dif_pos h, dif_pos h]
    exact ⟨(hp _).pt, (hp _).id, rfl, (hp _).eta, (hp _).phi⟩
  · rw [dif_neg h, dif_neg h]
    exact ⟨(hn _).pt, (hn _).id, rfl, (hn _).eta, (hn _).phi⟩

/-- C86: a board with moved inputs and the same vertex gives the moved candidates with the same PUPPI pts. -/
theorem C86_board_motion (g : Motion) (table : PuppiTable) (z : Z0) (inp : PFInputs NT NC NE NM) (data data' : Arr N Word)
    (out0 out0' : Arr N' Word) (pf0 old : PFOutputs NT NE NS NM) (mem : PFScratch NC NS)
    (hi : 2 * NE + 2 * NT + 2 * NC + 2 * NM ≤ min N MP7_NCHANN) (ho : 2 * NT + 2 * NE + 2 * NS + 2 * NM ≤ min N' MP7_NCHANN)
    (r r' : PFOutputs NT NE NS NM × Arr (NE + NS) PFNeutralObj) (h : fwBoard table z inp data out0 pf0 old mem = .ok r)
    (h' : fwBoard table z (g.inputs inp) data' out0' pf0 old mem = .ok r') :
    g.Outputs r.1 r'.1 ∧ ∀ n, g.Neutral (r.2 n) (r'.2 n) := by
  unfold fwBoard at h h'
  rw [C19_wrapped_eq_plain _ _ _ _ _ _ hi ho] at h h'
  have k := C51_firmware g inp pf0 mem
  cases e : pfalgo3_full inp pf0 mem with
  | error f => rw [e] at h; cases h
  | ok out =>
    cases e' : pfalgo3_full (g.inputs inp) pf0 mem with
    | error f => rw [e'] at h'; cases h'
    | ok out' =>
      rw [e, Run.ok_bind, Run.ok_bind] at h
      rw [e', Run.ok_bind, Run.ok_bind] at h'
      rw [e, e'] at k
      obtain ⟨ne, n1, n2⟩ := Run.bind_eq_ok.mp h
      obtain ⟨ne', n1', n2'⟩ := Run.bind_eq_ok.mp h'
      cases n2; cases n2'
      have kp : ∀ i, g.Neutral { out.outpho i with hwPtPuppi := (old.outpho i).hwPtPuppi }
          { out'.outpho i with hwPtPuppi := (old.outpho i).hwPtPuppi } := fun i =>
        ⟨(k.photon i).pt, (k.photon i).id, rfl, (k.photon i).eta, (k.photon i).phi⟩
      have kn : ∀ i, g.Neutral { out.outne i with hwPtPuppi := (old.outne i).hwPtPuppi }
          { out'.outne i with hwPtPuppi := (old.outne i).hwPtPuppi } := fun i =>
        ⟨(k.neutral i).pt, (k.neutral i).id, rfl, (k.neutral i).eta, (k.neutral i).phi⟩
      exact ⟨⟨k.charged, kp, kn, k.muon⟩,
        C51_puppi_firmware g table k.charged (mergeNeutrals_motion g kp kn) z n1 n1'⟩

end

/-- Non-vacuity: a region turned by 60 degrees, a region reflected. -/
example : Turned 1 5 0 ∧ Turned 3 7 10 ∧ Flipped 2 14 ∧ Flipped 7 7 := by
  unfold Turned Flipped; decide

end Verif
