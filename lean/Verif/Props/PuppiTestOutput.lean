import Verif.Model.PuppiTestOutput
import Verif.Spec.PuppiTestOutput
import Verif.Props.PuppiTest
import Verif.Props.PFAgree
import Verif.Props.SimpleVtx
import Verif.Props.PFTestOutput
import Verif.Proofs.RegionizerTestOutput
/-! # C74: what the PF + PUPPI test bench prints, and when it works -/
namespace Verif
open Spec
variable {NT NC NE NM NS NN : Nat}

/-! ## When PUPPI is defined -/

/-- **C22.** PUPPI is defined, in firmware and reference, if the squares of the pts of the charged candidates sum to less than 2^21,
wherever they are (in units of 0.25 GeV: one candidate of 362 GeV). -/
theorem C22_safe (table : PuppiTable) (pfch : Arr NT PFChargedObj) (ne : Arr NN PFNeutralObj) (Z0 : Z0)
    (h : ∑ t, (pfch t).hwPt.toInt ^ 2 < 2 ^ 21) :
    (∀ n, puppiSum pfch Z0 (ne n) ≤ 2147483647) ∧
    ∃ hw ref, simple_puppi_hw table pfch ne Z0 = .ok hw ∧ simple_puppi_ref table pfch ne Z0 = .ok ref := by
  have key : ∀ n, puppiSum pfch Z0 (ne n) ≤ 2147483647 := by
    intro n
    have h1 : puppiSum pfch Z0 (ne n) ≤ ∑ t, (pfch t).hwPt.toInt ^ 2 / 32 * 32768 := by
      unfold puppiSum
      refine Finset.sum_le_sum fun t _ => ?_
      have h0 : 0 ≤ (pfch t).hwPt.toInt ^ 2 / 32 := Int.ediv_nonneg (sq_nonneg _) (by decide)
      split
      · unfold puppiTerm
        refine mul_le_mul (Int.min_le_left _ _) ?_ ?_ h0
        · exact Int.ediv_le_self _ (by decide)
        · exact Int.ediv_nonneg (by decide) (by omega)
      · exact mul_nonneg h0 (by decide)
    have h2 : ∑ t, (pfch t).hwPt.toInt ^ 2 / 32 * 32768 ≤ ∑ t, (pfch t).hwPt.toInt ^ 2 * 1024 :=
      Finset.sum_le_sum fun t _ => by omega
    rw [← Finset.sum_mul] at h1 h2
    rw [← Finset.sum_mul] at h2
    omega
  obtain ⟨hw, ref, h1, h2, _⟩ := C22_puppi_agree table pfch ne Z0 key
  exact ⟨key, hw, ref, h1, h2⟩

/-- A charged candidate of pt 1448 (362 GeV) meets the bound; one of 1449 on top of the neutral is too much. -/
example : ∑ t : Fin 1, ((fun _ => { hardTrack with hwPt := 1448 } : Arr 1 PFChargedObj) t).hwPt.toInt ^ 2 < 2 ^ 21 ∧
    2147483647 < puppiSum (fun _ : Fin 1 => { hardTrack with hwPt := 1449 }) 0 softNeutral := by decide

/-! ## The result of a test -/

theorem puppiPt_null (table : PuppiTable) (s : Int) : puppiPt table s 0 = 0 := by
  unfold puppiPt
  split
  · rfl
  · split
    · simp
    · rfl

theorem puppiPt_fits (table : PuppiTable) (s : Int) (pt : Pt) : (reg 16 (puppiPt table s pt.toInt)).toInt = puppiPt table s pt.toInt := by
  have h1 := BitVec.toInt_lt (x := pt)
  have h2 := BitVec.le_toInt (x := pt)
  have key : -32768 ≤ puppiPt table s pt.toInt ∧ puppiPt table s pt.toInt < 32768 := by
    unfold puppiPt
    split
    · omega
    · split
      · rename_i h
        have key : ∀ w : Nat, w < 256 → -32768 ≤ pt.toInt * (w : Int) / 256 ∧ pt.toInt * (w : Int) / 256 < 32768 := by
          intro w hw
          have hp1 : pt.toInt ≤ 32767 := by omega
          have hp2 : -32768 ≤ pt.toInt := by omega
          have hw1 : (w : Int) ≤ 255 := by omega
          have hw0 : (0 : Int) ≤ w := by omega
          have : -32768 * 256 ≤ pt.toInt * (w : Int) := by nlinarith
          have : pt.toInt * (w : Int) ≤ 32767 * 256 := by nlinarith
          omega
        exact key _ (BitVec.isLt _)
      · omega
  exact reg16_toInt key.1 key.2

/-- What the test computes on a region: pt and PUPPI pt of the photons and neutrals of the reference PF, with its charged
candidates and the vertex of the reference vertexing. -/
def PuppiOf (NS NALL : Nat) (table : PuppiTable) (inp : PFInputs NT NC NE NM) (l : List (Int × Int)) : Prop :=
  ∃ (old : PFOutputs NT NE NS NM) (mem : Arr NC PFNeutralObj) (ref : PFOutputs NT NE NS NM) (vtx : VtxObj),
    pfalgo3_full_ref inp old mem = .ok ref ∧ simple_vtx_ref_ptr NALL inp.track = .ok vtx ∧
    l = puppiPts table ref.outch vtx.hwZ0 (List.ofFn ref.outpho ++ List.ofFn ref.outne)

theorem mergeNeutrals_list {A : Type} (f : PFNeutralObj → A) (hf : ∀ a : PFNeutralObj, f { a with hwPtPuppi := 0 } = f a)
    (pho : Arr NE PFNeutralObj) (ne : Arr NS PFNeutralObj) :
    (List.finRange (NE + NS)).map (fun i => f (mergeNeutrals pho ne i)) = (List.ofFn pho ++ List.ofFn ne).map f := by
  rw [← List.ofFn_eq_map, List.ofFn_add, List.map_append, List.map_ofFn, List.map_ofFn]
  congr 1
  · refine congrArg _ (funext fun i => ?_)
    have : mergeNeutrals pho ne (Fin.castAdd NS i) = { pho i with hwPtPuppi := 0 } := by
      unfold mergeNeutrals
      rw [dif_pos (show (Fin.castAdd NS i).val < NE from i.isLt)]
      rfl
    exact (congrArg f this).trans (hf _)
  · refine congrArg _ (funext fun i => ?_)
    have : mergeNeutrals pho ne (Fin.natAdd NE i) = { ne i with hwPtPuppi := 0 } := by
      unfold mergeNeutrals
      rw [dif_neg (show ¬ (Fin.natAdd NE i).val < NE by simp)]
      simp
    exact (congrArg f this).trans (hf _)

/-- The pt and the PUPPI pt of a line; the second one is printed twice. -/
def PuppiLine.pts (l : PuppiLine) : Int × Int := (l.hwPt, l.hwPtPuppi)

theorem step_result {NALL : Nat} {table : PuppiTable} {track : Arr NT TkObj} {ref : PFOutputs NT NE NS NM}
    {lines : Arr (NE + NS) PuppiLine} (h : puppiTestStep NALL table track ref = .ok lines) :
    ∃ vtx, simple_vtx_ref_ptr NALL track = .ok vtx ∧ (∀ i, (lines i).hwPtPuppiRef = (lines i).hwPtPuppi) ∧
      (List.ofFn lines).map PuppiLine.pts = puppiPts table ref.outch vtx.hwZ0 (List.ofFn ref.outpho ++ List.ofFn ref.outne) := by
  have hcol := step_columns NALL table track ref h
  unfold puppiTestStep at h
  obtain ⟨vtx, hv, h⟩ := Run.bind_eq_ok.mp h
  obtain ⟨r, hr, h⟩ := Run.bind_eq_ok.mp h
  obtain ⟨hw, hh, h⟩ := Run.bind_eq_ok.mp h
  injection h with h
  refine ⟨vtx, hv, fun i => ((hcol i).1).symm, ?_⟩
  have hdef := (C22_ref_defined_iff table ref.outch (mergeNeutrals ref.outpho ref.outne) vtx.hwZ0).mp ⟨r, hr⟩
  unfold puppiPts
  rw [← mergeNeutrals_list _ (fun a => rfl), List.map_ofFn, List.ofFn_eq_map]
  refine List.map_congr_left fun i _ => ?_
  have hl : lines i = ⟨(hw i).hwPt.toInt, (hw i).hwPtPuppi.toInt, (r i).hwPtPuppi.toInt⟩ := by rw [← h]
  obtain ⟨c1, -, -, -, -⟩ := C23_scales_down table _ _ _ _ hh i
  show ((lines i).hwPt, (lines i).hwPtPuppi) = _
  generalize hne : mergeNeutrals ref.outpho ref.outne i = ne at *
  have hpt : (lines i).hwPt = ne.hwPt.toInt := by rw [hl, ← c1]
  have hd := hdef i
  rw [hne] at hd
  refine Prod.ext hpt ?_
  show (lines i).hwPtPuppi = _
  unfold simple_puppi_hw at hh
  obtain ⟨sums, hs, hh⟩ := Run.bind_eq_ok.mp hh
  injection hh with hh
  have hsi := buildM_eq_ok.mp hs i
  have hwi : hw i = puppi_hw_weight table (sums i) ne := by rw [← hh]; exact congrArg _ hne
  rw [hne] at hsi
  by_cases h0 : ne.hwPt = 0
  · have hz : (0 : Pt).toInt = 0 := rfl
    rw [h0, hz, puppiPt_null, hl, hwi]
    unfold puppi_hw_weight
    dsimp only
    split
    · show (reg 16 (shr (ne.hwPt.toInt * _) 8)).toInt = 0
      rw [h0, hz, Int.zero_mul]; rfl
    · show ne.hwPt.toInt = 0
      rw [h0]; rfl
  · rw [puppi_hw_sum_eq _ _ _ (hd h0)] at hsi
    injection hsi with hsi
    rw [hl, hwi, ← hsi, hw_weight_eq table (puppiSum_nonneg _ _ _) (hd h0)]
    exact puppiPt_fits table _ _

/-! ## The text -/

theorem lits_puppi :
    tokens "test ".toList = say "test" ∧ tokens "hwpt = ".toList = say "hwpt =" ∧ tokens ", hwptpuppi = ".toList = say "hwptpuppi =" ∧
    tokens ", hwptpuppi-ref = ".toList = say "hwptpuppi-ref =" ∧ tokens " \n".toList = [] ∧ tokens "end of test ---- ".toList = say "end of test ----" := by
  decide +kernel

theorem says_neutral (l : PuppiLine) (h : l.hwPtPuppiRef = l.hwPtPuppi) : Says (puppiText l) [neutralLine l.pts.1 l.pts.2] := by
  unfold puppiText neutralLine PuppiLine.pts
  rw [h]
  simp only [List.append_assoc]
  refine Says.line ?_ ?_ ?_
  · simp (discharger := decide) only [List.count_append, count_fmtD]; decide
  · simp only [← List.append_assoc]; exact getLast_lit (by decide)
  · simp (discharger := decide) only [tokens_lit, tokens_num, tokens_num', lits_puppi]
    simp

theorem says_block {N : Nat} (test : Nat) (l : Arr N PuppiLine) (h : ∀ i, (l i).hwPtPuppiRef = (l i).hwPtPuppi) :
    Says (puppiTestText test l) (puppiBlock test ((List.ofFn l).map PuppiLine.pts)) := by
  unfold puppiTestText puppiBlock
  have h1 : Says ("test ".toList ++ (fmtN 0 test ++ "\n".toList)) [say "test" ++ [.num test]] := by
    refine Says.line ?_ ?_ ?_
    · simp (discharger := decide) only [List.count_append, count_fmtD]; decide
    · simp only [← List.append_assoc]; exact getLast_lit (by decide)
    · simp (discharger := decide) only [tokens_lit, tokens_num', lits, lits_puppi]
  have h2 : Says ("end of test ---- ".toList ++ (fmtN 0 test ++ "\n".toList)) [say "end of test ----" ++ [.num test]] := by
    refine Says.line ?_ ?_ ?_
    · simp (discharger := decide) only [List.count_append, count_fmtD]; decide
    · simp only [← List.append_assoc]; exact getLast_lit (by decide)
    · simp (discharger := decide) only [tokens_lit, tokens_num', lits, lits_puppi]
  have h3 : Says ((List.finRange N).flatMap (fun i => puppiText (l i))) (((List.ofFn l).map PuppiLine.pts).map fun p => neutralLine p.1 p.2) := by
    have := Says.flatMap (f := fun i : Fin N => puppiText (l i)) (g := fun i => [neutralLine (l i).pts.1 (l i).pts.2]) (fun i => says_neutral (l i) (h i)) (List.finRange N)
    rw [List.ofFn_eq_map, List.map_map, List.map_map]
    rw [← List.map_eq_flatMap] at this
    exact this
  have := (h1.append h3).append h2
  simpa using this

theorem puppiRun_skips {L rest : List Item} {es : List DumpEvent} (h : Skips L es rest) (n test : Nat) (rs : List (List (Int × Int))) :
    puppiRun (n + 1) test L rs = es.map beginLine ++ puppiRun (n + 1) test rest rs := by
  induction h with
  | nil => rfl
  | region i r is => rfl
  | event e h ih => rw [puppiRun, ih]; rfl

/-- **C74.** For every file: the program with its printouts ends as without them (C57), with the same numbers. -/
theorem C74_same_program (NALL : Nat) (table : PuppiTable) (fall : Option Bool) (zpv : BitVec 32 → Z0) (genZ0 : BitVec 32)
    (file : CFile) (junk : Nat → Arr NC PFNeutralObj) (inp : PFInputs NT NC NE NM) (z : Z0) (ref : PFOutputs NT NE NS NM) :
    (puppiBenchMain NALL table fall zpv genZ0 file junk inp z ref).map Prod.snd = puppiTestMain NALL table fall zpv genZ0 file junk inp z ref := by
  have gen : ∀ (n test : Nat) (s : DumpReader) (inp : PFInputs NT NC NE NM) (z : Z0) (ref : PFOutputs NT NE NS NM),
      (puppiBenchLoop NALL table fall zpv junk n test s inp z ref).map Prod.snd = puppiTestLoop NALL table fall zpv junk n s inp z ref := by
    intro n
    induction n with
    | zero => intros; rfl
    | succ n ih =>
      intro test s inp z ref
      rw [puppiBenchLoop, puppiTestLoop]
      dsimp only
      rw [Run.map_bind]
      refine Run.bind_congr ?_
      rintro ⟨b, s', inp', z'⟩
      dsimp only
      cases b with
      | false => rfl
      | true =>
        simp only [Bool.not_true, Bool.false_eq_true, if_false]
        rw [Run.map_bind]
        refine Run.bind_congr fun ref' => ?_
        rw [Run.map_bind]
        refine Run.bind_congr fun lines => ?_
        rw [← ih (test + 1), Run.map_bind]
        cases puppiBenchLoop NALL table fall zpv junk n (test + 1) s' inp' z' _ with
        | error e => rfl
        | ok x => rfl
  exact gen 50 1 _ _ _ _

/-- **C74.** What the bench prints when it completes, on every well-formed dump: the events and barrel regions as they are read,
and for each of the first 50 barrel regions a block of lines with the pt and twice the PUPPI pt of all its photons and neutrals,
the empty ones too. -/
theorem C74_output (NALL : Nat) (table : PuppiTable) (zpv : BitVec 32 → Z0) (dump : List DumpEvent)
    (hev : ∀ e ∈ dump, eventFits e ∧ e.event ≠ 0 ∧ e.regions ≠ []) (fjunk : Nat → BitVec 32) (genZ0 : BitVec 32)
    (junk : Nat → Arr NC PFNeutralObj) (inp : PFInputs NT NC NE NM) (z : Z0) (ref : PFOutputs NT NE NS NM) (text : List Char) (res : List (Arr (NE + NS) PuppiLine))
    (h : puppiBenchMain NALL table (some true) zpv genZ0 ⟨dump.flatMap eventBytes, false, fjunk⟩ junk inp z ref = .ok (text, res)) :
    ∃ rs : List (List (Int × Int)), report text = puppiRun 50 1 (items dump) rs ∧
      List.Forall₂ (fun r l => PuppiOf NS NALL table (regionInputs NT NC NE NM r) l) (((barrel dump).map Prod.fst).take 50) rs := by
  have gen : ∀ (n test : Nat) (L : List Item) (s : DumpReader), Finds s L → ∀ (inp : PFInputs NT NC NE NM) (z : Z0) (ref : PFOutputs NT NE NS NM)
      (text : List Char) (res : List (Arr (NE + NS) PuppiLine)), puppiBenchLoop NALL table (some true) zpv junk n test s inp z ref = .ok (text, res) →
      ∃ rs : List (List (Int × Int)), Says text (puppiRun n test L rs) ∧
        List.Forall₂ (fun r l => PuppiOf NS NALL table (regionInputs NT NC NE NM r) l) ((regionsOf L).take n) rs := by
    intro n
    induction n with
    | zero =>
      intro test L s _ inp z ref text res h
      rw [puppiBenchLoop] at h
      cases h
      exact ⟨[], by rw [puppiRun]; exact Says.nil, by rw [List.take_zero]; exact .nil⟩
    | succ n ih =>
      intro test L s hs inp z ref text res h
      obtain ⟨es, rest, k1, k2⟩ := nextRegion_says zpv hs (initInputs inp) z
      rw [puppiBenchLoop] at h
      dsimp only at h
      rcases skips_rest k1 with rfl | ⟨i, r, is, rfl⟩
      · obtain ⟨k3, s', k4⟩ := k2
        rw [k4] at h
        cases h
        refine ⟨[], ?_, by rw [regionsOf_skips k1]; exact .nil⟩
        rw [puppiRun_skips k1, puppiRun, List.append_nil]
        exact k3
      · obtain ⟨k3, s', z', k4, k5⟩ := k2
        rw [k4, Run.ok_bind] at h
        simp only [Bool.not_true, Bool.false_eq_true, if_false] at h
        obtain ⟨ref', hr, h⟩ := Run.bind_eq_ok.mp h
        obtain ⟨lines, hl, h⟩ := Run.bind_eq_ok.mp h
        obtain ⟨⟨text', rest⟩, hrest, h⟩ := Run.bind_eq_ok.mp h
        cases h
        obtain ⟨rs, r1, r2⟩ := ih (test + 1) is s' k5 _ _ _ _ _ hrest
        obtain ⟨vtx, v1, v2, v3⟩ := step_result hl
        refine ⟨(List.ofFn lines).map PuppiLine.pts :: rs, ?_, ?_⟩
        · rw [puppiRun_skips k1, puppiRun]
          have := (k3.append (says_block test lines v2)).append r1
          simpa [List.append_assoc] using this
        · rw [regionsOf_skips k1, regionsOf, List.take_succ_cons]
          exact .cons ⟨_, _, ref', vtx, hr, v1, v3⟩ r2
  obtain ⟨rs, r1, r2⟩ := gen 50 1 (items dump) _ (Or.inl ⟨dump, hev, rfl, rfl, Or.inl ⟨rfl, rfl⟩⟩) _ _ _ _ _ h
  rw [regionsOf_items] at r2
  exact ⟨rs, r1.report, r2⟩

/-- A region on which the bench works: physical, with vertices inside the histogram and not too much pt. -/
structure Harmless (inp : PFInputs NT NC NE NM) : Prop where
  physical : Physical inp
  z0 : ∀ t, ¬ SvBadZ (inp.track t).hwZ0.toInt
  pt2 : ∑ t, (inp.track t).hwPt.toInt ^ 2 < 2 ^ 21

theorem vtx_ptr_ok {NALL : Nat} (hN : NALL ≤ NT) (track : Arr NT TkObj) (hz : ∀ t, ¬ SvBadZ (track t).hwZ0.toInt) :
    ∃ o, simple_vtx_ref_ptr NALL track = .ok o := by
  unfold simple_vtx_ref_ptr
  have hb : buildM (fun it : Fin NALL => track.read it.val) = .ok (fun it => track ⟨it.val, by omega⟩) := by
    refine buildM_eq_ok.mpr fun it => ?_
    unfold Arr.read
    rw [dif_pos (show it.val < NT by omega)]
  rw [hb, Run.ok_bind]
  exact (C30_oob_iff _).2 (by rintro ⟨i, hi⟩; exact hz _ hi)

theorem harmless_step {NALL : Nat} (hN : NALL ≤ NT) (table : PuppiTable) {inp : PFInputs NT NC NE NM} (h : Harmless inp) (old : PFOutputs NT NE NS NM)
    (mem : Arr NC PFNeutralObj) : ∃ ref lines, pfalgo3_full_ref inp old mem = .ok ref ∧ puppiTestStep NALL table inp.track ref = .ok lines := by
  obtain ⟨ref, ne, h1, h2, h3, -⟩ := C02_ref_spec inp old mem (physical_valid inp h.physical refVariant)
  obtain ⟨vtx, hv⟩ := vtx_ptr_ok hN inp.track h.z0
  have hb : ∑ t, (ref.outch t).hwPt.toInt ^ 2 < 2 ^ 21 := by
    refine lt_of_le_of_lt (Finset.sum_le_sum fun t _ => ?_) h.pt2
    have h0 := h.physical.trackPt t
    by_cases hp : (inp.track t).hwPt.toInt = 0
    · rw [h3 t hp]
      exact sq_nonneg _
    · rw [h2 t (by omega)]
      unfold chargedOut
      split
      · exact le_refl _
      · exact sq_nonneg _
  obtain ⟨-, hw, r, e1, e2⟩ := C22_safe table ref.outch (mergeNeutrals ref.outpho ref.outne) vtx.hwZ0 hb
  refine ⟨ref, fun i => ⟨(hw i).hwPt.toInt, (hw i).hwPtPuppi.toInt, (r i).hwPtPuppi.toInt⟩, h1, ?_⟩
  unfold puppiTestStep
  rw [hv, Run.ok_bind, e2, Run.ok_bind, e1, Run.ok_bind]

/-- **C74.** With arrays of at least `NALLTRACK` tracks the bench completes on every dump whose first 50 barrel regions are
`Harmless`. -/
theorem C74_completes {NALL : Nat} (hN : NALL ≤ NT) (table : PuppiTable) (zpv : BitVec 32 → Z0) (dump : List DumpEvent)
    (hev : ∀ e ∈ dump, eventFits e ∧ e.event ≠ 0 ∧ e.regions ≠ []) (fjunk : Nat → BitVec 32) (genZ0 : BitVec 32)
    (junk : Nat → Arr NC PFNeutralObj) (inp : PFInputs NT NC NE NM) (z : Z0) (ref : PFOutputs NT NE NS NM)
    (hr : ∀ x ∈ (barrel dump).take 50, Harmless (regionInputs NT NC NE NM x.1)) :
    ∃ text res, puppiBenchMain NALL table (some true) zpv genZ0 ⟨dump.flatMap eventBytes, false, fjunk⟩ junk inp z ref = .ok (text, res) := by
  have gen : ∀ (n test : Nat) (L : List Item) (s : DumpReader), Finds s L → (∀ r ∈ (regionsOf L).take n, Harmless (regionInputs NT NC NE NM r)) →
      ∀ (inp : PFInputs NT NC NE NM) (z : Z0) (ref : PFOutputs NT NE NS NM),
      ∃ text res, puppiBenchLoop NALL table (some true) zpv junk n test s inp z ref = .ok (text, res) := by
    intro n
    induction n with
    | zero => intros; exact ⟨[], [], rfl⟩
    | succ n ih =>
      intro test L s hs hh inp z ref
      obtain ⟨es, rest, k1, k2⟩ := nextRegion_says zpv hs (initInputs inp) z
      rw [puppiBenchLoop]
      dsimp only
      rcases skips_rest k1 with rfl | ⟨i, r, is, rfl⟩
      · obtain ⟨k3, s', k4⟩ := k2
        rw [k4]
        exact ⟨_, _, rfl⟩
      · obtain ⟨k3, s', z', k4, k5⟩ := k2
        rw [regionsOf_skips k1, regionsOf, List.take_succ_cons] at hh
        obtain ⟨ha, hb⟩ := List.forall_mem_cons.mp hh
        obtain ⟨ref', lines, h1, h2⟩ := harmless_step hN table ha ref (junk n)
        obtain ⟨text, res, h3⟩ := ih (test + 1) is s' k5 hb (regionInputs NT NC NE NM r) z' { ref' with
          outpho := fun i => { ref'.outpho i with hwPtPuppi := 0 }
          outne := fun i => { ref'.outne i with hwPtPuppi := 0 } }
        rw [k4, Run.ok_bind]
        simp only [Bool.not_true, Bool.false_eq_true, if_false]
        rw [h1, Run.ok_bind, h2, Run.ok_bind, h3]
        exact ⟨_, _, rfl⟩
  refine gen 50 1 (items dump) _ (Or.inl ⟨dump, hev, rfl, rfl, Or.inl ⟨rfl, rfl⟩⟩) ?_ _ _ _
  rw [regionsOf_items, ← List.map_take]
  intro r hr'
  obtain ⟨x, hx, rfl⟩ := List.mem_map.mp hr'
  exact hr x hx

/-- **C74**, non-vacuity: the dump with the ordinary region of C54 is read, tested and printed in a bench with `NALLTRACK` = 3. -/
example (table : PuppiTable) (zpv : BitVec 32 → Z0) (fjunk : Nat → BitVec 32) (genZ0 : BitVec 32) (junk : Nat → Arr 2 PFNeutralObj)
    (inp : PFInputs 3 2 2 1) (z : Z0) (ref : PFOutputs 3 2 2 1) :
    ∃ text res l, puppiBenchMain 3 table (some true) zpv genZ0 ⟨[eventOf [ordinaryRegion]].flatMap eventBytes, false, fjunk⟩ junk inp z ref = .ok (text, res) ∧
      PuppiOf 2 3 table (regionInputs 3 2 2 1 (keepRegion ordinaryRegion)) l ∧
      report text = [beginLine (eventOf [ordinaryRegion]), regionLine 0 (keepRegion ordinaryRegion)] ++ puppiBlock 1 l := by
  have hev : ∀ e ∈ [eventOf [ordinaryRegion]], eventFits e ∧ e.event ≠ 0 ∧ e.regions ≠ [] := by
    intro e he
    rw [List.mem_singleton] at he
    subst he
    refine ⟨⟨by decide, fun r hr => ?_⟩, by decide, by decide⟩
    have hr : r ∈ [ordinaryRegion] := hr
    rw [List.mem_singleton] at hr
    subst hr
    exact ⟨by decide, by decide, by decide, by decide⟩
  have hbar : barrel [eventOf [ordinaryRegion]] = [(keepRegion ordinaryRegion, 0)] := rfl
  obtain ⟨text, res, h⟩ := C74_completes (NC := 2) (NE := 2) (NM := 1) (NS := 2) (le_refl 3) table zpv [eventOf [ordinaryRegion]] hev fjunk genZ0 junk inp z ref (by
    intro x hx
    have hx := List.mem_of_mem_take hx
    rw [hbar, List.mem_singleton] at hx
    subst hx
    exact ⟨⟨by decide, by decide, by decide, by decide, by decide, by decide, by decide, by decide, by decide, by decide⟩,
      by unfold SvBadZ; decide, by decide⟩)
  obtain ⟨rs, r1, r2⟩ := C74_output 3 table zpv _ hev fjunk genZ0 junk inp z ref text res h
  rw [hbar] at r2
  cases r2 with
  | cons a b =>
    cases b
    exact ⟨text, res, _, h, a, by
      rw [r1, show items [eventOf [ordinaryRegion]] = [.event (eventOf [ordinaryRegion]), .region 0 (keepRegion ordinaryRegion)] from rfl, puppiRun, puppiRun,
        puppiRun]
      simp⟩

end Verif
