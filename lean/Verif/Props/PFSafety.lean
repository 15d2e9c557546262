import Verif.Proofs.PFFacts
/-! # Absence of undefined behaviour, null and non-negative outputs: properties C01, C11, C12 -/
open scoped BigOperators
namespace Verif
open Spec
variable {NT NC NE NM NS : Nat}

/-- **C01.** Non-negative track errors and errors that square into an `int` suffice: no undefined
behaviour, whatever the other inputs (negative pts, out-of-range sums, …) and memory contents. -/
theorem C01_no_undefined_behaviour (inp : PFInputs NT NC NE NM) (old : PFOutputs NT NE NS NM)
    (mem : PFScratch NC NS) (herr : ∀ t, 0 ≤ (inp.track t).hwPtErr.toInt)
    (hem : ∀ c, 4 * (inp.emcalo c).hwPtErr.toInt ^ 2 ≤ 2147483647)
    (htk : 3 * ∑ t, (inp.track t).hwPtErr.toInt ^ 2 ≤ 2 * 2147483647) :
    ∃ out, pfalgo3_full inp old mem = .ok out :=
  pfalgo3_full_total inp old mem herr hem htk

/-- **C01.** A single negative track pt error makes every run undefined (the table of `1/ptErr²` is
read before its start). -/
theorem C01_negative_error_faults (inp : PFInputs NT NC NE NM) (old : PFOutputs NT NE NS NM)
    (mem : PFScratch NC NS) (t : Fin NT) (herr : (inp.track t).hwPtErr.toInt < 0) :
    ∃ f, pfalgo3_full inp old mem = .error f :=
  pfalgo3_full_negative_error inp old mem t herr

/-- An event with one track and one EM cluster at the origin, one calorimeter cluster. -/
def oneOfEach (tkPt tkErr emPt emErr hadPt hadEmPt : Int) : PFInputs 1 1 1 0 where
  emcalo := fun _ => ⟨reg 16 emPt, reg 16 emErr, 0, 0⟩
  hadcalo := fun _ => ⟨reg 16 hadPt, 0, 0, reg 16 hadEmPt, false⟩
  track := fun _ => ⟨reg 16 tkPt, reg 16 tkErr, 0, 0, 0, false⟩
  mu := fun i => i.elim0

/-- Null outputs. -/
def nullOutputs (NT NE NS NM : Nat) : PFOutputs NT NE NS NM where
  outch := fun _ => ⟨0, 0, 0, 0, 0⟩
  outpho := fun _ => ⟨0, 0, 0, 0, 0⟩
  outne := fun _ => ⟨0, 0, 0, 0, 0⟩
  outmu := fun _ => ⟨0, 0, 0, 0, 0⟩

/-- Null scratch memory. -/
def nullScratch (NC NS : Nat) : PFScratch NC NS := ⟨fun _ => ⟨0, 0, 0, 0, 0⟩, fun _ => ⟨0, 0, 0, 0, 0⟩⟩

/-- **C01.** The bounds are not superfluous: an EM cluster error of 23171 with a track linked
overflows `sigma2 << 2`. -/
theorem C01_em_error_overflow :
    pfalgo3_full (oneOfEach 100 5 200 23171 300 0) (nullOutputs 1 1 1 0) (nullScratch 1 1) =
      .error .intOverflow :=
  Run.eq_error_of_fault (by decide +kernel)

/-- **C01.** … and 23170 does not. -/
theorem C01_em_error_boundary :
    ∃ out, pfalgo3_full (oneOfEach 100 5 200 23170 300 0) (nullOutputs 1 1 1 0) (nullScratch 1 1) =
      .ok out :=
  C01_no_undefined_behaviour _ _ _ (by decide) (by decide) (by decide)

/-- **C01.** The sum of the squared track errors can overflow too: three linked tracks of pt error
32767. -/
theorem C01_track_error_overflow :
    pfalgo3_full (NS := 1)
      { emcalo := (fun i => i.elim0 : Arr 0 EmCaloObj),
        hadcalo := (fun _ => ⟨20000, 0, 0, 0, false⟩ : Arr 1 HadCaloObj),
        track := (fun _ => ⟨32767, 32767, 0, 0, 0, false⟩ : Arr 3 TkObj),
        mu := (fun i => i.elim0 : Arr 0 MuObj) }
      (nullOutputs 3 0 1 0) (nullScratch 1 1) = .error .intOverflow :=
  Run.eq_error_of_fault (by decide +kernel)

/-- **C11.** All input pts zero (positions, errors and flags arbitrary): every run that is defined
gives null pts only. -/
theorem C11_empty_event (inp : PFInputs NT NC NE NM) (old : PFOutputs NT NE NS NM)
    (mem : PFScratch NC NS) (htk : ∀ t, (inp.track t).hwPt = 0) (hem : ∀ c, (inp.emcalo c).hwPt = 0)
    (hhad : ∀ h, (inp.hadcalo h).hwPt = 0) (out : PFOutputs NT NE NS NM)
    (hrun : pfalgo3_full inp old mem = .ok out) :
    (∀ t, (out.outch t).hwPt = 0) ∧ (∀ c, (out.outpho c).hwPt = 0) ∧
    (∀ i, (out.outne i).hwPt = 0) ∧ (∀ m, (out.outmu m).hwPt = 0) := by
  obtain ⟨em, link, sums, ne, h1, h2, h3, h4, rfl⟩ := (pfalgo3_full_ok_iff inp old mem out).mp hrun
  have hsum : ∀ c, fwSumEm inp old c = 0 := by
    intro c
    unfold fwSumEm tk2em_sumtk
    rw [loop_regsum (fun t => fwEmLink inp old t c) (fun t => (inp.track t).hwPt.toInt)]
    have : (∑ t, if fwEmLink inp old t c then (inp.track t).hwPt.toInt else 0) = 0 :=
      Finset.sum_eq_zero (fun t _ => by rw [htk t]; simp)
    rw [this]; rfl
  refine ⟨fun t => ?_, fun c => ?_, fun i => ?_, fun m => ?_⟩
  · rcases tkalgo_cases inp.track (fwEle inp old em) (fwMu inp old).2 link t with e | ⟨id, _, e⟩
    · show (tk2calo_tkalgo _ _ _ _ t).hwPt = 0
      rw [e]
    · show (tk2calo_tkalgo _ _ _ _ t).hwPt = 0
      rw [e]; exact htk t
  · show (em c).2 = 0
    rcases emalgo_cases h1 c with e | ⟨_, e⟩ | ⟨hne, _⟩
    · exact e
    · rw [e]; exact hem c
    · exact absurd (hsum c) hne
  · -- every candidate is null, so is everything in the sorted list
    have hem2 : ∀ h, (em2calo_sumem inp.emcalo (fun i => (em i).1)
        (em2calo_link inp.emcalo inp.hadcalo) h).1 = 0 := by
      intro h
      unfold em2calo_sumem
      have := loop_induct (n := NE) (fun _ (s : Pt × Bool) => s.1 = 0)
        (fun iem (s : Pt × Bool) =>
          if em2calo_link inp.emcalo inp.hadcalo iem h then
            if (em iem).1 then (reg 16 (s.1.toInt + (inp.emcalo iem).hwPt.toInt), s.2)
            else (s.1, false)
          else s) ((0 : Pt), false) rfl (by
          intro i s hs
          split
          · split
            · show reg 16 (s.1.toInt + (inp.emcalo i).hwPt.toInt) = 0
              rw [hs, hem i]; decide
            · exact hs
          · exact hs)
      exact this
    have hcalo : ∀ h, (fwSub inp em h).hwPt = 0 := by
      intro h
      unfold fwSub
      rcases sub_cases inp.hadcalo (fun i => (em2calo_sumem inp.emcalo (fun i => (em i).1)
        (em2calo_link inp.emcalo inp.hadcalo) i).1) (fun i => (em2calo_sumem inp.emcalo
        (fun i => (em i).1) (em2calo_link inp.emcalo inp.hadcalo) i).2) h with e | e
      · show (em2calo_sub _ _ _ h).hwPt = 0
        rw [e]
      · show (em2calo_sub _ _ _ h).hwPt = 0
        rw [e.1, hem2 h, hhad h]; decide
    have hne : ∀ h, (ne h).hwPt.toInt = 0 := by
      intro h
      obtain ⟨p, hp, e⟩ := caloalgo_get h4 h
      rw [e]
      show p.toInt = 0
      rcases calopt_cases hp with rfl | ⟨_, rfl⟩ | ⟨hz, hh, hpos⟩
      · rfl
      · rw [hcalo h]; rfl
      · -- the track sum is a sum of zero pts
        exfalso
        apply hz
        have hs := buildM_eq_ok.mp h3 h
        have := loopM_induct_ok (fun _ (s : Pt × Int) => s.1 = 0) _ _ _ rfl (by
          intro i s s1 hs0 hb
          split at hb
          · obtain ⟨q, _, hb⟩ := Run.bind_eq_ok.mp hb
            injection hb with hb
            rw [← hb]
            show reg 16 (s.1.toInt + (inp.track i).hwPt.toInt) = 0
            rw [hs0, htk i]; decide
          · injection hb with hb
            rw [← hb]; exact hs0) hs
        exact this
    have htop := hwopt_topN_zeros mem.tmp ne
    obtain ⟨_, rest, hperm, _⟩ := htop
    have hmem : (ptsort_hwopt mem.tmp ne i) ∈ List.ofFn ne ++ List.ofFn (zeros mem.tmp) :=
      hperm.mem_iff.mp (List.mem_append_left _ (by rw [List.mem_ofFn]; exact ⟨i, rfl⟩))
    show (ptsort_hwopt mem.tmp ne i).hwPt = 0
    apply BitVec.eq_of_toInt_eq
    rcases List.mem_append.mp hmem with hm | hm
    · rw [List.mem_ofFn] at hm
      obtain ⟨h, e⟩ := hm
      rw [← e]; exact hne h
    · rw [List.mem_ofFn] at hm
      obtain ⟨h, e⟩ := hm
      rw [← e]; rfl
  · show ((fwMu inp old).1 m).hwPt = 0
    rcases fwMu_cases inp old m with e | ⟨t, e⟩
    · rw [e]; rfl
    · rw [e]; exact htk t

/-- Non-vacuity of C11: a null-pt event with non-trivial positions and errors does run. -/
example : ∃ out, pfalgo3_full (oneOfEach 0 7 0 9 0 0) (nullOutputs 1 1 1 0) (nullScratch 1 1) = .ok out :=
  C01_no_undefined_behaviour _ _ _ (by decide) (by decide) (by decide)

/-- **C12.** If no input pt is negative then no output pt is negative, in every defined run — even
when sums wrap around. -/
theorem C12_nonneg_outputs (inp : PFInputs NT NC NE NM) (old : PFOutputs NT NE NS NM)
    (mem : PFScratch NC NS) (htk : ∀ t, 0 ≤ (inp.track t).hwPt.toInt)
    (hem : ∀ c, 0 ≤ (inp.emcalo c).hwPt.toInt) (hhad : ∀ h, 0 ≤ (inp.hadcalo h).hwPt.toInt)
    (out : PFOutputs NT NE NS NM) (hrun : pfalgo3_full inp old mem = .ok out) :
    (∀ t, 0 ≤ (out.outch t).hwPt.toInt) ∧ (∀ c, 0 ≤ (out.outpho c).hwPt.toInt) ∧
    (∀ i, 0 ≤ (out.outne i).hwPt.toInt) ∧ (∀ m, 0 ≤ (out.outmu m).hwPt.toInt) := by
  obtain ⟨em, link, sums, ne, h1, h2, h3, h4, rfl⟩ := (pfalgo3_full_ok_iff inp old mem out).mp hrun
  refine ⟨fun t => ?_, fun c => ?_, fun i => ?_, fun m => ?_⟩
  · show 0 ≤ (tk2calo_tkalgo _ _ _ _ t).hwPt.toInt
    rcases tkalgo_cases inp.track (fwEle inp old em) (fwMu inp old).2 link t with e | ⟨id, _, e⟩
    · rw [e]; decide
    · rw [e]; exact htk t
  · show 0 ≤ (em c).2.toInt
    rcases emalgo_cases h1 c with e | ⟨_, e⟩ | ⟨_, _, e⟩
    · rw [e]; decide
    · rw [e]; exact hem c
    · omega
  · have hne : ∀ h, 0 ≤ (ne h).hwPt.toInt :=
      caloalgo_nonneg h4 (fun h => by unfold fwSub; exact sub_nonneg' _ _ _ h (hhad h))
    obtain ⟨_, rest, hperm, _⟩ := hwopt_topN_zeros mem.tmp ne
    have hmem : (ptsort_hwopt mem.tmp ne i) ∈ List.ofFn ne ++ List.ofFn (zeros mem.tmp) :=
      hperm.mem_iff.mp (List.mem_append_left _ (by rw [List.mem_ofFn]; exact ⟨i, rfl⟩))
    show 0 ≤ (ptsort_hwopt mem.tmp ne i).hwPt.toInt
    rcases List.mem_append.mp hmem with hm | hm
    · rw [List.mem_ofFn] at hm
      obtain ⟨h, e⟩ := hm
      rw [← e]; exact hne h
    · rw [List.mem_ofFn] at hm
      obtain ⟨h, e⟩ := hm
      rw [← e]; exact le_of_eq (key_zeros mem.tmp h).symm
  · show 0 ≤ ((fwMu inp old).1 m).hwPt.toInt
    rcases fwMu_cases inp old m with e | ⟨t, e⟩
    · rw [e]; decide
    · rw [e]; exact htk t

/-- Non-vacuity of C12: a run in which every list has a positive entry. -/
example : (pfalgo3_full (oneOfEach 30 2 200 10 500 1) (nullOutputs 1 1 1 0) (nullScratch 1 1)).map
    (fun o => ((o.outch 0).hwPt, (o.outpho 0).hwPt, (o.outne 0).hwPt)) = .ok (30, 170, 500) := by
  decide +kernel

end Verif
