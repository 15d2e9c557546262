import Verif.Spec.RegionizerTest
import Verif.Proofs.RegDeser
import Verif.Proofs.RegMuon
import Verif.Proofs.Dump
import Verif.Props.Regionizer
import Verif.Props.Dump
/-! # Lemmas about the regionizer test bench -/
namespace Verif
open Spec
variable {sz : RegSizes} {NC NE NT NM : Nat}

/-- Induction on the result of a loop, failures included. -/
theorem loopM_run {σ : Type} (P : Nat → Run σ → Prop) {n : Nat} (body : Fin n → σ → Run σ) (s : σ)
    (h0 : P 0 (.ok s)) (hs : ∀ (i : Fin n) r, P i r → P (i + 1) (r >>= body i)) : P n (loopM body s) := by
  induction n with
  | zero => rw [loopM_zero]; exact h0
  | succ n ih =>
    rw [loopM_succ]
    exact hs (Fin.last n) _ (ih (fun i => body i.castSucc) (fun i r h => hs i.castSucc r h))

section Fill
variable {T : Type} {N : Nat}

theorem fillLoop_length (data : Arr N T) (step : Nat) (hs : 0 < step) (i : Nat) :
    (fillLoop data step i).length = (N - i + (step - 1)) / step := by
  induction hn : N - i using Nat.strongRecOn generalizing i with
  | _ n ih =>
    unfold fillLoop
    by_cases h : i < N
    · rw [dif_pos ⟨h, hs⟩, List.length_cons, ih (N - (i + step)) (by omega) (i + step) rfl]
      by_cases h2 : step ≤ n
      · rw [show n + (step - 1) = (N - (i + step) + (step - 1)) + step by omega, Nat.add_div_right _ hs]
      · rw [show N - (i + step) = 0 by omega, Nat.div_eq_of_lt (show 0 + (step - 1) < step by omega)]
        rw [show n + (step - 1) = (n - 1) + step by omega, Nat.add_div_right _ hs, Nat.div_eq_of_lt (by omega)]
    · rw [dif_neg (fun h' => h h'.1), show n = 0 by omega]
      rw [Nat.div_eq_of_lt (by omega)]; rfl

theorem fillLoop_get (data : Arr N T) (step : Nat) (hs : 0 < step) (k : Nat) : ∀ (i : Nat) (h : i + k * step < N),
    (fillLoop data step i)[k]? = some (data ⟨i + k * step, h⟩) := by
  induction k with
  | zero =>
    intro i h
    unfold fillLoop
    rw [dif_pos ⟨by omega, hs⟩]
    simp
  | succ k ih =>
    intro i h
    have e : i + (k + 1) * step = i + step + k * step := by rw [Nat.add_mul]; omega
    unfold fillLoop
    rw [dif_pos ⟨by rw [e] at h; omega, hs⟩, List.getElem?_cons_succ, ih (i + step) (by rw [← e]; exact h)]
    exact congrArg some (congrArg data (Fin.ext e.symm))

/-- With step 1 everything is written, in order. -/
theorem fillLoop_one (data : Arr N T) : fillLoop data 1 0 = List.ofFn data := by
  apply List.ext_getElem?
  intro k
  by_cases h : k < N
  · rw [fillLoop_get data 1 (by decide) k 0 (by omega), List.getElem?_ofFn, dif_pos h]
    exact congrArg some (congrArg data (Fin.ext (by simp)))
  · rw [List.getElem?_eq_none, List.getElem?_eq_none]
    · simp; omega
    · rw [fillLoop_length data 1 (by decide)]; omega

/-- The two fibers of a sector, read in turn, give back the objects in order. -/
theorem interleave_two (data : Arr N T) (n : Nat) (hn : 2 * n ≤ N) :
    interleave 2 n (fun f => fillLoop data 2 f.val) = (List.ofFn data).take (2 * n) := by
  induction n with
  | zero => rfl
  | succ n ih =>
    rw [interleave_succ, ih (by omega), show 2 * (n + 1) = 2 * n + 1 + 1 by omega,
      List.take_succ_eq_append_getElem (by simp; omega), List.take_succ_eq_append_getElem (by simp; omega),
      List.append_assoc]
    congr 1
    have g : ∀ (b : Nat) (hb : b < 2), ((fillLoop data 2 b).drop n).take 1 = [data ⟨b + n * 2, by omega⟩] := by
      intro b hb
      have := fillLoop_get data 2 (by decide) n b (by omega)
      obtain ⟨hl, he⟩ := List.getElem?_eq_some_iff.mp this
      rw [List.drop_eq_getElem_cons hl, he]
      rfl
    show ((fillLoop data 2 0).drop n).take 1 ++ (((fillLoop data 2 1).drop n).take 1 ++ []) = _
    rw [g 0 (by decide), g 1 (by decide), List.append_nil, List.getElem_ofFn, List.getElem_ofFn]
    congr 1
    · exact congrArg (fun x => [data x]) (Fin.ext (by simp; omega))
    · exact congrArg (fun x => [data x]) (Fin.ext (by simp; omega))

end Fill

theorem fiberIdx_two_ne (is js : Fin N_IN_SECTORS) : (fiberIdx (NFPS := 2) is 0) ≠ fiberIdx js 1 := by
  intro h
  have := congrArg Fin.val h
  unfold fiberIdx at this
  simp at this
  omega

theorem fiberIdx_two_inj {is js : Fin N_IN_SECTORS} {b : Fin 2} (h : fiberIdx is b = fiberIdx js b) : is = js := by
  have := congrArg Fin.val h
  unfold fiberIdx at this
  simp at this
  exact Fin.ext this

theorem fill_stream_empty {K N : Nat} {T : Type} {streams : Arr K (List T)} {k : Fin K} (h : streams k = [])
    (data : Arr N T) (step offset : Nat) :
    fill_stream streams k data step offset = some (streams.set k (fillLoop data step offset)) := by
  unfold fill_stream
  rw [h]
  rfl

theorem fill_stream_full {K N : Nat} {T : Type} {streams : Arr K (List T)} {k : Fin K} (h : streams k ≠ [])
    (data : Arr N T) (step offset : Nat) : fill_stream streams k data step offset = none := by
  unfold fill_stream
  cases hs : streams k with
  | nil => exact absurd hs h
  | cons a l => rfl

/-- Usable calorimeter objects of a sector. -/
def goodRegion (sz : RegSizes) (r : InputRegion) : Prop := ∀ c ∈ r.calo.take sz.calo, 0 ≤ c.hwPt.toInt

theorem fw_had_pt (c : CaloCluster) : (fw_had c).hwPt.toInt = c.hwPt.toInt := reg16_toInt (pt_range _).1 (pt_range _).2

theorem goodRegion_iff (r : InputRegion) :
    goodRegion sz r ↔ ∀ i, 0 ≤ (padded sz.calo fw_had HadCaloObj.clear r.calo i).hwPt.toInt := by
  unfold goodRegion padded
  constructor
  · intro h i
    cases hg : r.calo[i.val]? with
    | none => exact Int.le_refl _
    | some c =>
      show 0 ≤ (fw_had c).hwPt.toInt
      rw [fw_had_pt]
      apply h
      rw [List.mem_iff_getElem?]
      exact ⟨i.val, by rw [List.getElem?_take, if_pos i.isLt, hg]⟩
  · intro h c hc
    rw [List.mem_iff_getElem?] at hc
    obtain ⟨k, hk⟩ := hc
    rw [List.getElem?_take] at hk
    split at hk
    · rename_i hlt
      have := h ⟨k, hlt⟩
      rw [hk] at this
      rw [← fw_had_pt]
      exact this
    · cases hk

theorem asserts (N : Nat) (p : Fin N → Bool) :
    loopM (fun (i : Fin N) (_ : Unit) => cassert (p i)) () = if ∀ i, p i = true then .ok () else .error .assertFail := by
  have := loopM_run (fun m r => r = if ∀ i : Fin N, i.val < m → p i = true then .ok () else .error .assertFail)
    (fun (i : Fin N) (_ : Unit) => cassert (p i)) () (by rw [if_pos (fun i h => absurd h (by omega))])
    (fun i r h => by
      rw [h]
      by_cases hall : ∀ j : Fin N, j.val < i.val → p j = true
      · rw [if_pos hall, Run.ok_bind]
        unfold cassert
        by_cases hi : p i = true
        · rw [if_pos hi, if_pos]
          intro j hj
          rcases Nat.lt_or_ge j.val i.val with h1 | h1
          · exact hall j h1
          · rw [show j = i from Fin.ext (by omega)]; exact hi
        · rw [if_neg hi, if_neg]
          exact fun h => hi (h i (by omega))
      · rw [if_neg hall, Run.error_bind, if_neg]
        exact fun h => hall (fun j hj => h j (by omega)))
  rw [this]
  congr 1
  exact propext ⟨fun h i => h i i.isLt, fun h i _ => h i⟩

/-- The state after filling sector `is`. -/
def filledIn (is : Fin N_IN_SECTORS) (r : InputRegion) (inp : RegIn sz NM) : RegIn sz NM :=
  ⟨inp.calo.set is (padded sz.calo fw_had HadCaloObj.clear r.calo), inp.em.set is (padded sz.em fw_em EmCaloObj.clear r.emcalo),
    inp.track.set is (padded sz.track fw_track TkObj.clear r.track), inp.mu.set is (padded NM fw_mu MuObj.clear r.muon)⟩

@[inherit_doc filledIn]
def filledFib (sz : RegSizes) (is : Fin N_IN_SECTORS) (r : InputRegion) (f : RegFibers) : RegFibers :=
  { f with
    calo := f.calo.set is (List.ofFn (padded sz.calo fw_had HadCaloObj.clear r.calo))
    caloRef := f.caloRef.set is (List.ofFn (padded sz.calo fw_had HadCaloObj.clear r.calo))
    em := f.em.set is (List.ofFn (padded sz.em fw_em EmCaloObj.clear r.emcalo))
    emRef := f.emRef.set is (List.ofFn (padded sz.em fw_em EmCaloObj.clear r.emcalo))
    track := (f.track.set (fiberIdx (NFPS := 2) is 0) (fillLoop (padded sz.track fw_track TkObj.clear r.track) 2 0)).set
      (fiberIdx (NFPS := 2) is 1) (fillLoop (padded sz.track fw_track TkObj.clear r.track) 2 1)
    trackRef := (f.trackRef.set (fiberIdx (NFPS := 2) is 0) (fillLoop (padded sz.track fw_track TkObj.clear r.track) 2 0)).set
      (fiberIdx (NFPS := 2) is 1) (fillLoop (padded sz.track fw_track TkObj.clear r.track) 2 1) }

/-- The streams of sector `is` are empty. -/
structure SectorEmpty (is : Fin N_IN_SECTORS) (f : RegFibers) : Prop where
  calo : f.calo is = []
  caloRef : f.caloRef is = []
  em : f.em is = []
  emRef : f.emRef is = []
  track : ∀ b : Fin 2, f.track (fiberIdx is b) = []
  trackRef : ∀ b : Fin 2, f.trackRef (fiberIdx is b) = []

theorem asserts_region (is : Fin N_IN_SECTORS) (r : InputRegion) (inp : RegIn sz NM) (h : goodRegion sz r) :
    loopM (fun (i : Fin sz.calo) (_ : Unit) => cassert (decide (((inp.calo.set is (padded sz.calo fw_had HadCaloObj.clear r.calo)) is i).hwPt.toInt ≥ 0))) () = .ok () := by
  rw [asserts, if_pos]
  intro i
  rw [Arr.set_same]
  exact decide_eq_true ((goodRegion_iff r).mp h i)

theorem fillSector_bad (is : Fin N_IN_SECTORS) (r : InputRegion) (inp : RegIn sz NM) (f : RegFibers) (h : ¬ goodRegion sz r) :
    fillSector is r inp f = .error .assertFail := by
  unfold fillSector
  rw [fw_many_eq]
  dsimp only
  rw [asserts, if_neg, Run.error_bind]
  intro h'
  refine h ((goodRegion_iff r).mpr fun i => ?_)
  have := of_decide_eq_true (h' i)
  rw [Arr.set_same] at this
  exact this

theorem fillSector_good (is : Fin N_IN_SECTORS) (r : InputRegion) (inp : RegIn sz NM) (f : RegFibers) (h : goodRegion sz r)
    (he : SectorEmpty is f) : fillSector is r inp f = .ok (some (filledIn is r inp, filledFib sz is r f)) := by
  unfold fillSector
  simp only [fw_many_eq]
  rw [asserts_region is r inp h, Run.ok_bind]
  simp only [Arr.set_same]
  rw [fill_stream_empty he.calo]
  dsimp only
  rw [fill_stream_empty he.caloRef]
  dsimp only
  rw [fill_stream_empty he.em]
  dsimp only
  rw [fill_stream_empty he.emRef]
  dsimp only
  rw [fill_stream_empty (he.track 0)]
  dsimp only
  rw [fill_stream_empty (he.trackRef 0)]
  dsimp only
  rw [fill_stream_empty (by rw [Arr.set_ne _ _ (fiberIdx_two_ne is is).symm]; exact he.track 1)]
  dsimp only
  rw [fill_stream_empty (by rw [Arr.set_ne _ _ (fiberIdx_two_ne is is).symm]; exact he.trackRef 1)]
  dsimp only
  rw [fillLoop_one, fillLoop_one]
  rfl

/-- Reading keeps what the conversions use. -/
theorem padded_map {A B : Type} (N : Nat) (conv : A → B) (clear : B) (k : A → A) (h : ∀ a, conv (k a) = conv a) (l : List A) :
    padded N conv clear (l.map k) = padded N conv clear l := by
  funext i
  unfold padded
  rw [List.getElem?_map]
  cases l[i.val]? with
  | none => rfl
  | some a => exact h a

/-- The streams and inputs after sectors below `m`. -/
structure FilledTo (rs : List InputRegion) (m : Nat) (f0 : RegFibers) (inp : RegIn sz NM) (f : RegFibers) : Prop where
  inputs : ∀ (is : Fin N_IN_SECTORS) r, is.val < m → rs[is.val]? = some r →
    inp.calo is = padded sz.calo fw_had HadCaloObj.clear r.calo ∧ inp.em is = padded sz.em fw_em EmCaloObj.clear r.emcalo ∧
    inp.track is = padded sz.track fw_track TkObj.clear r.track ∧ inp.mu is = padded NM fw_mu MuObj.clear r.muon
  streams : ∀ is : Fin N_IN_SECTORS, is.val < m →
    f.calo is = List.ofFn (inp.calo is) ∧ f.caloRef is = List.ofFn (inp.calo is) ∧
    f.em is = List.ofFn (inp.em is) ∧ f.emRef is = List.ofFn (inp.em is) ∧
    ∀ b : Fin 2, f.track (fiberIdx is b) = fillLoop (inp.track is) 2 b.val ∧ f.trackRef (fiberIdx is b) = fillLoop (inp.track is) 2 b.val
  rest : ∀ is : Fin N_IN_SECTORS, m ≤ is.val → SectorEmpty is f
  mu : f.mu = f0.mu ∧ f.muRef = f0.muRef

theorem two_cases (P : Fin 2 → Prop) (h0 : P 0) (h1 : P 1) : ∀ b, P b := by
  intro b
  match b with
  | 0 => exact h0
  | 1 => exact h1

theorem FilledTo.step {rs : List InputRegion} {f0 f : RegFibers} {inp : RegIn sz NM} (is : Fin N_IN_SECTORS) (r : InputRegion)
    (hr : rs[is.val]? = some r) (h : FilledTo rs is.val f0 inp f) :
    FilledTo rs (is.val + 1) f0 (filledIn is r inp) (filledFib sz is r f) where
  inputs js r' hlt hj := by
    by_cases e : js = is
    · subst e
      rw [hr] at hj
      cases hj
      unfold filledIn
      simp only [Arr.set_same, and_self]
    · unfold filledIn
      simp only [Arr.set_ne _ _ e]
      exact h.inputs js r' (by have : js.val ≠ is.val := fun h => e (Fin.ext h); omega) hj
  streams js hlt := by
    by_cases e : js = is
    · subst e
      unfold filledIn filledFib
      simp only [Arr.set_same, true_and]
      refine two_cases _ ?_ ?_
      · rw [Arr.set_ne _ _ (fiberIdx_two_ne js js), Arr.set_same, Arr.set_ne _ _ (fiberIdx_two_ne js js), Arr.set_same]
        exact ⟨rfl, rfl⟩
      · rw [Arr.set_same, Arr.set_same]
        exact ⟨rfl, rfl⟩
    · obtain ⟨s1, s2, s3, s4, s5⟩ := h.streams js (by have : js.val ≠ is.val := fun h => e (Fin.ext h); omega)
      unfold filledIn filledFib
      simp only [Arr.set_ne _ _ e]
      refine ⟨s1, s2, s3, s4, two_cases _ ?_ ?_⟩
      · rw [Arr.set_ne _ _ (fiberIdx_two_ne js is), Arr.set_ne _ _ (fun h => e (fiberIdx_two_inj h)),
          Arr.set_ne _ _ (fiberIdx_two_ne js is), Arr.set_ne _ _ (fun h => e (fiberIdx_two_inj h))]
        exact s5 0
      · rw [Arr.set_ne _ _ (fun h => e (fiberIdx_two_inj h)), Arr.set_ne _ _ (fiberIdx_two_ne is js).symm,
          Arr.set_ne _ _ (fun h => e (fiberIdx_two_inj h)), Arr.set_ne _ _ (fiberIdx_two_ne is js).symm]
        exact s5 1
  rest js hlt := by
    have e : js ≠ is := fun h => by subst h; omega
    have s := h.rest js (by omega)
    refine ⟨?_, ?_, ?_, ?_, ?_, ?_⟩ <;> unfold filledFib <;> simp only [Arr.set_ne _ _ e]
    · exact s.calo
    · exact s.caloRef
    · exact s.em
    · exact s.emRef
    · refine two_cases _ ?_ ?_
      · rw [Arr.set_ne _ _ (fiberIdx_two_ne js is), Arr.set_ne _ _ (fun h => e (fiberIdx_two_inj h))]; exact s.track 0
      · rw [Arr.set_ne _ _ (fun h => e (fiberIdx_two_inj h)), Arr.set_ne _ _ (fiberIdx_two_ne is js).symm]; exact s.track 1
    · refine two_cases _ ?_ ?_
      · rw [Arr.set_ne _ _ (fiberIdx_two_ne js is), Arr.set_ne _ _ (fun h => e (fiberIdx_two_inj h))]; exact s.trackRef 0
      · rw [Arr.set_ne _ _ (fun h => e (fiberIdx_two_inj h)), Arr.set_ne _ _ (fiberIdx_two_ne is js).symm]; exact s.trackRef 1
  mu := h.mu

/-- Filling all sectors from empty streams. -/
theorem fillSectors_spec (rs : List InputRegion) (hlen : rs.length = 12) (inp : RegIn sz NM) (f : RegFibers)
    (he : ∀ is, SectorEmpty is f) :
    ((∀ r ∈ rs, goodRegion sz r) → ∃ inp' f', fillSectors rs inp f = .ok (some (inp', f')) ∧ FilledTo rs 12 f inp' f') ∧
    (¬ (∀ r ∈ rs, goodRegion sz r) → fillSectors rs inp f = .error .assertFail) := by
  have key := loopM_run (fun m (res : Run (Option (RegIn sz NM × RegFibers))) =>
      ((∀ r ∈ rs.take m, goodRegion sz r) → ∃ inp' f', res = .ok (some (inp', f')) ∧ FilledTo rs m f inp' f') ∧
      (¬ (∀ r ∈ rs.take m, goodRegion sz r) → res = .error .assertFail))
    (fun (is : Fin N_IN_SECTORS) (st : Option (RegIn sz NM × RegFibers)) =>
      match st with
      | none => .ok none
      | some (inp, f) =>
        match rs[is.val]? with
        | none => .error .oob
        | some r => fillSector is r inp f) (some (inp, f))
    ⟨fun _ => ⟨inp, f, rfl, ⟨fun _ _ h => absurd h (by omega), fun _ h => absurd h (by omega), fun is _ => he is, rfl, rfl⟩⟩,
      fun h => absurd (fun r hr => by cases hr) h⟩
    (fun is res ⟨h1, h2⟩ => by
      have hlt : is.val < rs.length := by rw [hlen]; exact is.isLt
      have hg := List.getElem?_eq_getElem hlt
      have ht : rs.take (is.val + 1) = rs.take is.val ++ [rs[is.val]] := List.take_succ_eq_append_getElem hlt
      have hsplit : (∀ r ∈ rs.take (is.val + 1), goodRegion sz r) ↔
          (∀ r ∈ rs.take is.val, goodRegion sz r) ∧ goodRegion sz rs[is.val] := by
        rw [ht]
        simp only [List.forall_mem_append, List.mem_singleton, forall_eq]
      by_cases hpre : ∀ r ∈ rs.take is.val, goodRegion sz r
      · obtain ⟨inp', f', e1, e2⟩ := h1 hpre
        rw [e1, Run.ok_bind]
        simp only [hg]
        constructor
        · intro h
          rw [fillSector_good is _ inp' f' (hsplit.mp h).2 (e2.rest is (Nat.le_refl _))]
          exact ⟨_, _, rfl, e2.step is _ hg⟩
        · intro h
          exact fillSector_bad is _ inp' f' (fun hgood => h (hsplit.mpr ⟨hpre, hgood⟩))
      · rw [h2 hpre, Run.error_bind]
        exact ⟨fun h => absurd (hsplit.mp h).1 hpre, fun _ => rfl⟩)
  have e12 : rs.take N_IN_SECTORS = rs := List.take_of_length_le (by rw [hlen])
  rw [e12] at key
  exact key

/-- Filling the muon streams. -/
theorem fillMuons_spec (mu_in : Arr N_MUON_SECTORS (Arr NM MuObj)) (f : RegFibers) (he : f.mu = fun _ => [])
    (he' : f.muRef = fun _ => []) :
    fillMuons mu_in f = some { f with mu := fun s => List.ofFn (mu_in s), muRef := fun s => List.ofFn (mu_in s) } := by
  have key := loop_induct (fun m (st : Option RegFibers) => st = some { f with
      mu := fun s => if s.val < m then List.ofFn (mu_in s) else []
      muRef := fun s => if s.val < m then List.ofFn (mu_in s) else [] })
    (fun (is : Fin N_MUON_SECTORS) (st : Option RegFibers) =>
      match st with
      | none => none
      | some f =>
        match fill_stream f.mu is (mu_in is) 1 0 with
        | none => none
        | some s =>
        let f := { f with mu := s }
        match fill_stream f.muRef is (mu_in is) 1 0 with
        | none => none
        | some s => some { f with muRef := s }) (some f)
    (by
      congr 1
      cases f
      simp only [RegFibers.mk.injEq, true_and]
      dsimp only at he he'
      rw [he, he']
      exact ⟨by funext s; rw [if_neg (by omega)], by funext s; rw [if_neg (by omega)]⟩)
    (fun is st h => by
      subst h
      dsimp only
      rw [fill_stream_empty (by rw [if_neg (by omega)])]
      dsimp only
      rw [fillLoop_one]
      have : ∀ s : Fin N_MUON_SECTORS, (Arr.set (fun s : Fin N_MUON_SECTORS => if s.val < is.val then List.ofFn (mu_in s) else []) is
          (List.ofFn (mu_in is))) s = if s.val < is.val + 1 then List.ofFn (mu_in s) else [] := by
        intro s
        by_cases e : s = is
        · subst e; rw [Arr.set_same, if_pos (by omega)]
        · rw [Arr.set_ne _ _ e]
          have : s.val ≠ is.val := fun h => e (Fin.ext h)
          by_cases h : s.val < is.val
          · rw [if_pos h, if_pos (by omega)]
          · rw [if_neg h, if_neg (by omega)]
      rw [funext this])
  refine Eq.trans (show fillMuons mu_in f = _ from key) ?_
  congr 1
  simp only [RegFibers.mk.injEq, true_and]
  exact ⟨by funext s; rw [if_pos s.isLt], by funext s; rw [if_pos s.isLt]⟩

theorem oneError_refl {N : Nat} {T : Type} {eq : T → T → Bool} (h : ∀ x, eq x x = true) (a : Arr N T) : oneError eq a a = 0 := by
  unfold oneError
  rw [if_pos]
  rw [List.all_eq_true]
  exact fun i _ => h (a i)

theorem regErrors_refl (calo : Arr N_OUT_REGIONS (Arr NC HadCaloObj)) (em : Arr N_OUT_REGIONS (Arr NE EmCaloObj))
    (track : Arr N_OUT_REGIONS (Arr NT TkObj)) (mu : Arr N_OUT_REGIONS (Arr NM MuObj)) :
    regErrors calo calo em em track track mu mu = 0 := by
  have h1 : ∀ x, had_equals x x = true := fun x => by unfold had_equals; split <;> simp_all
  have h2 : ∀ x, em_equals x x = true := fun x => by unfold em_equals; split <;> simp_all
  have h3 : ∀ x, track_equals x x = true := fun x => by unfold track_equals; split <;> simp_all
  have h4 : ∀ x, mu_equals x x = true := fun x => by unfold mu_equals; split <;> simp_all
  unfold regErrors
  exact loop_induct (fun _ e => e = 0) _ 0 rfl (fun ir e h => by
    rw [h, oneError_refl h1, oneError_refl h2, oneError_refl h3, oneError_refl h4])

theorem fiberIdx_two_surj (k : Fin (2 * N_IN_SECTORS)) : ∃ is b, fiberIdx (NFPS := 2) is b = k := by
  have hk : k.val < 24 := k.isLt
  refine ⟨⟨k.val / 2, show k.val / 2 < 12 by omega⟩, ⟨k.val % 2, by omega⟩, Fin.ext ?_⟩
  show 2 * (k.val / 2) + k.val % 2 = k.val
  omega

theorem RegionsOf.of_holds {T : Type} [RegObj T] {N NREG nse : Nat} {inp : Fin 12 → Arr N T} {regions : Fin 18 → Arr NREG T}
    (arr : Fin 12 → List T) (ha : ∀ is, arr is = List.ofFn (inp is))
    (h : ∀ ir, Holds (regions ir) (region NREG nse (regionEta ir) (regionPhi ir) arr)) : RegionsOf nse inp regions := by
  intro ir
  have := h ir
  rw [funext ha] at this
  exact this

/-- One test on empty streams: the regions, and what is left in the streams. -/
theorem regTestStep_good (hNC : sz.caloEta ≤ NC) (mem : Arr N_OUT_REGIONS (Arr NC HadCaloObj)) (rs : List InputRegion)
    (hlen : rs.length = 12) (hgood : ∀ r ∈ rs, goodRegion sz r) (inp : RegIn sz NM) :
    ∃ (d : RegRecord sz NC NE NT NM) (f' : RegFibers), regTestStep mem rs inp RegFibers.empty = .ok (none, some d, f') ∧
      (∀ (is : Fin N_IN_SECTORS) r, rs[is.val]? = some r →
        d.inp.calo is = padded sz.calo fw_had HadCaloObj.clear r.calo ∧ d.inp.em is = padded sz.em fw_em EmCaloObj.clear r.emcalo ∧
        d.inp.track is = padded sz.track fw_track TkObj.clear r.track ∧ d.inp.mu is = padded NM fw_mu MuObj.clear r.muon) ∧
      d.mu_in = merge_muon_in d.inp.mu ∧
      RegionsOf sz.caloEta d.inp.calo d.calo ∧ RegionsOf sz.emEta d.inp.em d.em ∧
      (sz.track % 2 = 0 → RegionsOf sz.trackEta d.inp.track d.track) ∧
      regionize_muon_ref NM (fun s => List.ofFn (d.mu_in s)) = .ok (fun _ => [], d.mu) ∧
      f'.calo = (fun _ => []) ∧ f'.caloRef = (fun _ => []) ∧ f'.em = (fun _ => []) ∧ f'.emRef = (fun _ => []) ∧
      (∀ is b, (f'.track (fiberIdx (NFPS := 2) is b)).length = (sz.track - b.val + 1) / 2 - sz.track / 2) ∧
      (∀ is b, (f'.trackRef (fiberIdx (NFPS := 2) is b)).length = (sz.track - b.val + 1) / 2 - sz.track / 2) ∧
      f'.mu = (fun _ => []) ∧ f'.muRef = (fun _ => []) := by
  obtain ⟨inp', f1, e1, hf⟩ := (fillSectors_spec rs hlen inp RegFibers.empty
    (fun is => ⟨rfl, rfl, rfl, rfl, fun _ => rfl, fun _ => rfl⟩)).1 hgood
  have hmu := fillMuons_spec (merge_muon_in inp'.mu) f1 hf.mu.1 hf.mu.2
  have hs := fun is => hf.streams is is.isLt
  have hc : f1.calo = fun is => List.ofFn (inp'.calo is) := funext fun is => (hs is).1
  have hcr : f1.caloRef = fun is => List.ofFn (inp'.calo is) := funext fun is => (hs is).2.1
  have hem : f1.em = fun is => List.ofFn (inp'.em is) := funext fun is => (hs is).2.2.1
  have hemr : f1.emRef = fun is => List.ofFn (inp'.em is) := funext fun is => (hs is).2.2.2.1
  have htk : ∀ is b, f1.track (fiberIdx (NFPS := 2) is b) = fillLoop (inp'.track is) 2 b.val := fun is b => ((hs is).2.2.2.2 b).1
  have htr : ∀ is b, f1.trackRef (fiberIdx (NFPS := 2) is b) = fillLoop (inp'.track is) 2 b.val := fun is b => ((hs is).2.2.2.2 b).2
  have htt : f1.trackRef = f1.track := by
    funext k
    obtain ⟨is, b, rfl⟩ := fiberIdx_two_surj k
    rw [htk, htr]
  have hfl : ∀ is (b : Fin 2), sz.track / 2 ≤ (fillLoop (inp'.track is) 2 b.val).length := by
    intro is b
    rw [fillLoop_length _ 2 (by decide)]
    omega
  obtain ⟨calo, c1, c2⟩ := regionize_ok sz.calo sz.caloEta hNC mem (fun is => List.ofFn (inp'.calo is)) (fun is => by simp)
  have c3 := C32_agree sz.calo sz.caloEta hNC mem (fun is => List.ofFn (inp'.calo is))
  rw [c1] at c3
  obtain ⟨emf, hemf⟩ : ∃ emf : Arr N_IN_SECTORS (List EmCaloObj), emf = fun is => List.ofFn (inp'.em is) := ⟨_, rfl⟩
  have hemf' : ∀ is : Fin N_IN_SECTORS, emf is = List.ofFn (inp'.em is) := fun is => by rw [hemf]
  rw [← hemf] at hem hemr
  obtain ⟨em, m1, m2⟩ := regionize_ref_ok (NFPS := 1) sz.em sz.emEta NE emf
    (fun is => by rw [show (emf is : List EmCaloObj) = _ from hemf' is]; simp)
  obtain ⟨tk, t1, t2⟩ := regionize_ref_ok (NFPS := 2) sz.track sz.trackEta NT f1.track (fun k => by
    obtain ⟨is, b, rfl⟩ := fiberIdx_two_surj k
    rw [htk]; exact hfl is b)
  obtain ⟨mu, u1⟩ := (C37_muon_consumes (NMU := NM) (fun s => List.ofFn (merge_muon_in inp'.mu s))).1 (fun is => by simp)
  have hd0 : ∀ {T : Type} {K N : Nat} (a : Arr K (Arr N T)), (fun k => (List.ofFn (a k)).drop N) = fun _ => [] := by
    intro T K N a
    funext k
    exact List.drop_eq_nil_of_le (by simp)
  rw [hd0] at c1 c3 u1
  rw [Nat.div_one] at m1 m2
  have m1' : regionize_ref (NFPS := 1) sz.em sz.emEta NE emf = .ok (fun _ => [], em) :=
    m1.trans (congrArg Except.ok (Prod.ext (by
      funext k
      exact List.drop_eq_nil_of_le (by rw [show (emf k : List EmCaloObj) = _ from hemf' k]; simp)) rfl))
  refine ⟨⟨inp', merge_muon_in inp'.mu, calo, em, tk, mu⟩,
    ⟨fun _ => [], fun _ => [], fun _ => [], fun _ => [], fun k => (f1.track k).drop (sz.track / 2),
      fun k => (f1.track k).drop (sz.track / 2), fun _ => [], fun _ => []⟩, ?_, ?_, rfl, ?_, ?_, ?_, u1, rfl, rfl, rfl, rfl, ?_, ?_, rfl, rfl⟩
  · unfold regTestStep
    rw [e1, Run.ok_bind]
    dsimp only
    rw [hmu]
    dsimp only
    rw [hc, c1, Run.ok_bind]
    dsimp only
    rw [hcr, ← c3, Run.ok_bind]
    dsimp only
    rw [hem, m1', Run.ok_bind]
    dsimp only
    rw [hemr, m1', Run.ok_bind]
    dsimp only
    rw [t1, Run.ok_bind]
    dsimp only
    rw [htt, t1, Run.ok_bind]
    dsimp only
    rw [u1, Run.ok_bind, Run.ok_bind]
    dsimp only
    rw [regErrors_refl, if_neg (by simp)]
    rfl
  · exact fun is r h => hf.inputs is r is.isLt h
  · exact RegionsOf.of_holds _ (fun is => List.take_of_length_le (by simp)) c2
  · exact RegionsOf.of_holds _ (fun is => by
      have h1 := interleave_one sz.em (List.ofFn (inp'.em is)) (by simp)
      rw [← hemf' is] at h1
      rw [← hemf' is]
      have h2 : ∀ f : Fin 1, fiberIdx is f = is := fun f => Fin.ext (by show 1 * is.val + f.val = is.val; omega)
      have h3 : (fun f : Fin 1 => emf (fiberIdx is f)) = fun _ => emf is := funext fun f => congrArg emf (h2 f)
      refine Eq.trans (congrArg (interleave 1 sz.em) h3) (h1.trans ?_)
      exact List.take_of_length_le (by rw [hemf' is]; simp)) m2
  · intro heven
    refine RegionsOf.of_holds _ (fun is => ?_) t2
    have : (fun f : Fin 2 => f1.track (fiberIdx is f)) = fun f => fillLoop (inp'.track is) 2 f.val := funext fun b => htk is b
    rw [this, interleave_two _ _ (by omega), show 2 * (sz.track / 2) = sz.track by omega]
    exact List.take_of_length_le (by simp)
  · intro is b
    dsimp only
    rw [htk, List.length_drop, fillLoop_length _ 2 (by decide)]
  · intro is b
    dsimp only
    rw [htk, List.length_drop, fillLoop_length _ 2 (by decide)]

theorem keep_goodRegion (r : InputRegion) : goodRegion sz (keepRegion r) ↔ goodRegion sz r := by
  rw [goodRegion_iff, goodRegion_iff]
  show (∀ i, 0 ≤ (padded sz.calo fw_had HadCaloObj.clear (r.calo.map keepCluster) i).hwPt.toInt) ↔ _
  rw [padded_map _ _ _ keepCluster (fun _ => rfl)]

theorem goodEvent_iff (e : DumpEvent) :
    GoodEvent sz e ↔ (storedEvent e).regions.length = 12 ∧ ∀ r ∈ (storedEvent e).regions, goodRegion sz r := by
  show _ ↔ (e.regions.map keepRegion).length = 12 ∧ ∀ r ∈ e.regions.map keepRegion, goodRegion sz r
  rw [List.length_map, List.forall_mem_map]
  simp only [keep_goodRegion]
  rfl

/-- Reading the next event of a dump. -/
theorem nextEvent_cons (s : DumpReader) (e : DumpEvent) (he : eventFits e) (rest : List Byte) (junk : Nat → BitVec 32)
    (hs : s.file = ⟨eventBytes e ++ rest, false, junk⟩) :
    ∃ junk', s.nextEvent (some true) = .ok (true, { s with event := storedEvent e, file := ⟨rest, false, junk'⟩ }) := by
  obtain ⟨j, h⟩ := readFromFile_event s.event e he rest false junk
  refine ⟨j, ?_⟩
  unfold DumpReader.nextEvent
  rw [hs, h]
  rfl

/-- The inputs of the stored event are those of the event. -/
theorem inputs_stored {e : DumpEvent} {inp : RegIn sz NM}
    (h : ∀ (is : Fin N_IN_SECTORS) r, (storedEvent e).regions[is.val]? = some r →
        inp.calo is = padded sz.calo fw_had HadCaloObj.clear r.calo ∧ inp.em is = padded sz.em fw_em EmCaloObj.clear r.emcalo ∧
        inp.track is = padded sz.track fw_track TkObj.clear r.track ∧ inp.mu is = padded NM fw_mu MuObj.clear r.muon) :
    InputsOf e inp := by
  intro is r hr
  have hr' : (storedEvent e).regions[is.val]? = some (keepRegion r) := by
    show (e.regions.map keepRegion)[is.val]? = _
    rw [List.getElem?_map, hr]
    rfl
  obtain ⟨h1, h2, h3, h4⟩ := h is _ hr'
  refine ⟨h1.trans ?_, h2.trans ?_, h3.trans ?_, h4⟩
  · exact padded_map _ _ _ keepCluster (fun _ => rfl) _
  · exact padded_map _ _ _ keepCluster (fun _ => rfl) _
  · exact padded_map _ _ _ keepTrack (fun _ => rfl) _

/-- One test from empty streams leaves them empty. -/
theorem regTestStep_record (hNC : sz.caloEta ≤ NC) (heven : sz.track % 2 = 0) (mem : Arr N_OUT_REGIONS (Arr NC HadCaloObj))
    (e : DumpEvent) (he : GoodEvent sz e) (inp : RegIn sz NM) :
    ∃ d : RegRecord sz NC NE NT NM, regTestStep mem (storedEvent e).regions inp RegFibers.empty =
      .ok (none, some d, RegFibers.empty) ∧ RecordOf e d := by
  obtain ⟨hl, hg⟩ := (goodEvent_iff e).mp he
  obtain ⟨d, f', e1, e2, e3, e4, e5, e6, e7, e8, e9, e10, e11, e12, e13, e14, e15⟩ :=
    regTestStep_good (NE := NE) (NT := NT) hNC mem _ hl hg inp
  refine ⟨d, ?_, inputs_stored e2, e3, e4, e5, e6 heven, e7⟩
  rw [e1]
  have hz : ∀ b : Fin 2, (sz.track - b.val + 1) / 2 - sz.track / 2 = 0 := fun b => by omega
  have t1 : f'.track = fun _ => [] := by
    funext k
    obtain ⟨is, b, rfl⟩ := fiberIdx_two_surj k
    exact List.eq_nil_of_length_eq_zero ((e12 is b).trans (hz b))
  have t2 : f'.trackRef = fun _ => [] := by
    funext k
    obtain ⟨is, b, rfl⟩ := fiberIdx_two_surj k
    exact List.eq_nil_of_length_eq_zero ((e13 is b).trans (hz b))
  cases f'
  dsimp only at *
  subst e8 e9 e10 e11 t1 t2 e14 e15
  rfl

/-- The good events at the start of a dump. -/
theorem regTestLoop_good (hNC : sz.caloEta ≤ NC) (heven : sz.track % 2 = 0) (mem : Nat → Arr N_OUT_REGIONS (Arr NC HadCaloObj))
    (inp : Nat → RegIn sz NM) (n : Nat) (rest : List DumpEvent) :
    ∀ (pre : List DumpEvent) (s : DumpReader) (junk : Nat → BitVec 32),
    (∀ e ∈ pre, eventFits e ∧ GoodEvent sz e) → s.file = ⟨(pre ++ rest).flatMap eventBytes, false, junk⟩ →
    ∃ (ds : List (RegRecord sz NC NE NT NM)) (s' : DumpReader) (junk' : Nat → BitVec 32), List.Forall₂ RecordOf pre ds ∧
      s'.file = ⟨rest.flatMap eventBytes, false, junk'⟩ ∧
      regTestLoop (some true) mem inp (pre.length + n) s RegFibers.empty =
        (regTestLoop (NE := NE) (NT := NT) (some true) mem inp n s' RegFibers.empty).map (fun x => (x.1, ds ++ x.2)) := by
  intro pre
  induction pre with
  | nil =>
    intro s junk _ hs
    refine ⟨[], s, junk, .nil, hs, ?_⟩
    rw [List.length_nil, Nat.zero_add]
    cases regTestLoop (NE := NE) (NT := NT) (some true) mem inp n s RegFibers.empty <;> rfl
  | cons e pre ih =>
    intro s junk hp hs
    obtain ⟨he, hpre⟩ := List.forall_mem_cons.mp hp
    rw [List.cons_append, List.flatMap_cons] at hs
    obtain ⟨j1, h1⟩ := nextEvent_cons s e he.1 _ junk hs
    obtain ⟨d, h2, h3⟩ := regTestStep_record (NE := NE) (NT := NT) hNC heven (mem (pre.length + n)) e he.2 (inp (pre.length + n))
    obtain ⟨ds, s', j', h4, h5, h6⟩ := ih { s with event := storedEvent e, file := ⟨(pre ++ rest).flatMap eventBytes, false, j1⟩ } j1 hpre rfl
    refine ⟨d :: ds, s', j', .cons h3 h4, h5, ?_⟩
    rw [List.length_cons, show pre.length + 1 + n = pre.length + n + 1 by omega]
    conv_lhs => unfold regTestLoop
    rw [h1, Run.ok_bind]
    dsimp only
    rw [if_neg (by simp), if_neg (by rw [((goodEvent_iff e).mp he.2).1]; decide), h2, Run.ok_bind]
    dsimp only
    rw [h6]
    cases regTestLoop (NE := NE) (NT := NT) (some true) mem inp n s' RegFibers.empty <;> rfl

/-- A full stream stops the filling at the first sector. -/
theorem fillSectors_full (rs : List InputRegion) (hlen : rs.length = 12) (hgood : ∀ r ∈ rs, goodRegion sz r)
    (inp : RegIn sz NM) (f : RegFibers) (h1 : f.calo = fun _ => []) (h2 : f.caloRef = fun _ => []) (h3 : f.em = fun _ => [])
    (h4 : f.emRef = fun _ => []) (h5 : f.track (fiberIdx (NFPS := 2) 0 0) ≠ []) :
    fillSectors rs inp f = .ok none := by
  have hs0 : fillSector 0 (rs[0]'(by omega)) inp f = .ok none := by
    unfold fillSector
    simp only [fw_many_eq]
    rw [asserts_region 0 _ inp (hgood _ (List.getElem_mem _)), Run.ok_bind]
    rw [fill_stream_empty (by rw [h1])]
    dsimp only
    rw [fill_stream_empty (by rw [h2])]
    dsimp only
    rw [fill_stream_empty (by rw [h3])]
    dsimp only
    rw [fill_stream_empty (by rw [h4])]
    dsimp only
    rw [fill_stream_full h5]
  have key := loopM_run (fun m (res : Run (Option (RegIn sz NM × RegFibers))) =>
      res = .ok (if m = 0 then some (inp, f) else none))
    (fun (is : Fin N_IN_SECTORS) (st : Option (RegIn sz NM × RegFibers)) =>
      match st with
      | none => .ok none
      | some (inp, f) =>
        match rs[is.val]? with
        | none => .error .oob
        | some r => fillSector is r inp f) (some (inp, f)) rfl
    (fun is res h => by
      rw [h, Run.ok_bind, if_neg (Nat.succ_ne_zero _)]
      by_cases hz : is.val = 0
      · obtain rfl : is = 0 := Fin.ext hz
        rw [if_pos hz]
        dsimp only
        rw [show rs[(0 : Fin N_IN_SECTORS).val]? = some (rs[0]'(by omega)) from List.getElem?_eq_getElem _]
        exact hs0
      · rw [if_neg hz])
  exact key

/-- With an odd number of tracks per sector the streams are not emptied. -/
theorem regTestStep_odd (hNC : sz.caloEta ≤ NC) (hodd : sz.track % 2 = 1) (mem mem' : Arr N_OUT_REGIONS (Arr NC HadCaloObj))
    (e e' : DumpEvent) (he : GoodEvent sz e) (he' : GoodEvent sz e') (inp inp' : RegIn sz NM) :
    ∃ (d : RegRecord sz NC NE NT NM) (f' : RegFibers), regTestStep mem (storedEvent e).regions inp RegFibers.empty =
      .ok (none, some d, f') ∧ regTestStep (NE := NE) (NT := NT) mem' (storedEvent e').regions inp' f' = .ok (some 3, none, f') := by
  obtain ⟨hl, hg⟩ := (goodEvent_iff e).mp he
  obtain ⟨hl', hg'⟩ := (goodEvent_iff e').mp he'
  obtain ⟨d, f', e1, e2, e3, e4, e5, e6, e7, e8, e9, e10, e11, e12, e13, e14, e15⟩ :=
    regTestStep_good (NE := NE) (NT := NT) hNC mem _ hl hg inp
  refine ⟨d, f', e1, ?_⟩
  unfold regTestStep
  rw [fillSectors_full _ hl' hg' inp' f' e8 e9 e10 e11, Run.ok_bind]
  intro hnil
  have := e12 0 0
  rw [hnil, List.length_nil] at this
  have h0 : (0 : Fin 2).val = 0 := rfl
  rw [h0] at this
  omega

/-- Regions smaller than a sector's share of one eta slice. -/
theorem regTestStep_oob (hNC : NC < sz.caloEta) (mem : Arr N_OUT_REGIONS (Arr NC HadCaloObj)) (e : DumpEvent)
    (he : GoodEvent sz e) (inp : RegIn sz NM) :
    regTestStep (NE := NE) (NT := NT) mem (storedEvent e).regions inp RegFibers.empty = .error .oob := by
  obtain ⟨hlen, hgood⟩ := (goodEvent_iff e).mp he
  obtain ⟨inp', f1, e1, hf⟩ := (fillSectors_spec _ hlen inp RegFibers.empty
    (fun is => ⟨rfl, rfl, rfl, rfl, fun _ => rfl, fun _ => rfl⟩)).1 hgood
  have hmu := fillMuons_spec (merge_muon_in inp'.mu) f1 hf.mu.1 hf.mu.2
  have hs := fun is => hf.streams is is.isLt
  unfold regTestStep
  rw [e1, Run.ok_bind]
  dsimp only
  rw [hmu]
  dsimp only
  rw [C32_small_region_oob sz.calo sz.caloEta hNC mem f1.calo (fun is => by rw [(hs is).1]; simp), Run.error_bind]

theorem regTestStep_bad (mem : Arr N_OUT_REGIONS (Arr NC HadCaloObj)) (e : DumpEvent) (hl : e.regions.length = 12)
    (he : ¬ GoodEvent sz e) (inp : RegIn sz NM) :
    regTestStep (NE := NE) (NT := NT) mem (storedEvent e).regions inp RegFibers.empty = .error .assertFail := by
  have hlen : (storedEvent e).regions.length = 12 := by
    show (e.regions.map keepRegion).length = 12
    rw [List.length_map, hl]
  have hbad : ¬ ∀ r ∈ (storedEvent e).regions, goodRegion sz r := fun h => he ((goodEvent_iff e).mpr ⟨hlen, h⟩)
  unfold regTestStep
  rw [(fillSectors_spec _ hlen inp RegFibers.empty (fun is => ⟨rfl, rfl, rfl, rfl, fun _ => rfl, fun _ => rfl⟩)).2 hbad]
  rfl

end Verif
