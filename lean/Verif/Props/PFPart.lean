import Verif.Proofs.PFPart
import Verif.Props.PFEnergy
/-! # Parts of an event, array sizes and the order of the inputs: properties C68, C69 -/
open scoped BigOperators
namespace Verif
open Spec
variable {NT NC NE NM NS nt nc ne nm ns : Nat}

/-! ### The list of selected neutrals -/

theorem orderedInsert_append {A Z : List Seen} (a : Seen) (hz : ∀ z ∈ Z, z.1 ≤ a.1) :
    List.orderedInsert (fun a b : Seen => b.1 ≤ a.1) a (A ++ Z) = List.orderedInsert (fun a b : Seen => b.1 ≤ a.1) a A ++ Z := by
  induction A with
  | nil =>
    cases Z with
    | nil => rfl
    | cons z Z => simp [List.orderedInsert, hz z List.mem_cons_self]
  | cons b A ih =>
    rw [List.cons_append, List.orderedInsert_cons, List.orderedInsert_cons]
    split
    · rfl
    · rw [ih]; rfl

theorem orderedInsert_last {A Z : List Seen} (a : Seen) (hA : ∀ b ∈ A, a.1 < b.1) (hz : ∀ z ∈ Z, z.1 ≤ a.1) :
    List.orderedInsert (fun a b : Seen => b.1 ≤ a.1) a (A ++ Z) = A ++ a :: Z := by
  rw [orderedInsert_append a hz]
  induction A with
  | nil => rfl
  | cons b A ih =>
    rw [List.orderedInsert_cons, if_neg (not_le.mpr (hA b List.mem_cons_self)), List.cons_append, ih fun c hc => hA c (List.mem_cons_of_mem _ hc)]
    rfl

theorem sort_split (l : List Seen) (h0 : ∀ x ∈ l, 0 ≤ x.1) (hz : ∀ x ∈ l, x.1 = 0 → x = (0, 0, 0, 0)) :
    l.insertionSort (fun a b => b.1 ≤ a.1) =
      (l.filter fun x => decide (x.1 ≠ 0)).insertionSort (fun a b => b.1 ≤ a.1) ++
        List.replicate (l.filter fun x => decide (x.1 = 0)).length (0, 0, 0, 0) := by
  induction l with
  | nil => rfl
  | cons a l ih =>
    have ih := ih (fun x hx => h0 x (List.mem_cons_of_mem _ hx)) fun x hx => hz x (List.mem_cons_of_mem _ hx)
    rw [List.insertionSort_cons, ih]
    have ha := h0 a List.mem_cons_self
    by_cases h : a.1 = 0
    · rw [List.filter_cons_of_neg (by simpa using h), List.filter_cons_of_pos (by simpa using h), List.length_cons, List.replicate_succ,
        orderedInsert_last a, hz a List.mem_cons_self h]
      · intro b hb
        rw [List.mem_insertionSort, List.mem_filter] at hb
        have := h0 b (List.mem_cons_of_mem _ hb.1)
        have := of_decide_eq_true hb.2
        omega
      · intro z hzm
        rw [List.eq_of_mem_replicate hzm]
        exact ha
    · rw [List.filter_cons_of_pos (by simpa using h), List.filter_cons_of_neg (by simpa using h), List.insertionSort_cons,
        orderedInsert_append a]
      intro z hzm
      rw [List.eq_of_mem_replicate hzm]
      exact ha

theorem sortedTop_fit {n : Nat} (s : Fin n → Seen) (h0 : ∀ h, 0 ≤ (s h).1) (hz : ∀ h, (s h).1 = 0 → s h = (0, 0, 0, 0)) (N : Nat) :
    sortedTop Prod.fst (List.ofFn s) (List.replicate N (0, 0, 0, 0)) N = fit N (neutralsByPt s) := by
  unfold sortedTop fit neutralsByPt
  rw [sort_split, List.filter_append, List.filter_append]
  · rw [show (List.replicate N ((0, 0, 0, 0) : Seen)).filter (fun x => decide (x.1 ≠ 0)) = [] by
      rw [List.filter_eq_nil_iff]; intro x hx; rw [List.eq_of_mem_replicate hx]; simp, List.append_nil]
    rw [show (List.replicate N ((0, 0, 0, 0) : Seen)).filter (fun x => decide (x.1 = 0)) = List.replicate N (0, 0, 0, 0) by
      rw [List.filter_eq_self]; intro x hx; rw [List.eq_of_mem_replicate hx]; simp]
    rw [List.length_append, List.length_replicate, List.take_append, List.take_append, List.take_replicate, List.take_replicate]
    congr 2
    omega
  · intro x hx
    rcases List.mem_append.mp hx with h | h
    · rw [List.mem_reverse, List.mem_ofFn] at h
      obtain ⟨i, rfl⟩ := h
      exact h0 i
    · rw [List.eq_of_mem_replicate h]
  · intro x hx
    rcases List.mem_append.mp hx with h | h
    · rw [List.mem_reverse, List.mem_ofFn] at h
      obtain ⟨i, rfl⟩ := h
      exact hz i
    · intro _
      exact List.eq_of_mem_replicate h

theorem neutralSeen_fst (inp : PFInputs NT NC NE NM) (v : Variant) (h : Fin NC) : (neutralSeen inp v h).1 = neutralPt inp v h := by
  unfold neutralSeen
  split
  · rename_i e; exact e.symm
  · rfl

theorem neutralSeen_zero (inp : PFInputs NT NC NE NM) (v : Variant) (h : Fin NC) (hz : (neutralSeen inp v h).1 = 0) :
    neutralSeen inp v h = (0, 0, 0, 0) := by
  rw [neutralSeen_fst] at hz
  unfold neutralSeen
  rw [if_pos hz]

theorem outne_fit {inp : PFInputs NT NC NE NM} {v : Variant} (hv : Valid inp v) {ne : Arr NC PFNeutralObj} (tmp : Arr NS PFNeutralObj)
    (hne : ∀ h, NeutralOut (neutralPt inp v h) (inp.hadcalo h).hwEta (inp.hadcalo h).hwPhi 1 (ne h)) :
    List.ofFn (fun i => seen (ptsort_hwopt tmp ne i)) = fit NS (neutralsByPt (neutralSeen inp v)) := by
  rw [seen_outne tmp hne, sortedTop_fit]
  · intro h
    rw [neutralSeen_fst]
    exact (neutralPt_bounds hv h).1
  · exact neutralSeen_zero inp v

/-! ### C68 -/

/-- Outputs of the event and of the part agree on the part; the neutral lists are made from candidates that agree on
the part. -/
structure PartAgrees (ft : Fin nt → Fin NT) (fh : Fin nc → Fin NC) (fe : Fin ne → Fin NE) (fm : Fin nm → Fin NM)
    (out : PFOutputs NT NE NS NM) (out' : PFOutputs nt ne ns nm) (s : Fin NC → Seen) (s' : Fin nc → Seen) : Prop where
  photon : ∀ c, seen (out.outpho (fe c)) = seen (out'.outpho c)
  muon : ∀ m, out.outmu (fm m) = out'.outmu m
  cand : ∀ h, s (fh h) = s' h
  neutral : List.ofFn (fun i => seen (out.outne i)) = fit NS (neutralsByPt s)
  neutral' : List.ofFn (fun i => seen (out'.outne i)) = fit ns (neutralsByPt s')

/-- **C68.** What the firmware makes of a part of the event that is on its own is what it makes of the part alone:
the same charged, photon and muon slots, and the same neutral candidates, of which each run lists the highest. -/
theorem C68_part_alone (inp : PFInputs NT NC NE NM) (p : PFInputs nt nc ne nm) (ft : Fin nt → Fin NT) (fh : Fin nc → Fin NC)
    (fe : Fin ne → Fin NE) (fm : Fin nm → Fin NM) (hp : Part fwVariant inp p ft fh fe fm) (ho : Ordered fwVariant p ft fh fe)
    (hv : Valid inp fwVariant) (old : PFOutputs NT NE NS NM) (mem : PFScratch NC NS) (old' : PFOutputs nt ne ns nm) (mem' : PFScratch nc ns) :
    ∃ out out', pfalgo3_full inp old mem = .ok out ∧ pfalgo3_full p old' mem' = .ok out' ∧
      (∀ t, out.outch (ft t) = out'.outch t) ∧
      PartAgrees ft fh fe fm out out' (neutralSeen inp fwVariant) (neutralSeen p fwVariant) := by
  have hv' := valid_part hp ho hv
  obtain ⟨out, n, h1, hch, hpho, hmu, hne, hsort⟩ := fw_meets_spec inp old mem hv
  obtain ⟨out', n', h1', hch', hpho', hmu', hne', hsort'⟩ := fw_meets_spec p old' mem' hv'
  refine ⟨out, out', h1, h1', fun t => ?_, fun c => ?_, fun m => ?_, neutralSeen_part hp ho hv.emPt, ?_, ?_⟩
  · rw [hch, hch', chargedOut_part hp ho hv.emPt]
  · have a := (hpho (fe c)).1
    rw [photonPt_part hp ho, hp.em] at a
    exact (sameNeutral_iff _ _).mp (neutralOut_same a (hpho' c).1)
  · exact muOut_part hp ho m _ _ (hmu (fm m)) (hmu' m)
  · rw [hsort]
    exact outne_fit hv mem.tmp fun h => (hne h).1
  · rw [hsort']
    exact outne_fit hv' mem'.tmp fun h => (hne' h).1

/-- **C68** for the reference. -/
theorem C68_part_alone_ref (inp : PFInputs NT NC NE NM) (p : PFInputs nt nc ne nm) (ft : Fin nt → Fin NT) (fh : Fin nc → Fin NC)
    (fe : Fin ne → Fin NE) (fm : Fin nm → Fin NM) (hp : Part refVariant inp p ft fh fe fm) (ho : Ordered refVariant p ft fh fe)
    (hv : Valid inp refVariant) (hempty : ∀ t, (inp.track t).hwPt.toInt = 0 → (inp.track t).hwPtErr.toInt = 0)
    (old : PFOutputs NT NE NS NM) (mem : Arr NC PFNeutralObj) (old' : PFOutputs nt ne ns nm) (mem' : Arr nc PFNeutralObj) :
    ∃ out out', pfalgo3_full_ref inp old mem = .ok out ∧ pfalgo3_full_ref p old' mem' = .ok out' ∧
      (∀ t, (out.outch (ft t)).hwPt = (out'.outch t).hwPt ∧ ((out'.outch t).hwPt ≠ 0 → out.outch (ft t) = out'.outch t)) ∧
      PartAgrees ft fh fe fm out out' (neutralSeen inp refVariant) (neutralSeen p refVariant) := by
  have hv' := valid_part hp ho hv
  obtain ⟨out, n, h1, hch, hch0, hpho, hmu, hne, hsort⟩ := ref_meets_spec inp old mem hv hempty
  obtain ⟨out', n', h1', hch', hch0', hpho', hmu', hne', hsort'⟩ := ref_meets_spec p old' mem' hv' (fun t => hp.track t ▸ hempty (ft t))
  refine ⟨out, out', h1, h1', fun t => ?_, fun c => ?_, fun m => ?_, neutralSeen_part hp ho hv.emPt, ?_, ?_⟩
  · rcases eq_or_lt_of_le (hv'.trackPt t) with h | h
    · rw [hch0' t h.symm, hch0 (ft t) (by rw [hp.track]; exact h.symm)]
      exact ⟨rfl, fun h => absurd rfl h⟩
    · rw [hch' t h, hch (ft t) (by rw [hp.track]; exact h), chargedOut_part hp ho hv.emPt]
      exact ⟨rfl, fun _ => rfl⟩
  · have a := hpho (fe c)
    rw [photonPt_part hp ho, hp.em] at a
    exact (sameNeutral_iff _ _).mp (neutralOut_same a (hpho' c))
  · exact muOut_part hp ho m _ _ (hmu (fm m)) (hmu' m)
  · rw [hsort, ← ptsort_eq]
    exact outne_fit hv _ hne
  · rw [hsort', ← ptsort_eq]
    exact outne_fit hv' _ hne'

/-- **C68** for the reference whatever the empty slots hold: the errors of empty slots do not count. -/
theorem C68_part_alone_ref_all (inp : PFInputs NT NC NE NM) (p : PFInputs nt nc ne nm) (ft : Fin nt → Fin NT) (fh : Fin nc → Fin NC)
    (fe : Fin ne → Fin NE) (fm : Fin nm → Fin NM) (hp : Part refVariant (noGhosts inp) (noGhosts p) ft fh fe fm)
    (ho : Ordered refVariant (noGhosts p) ft fh fe) (hv : Valid inp refVariant)
    (old : PFOutputs NT NE NS NM) (mem : Arr NC PFNeutralObj) (old' : PFOutputs nt ne ns nm) (mem' : Arr nc PFNeutralObj) :
    ∃ out out', pfalgo3_full_ref inp old mem = .ok out ∧ pfalgo3_full_ref p old' mem' = .ok out' ∧
      (∀ t, (out.outch (ft t)).hwPt = (out'.outch t).hwPt ∧ ((out'.outch t).hwPt ≠ 0 → out.outch (ft t) = out'.outch t)) ∧
      PartAgrees ft fh fe fm out out' (neutralSeen (noGhosts inp) refVariant) (neutralSeen (noGhosts p) refVariant) := by
  rw [ref_noGhosts inp, ref_noGhosts p]
  exact C68_part_alone_ref (noGhosts inp) (noGhosts p) ft fh fe fm hp ho (valid_noGhosts hv)
    (fun t z => by
      have z' : (inp.track t).hwPt.toInt = 0 := z
      rw [noGhosts_err_zero z']; rfl) old mem old' mem'

theorem fit_filter {N : Nat} {l : List Seen} (hl : l.length ≤ N) (h0 : ∀ x ∈ l, x.1 ≠ 0) :
    (fit N l).filter (fun x => decide (x.1 ≠ 0)) = l := by
  unfold fit
  rw [List.take_append, List.take_of_length_le hl, List.take_replicate, List.filter_append]
  rw [show (List.replicate (min (N - l.length) N) ((0, 0, 0, 0) : Seen)).filter (fun x => decide (x.1 ≠ 0)) = [] by
      rw [List.filter_eq_nil_iff]; intro x hx; rw [List.eq_of_mem_replicate hx]; simp, List.append_nil, List.filter_eq_self]
  intro x hx
  simpa using h0 x hx

theorem neutralsByPt_perm {n : Nat} (s : Fin n → Seen) : (neutralsByPt s).Perm ((List.ofFn s).filter fun x => decide (x.1 ≠ 0)) :=
  (List.perm_insertionSort _ _).trans ((List.reverse_perm _).filter _)

theorem neutralsByPt_length {n : Nat} (s : Fin n → Seen) : (neutralsByPt s).length ≤ n := by
  rw [(neutralsByPt_perm s).length_eq]
  exact (List.length_filter_le _ _).trans (by rw [List.length_ofFn])

theorem neutralsByPt_ne {n : Nat} (s : Fin n → Seen) : ∀ x ∈ neutralsByPt s, x.1 ≠ 0 := by
  intro x hx
  rw [(neutralsByPt_perm s).mem_iff, List.mem_filter] at hx
  exact of_decide_eq_true hx.2

/-- **C68.** When there are slots for all neutrals, those of the part are all among those of the event, each as often. -/
theorem C68_neutrals {ft : Fin nt → Fin NT} {fh : Fin nc → Fin NC} {fe : Fin ne → Fin NE} {fm : Fin nm → Fin NM} {out : PFOutputs NT NE NS NM}
    {out' : PFOutputs nt ne ns nm} {s : Fin NC → Seen} {s' : Fin nc → Seen} (h : PartAgrees ft fh fe fm out out' s s')
    (hi : Function.Injective fh) (hN : NC ≤ NS) (hn : nc ≤ ns) :
    List.Subperm ((List.ofFn fun i => seen (out'.outne i)).filter fun x => decide (x.1 ≠ 0))
      ((List.ofFn fun i => seen (out.outne i)).filter fun x => decide (x.1 ≠ 0)) := by
  rw [h.neutral, h.neutral', fit_filter ((neutralsByPt_length s).trans hN) (neutralsByPt_ne s), fit_filter ((neutralsByPt_length s').trans hn) (neutralsByPt_ne s')]
  refine ((neutralsByPt_perm s').subperm.trans ?_).trans (neutralsByPt_perm s).symm.subperm
  apply List.Subperm.filter
  rw [← show s ∘ fh = s' from funext h.cand, ← List.map_ofFn]
  have : (List.ofFn s) = (List.finRange NC).map s := by rw [List.ofFn_eq_map]
  rw [this]
  obtain ⟨l, l1, l2⟩ := List.subperm_of_subset ((List.nodup_ofFn).mpr hi) fun (x : Fin NC) _ => List.mem_finRange x
  exact ⟨l.map s, l1.map s, l2.map s⟩

/-! ### Array sizes -/

theorem ofFn_filter_castLE {α : Type} {n N : Nat} (h : n ≤ N) (s : Fin N → α) (q : α → Bool) (hq : ∀ i : Fin N, n ≤ i.val → q (s i) = false) :
    (List.ofFn s).filter q = (List.ofFn fun i : Fin n => s (Fin.castLE h i)).filter q := by
  obtain ⟨k, rfl⟩ := Nat.exists_eq_add_of_le h
  rw [List.ofFn_add, List.filter_append]
  have : (List.ofFn fun j : Fin k => s (Fin.natAdd n j)).filter q = [] := by
    rw [List.filter_eq_nil_iff]
    intro x hx
    obtain ⟨j, rfl⟩ := List.mem_ofFn.mp hx
    rw [hq _ (by simp)]
    simp
  rw [this, List.append_nil]

/-- `inp` is `p` with longer arrays, filled up with empty slots. -/
structure Padded (inp : PFInputs NT NC NE NM) (p : PFInputs nt nc ne nm) (ht : nt ≤ NT) (hh : nc ≤ NC) (he : ne ≤ NE) (hm : nm ≤ NM) : Prop where
  track : ∀ t, inp.track (Fin.castLE ht t) = p.track t
  had : ∀ h, inp.hadcalo (Fin.castLE hh h) = p.hadcalo h
  em : ∀ e, inp.emcalo (Fin.castLE he e) = p.emcalo e
  mu : ∀ m, inp.mu (Fin.castLE hm m) = p.mu m
  noTrack : ∀ t : Fin NT, nt ≤ t.val → (inp.track t).hwPt = 0 ∧ (inp.track t).hwPtErr = 0
  noHad : ∀ h : Fin NC, nc ≤ h.val → (inp.hadcalo h).hwPt = 0 ∧ (inp.hadcalo h).hwEmPt = 0
  noEm : ∀ e : Fin NE, ne ≤ e.val → (inp.emcalo e).hwPt = 0 ∧ (inp.emcalo e).hwEta = 0 ∧ (inp.emcalo e).hwPhi = 0
  noMu : ∀ m : Fin NM, nm ≤ m.val → (inp.mu m).hwPt = 0

theorem has_castLE {n N : Nat} (h : n ≤ N) (i : Fin N) (hi : i.val < n) : Has (Fin.castLE h) i := ⟨⟨i.val, hi⟩, rfl⟩

theorem castLE_ordered (v : Variant) (p : PFInputs nt nc ne nm) (ht : nt ≤ NT) (hh : nc ≤ NC) (he : ne ≤ NE) :
    Ordered v p (Fin.castLE ht) (Fin.castLE hh) (Fin.castLE he) where
  mu _ _ _ h _ _ _ := le_of_lt h
  em _ _ _ h _ _ _ := le_of_lt h
  had _ _ _ h _ _ _ := le_of_lt h
  calo _ _ _ h _ _ _ := le_of_lt h

theorem padded_part {inp : PFInputs NT NC NE NM} {p : PFInputs nt nc ne nm} {ht : nt ≤ NT} {hh : nc ≤ NC} {he : ne ≤ NE} {hm : nm ≤ NM}
    (hp : Padded inp p ht hh he hm)
    (hghost : ne = NE ∨ ∀ t, 84 ≤ (p.track t).hwEta.toInt ^ 2 + (p.track t).hwPhi.toInt ^ 2) :
    Part fwVariant inp p (Fin.castLE ht) (Fin.castLE hh) (Fin.castLE he) (Fin.castLE hm) := by
  have z16 : (0 : BitVec 16).toInt = 0 := by decide
  have tk : ∀ t : Fin NT, Has (Fin.castLE ht) t ∨ ((inp.track t).hwPt.toInt = 0 ∧ (inp.track t).hwPtErr.toInt = 0) := fun t => by
    rcases lt_or_ge t.val nt with h | h
    · exact Or.inl (has_castLE ht t h)
    · rw [(hp.noTrack t h).1, (hp.noTrack t h).2]; exact Or.inr ⟨by decide, by decide⟩
  have had : ∀ h : Fin NC, Has (Fin.castLE hh) h ∨ ((inp.hadcalo h).hwPt.toInt = 0 ∧ (inp.hadcalo h).hwEmPt.toInt = 0) := fun h => by
    rcases lt_or_ge h.val nc with hl | hl
    · exact Or.inl (has_castLE hh h hl)
    · rw [(hp.noHad h hl).1, (hp.noHad h hl).2]; exact Or.inr ⟨by decide, by decide⟩
  refine ⟨hp.track, hp.had, hp.em, hp.mu, Fin.castLE_injective _, Fin.castLE_injective _, Fin.castLE_injective _, Fin.castLE_injective _,
    fun m t _ => (tk t).imp id And.left, fun m t _ => ?_, fun t e hd => ?_, fun t e _ => (tk t).imp id And.left, fun e h _ => (had h).imp id And.right,
    fun e h _ => ?_, fun t h _ => (had h).imp id And.left, fun t h _ => tk t⟩
  · rcases lt_or_ge m.val nm with h | h
    · exact Or.inl (has_castLE hm m h)
    · rw [hp.noMu m h]; exact Or.inr (by decide)
  · rcases lt_or_ge e.val ne with h | h
    · exact has_castLE he e h
    · exfalso
      rcases hghost with hg | hg
      · have := e.isLt; omega
      · have h84 := hg t
        unfold tkEmDist2 dist2 circ at hd
        rw [hp.track, (hp.noEm e h).2.1, (hp.noEm e h).2.2] at hd
        have z10 : (0 : EtaPhi).toInt = 0 := by decide
        have bm : ∀ x : EtaPhi, (x.toInt - 0).bmod 1024 = x.toInt := fun x => by
          rw [sub_zero]
          have h1 := BitVec.le_toInt x
          have h2 := BitVec.toInt_lt (x := x)
          norm_num at h1 h2
          exact Int.bmod_eq_of_le (by omega) (by omega)
        rw [z10, bm, bm] at hd
        omega
  · rcases lt_or_ge e.val ne with h | h
    · exact Or.inl (has_castLE he e h)
    · rw [(hp.noEm e h).1]; exact Or.inr ⟨rfl, by decide⟩

/-- **C68.** The sizes of the arrays do not matter: with empty slots added everywhere, the firmware gives the same particles
in the first slots and the same list of neutrals, up to its length.  One condition cannot be dropped (`C68_ghost`): either no EM slot is added or
no track is within the matching distance of the origin, where the empty EM slots lie. -/
theorem C68_array_sizes (inp : PFInputs NT NC NE NM) (p : PFInputs nt nc ne nm) (ht : nt ≤ NT) (hh : nc ≤ NC) (he : ne ≤ NE) (hm : nm ≤ NM)
    (hp : Padded inp p ht hh he hm) (hghost : ne = NE ∨ ∀ t, 84 ≤ (p.track t).hwEta.toInt ^ 2 + (p.track t).hwPhi.toInt ^ 2)
    (hv : Valid inp fwVariant) (old : PFOutputs NT NE NS NM) (mem : PFScratch NC NS) (old' : PFOutputs nt ne ns nm) (mem' : PFScratch nc ns) :
    ∃ out out', pfalgo3_full inp old mem = .ok out ∧ pfalgo3_full p old' mem' = .ok out' ∧
      (∀ t, out.outch (Fin.castLE ht t) = out'.outch t) ∧ (∀ c, seen (out.outpho (Fin.castLE he c)) = seen (out'.outpho c)) ∧
      (∀ m, out.outmu (Fin.castLE hm m) = out'.outmu m) ∧
      ∃ l : List Seen, List.ofFn (fun i => seen (out.outne i)) = fit NS l ∧ List.ofFn (fun i => seen (out'.outne i)) = fit ns l := by
  obtain ⟨out, out', h1, h2, h3, h4⟩ := C68_part_alone inp p _ _ _ _ (padded_part hp hghost) (castLE_ordered _ _ _ _ _) hv old mem old' mem'
  refine ⟨out, out', h1, h2, h3, h4.photon, h4.muon, neutralsByPt (neutralSeen inp fwVariant), h4.neutral, ?_⟩
  rw [h4.neutral']
  congr 1
  unfold neutralsByPt
  rw [List.filter_reverse, List.filter_reverse, ofFn_filter_castLE hh]
  · rw [show (fun i => neutralSeen inp fwVariant (Fin.castLE hh i)) = neutralSeen p fwVariant from funext h4.cand]
  · intro h hn
    rw [neutralSeen_fst]
    have a := hadPt_le (v := fwVariant) hv.emPt h
    have b := neutralPt_bounds hv h
    have c := caloTk_nonneg hv h
    rw [(hp.noHad h hn).1, show (0 : Pt).toInt = 0 by decide] at a
    have : neutralPt inp fwVariant h = 0 := by omega
    simp [this]

/-- An electron at the origin: one track and its EM cluster, with or without a second, empty, EM slot. -/
def electron (NE : Nat) : PFInputs 1 0 NE 0 where
  track := fun _ => ⟨48, 5, 0, 0, 7, false⟩
  hadcalo := fun h => h.elim0
  emcalo := fun c => if c.val = 0 then ⟨50, 5, 3, 0⟩ else ⟨0, 0, 0, 0⟩
  mu := fun m => m.elim0

/-- **C68**, the exception: the empty EM slot takes the track of the electron.  Without the slot there is an electron and
no photon; with it there is a photon and no electron. -/
theorem C68_ghost :
    (pfalgo3_full (electron 1) (old0 1 1 0 0) (mem0 0 0)).map (fun o => ((o.outch 0).hwPt, (o.outch 0).hwId, (o.outpho 0).hwPt)) = .ok (48, 3, 0) ∧
    (pfalgo3_full (electron 2) (old0 1 2 0 0) (mem0 0 0)).map (fun o => ((o.outch 0).hwPt, (o.outch 0).hwId, (o.outpho 0).hwPt)) = .ok (0, 0, 50) ∧
    Padded (electron 2) (electron 1) (le_refl 1) (le_refl 0) (by omega) (le_refl 0) := by
  refine ⟨by decide +kernel, by decide +kernel, fun t => rfl, fun h => h.elim0, fun e => ?_, fun m => m.elim0, by decide, by decide, by decide, by decide⟩
  match e with
  | ⟨0, _⟩ => rfl

/-! ### C69: the order of the inputs -/

/-- The event with its objects listed in another order. -/
def reorder (inp : PFInputs NT NC NE NM) (σt : Equiv.Perm (Fin NT)) (σh : Equiv.Perm (Fin NC)) (σe : Equiv.Perm (Fin NE)) (σm : Equiv.Perm (Fin NM)) :
    PFInputs NT NC NE NM where
  track := fun t => inp.track (σt t)
  hadcalo := fun h => inp.hadcalo (σh h)
  emcalo := fun e => inp.emcalo (σe e)
  mu := fun m => inp.mu (σm m)

theorem reorder_part (v : Variant) (inp : PFInputs NT NC NE NM) (σt : Equiv.Perm (Fin NT)) (σh : Equiv.Perm (Fin NC)) (σe : Equiv.Perm (Fin NE)) (σm : Equiv.Perm (Fin NM)) :
    Part v inp (reorder inp σt σh σe σm) σt σh σe σm where
  track _ := rfl
  had _ := rfl
  em _ := rfl
  mu _ := rfl
  injT := σt.injective
  injH := σh.injective
  injE := σe.injective
  injM := σm.injective
  muTk _ t _ := Or.inl (σt.surjective t)
  tkMu m _ _ := Or.inl (σm.surjective m)
  tkEm _ e _ := σe.surjective e
  emTk t _ _ := Or.inl (σt.surjective t)
  emHad _ h _ := Or.inl (σh.surjective h)
  hadEm e _ _ := Or.inl (σe.surjective e)
  tkHad _ h _ := Or.inl (σh.surjective h)
  hadTk t _ _ := Or.inl (σt.surjective t)

theorem neutralsByPt_sorted {n : Nat} (s : Fin n → Seen) : (neutralsByPt s).Pairwise (fun a b => b.1 ≤ a.1) := by
  haveI : Std.Total (fun a b : Seen => b.1 ≤ a.1) := ⟨fun a b => le_total b.1 a.1⟩
  haveI : IsTrans Seen (fun a b : Seen => b.1 ≤ a.1) := ⟨fun a b c h h' => le_trans h' h⟩
  exact List.pairwise_insertionSort _ _

theorem neutralsByPt_reorder {n : Nat} (s : Fin n → Seen) (σ : Equiv.Perm (Fin n)) : (neutralsByPt s).Perm (neutralsByPt fun h => s (σ h)) := by
  refine (neutralsByPt_perm s).trans (List.Perm.trans ?_ (neutralsByPt_perm _).symm)
  apply List.Perm.filter
  rw [List.ofFn_eq_map, show (fun h => s (σ h)) = s ∘ σ from rfl, ← List.map_ofFn]
  apply List.Perm.map
  rw [List.perm_ext_iff_of_nodup (List.nodup_finRange n) (List.nodup_ofFn.mpr σ.injective)]
  intro a
  simp only [List.mem_finRange, List.mem_ofFn, true_iff]
  exact σ.surjective a

theorem fit_pts (N : Nat) (l : List Seen) : (fit N l).map Prod.fst = (l.map Prod.fst ++ List.replicate N 0).take N := by
  unfold fit
  rw [List.map_take, List.map_append, List.map_replicate]

/-- **C69.** Listing tracks, clusters and muons in other orders lists the charged particles, photons and muons in the
same other orders, as long as no link is decided by the order (`Ordered`: candidates that tie keep their order).  The list of selected
neutrals has the same pts; it is the same list when no two candidates have the same pt. -/
theorem C69_order (inp : PFInputs NT NC NE NM) (σt : Equiv.Perm (Fin NT)) (σh : Equiv.Perm (Fin NC)) (σe : Equiv.Perm (Fin NE)) (σm : Equiv.Perm (Fin NM))
    (ho : Ordered fwVariant (reorder inp σt σh σe σm) σt σh σe) (hv : Valid inp fwVariant)
    (old old' : PFOutputs NT NE NS NM) (mem mem' : PFScratch NC NS) :
    ∃ out out', pfalgo3_full inp old mem = .ok out ∧ pfalgo3_full (reorder inp σt σh σe σm) old' mem' = .ok out' ∧
      (∀ t, out'.outch t = out.outch (σt t)) ∧ (∀ c, seen (out'.outpho c) = seen (out.outpho (σe c))) ∧ (∀ m, out'.outmu m = out.outmu (σm m)) ∧
      (∀ i, (out'.outne i).hwPt = (out.outne i).hwPt) ∧
      ((∀ h h', neutralPt inp fwVariant h = neutralPt inp fwVariant h' → neutralPt inp fwVariant h ≠ 0 → h = h') →
        ∀ i, seen (out'.outne i) = seen (out.outne i)) := by
  obtain ⟨out, out', h1, h2, h3, h4⟩ := C68_part_alone inp _ _ _ _ _ (reorder_part fwVariant inp σt σh σe σm) ho hv old mem old' mem'
  have hc : neutralSeen (reorder inp σt σh σe σm) fwVariant = fun h => neutralSeen inp fwVariant (σh h) := funext fun h => (h4.cand h).symm
  have hperm := neutralsByPt_reorder (neutralSeen inp fwVariant) σh
  have hn := h4.neutral
  have hn' := h4.neutral'
  rw [hc] at hn'
  refine ⟨out, out', h1, h2, fun t => (h3 t).symm, fun c => (h4.photon c).symm, fun m => (h4.muon m).symm, fun i => ?_, fun hd i => ?_⟩
  · have e : (neutralsByPt (neutralSeen inp fwVariant)).map Prod.fst = (neutralsByPt fun h => neutralSeen inp fwVariant (σh h)).map Prod.fst := by
      refine List.Perm.eq_of_pairwise (le := fun a b : Int => b ≤ a) (fun a b _ _ h h' => le_antisymm h' h) ?_ ?_ (hperm.map _)
      · exact List.pairwise_map.mpr (neutralsByPt_sorted _)
      · exact List.pairwise_map.mpr (neutralsByPt_sorted _)
    have e2 := congrArg (List.map Prod.fst) hn
    have e3 := congrArg (List.map Prod.fst) hn'
    rw [fit_pts, e, ← fit_pts, ← e3, List.map_ofFn, List.map_ofFn, List.ofFn_inj] at e2
    have e4 := congrFun e2 i
    simp only [Function.comp_apply, seen_fst] at e4
    exact BitVec.eq_of_toInt_eq e4.symm
  · have e : neutralsByPt (neutralSeen inp fwVariant) = neutralsByPt fun h => neutralSeen inp fwVariant (σh h) := by
      refine List.Perm.eq_of_pairwise (le := fun a b : Seen => b.1 ≤ a.1) (fun a b ha hb h h' => ?_) (neutralsByPt_sorted _) (neutralsByPt_sorted _) hperm
      have hb := hperm.mem_iff.mpr hb
      rw [(neutralsByPt_perm _).mem_iff, List.mem_filter] at ha hb
      obtain ⟨x, rfl⟩ := List.mem_ofFn.mp ha.1
      obtain ⟨y, rfl⟩ := List.mem_ofFn.mp hb.1
      have hz := of_decide_eq_true ha.2
      rw [neutralSeen_fst] at h h' hz
      rw [neutralSeen_fst] at h h'
      rw [hd x y (le_antisymm h' h) hz]
    rw [e, ← hn', List.ofFn_inj] at hn
    exact (congrFun hn i).symm

/-! ### Non-vacuity -/

theorem strictMono_ordered (v : Variant) (p : PFInputs nt nc ne nm) {ft : Fin nt → Fin NT} {fh : Fin nc → Fin NC} {fe : Fin ne → Fin NE}
    (ht : StrictMono ft) (hh : StrictMono fh) (he : StrictMono fe) : Ordered v p ft fh fe where
  mu _ _ _ h _ _ _ := le_of_lt (ht h)
  em _ _ _ h _ _ _ := le_of_lt (he h)
  had _ _ _ h _ _ _ := le_of_lt (hh h)
  calo _ _ _ h _ _ _ := le_of_lt (hh h)

/-- The hadron of the ordinary event: its second track and its first calorimeter cluster. -/
def hadronPart : PFInputs 1 1 0 0 where
  track := fun _ => ordinary.track 1
  hadcalo := fun _ => ordinary.hadcalo 0
  emcalo := fun e => e.elim0
  mu := fun m => m.elim0

/-- **C68**, non-vacuity: the hadron is a part of the ordinary event on its own, with a charged and a neutral hadron. -/
example : Part fwVariant ordinary hadronPart (fun _ => 1) (fun _ => 0) (fun e => e.elim0) (fun m => m.elim0) ∧
    Part refVariant ordinary hadronPart (fun _ => 1) (fun _ => 0) (fun e => e.elim0) (fun m => m.elim0) ∧
    Ordered fwVariant hadronPart (fun _ => (1 : Fin 3)) (fun _ => (0 : Fin 2)) (fun e => (e.elim0 : Fin 2)) ∧
    (pfalgo3_full hadronPart (old0 1 0 1 0) (mem0 1 1)).map (fun o => ((o.outch 0).hwPt, (o.outne 0).hwPt)) = .ok (120, 180) := by
  refine ⟨⟨fun _ => rfl, fun _ => rfl, fun e => e.elim0, fun m => m.elim0, fun a b _ => Subsingleton.elim a b, fun a b _ => Subsingleton.elim a b,
      fun a => a.elim0, fun a => a.elim0, by decide, by decide, by decide, by decide, by decide, by decide, by decide, by decide⟩,
    ⟨fun _ => rfl, fun _ => rfl, fun e => e.elim0, fun m => m.elim0, fun a b _ => Subsingleton.elim a b, fun a b _ => Subsingleton.elim a b,
      fun a => a.elim0, fun a => a.elim0, by decide, by decide, by decide, by decide, by decide, by decide, by decide, by decide⟩,
    strictMono_ordered _ _ (fun a b h => absurd h (by omega)) (fun a b h => absurd h (by omega)) (fun a => a.elim0), by decide +kernel⟩

/-- **C68**, non-vacuity of the padding: the hadron in arrays of the sizes of the MP7 configuration. -/
example : Padded (NT := 15) (NC := 15) (NE := 15) (NM := 2)
      ⟨fun _ => ⟨0, 0, 0, 0⟩, fun h => if h.val = 0 then ordinary.hadcalo 0 else ⟨0, 0, 0, 0, false⟩, fun t => if t.val = 0 then ordinary.track 1 else ⟨0, 0, 0, 0, 0, false⟩, fun _ => ⟨0, 0, 0, 0⟩⟩
      hadronPart (by omega) (by omega) (by omega) (by omega) ∧
    ∀ t, 84 ≤ (hadronPart.track t).hwEta.toInt ^ 2 + (hadronPart.track t).hwPhi.toInt ^ 2 := by
  refine ⟨⟨fun t => ?_, fun h => ?_, fun e => e.elim0, fun m => m.elim0, by decide, by decide, by decide, by decide⟩, by decide⟩
  · match t with
    | ⟨0, _⟩ => rfl
  · match h with
    | ⟨0, _⟩ => rfl

/-- **C69**, non-vacuity: the ordinary event with tracks and both kinds of clusters listed in other orders. -/
example : Ordered fwVariant (reorder ordinary (Equiv.swap 0 2) (Equiv.swap 0 1) (Equiv.swap 0 1) (Equiv.refl _)) (Equiv.swap 0 2) (Equiv.swap 0 1) (Equiv.swap 0 1) := by
  refine ⟨by unfold KeepsTies; decide, by unfold KeepsTies; decide, by unfold KeepsTies; decide, fun t a b hab ha hb hm => ?_⟩
  have h1 := ha.2
  have h2 := hb.2
  clear ha hb hm
  revert t a b
  decide

end Verif
