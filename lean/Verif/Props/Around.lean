import Verif.Proofs.Around
import Verif.Proofs.Filter
import Verif.Props.Influence
import Verif.Model.PuppiTest
/-! # What comes out around a point depends on what goes in around it: property C91 -/
namespace Verif
open Spec
variable {NT NC NE NM NS NT' NC' NE' NM' NS' NN NN' : Nat}

/-- The candidates of a run are those of the specification. -/
structure Makes (inp : PFInputs NT NC NE NM) (v : Variant) (out : PFOutputs NT NE NS NM) : Prop where
  charged : ∀ t, (out.outch t).hwPt ≠ 0 → out.outch t = chargedOut inp v t
  charged' : ∀ t, (chargedOut inp v t).hwPt ≠ 0 → out.outch t = chargedOut inp v t
  photon : ∀ c, NeutralOut (photonPt inp c) (inp.emcalo c).hwEta (inp.emcalo c).hwPhi 2 (out.outpho c)
  muon : ∀ m, MuOut inp m (out.outmu m)
  neutral : List.ofFn (fun i => seen (out.outne i)) = fit NS (neutralsByPt (neutralSeen inp v))

theorem fw_makes (inp : PFInputs NT NC NE NM) (hv : Valid inp fwVariant) (old : PFOutputs NT NE NS NM) (mem : PFScratch NC NS) :
    ∃ out, pfalgo3_full inp old mem = .ok out ∧ Makes inp fwVariant out := by
  obtain ⟨out, n, h1, hch, hpho, hmu, hne, hsort⟩ := fw_meets_spec inp old mem hv
  refine ⟨out, h1, fun t _ => hch t, fun t _ => hch t, fun c => (hpho c).1, hmu, ?_⟩
  rw [hsort]
  exact outne_fit hv mem.tmp fun h => (hne h).1

theorem ghostless {inp : PFInputs NT NC NE NM} (hp : Packed inp) (hv : ∀ t, 0 ≤ (inp.track t).hwPt.toInt) : noGhosts inp = inp := by
  have e : (noGhosts inp).track = inp.track := by
    funext t
    show { inp.track t with hwPtErr := if 0 < (inp.track t).hwPt.toInt then (inp.track t).hwPtErr else 0 } = inp.track t
    by_cases h : 0 < (inp.track t).hwPt.toInt
    · rw [if_pos h]
    · rw [if_neg h, ← hp.track t (pt_zero' (by have := hv t; omega))]
  show { inp with track := (noGhosts inp).track } = inp
  rw [e]

theorem chargedOut_pt {inp : PFInputs NT NC NE NM} {v : Variant} {t : Fin NT} (h0 : (chargedOut inp v t).hwPt ≠ 0) :
    (chargedOut inp v t).hwPt = (inp.track t).hwPt ∧ ((chargedOut inp v t).hwEta, (chargedOut inp v t).hwPhi) = atTk inp t := by
  unfold chargedOut at h0 ⊢
  by_cases hk : Kept inp v t
  · rw [if_pos hk]
    exact ⟨rfl, rfl⟩
  · rw [if_neg hk] at h0
    exact absurd rfl h0

theorem ref_makes (inp : PFInputs NT NC NE NM) (hp : Packed inp) (hv : Valid inp refVariant) (old : PFOutputs NT NE NS NM)
    (mem : Arr NC PFNeutralObj) : ∃ out, pfalgo3_full_ref inp old mem = .ok out ∧ Makes inp refVariant out := by
  obtain ⟨out, n, h1, hch, hch0, hpho, hmu, hne, hsort⟩ := ref_meets_spec_all inp old mem hv
  rw [ghostless hp hv.trackPt] at hne
  refine ⟨out, h1, fun t h => ?_, fun t h => ?_, hpho, hmu, ?_⟩
  · refine hch t (lt_of_le_of_ne (hv.trackPt t) fun e => h (hch0 t e.symm))
  · refine hch t (lt_of_le_of_ne (hv.trackPt t) fun e => h ?_)
    rw [(chargedOut_pt h).1]
    exact pt_zero' e.symm
  · rw [hsort, ← ptsort_eq]
    exact outne_fit hv _ hne

/-! ### Candidates around a point -/

theorem around_eq {A : Type} (r : ℝ) (p : Dir) (null : A → Prop) (pos : A → Dir) (l : List A) :
    around r p null pos l = l.filter (isAround r p null pos) := rfl

section
variable {inp : PFInputs NT NC NE NM} {inp' : PFInputs NT' NC' NE' NM'} {v : Variant} {out : PFOutputs NT NE NS NM}
  {out' : PFOutputs NT' NE' NS' NM'} {R r : ℝ} {p : Dir}

theorem muonReach_nonneg : 0 ≤ muonReach := Real.sqrt_nonneg _
theorem photonReach_nonneg : 0 ≤ photonReach := by unfold photonReach; positivity
theorem chargedReach_nonneg : 0 ≤ chargedReach := by
  have := photonReach_nonneg
  unfold chargedReach; positivity
theorem neutralReach_nonneg : 0 ≤ neutralReach := by
  have := chargedReach_nonneg
  unfold neutralReach; positivity

theorem charged_imp (hp : Packed inp) (hp' : Packed inp') (h : SameAround R p inp inp') (hv : Valid inp v) (hv' : Valid inp' v)
    (ho : Makes inp v out) (ho' : Makes inp' v out') (hR : r + chargedReach ≤ R) {t : Fin NT} (h0 : (out.outch t).hwPt ≠ 0)
    (hg : gap p ((out.outch t).hwEta, (out.outch t).hwPhi) < r) :
    ∃ t', SameRank (tkAround R p) inp.track inp'.track t t' ∧ out'.outch t' = out.outch t := by
  have e0 := ho.charged t h0
  rw [e0] at h0 hg ⊢
  obtain ⟨h1, h2⟩ := chargedOut_pt h0
  rw [h2] at hg
  have hc := chargedReach_nonneg
  obtain ⟨t', ht⟩ := sameRank_exists (P := tkAround R p) h.track (i := t)
    (tkAround_iff.mpr ⟨h1 ▸ h0, by show gap p (atTk inp t) < R; linarith⟩)
  have e := chargedOut_match (v := v) hv.emPt hv'.emPt ht ((match_of_around hp hp' h).move (by linarith))
  exact ⟨t', ht, by rw [ho'.charged' t' (e ▸ h0), e]⟩

theorem seen_made {pt : Int} {eta phi : EtaPhi} {id : ParticleId} {o : PFNeutralObj} (ho : NeutralOut pt eta phi id o) :
    seen o = if pt = 0 then (0, 0, 0, 0) else (pt, eta, phi, id) := by
  unfold seen
  by_cases hz : pt = 0
  · rw [if_pos hz, if_pos (pt_toInt_zero.mp (ho.1.trans hz))]
  · rw [if_neg hz, if_neg (fun e => hz (ho.1.symm.trans (pt_toInt_zero.mpr e))), ho.1, (ho.2.1 hz).1, (ho.2.1 hz).2.1, (ho.2.1 hz).2.2]

theorem photon_imp (hp : Packed inp) (hp' : Packed inp') (h : SameAround R p inp inp') (hv : Valid inp v)
    (ho : Makes inp v out) (ho' : Makes inp' v out') (hR : r + photonReach ≤ R) {c : Fin NE} (h0 : (seen (out.outpho c)).1 ≠ 0)
    (hg : gap p ((seen (out.outpho c)).2.1, (seen (out.outpho c)).2.2.1) < r) :
    ∃ c', EmPair R p inp inp' c c' ∧ seen (out'.outpho c') = seen (out.outpho c) := by
  have hs := seen_made (ho.photon c)
  have hz : photonPt inp c ≠ 0 := by
    intro e
    rw [hs, if_pos e] at h0
    exact h0 rfl
  rw [hs, if_neg hz] at hg
  have hc := photonReach_nonneg
  have h1 : (inp.emcalo c).hwPt ≠ 0 := by
    intro e
    have a := photonPt_le hv c
    have b := (photonPt_bounds hv c).1
    rw [pt_zero e] at a
    omega
  obtain ⟨c', ht⟩ := sameRank_exists (P := emAround R p) h.em (i := c)
    (emAround_iff.mpr ⟨h1, by show gap p ((inp.emcalo c).hwEta, (inp.emcalo c).hwPhi) < R; linarith⟩)
  have hm := match_of_around hp hp' h
  have e := photonPt_match (c := c) (c' := c') (.inl ht) (hm.move (by
    show gap p ((inp.emcalo c).hwEta, (inp.emcalo c).hwPhi) + _ ≤ R
    linarith))
  refine ⟨c', .inl ht, ?_⟩
  rw [hs, seen_made (ho'.photon c'), e, hm.eqE c c' (.inl ht)]

theorem muon_imp (hp : Packed inp) (hp' : Packed inp') (h : SameAround R p inp inp')
    (ho : Makes inp v out) (ho' : Makes inp' v out') (hR : r + 2 * muonReach ≤ R) {m : Fin NM} (h0 : (out.outmu m).hwPt ≠ 0)
    (hg : gap p ((out.outmu m).hwEta, (out.outmu m).hwPhi) < r) :
    ∃ m', SameRank (muAround R p) inp.mu inp'.mu m m' ∧ out'.outmu m' = out.outmu m := by
  by_cases he : ∃ t, MuMatch inp m t
  · obtain ⟨t, ht⟩ := he
    rw [(ho.muon m).1 t ht] at hg
    have h1 : gap (atMu inp m) (atTk inp t) < muonReach := by
      have := gap_lt ht.2.1.1
      push_cast at this
      exact this
    have h2 := gap_triangle p (atTk inp t) (atMu inp m)
    rw [gap_symm (atTk inp t)] at h2
    have hg : gap p (atTk inp t) < r := hg
    have h3 := muonReach_nonneg
    obtain ⟨m', hm⟩ := sameRank_exists (P := muAround R p) h.mu (i := m)
      (muAround_iff.mpr ⟨fun e => by have := ht.1; rw [pt_zero e] at this; omega, by show gap p (atMu inp m) < R; linarith⟩)
    exact ⟨m', hm, (muOut_match hm ((match_of_around hp hp' h).move (by linarith)) (ho.muon m) (ho'.muon m')).symm⟩
  · rw [(ho.muon m).2 he] at h0
    exact absurd rfl h0

theorem cand_imp (hp : Packed inp) (hp' : Packed inp') (h : SameAround R p inp inp') (hv : Valid inp v) (hv' : Valid inp' v)
    (hR : r + neutralReach ≤ R) {c : Fin NC} (h0 : (neutralSeen inp v c).1 ≠ 0)
    (hg : gap p ((neutralSeen inp v c).2.1, (neutralSeen inp v c).2.2.1) < r) :
    ∃ c', SameRank (hadAround R p) inp.hadcalo inp'.hadcalo c c' ∧ neutralSeen inp' v c' = neutralSeen inp v c := by
  have hz : neutralPt inp v c ≠ 0 := neutralSeen_fst inp v c ▸ h0
  have hs : neutralSeen inp v c = (neutralPt inp v c, (inp.hadcalo c).hwEta, (inp.hadcalo c).hwPhi, 1) := if_neg hz
  rw [hs] at hg
  have hg : gap p (atHad inp c) < r := hg
  have hc := neutralReach_nonneg
  have h1 : (inp.hadcalo c).hwPt ≠ 0 := by
    intro e
    have a := neutralPt_le hv c
    have b := (neutralPt_bounds hv c).1
    have d := (hadPt_bounds hv c).2
    have f := emSb_nonneg hv c
    rw [pt_zero e] at d
    omega
  obtain ⟨c', ht⟩ := sameRank_exists (P := hadAround R p) h.had (i := c)
    (hadAround_iff.mpr ⟨h1, by show gap p (atHad inp c) < R; linarith⟩)
  exact ⟨c', ht, (neutralSeen_match hv.emPt hv'.emPt ht ((match_of_around hp hp' h).move (by linarith))).symm⟩

/-- A list with a free slot holds all the candidates. -/
theorem around_fit {l : List Seen} {n : Nat} (hl : ∀ x ∈ l, x.1 ≠ 0) (hf : ∃ x ∈ fit n l, x.1 = 0) (r : ℝ) (p : Dir) :
    seenAround r p (fit n l) = seenAround r p l := by
  have hn : l.length < n := by
    by_contra hc
    obtain ⟨x, hx, h0⟩ := hf
    unfold fit at hx
    rw [List.take_append_of_le_length (not_lt.mp hc)] at hx
    exact hl x (List.mem_of_mem_take hx) h0
  unfold seenAround fit
  rw [List.take_append, List.take_of_length_le (le_of_lt hn), around_eq, List.filter_append, around_eq]
  have e : ∀ k, ((List.replicate n ((0, 0, 0, 0) : Seen)).take k).filter (isAround r p (·.1 = 0) fun o => (o.2.1, o.2.2.1)) = [] := by
    intro k
    rw [List.filter_eq_nil_iff]
    intro x hx h
    rw [List.eq_of_mem_replicate (List.mem_of_mem_take hx)] at h
    exact (isAround_iff.mp h).1 rfl
  rw [e, List.append_nil]

theorem around_neutralsByPt {n : Nat} (s : Fin n → Seen) (r : ℝ) (p : Dir) :
    seenAround r p (neutralsByPt s) = (seenAround r p (List.ofFn s)).reverse.insertionSort fun a b => b.1 ≤ a.1 := by
  unfold seenAround neutralsByPt
  rw [around_eq, around_eq, filter_insertionSort (fun a b : Seen => b.1 ≤ a.1) (fun a b => le_total _ _) (fun a b c h1 h2 => le_trans h2 h1), List.filter_filter,
    ← List.filter_reverse]
  congr 1
  refine List.filter_congr fun x _ => ?_
  by_cases h : isAround r p (fun o : Seen => o.1 = 0) (fun o => (o.2.1, o.2.2.1)) x = true
  · rw [h, decide_eq_true (isAround_iff.mp h).1]
    rfl
  · rw [Bool.not_eq_true] at h
    rw [h]
    rfl

end

/-- What the two runs put out around `p`, when the events agree within `R` of it. -/
structure AroundAgrees (R : ℝ) (p : Dir) (out : PFOutputs NT NE NS NM) (out' : PFOutputs NT' NE' NS' NM') : Prop where
  charged : ∀ r, r + chargedReach ≤ R → chargedAround r p (List.ofFn out.outch) = chargedAround r p (List.ofFn out'.outch)
  photon : ∀ r, r + photonReach ≤ R →
    seenAround r p (List.ofFn fun c => seen (out.outpho c)) = seenAround r p (List.ofFn fun c => seen (out'.outpho c))
  muon : ∀ r, r + 2 * muonReach ≤ R → chargedAround r p (List.ofFn out.outmu) = chargedAround r p (List.ofFn out'.outmu)
  neutral : ∀ r, r + neutralReach ≤ R → (∃ i, (out.outne i).hwPt = 0) → (∃ i, (out'.outne i).hwPt = 0) →
    seenAround r p (List.ofFn fun i => seen (out.outne i)) = seenAround r p (List.ofFn fun i => seen (out'.outne i))

theorem makes_around {inp : PFInputs NT NC NE NM} {inp' : PFInputs NT' NC' NE' NM'} {v : Variant} {out : PFOutputs NT NE NS NM}
    {out' : PFOutputs NT' NE' NS' NM'} {R : ℝ} {p : Dir} (hp : Packed inp) (hp' : Packed inp') (h : SameAround R p inp inp')
    (hv : Valid inp v) (hv' : Valid inp' v) (ho : Makes inp v out) (ho' : Makes inp' v out') : AroundAgrees R p out out' where
  charged r hR := by
    unfold chargedAround
    rw [around_eq, around_eq]
    refine filter_of_match (sameRank_inOrder (tkAround R p) inp.track inp'.track) (fun i hi => ?_) fun i hi => ?_
    · exact charged_imp hp hp' h hv hv' ho ho' hR (isAround_iff.mp hi).1 (isAround_iff.mp hi).2
    · obtain ⟨k, ⟨m, h1, h2⟩, h3⟩ := charged_imp hp' hp h.symm hv' hv ho' ho hR (isAround_iff.mp hi).1 (isAround_iff.mp hi).2
      exact ⟨k, ⟨m, h2, h1⟩, h3⟩
  photon r hR := by
    unfold seenAround
    rw [around_eq, around_eq]
    refine filter_of_match (emPair_inOrder hp hp' R p) (fun i hi => ?_) fun i hi => ?_
    · exact photon_imp hp hp' h hv ho ho' hR (isAround_iff.mp hi).1 (isAround_iff.mp hi).2
    · obtain ⟨k, h1, h3⟩ := photon_imp hp' hp h.symm hv' ho' ho hR (isAround_iff.mp hi).1 (isAround_iff.mp hi).2
      refine ⟨k, ?_, h3⟩
      rcases h1 with ⟨m, h1, h2⟩ | h1
      · exact .inl ⟨m, h2, h1⟩
      · exact .inr h1.symm
  muon r hR := by
    unfold chargedAround
    rw [around_eq, around_eq]
    refine filter_of_match (sameRank_inOrder (muAround R p) inp.mu inp'.mu) (fun i hi => ?_) fun i hi => ?_
    · exact muon_imp hp hp' h ho ho' hR (isAround_iff.mp hi).1 (isAround_iff.mp hi).2
    · obtain ⟨k, ⟨m, h1, h2⟩, h3⟩ := muon_imp hp' hp h.symm ho' ho hR (isAround_iff.mp hi).1 (isAround_iff.mp hi).2
      exact ⟨k, ⟨m, h2, h1⟩, h3⟩
  neutral r hR hf hf' := by
    have free : ∀ {n : Nat} {o : Fin n → PFNeutralObj}, (∃ i, (o i).hwPt = 0) → ∃ x ∈ List.ofFn (fun i => seen (o i)), x.1 = 0 := by
      rintro n o ⟨i, hi⟩
      exact ⟨seen (o i), List.mem_ofFn.mpr ⟨i, rfl⟩, by rw [seen_fst, hi]; rfl⟩
    have f := free hf
    have f' := free hf'
    rw [ho.neutral] at f ⊢
    rw [ho'.neutral] at f' ⊢
    rw [around_fit (neutralsByPt_ne _) f, around_fit (neutralsByPt_ne _) f', around_neutralsByPt, around_neutralsByPt]
    congr 2
    unfold seenAround
    rw [around_eq, around_eq]
    refine filter_of_match (sameRank_inOrder (hadAround R p) inp.hadcalo inp'.hadcalo) (fun i hi => ?_) fun i hi => ?_
    · exact cand_imp hp hp' h hv hv' hR (isAround_iff.mp hi).1 (isAround_iff.mp hi).2
    · obtain ⟨k, ⟨m, h1, h2⟩, h3⟩ := cand_imp hp' hp h.symm hv' hv hR (isAround_iff.mp hi).1 (isAround_iff.mp hi).2
      exact ⟨k, ⟨m, h2, h1⟩, h3⟩

/-- **C91.** Firmware: what comes out around a point depends on what goes in around it, whatever the slots, the sizes of the arrays
and the rest of the event. -/
theorem C91_around (inp : PFInputs NT NC NE NM) (inp' : PFInputs NT' NC' NE' NM') (hp : Packed inp) (hp' : Packed inp') {R : ℝ} {p : Dir}
    (h : SameAround R p inp inp') (hv : Valid inp fwVariant) (hv' : Valid inp' fwVariant) (old : PFOutputs NT NE NS NM)
    (mem : PFScratch NC NS) (old' : PFOutputs NT' NE' NS' NM') (mem' : PFScratch NC' NS') :
    ∃ out out', pfalgo3_full inp old mem = .ok out ∧ pfalgo3_full inp' old' mem' = .ok out' ∧ AroundAgrees R p out out' := by
  obtain ⟨out, h1, h2⟩ := fw_makes inp hv old mem
  obtain ⟨out', h1', h2'⟩ := fw_makes inp' hv' old' mem'
  exact ⟨out, out', h1, h1', makes_around hp hp' h hv hv' h2 h2'⟩

/-- **C91** for the reference. -/
theorem C91_around_ref (inp : PFInputs NT NC NE NM) (inp' : PFInputs NT' NC' NE' NM') (hp : Packed inp) (hp' : Packed inp') {R : ℝ}
    {p : Dir} (h : SameAround R p inp inp') (hv : Valid inp refVariant) (hv' : Valid inp' refVariant) (old : PFOutputs NT NE NS NM)
    (mem : Arr NC PFNeutralObj) (old' : PFOutputs NT' NE' NS' NM') (mem' : Arr NC' PFNeutralObj) :
    ∃ out out', pfalgo3_full_ref inp old mem = .ok out ∧ pfalgo3_full_ref inp' old' mem' = .ok out' ∧ AroundAgrees R p out out' := by
  obtain ⟨out, h1, h2⟩ := ref_makes inp hp hv old mem
  obtain ⟨out', h1', h2'⟩ := ref_makes inp' hp' hv' old' mem'
  exact ⟨out, out', h1, h1', makes_around hp hp' h hv hv' h2 h2'⟩

/-! ### PUPPI -/

theorem sum_filter_map {A : Type} (P : A → Bool) (f : A → Int) (l : List A) (h : ∀ x ∈ l, P x = false → f x = 0) :
    ((l.filter P).map f).sum = (l.map f).sum := by
  induction l with
  | nil => rfl
  | cons a l ih =>
    have ih := ih fun x hx => h x (List.mem_cons_of_mem a hx)
    by_cases ha : P a
    · rw [List.filter_cons_of_pos ha, List.map_cons, List.map_cons, List.sum_cons, List.sum_cons, ih]
    · rw [List.filter_cons_of_neg ha, List.map_cons, List.sum_cons, ih, h a List.mem_cons_self (by simpa using ha), zero_add]

noncomputable def chAround (r : ℝ) (p : Dir) : PFChargedObj → Bool := isAround r p (·.hwPt = 0) fun o => (o.hwEta, o.hwPhi)
noncomputable def seAround (r : ℝ) (p : Dir) : Seen → Bool := isAround r p (·.1 = 0) fun o => (o.2.1, o.2.2.1)
noncomputable def puAround (r : ℝ) (p : Dir) : Seen × Pt → Bool := isAround r p (·.1.1 = 0) fun o => (o.1.2.1, o.1.2.2.1)

theorem chAround_iff {r : ℝ} {p : Dir} {o : PFChargedObj} : chAround r p o = true ↔ o.hwPt ≠ 0 ∧ gap p (o.hwEta, o.hwPhi) < r := by
  unfold chAround
  exact isAround_iff
theorem seAround_iff {r : ℝ} {p : Dir} {o : Seen} : seAround r p o = true ↔ o.1 ≠ 0 ∧ gap p (o.2.1, o.2.2.1) < r := by
  unfold seAround
  exact isAround_iff
theorem puAround_iff {r : ℝ} {p : Dir} {o : Seen × Pt} : puAround r p o = true ↔ o.1.1 ≠ 0 ∧ gap p (o.1.2.1, o.1.2.2.1) < r := by
  unfold puAround
  exact isAround_iff

theorem chargedAround_eq (r : ℝ) (p : Dir) (l : List PFChargedObj) : chargedAround r p l = l.filter (chAround r p) := rfl
theorem seenAround_eq (r : ℝ) (p : Dir) (l : List Seen) : seenAround r p l = l.filter (seAround r p) := rfl

/-- The sum of PUPPI is over the charged candidates around the neutral. -/
theorem puppiSum_around (ch : Fin NT → PFChargedObj) (Z0 : Z0) (ne : PFNeutralObj) {r : ℝ} {p : Dir} (hg : gap p (ne.hwEta, ne.hwPhi) < r) :
    puppiSum ch Z0 ne = ((chargedAround (r + Real.sqrt 8404) p (List.ofFn ch)).map
      fun c => if PuppiNear Z0 ne c then puppiTerm ne c else 0).sum := by
  unfold puppiSum
  rw [chargedAround_eq, sum_filter_map, List.map_ofFn, List.sum_ofFn]
  · rfl
  · intro c _ hc
    by_cases hz : c.hwPt = 0
    · exact puppiGuard_zero Z0 ne hz
    · refine if_neg fun hn => ?_
      have h2 := gap_le hn.2
      rw [gap_symm] at h2
      push_cast at h2
      have h3 := gap_triangle p (ne.hwEta, ne.hwPhi) (c.hwEta, c.hwPhi)
      have h4 : gap p (c.hwEta, c.hwPhi) < r + Real.sqrt 8404 := by linarith
      rw [chAround_iff.mpr ⟨hz, h4⟩] at hc
      exact absurd hc (by decide)

/-- What is seen of a neutral with its PUPPI pt. -/
def puppiSeen (o : PFNeutralObj) : Seen × Pt := (seen o, o.hwPtPuppi)

/-- Neutrals with their PUPPI pt within `r` of `p`. -/
noncomputable def puppiAround (r : ℝ) (p : Dir) (l : List (Seen × Pt)) : List (Seen × Pt) :=
  around r p (·.1.1 = 0) (fun o => (o.1.2.1, o.1.2.2.1)) l

theorem puppiAround_def (r : ℝ) (p : Dir) (l : List (Seen × Pt)) : puppiAround r p l = l.filter (puAround r p) := rfl

theorem puppiAround_eq (table : PuppiTable) (ch : Fin NT → PFChargedObj) (ne hw : Fin NN → PFNeutralObj) (Z0 : Z0)
    (h : ∀ n, hw n = { ne n with hwPtPuppi := reg 16 (puppiPt table (puppiSum ch Z0 (ne n)) (ne n).hwPt.toInt) }) {r : ℝ} {p : Dir} :
    puppiAround r p (List.ofFn fun n => puppiSeen (hw n)) = (seenAround r p (List.ofFn fun n => seen (ne n))).map fun s =>
      (s, reg 16 (puppiPt table (puppiSum ch Z0 { hwPt := 0, hwEta := s.2.1, hwPhi := s.2.2.1, hwId := 0, hwPtPuppi := 0 }) s.1)) := by
  rw [puppiAround_def, seenAround_eq, filter_ofFn, filter_ofFn, List.map_map]
  have es : ∀ n, seen (hw n) = seen (ne n) := fun n => by rw [h n]; rfl
  have e : slots (puAround r p) (fun n => puppiSeen (hw n)) = slots (seAround r p) fun n => seen (ne n) := by
    unfold slots
    refine List.filter_congr fun n _ => ?_
    show puAround r p (seen (hw n), (hw n).hwPtPuppi) = seAround r p (seen (ne n))
    rw [Bool.eq_iff_iff, puAround_iff, seAround_iff, es]
  rw [e]
  refine List.map_congr_left fun n hn => ?_
  have hz := (seAround_iff.mp (mem_slots.mp hn)).1
  show (seen (hw n), (hw n).hwPtPuppi) = _
  have e2 : seen (ne n) = ((ne n).hwPt.toInt, (ne n).hwEta, (ne n).hwPhi, (ne n).hwId) := if_neg fun e => hz (by rw [seen_fst, e]; rfl)
  rw [es, h n]
  simp only [Function.comp, e2]
  rw [puppiSum_pos ch Z0 (ne := { hwPt := 0, hwEta := (ne n).hwEta, hwPhi := (ne n).hwPhi, hwId := 0, hwPtPuppi := 0 }) (ne' := ne n) rfl rfl]

theorem puppiSum_agree {out : PFOutputs NT NE NS NM} {out' : PFOutputs NT' NE' NS' NM'} {R r : ℝ} {p : Dir} (ha : AroundAgrees R p out out')
    (hr : r + puppiReach ≤ R) (Z0 : Z0) (ne : PFNeutralObj) (hg : gap p (ne.hwEta, ne.hwPhi) < r) :
    puppiSum out.outch Z0 ne = puppiSum out'.outch Z0 ne := by
  have e : puppiReach = Real.sqrt 8404 + chargedReach := rfl
  have h := ha.charged (r + Real.sqrt 8404) (by linarith)
  exact (puppiSum_around out.outch Z0 ne hg).trans ((congrArg (fun l : List PFChargedObj =>
    (l.map fun c => if PuppiNear Z0 ne c then puppiTerm ne c else 0).sum) h).trans (puppiSum_around out'.outch Z0 ne hg).symm)

/-- **C91.** PUPPI after the firmware's particle flow: neutrals that are the same within `r` of the point have the same PUPPI pts there. -/
theorem C91_puppi (table : PuppiTable) (inp : PFInputs NT NC NE NM) (inp' : PFInputs NT' NC' NE' NM') (hp : Packed inp) (hp' : Packed inp')
    {R : ℝ} {p : Dir} (h : SameAround R p inp inp') (hv : Valid inp fwVariant) (hv' : Valid inp' fwVariant) (old : PFOutputs NT NE NS NM)
    (mem : PFScratch NC NS) (old' : PFOutputs NT' NE' NS' NM') (mem' : PFScratch NC' NS') (Z0 : Z0) :
    ∃ out out', pfalgo3_full inp old mem = .ok out ∧ pfalgo3_full inp' old' mem' = .ok out' ∧
      ∀ (ne : Arr NN PFNeutralObj) (ne' : Arr NN' PFNeutralObj), (∀ n, puppiSum out.outch Z0 (ne n) ≤ 2147483647) →
        (∀ n, puppiSum out'.outch Z0 (ne' n) ≤ 2147483647) →
        ∃ hw hw', simple_puppi_hw table out.outch ne Z0 = .ok hw ∧ simple_puppi_hw table out'.outch ne' Z0 = .ok hw' ∧
          ∀ r, r + puppiReach ≤ R →
            seenAround r p (List.ofFn fun n => seen (ne n)) = seenAround r p (List.ofFn fun n => seen (ne' n)) →
            puppiAround r p (List.ofFn fun n => puppiSeen (hw n)) = puppiAround r p (List.ofFn fun n => puppiSeen (hw' n)) := by
  obtain ⟨out, out', h1, h1', ha⟩ := C91_around inp inp' hp hp' h hv hv' old mem old' mem'
  refine ⟨out, out', h1, h1', fun ne ne' hf hf' => ?_⟩
  obtain ⟨hw, _, h2, _, h3⟩ := C22_puppi_agree table out.outch ne Z0 hf
  obtain ⟨hw', _, h2', _, h3'⟩ := C22_puppi_agree table out'.outch ne' Z0 hf'
  refine ⟨hw, hw', h2, h2', fun r hr he => ?_⟩
  rw [puppiAround_eq table out.outch ne hw Z0 fun n => (h3 n).1, puppiAround_eq table out'.outch ne' hw' Z0 fun n => (h3' n).1, he]
  refine List.map_congr_left fun s hs => ?_
  rw [seenAround_eq, List.mem_filter] at hs
  have hg := (seAround_iff.mp hs.2).2
  have e := puppiSum_agree ha hr Z0 { hwPt := 0, hwEta := s.2.1, hwPhi := s.2.2.1, hwId := 0, hwPtPuppi := 0 } hg
  exact congrArg (fun x => (s, reg 16 (puppiPt table x s.1))) e

theorem seen_merge (pho : Arr NE PFNeutralObj) (ne : Arr NS PFNeutralObj) :
    (List.ofFn fun n => seen (mergeNeutrals pho ne n)) = (List.ofFn fun c => seen (pho c)) ++ List.ofFn fun i => seen (ne i) := by
  rw [List.ofFn_add]
  refine congrArg₂ _ ?_ ?_
  · congr 1
    funext c
    unfold mergeNeutrals
    have h : (Fin.castLE (Nat.le_add_right NE NS) c).val < NE := c.isLt
    rw [dif_pos h]
    rfl
  · congr 1
    funext i
    unfold mergeNeutrals
    have h : ¬ (Fin.natAdd NE i).val < NE := by
      show ¬ NE + i.val < NE
      omega
    have e : (⟨(Fin.natAdd NE i).val - NE, by have := i.isLt; show NE + i.val - NE < NS; omega⟩ : Fin NS) = i :=
      Fin.ext (by show NE + i.val - NE = i.val; omega)
    rw [dif_neg h, e]
    rfl

/-- **C91.** Firmware particle flow, then firmware PUPPI on its photons and neutrals: what comes out around the point, with PUPPI pts,
depends on what goes in around it. -/
theorem C91_chain (table : PuppiTable) (inp : PFInputs NT NC NE NM) (inp' : PFInputs NT' NC' NE' NM') (hp : Packed inp) (hp' : Packed inp')
    {R : ℝ} {p : Dir} (h : SameAround R p inp inp') (hv : Valid inp fwVariant) (hv' : Valid inp' fwVariant) (old : PFOutputs NT NE NS NM)
    (mem : PFScratch NC NS) (old' : PFOutputs NT' NE' NS' NM') (mem' : PFScratch NC' NS') (Z0 : Z0) :
    ∃ out out', pfalgo3_full inp old mem = .ok out ∧ pfalgo3_full inp' old' mem' = .ok out' ∧
      ((∀ n, puppiSum out.outch Z0 (mergeNeutrals out.outpho out.outne n) ≤ 2147483647) →
        (∀ n, puppiSum out'.outch Z0 (mergeNeutrals out'.outpho out'.outne n) ≤ 2147483647) →
        (∃ i, (out.outne i).hwPt = 0) → (∃ i, (out'.outne i).hwPt = 0) →
        ∃ hw hw', simple_puppi_hw table out.outch (mergeNeutrals out.outpho out.outne) Z0 = .ok hw ∧
          simple_puppi_hw table out'.outch (mergeNeutrals out'.outpho out'.outne) Z0 = .ok hw' ∧
          ∀ r, r + puppiReach ≤ R →
            puppiAround r p (List.ofFn fun n => puppiSeen (hw n)) = puppiAround r p (List.ofFn fun n => puppiSeen (hw' n))) := by
  obtain ⟨out, out', h1, h1', hall⟩ := C91_puppi (NN := NE + NS) (NN' := NE' + NS') table inp inp' hp hp' h hv hv' old mem old' mem' Z0
  obtain ⟨o, o', g1, g1', ha⟩ := C91_around inp inp' hp hp' h hv hv' old mem old' mem'
  obtain rfl : o = out := Except.ok.inj (g1.symm.trans h1)
  obtain rfl : o' = out' := Except.ok.inj (g1'.symm.trans h1')
  refine ⟨o, o', h1, h1', fun hf hf' hz hz' => ?_⟩
  obtain ⟨hw, hw', h2, h2', h3⟩ := hall (mergeNeutrals o.outpho o.outne) (mergeNeutrals o'.outpho o'.outne) hf hf'
  refine ⟨hw, hw', h2, h2', fun r hr => h3 r hr ?_⟩
  have e1 : puppiReach = Real.sqrt 8404 + chargedReach := rfl
  have e2 : neutralReach = Real.sqrt 756 + chargedReach := rfl
  have e3 : chargedReach = Real.sqrt 756 + Real.sqrt 525 + photonReach := rfl
  have a1 : Real.sqrt 756 ≤ Real.sqrt 8404 := Real.sqrt_le_sqrt (by norm_num)
  have a2 := Real.sqrt_nonneg 8404
  have a3 := Real.sqrt_nonneg 756
  have a4 := Real.sqrt_nonneg 525
  rw [seen_merge, seen_merge, seenAround_eq, seenAround_eq, List.filter_append, List.filter_append]
  refine congrArg₂ _ ?_ ?_
  · exact ha.photon r (by linarith)
  · exact ha.neutral r (by linarith) hz hz'

/-! ### Examples -/

theorem gap_lt_nat {n : Nat} {p q : Dir} : gap p q < (n : ℝ) ↔ dist2 p.1 p.2 q.1 q.2 < (n : Int) ^ 2 := by
  unfold gap
  have h0 : (0 : ℝ) ≤ ((dist2 p.1 p.2 q.1 q.2 : ℤ) : ℝ) := by
    have : 0 ≤ dist2 p.1 p.2 q.1 q.2 := by unfold dist2; positivity
    exact_mod_cast this
  rw [Real.sqrt_lt h0 (by positivity)]
  constructor
  · intro h; exact_mod_cast h
  · intro h; exact_mod_cast h

theorem around_nat {A : Type} (n : Nat) (p : Dir) (null : A → Prop) [d : DecidablePred null] (pos : A → Dir) (l : List A) :
    around (n : ℝ) p null pos l = l.filter fun o => !(d o).decide && decide (dist2 p.1 p.2 (pos o).1 (pos o).2 < (n : Int) ^ 2) := by
  rw [around_eq]
  refine List.filter_congr fun o _ => ?_
  rw [Bool.eq_iff_iff, isAround_iff, Bool.and_eq_true, decide_eq_true_iff, gap_lt_nat]
  refine and_congr_left fun _ => ?_
  cases h : d o <;> simp [*]

/-- Two clusters, an EM cluster and two tracks near the origin. -/
def spot : PFInputs 3 2 2 1 where
  hadcalo := fun h => if h = 0 then ⟨60, 0, 0, 20, false⟩ else ⟨0, 0, 0, 0, false⟩
  track := fun t => if t = 0 then ⟨45, 1, 7, 0, 0, true⟩ else if t = 1 then ⟨10, 1, 0, 12, 0, true⟩ else ⟨0, 0, 0, 0, 0, false⟩
  emcalo := fun e => if e = 0 then ⟨20, 2, 1, 5⟩ else ⟨0, 0, 0, 0⟩
  mu := fun _ => ⟨8, 0, 3, 14⟩

/-- The same with more room, and with other objects far away in front of them. -/
def spotBig : PFInputs 4 3 4 2 where
  hadcalo := fun h => if h = 0 then ⟨400, 300, 10, 100, false⟩ else if h = 1 then ⟨60, 0, 0, 20, false⟩ else ⟨0, 0, 0, 0, false⟩
  track := fun t => if t = 0 then ⟨300, 1, 310, 0, 0, true⟩ else if t = 1 then ⟨45, 1, 7, 0, 0, true⟩ else if t = 2 then
    ⟨10, 1, 0, 12, 0, true⟩ else ⟨0, 0, 0, 0, 0, false⟩
  emcalo := fun e => if e = 0 then ⟨70, 2, 310, 5⟩ else if e = 1 then ⟨20, 2, 1, 5⟩ else ⟨0, 0, 0, 0⟩
  mu := fun m => if m = 0 then ⟨200, 0, 305, 0⟩ else ⟨8, 0, 3, 14⟩

theorem spot_around : SameAround (200 : Nat) (0, 0) spot spotBig where
  track := by rw [around_nat, around_nat]; decide +kernel
  had := by rw [around_nat, around_nat]; decide +kernel
  em := by rw [around_nat, around_nat]; decide +kernel
  mu := by rw [around_nat, around_nat]; decide +kernel

theorem spot_packed : Packed spot ∧ Packed spotBig := by
  constructor <;> constructor <;> decide

theorem spot_physical : Physical spot ∧ Physical spotBig := by
  constructor <;> constructor <;> decide

/-- **C91**, non-vacuity: the two events meet the hypotheses, and this is what comes out of them. -/
theorem C91_example :
    (SameAround (200 : Nat) (0, 0) spot spotBig ∧ (Packed spot ∧ Packed spotBig) ∧ Physical spot ∧ Physical spotBig) ∧
    (pfalgo3_full spot (old0 3 2 3 1) (mem0 2 3)).map (fun o => (List.ofFn fun t => ((o.outch t).hwPt.toInt, (o.outch t).hwId.toNat),
      List.ofFn fun i => (o.outne i).hwPt.toInt, List.ofFn fun i => (o.outpho i).hwPt.toInt, List.ofFn fun m => (o.outmu m).hwPt.toInt)) =
      .ok ([(45, 0), (10, 4), (0, 0)], [40, 0, 0], [20, 0], [10]) ∧
    (pfalgo3_full spotBig (old0 4 4 3 2) (mem0 3 3)).map (fun o => (List.ofFn fun t => ((o.outch t).hwPt.toInt, (o.outch t).hwId.toNat),
      List.ofFn fun i => (o.outne i).hwPt.toInt, List.ofFn fun i => (o.outpho i).hwPt.toInt, List.ofFn fun m => (o.outmu m).hwPt.toInt)) =
      .ok ([(300, 0), (45, 0), (10, 4), (0, 0)], [100, 40, 0], [0, 20, 0, 0], [0, 10]) :=
  ⟨⟨spot_around, spot_packed, spot_physical⟩, by decide +kernel, by decide +kernel⟩

/-- An EM cluster, a track and a calorimeter cluster near the origin, and something in the second EM slot. -/
def lastSlot (e : EmCaloObj) : PFInputs 1 1 2 0 where
  hadcalo := fun _ => ⟨100, 5, 0, 100, true⟩
  track := fun _ => ⟨100, 2, 1, 0, 0, true⟩
  emcalo := fun c => if c = 0 then ⟨100, 10, 5, 0⟩ else e
  mu := fun _ => ⟨0, 0, 0, 0⟩

/-- **C91.** The free EM slot is needed: with a full EM array the track is kept; with a free slot, which lies at the origin and takes the
track from the cluster, it is dropped and the cluster is a photon. -/
theorem C91_free_slot :
    SameAround (300 : Nat) (0, 0) (lastSlot ⟨20, 2, 400, 0⟩) (lastSlot ⟨0, 0, 0, 0⟩) ∧
    (pfalgo3_full (lastSlot ⟨20, 2, 400, 0⟩) (old0 1 2 1 0) (mem0 1 1)).map (fun o => ((o.outch 0).hwPt, (o.outpho 0).hwPt)) = .ok (100, 0) ∧
    (pfalgo3_full (lastSlot ⟨0, 0, 0, 0⟩) (old0 1 2 1 0) (mem0 1 1)).map (fun o => ((o.outch 0).hwPt, (o.outpho 0).hwPt)) = .ok (0, 100) := by
  refine ⟨⟨?_, ?_, ?_, ?_⟩, by decide +kernel, by decide +kernel⟩ <;> (rw [around_nat, around_nat]; decide +kernel)

end Verif
