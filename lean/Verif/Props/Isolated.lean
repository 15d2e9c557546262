import Verif.Spec.Isolated
import Verif.Props.ParticleList
import Verif.Props.PFPart
/-! # Isolated particles: property C109 -/
namespace Verif
open Spec
variable {NT NC NE NM NS nt nc ne nm ns : Nat}

/-! ### What is claimed -/

/-- Candidates of the event that are made of the part: exactly those of an event with nothing else (`Single`).  The neutral hadron is listed if
the list of neutrals has a free slot, or is long enough for all clusters. -/
structure IsolatedOne (p : PFInputs nt nc ne nm) (ft : Fin nt → Fin NT) (fe : Fin ne → Fin NE) (fm : Fin nm → Fin NM) (NC : Nat)
    (out : PFOutputs NT NE NS NM) : Prop where
  charged : (List.ofFn fun t => out.outch (ft t)).filter (fun x => decide (x.hwPt ≠ 0)) = (partSingle p).charged
  photons : (List.ofFn fun c => seen (out.outpho (fe c))).filter (fun x => decide (x.1 ≠ 0)) = (partSingle p).photons
  muons : (List.ofFn fun m => out.outmu (fm m)).filter (fun x => decide (x.hwPt ≠ 0)) = (partSingle p).muons
  neutrals : ((∃ i, (out.outne i).hwPt = 0) ∨ NC ≤ NS) → ∀ x ∈ (partSingle p).neutrals, x ∈ List.ofFn fun i => seen (out.outne i)

/-! ### An empty EM cluster away from everything -/

theorem circ_close {x y : EtaPhi} (h : circ x y ^ 2 < 784) : ∃ k : Int, -28 < x.toInt - y.toInt - 1024 * k ∧ x.toInt - y.toInt - 1024 * k < 28 := by
  have h1 : -28 < circ x y := by nlinarith
  have h2 : circ x y < 28 := by nlinarith
  have e := Int.bmod_add_bdiv (x.toInt - y.toInt) 1024
  unfold circ at h1 h2
  exact ⟨(x.toInt - y.toInt).bdiv 1024, by push_cast at e; omega, by push_cast at e; omega⟩

theorem exists_away (a b : EtaPhi) : ∃ e : EtaPhi, 784 ≤ circ a e ^ 2 ∧ 784 ≤ circ e b ^ 2 := by
  by_contra hn
  have k (e : EtaPhi) : circ a e ^ 2 < 784 ∨ circ e b ^ 2 < 784 := by
    by_contra h
    exact hn ⟨e, by omega, by omega⟩
  have z0 : (0 : EtaPhi).toInt = 0 := by decide
  have z1 : (341 : EtaPhi).toInt = 341 := by decide
  have z2 : (682 : EtaPhi).toInt = -342 := by decide
  have p0 := @circ_close a 0
  have p1 := @circ_close a 341
  have p2 := @circ_close a 682
  have q0 := @circ_close 0 b
  have q1 := @circ_close 341 b
  have q2 := @circ_close 682 b
  rw [z0] at p0 q0
  rw [z1] at p1 q1
  rw [z2] at p2 q2
  rcases k 0 with k0 | k0 <;> rcases k 341 with k1 | k1 <;> rcases k 682 with k2 | k2
  · obtain ⟨x, hx⟩ := p0 k0; obtain ⟨y, hy⟩ := p1 k1; omega
  · obtain ⟨x, hx⟩ := p0 k0; obtain ⟨y, hy⟩ := p1 k1; omega
  · obtain ⟨x, hx⟩ := p0 k0; obtain ⟨y, hy⟩ := p2 k2; omega
  · obtain ⟨x, hx⟩ := q1 k1; obtain ⟨y, hy⟩ := q2 k2; omega
  · obtain ⟨x, hx⟩ := p1 k1; obtain ⟨y, hy⟩ := p2 k2; omega
  · obtain ⟨x, hx⟩ := q0 k0; obtain ⟨y, hy⟩ := q2 k2; omega
  · obtain ⟨x, hx⟩ := q0 k0; obtain ⟨y, hy⟩ := q1 k1; omega
  · obtain ⟨x, hx⟩ := q0 k0; obtain ⟨y, hy⟩ := q1 k1; omega

theorem exists_far (T : TkObj) (H : HadCaloObj) : ∃ C : EmCaloObj, C.hwPt = 0 ∧ C.hwPtErr = 0 ∧ 84 ≤ dist2 T.hwEta T.hwPhi C.hwEta C.hwPhi ∧
    525 ≤ dist2 C.hwEta C.hwPhi H.hwEta H.hwPhi := by
  obtain ⟨e, h1, h2⟩ := exists_away T.hwEta H.hwEta
  refine ⟨⟨0, 0, e, 0⟩, rfl, rfl, ?_, ?_⟩
  · show 84 ≤ circ T.hwEta e ^ 2 + circ T.hwPhi 0 ^ 2
    have := sq_nonneg (circ T.hwPhi 0)
    omega
  · show 525 ≤ circ e H.hwEta ^ 2 + circ 0 H.hwPhi ^ 2
    have := sq_nonneg (circ 0 H.hwPhi)
    omega

/-- Where the EM cluster would be does not matter if there is none. -/
theorem absent_em (s : Single) (C : EmCaloObj) (h0 : 0 ≤ s.p) (h1 : s.E = 0) (h2 : s.C.hwPtErr.toInt = 0) (h3 : C.hwPt.toInt = 0) (h4 : C.hwPtErr.toInt = 0) :
    ({ s with C := C } : Single).charged = s.charged ∧ ({ s with C := C } : Single).photons = s.photons ∧ ({ s with C := C } : Single).muons = s.muons ∧
      ({ s with C := C } : Single).neutrals = s.neutrals := by
  have key : ∀ r : Single, 0 ≤ r.p → r.E = 0 → r.C.hwPtErr.toInt = 0 → (r.p ≠ 0 → ¬ r.electron) ∧ r.photon = 0 ∧ r.sub = 0 := fun r a b c => by
    refine ⟨fun hp he => ?_, ?_, ?_⟩
    · obtain ⟨hn, hi⟩ := he
      have e : r.inEm = r.p := if_pos hn
      rcases hi with k | k | k
      · omega
      · omega
      · rw [c] at k
        have := sq_nonneg (r.E - r.inEm)
        omega
    · unfold Single.photon
      by_cases hp : r.inEm = 0
      · rw [if_pos hp, b]
      · have : r.inEm = r.p := by rcases one_inEm r with e | e; exact e; exact absurd e hp
        rw [if_neg hp, if_neg (by omega)]
    · unfold Single.sub
      rw [b]
      split <;> rfl
  obtain ⟨e1, p1, s1⟩ := key s h0 h1 h2
  obtain ⟨e2, p2, s2⟩ := key { s with C := C } h0 h3 h4
  have hr : ({ s with C := C } : Single).rest = s.rest := by
    have hno : ({ s with C := C } : Single).noise ↔ s.noise := by
      unfold Single.noise
      rw [s1, s2]
    unfold Single.rest
    rw [s1, s2]
    by_cases h : s.noise
    · rw [if_pos h, if_pos (hno.mpr h)]
    · rw [if_neg h, if_neg fun k => h (hno.mp k)]
  have hends : ({ s with C := C } : Single).ends ↔ s.ends := by
    unfold Single.ends
    rw [hr]
  have hn : ({ s with C := C } : Single).neutral = s.neutral := by
    unfold Single.neutral
    rw [hr]
    by_cases hp : s.p = 0
    · rw [if_neg fun h => h.2.2.2 hp, if_neg fun h => h.2.2.2 hp]
    · have a := e1 hp
      have b := e2 hp
      by_cases hx : s.ends ∧ ¬ s.mu
      · exact (if_pos ⟨hends.mpr hx.1, b, hx.2, hp⟩).trans (if_pos ⟨hx.1, a, hx.2, hp⟩).symm
      · exact (if_neg fun h => hx ⟨hends.mp h.1, h.2.2.1⟩).trans (if_neg fun h => hx ⟨h.1, h.2.2.1⟩).symm
  refine ⟨?_, ?_, rfl, ?_⟩
  · unfold Single.charged
    by_cases hp : s.p = 0
    · rw [if_neg fun h => h.1 hp, if_neg fun h => h.1 hp]
    · have a := e1 hp
      have b := e2 hp
      by_cases hk : s.kept
      · have hk' : ({ s with C := C } : Single).kept := by
          refine ⟨hp, ?_⟩
          rcases hk.2 with k | k | k | k
          · exact .inl k
          · exact absurd k a
          · exact .inr (.inr (.inl k))
          · exact .inr (.inr (.inr (hends.mpr k)))
        rw [if_pos hk, if_pos hk', if_neg a, if_neg b]
        rfl
      · have hk' : ¬ ({ s with C := C } : Single).kept := fun h => hk <| by
          refine ⟨hp, ?_⟩
          rcases h.2 with k | k | k | k
          · exact .inl k
          · exact absurd k b
          · exact .inr (.inr (.inl k))
          · exact .inr (.inr (.inr (hends.mp k)))
        rw [if_neg hk, if_neg hk']
  · unfold Single.photons
    rw [p1, p2, if_pos rfl, if_pos rfl]
  · unfold Single.neutrals
    rw [hn]

/-! ### Parts and their candidates -/

theorem nz_same {l l' : List PFChargedObj} (h : List.Forall₂ (fun x y : PFChargedObj => (x.hwPt ≠ 0 ∨ y.hwPt ≠ 0) → x = y) l l') :
    l.filter (fun x => decide (x.hwPt ≠ 0)) = l'.filter (fun x => decide (x.hwPt ≠ 0)) := by
  induction h with
  | nil => rfl
  | @cons x y l l' h _ ih =>
    rw [List.filter_cons, List.filter_cons, ih]
    by_cases hx : x.hwPt = 0
    · by_cases hy : y.hwPt = 0
      · simp [hx, hy]
      · exact absurd hx (by rw [h (.inr hy)]; exact hy)
    · obtain rfl := h (.inl hx)
      rfl

theorem part_lists {v : Variant} {inp : PFInputs NT NC NE NM} {p : PFInputs nt nc ne nm} {ft : Fin nt → Fin NT} {fh : Fin nc → Fin NC} {fe : Fin ne → Fin NE}
    {fm : Fin nm → Fin NM} (hp : Part v inp p ft fh fe fm) (ho : Ordered v p ft fh fe) (hem : ∀ c, 0 ≤ (inp.emcalo c).hwPt.toInt)
    {out : PFOutputs NT NE NS NM} {out' : PFOutputs nt ne ns nm} (hm : Makes inp v out) (hm' : Makes p v out') :
    (List.ofFn fun t => out.outch (ft t)).filter (fun x => decide (x.hwPt ≠ 0)) = (List.ofFn out'.outch).filter (fun x => decide (x.hwPt ≠ 0)) ∧
    (∀ c, seen (out.outpho (fe c)) = seen (out'.outpho c)) ∧ (∀ m, out.outmu (fm m) = out'.outmu m) ∧
    ∀ h, neutralSeen inp v (fh h) = neutralSeen p v h := by
  refine ⟨nz_same ?_, fun c => ?_, fun m => muOut_part hp ho m _ _ (hm.muon (fm m)) (hm'.muon m), neutralSeen_part hp ho hem⟩
  · rw [List.forall₂_iff_get]
    refine ⟨by simp, fun i h1 h2 hx => ?_⟩
    simp only [List.get_eq_getElem, List.getElem_ofFn] at hx ⊢
    have e := chargedOut_part hp ho hem ⟨i, by simpa using h2⟩
    rcases hx with hx | hx
    · have a := hm.charged _ hx
      rw [a, e] at hx ⊢
      exact (hm'.charged' _ hx).symm
    · have a := hm'.charged _ hx
      rw [a, ← e] at hx ⊢
      exact hm.charged' _ hx
  · have a := hm.photon (fe c)
    rw [photonPt_part hp ho, hp.em] at a
    exact (sameNeutral_iff _ _).mp (neutralOut_same a (hm'.photon c))

theorem ordered_one (v : Variant) (p : PFInputs nt nc ne nm) (h1 : nt ≤ 1) (h2 : nc ≤ 1) (h3 : ne ≤ 1) (ft : Fin nt → Fin NT) (fh : Fin nc → Fin NC)
    (fe : Fin ne → Fin NE) : Ordered v p ft fh fe where
  mu _ a b h := by have := a.isLt; have := b.isLt; have : a.val < b.val := h; omega
  em _ a b h := by have := a.isLt; have := b.isLt; have : a.val < b.val := h; omega
  had _ a b h := by have := a.isLt; have := b.isLt; have : a.val < b.val := h; omega
  calo _ a b h := by have := a.isLt; have := b.isLt; have : a.val < b.val := h; omega

/-- The event with these objects and no other slots. -/
def onlyEvent (s : Single) : PFInputs 1 1 1 1 where
  track := fun _ => s.T
  emcalo := fun _ => s.C
  hadcalo := fun _ => s.H
  mu := fun _ => s.M

theorem onlyEvent_one (s : Single) (h : s.p = 0 → s.err = 0) : OneEach (onlyEvent s) s 0 0 0 0 where
  T := rfl
  C := rfl
  H := rfl
  M := rfl
  track t ht := absurd (Subsingleton.elim _ _) ht
  em t ht := absurd (Subsingleton.elim _ _) ht
  had t ht := absurd (Subsingleton.elim _ _) ht
  mu t ht := absurd (Subsingleton.elim _ _) ht
  far _ c hc := absurd (Subsingleton.elim _ _) hc
  noTrack := h

theorem firstOr_eq {A : Type} (z : A) {n : Nat} (f : Fin n → A) (i : Fin n) (h : n ≤ 1) : firstOr z f = f i := by
  unfold firstOr
  have := i.isLt
  rw [dif_pos (by omega)]
  congr 1
  exact Fin.ext (by show 0 = i.val; omega)

theorem firstOr_none {A : Type} (z : A) (f : Fin 0 → A) : firstOr z f = z := rfl

theorem has_zero {n : Nat} (i : Fin n) (j : Fin 1) : Has (fun _ : Fin n => (0 : Fin 1)) j := ⟨i, Subsingleton.elim _ _⟩

theorem inj_one {n N : Nat} (h : n ≤ 1) (f : Fin n → Fin N) : Function.Injective f := fun a b _ => by
  apply Fin.ext; have := a.isLt; have := b.isLt; omega

/-- The part is a part of the event with its objects and empty slots. -/
theorem only_part (v : Variant) (p : PFInputs nt nc ne nm) (h1 : nt ≤ 1) (h2 : nc ≤ 1) (h3 : ne ≤ 1) (h4 : nm ≤ 1) (C : EmCaloObj)
    (hC : ∀ e, p.emcalo e = C) (hfar : ne = 0 → 84 ≤ dist2 (partSingle p).T.hwEta (partSingle p).T.hwPhi C.hwEta C.hwPhi ∧
      525 ≤ dist2 C.hwEta C.hwPhi (partSingle p).H.hwEta (partSingle p).H.hwPhi) :
    Part v (onlyEvent { partSingle p with C := C }) p (fun _ => 0) (fun _ => 0) (fun _ => 0) (fun _ => 0) := by
  have tk : ∀ t : Fin 1, Has (fun _ : Fin nt => (0 : Fin 1)) t ∨ (partSingle p).T = TkObj.clear := fun t => by
    rcases Nat.eq_zero_or_pos nt with h | h
    · subst h; exact .inr rfl
    · exact .inl (has_zero ⟨0, h⟩ t)
  have had : ∀ t : Fin 1, Has (fun _ : Fin nc => (0 : Fin 1)) t ∨ (partSingle p).H = HadCaloObj.clear := fun t => by
    rcases Nat.eq_zero_or_pos nc with h | h
    · subst h; exact .inr rfl
    · exact .inl (has_zero ⟨0, h⟩ t)
  have mu : ∀ t : Fin 1, Has (fun _ : Fin nm => (0 : Fin 1)) t ∨ (partSingle p).M = MuObj.clear := fun t => by
    rcases Nat.eq_zero_or_pos nm with h | h
    · subst h; exact .inr rfl
    · exact .inl (has_zero ⟨0, h⟩ t)
  have em : ∀ t : Fin 1, Has (fun _ : Fin ne => (0 : Fin 1)) t ∨ ne = 0 := fun t => by
    rcases Nat.eq_zero_or_pos ne with h | h
    · exact .inr h
    · exact .inl (has_zero ⟨0, h⟩ t)
  refine ⟨fun t => firstOr_eq _ _ t h1, fun t => firstOr_eq _ _ t h2, fun t => (hC t).symm, fun t => firstOr_eq _ _ t h4, inj_one h1 _, inj_one h2 _, inj_one h3 _,
    inj_one h4 _, fun m t _ => ?_, fun m t _ => ?_, fun t e hd => ?_, fun t e _ => ?_, fun e h _ => ?_, fun e h hd => ?_, fun t h _ => ?_, fun t h _ => ?_⟩
  · refine (tk t).imp_right fun e => ?_
    show (partSingle p).T.hwPt.toInt = 0
    rw [e]; decide
  · refine (mu m).imp_right fun e => ?_
    show (partSingle p).M.hwPt.toInt = 0
    rw [e]; decide
  · rcases em e with k | k
    · exact k
    · exact absurd hd (not_lt.mpr (hfar k).1)
  · refine (tk t).imp_right fun e => ?_
    show (partSingle p).T.hwPt.toInt = 0
    rw [e]; decide
  · refine (had h).imp_right fun e => ?_
    show (partSingle p).H.hwEmPt.toInt = 0
    rw [e]; decide
  · rcases em e with k | k
    · exact .inl k
    · exact absurd hd (not_lt.mpr (hfar k).2)
  · refine (had h).imp_right fun e => ?_
    show (partSingle p).H.hwPt.toInt = 0
    rw [e]; decide
  · refine (tk t).imp_right fun e => ?_
    show (partSingle p).T.hwPt.toInt = 0 ∧ (partSingle p).T.hwPtErr.toInt = 0
    rw [e]; decide

theorem ofFn_one {A : Type} {n : Nat} (i : Fin n) (h : n ≤ 1) (f : Fin n → A) : List.ofFn f = [f i] := by
  have := i.isLt
  obtain rfl : n = 1 := by omega
  rw [List.ofFn_succ, List.ofFn_zero]
  congr 2
  exact Subsingleton.elim _ _

theorem isolated_neutral {v : Variant} {inp : PFInputs NT NC NE NM} {p : PFInputs nt nc ne nm} {ft : Fin nt → Fin NT} {fh : Fin nc → Fin NC} {fe : Fin ne → Fin NE}
    {fm : Fin nm → Fin NM} (hp : Part v inp p ft fh fe fm) (h1 : nt ≤ 1) (h2 : nc ≤ 1) (h3 : ne ≤ 1)
    (hem : ∀ c, 0 ≤ (inp.emcalo c).hwPt.toInt) (hg : (partSingle p).Good) {s : Single}
    (hs : Part v (onlyEvent s) p (fun _ => 0) (fun _ => 0) (fun _ => 0) (fun _ => 0)) (hsg : s.Good) (ht : s.p = 0 → s.err = 0)
    (g4 : s.neutrals = (partSingle p).neutrals) {out1 : PFOutputs 1 1 1 1} (hm1 : Makes (onlyEvent s) v out1) :
    (List.ofFn fun h => neutralSeen inp v (fh h)).filter (fun x => decide (x.1 ≠ 0)) = (partSingle p).neutrals := by
  have O := onlyEvent_one s ht
  have M := makesOne O (one_em_nonneg O hsg) hm1
  have a4 := neutralSeen_part hp (ordered_one v p h1 h2 h3 ft fh fe) hem
  have b4 := neutralSeen_part hs (ordered_one v p h1 h2 h3 _ _ _) (one_em_nonneg O hsg)
  have one1 {A : Type} (f : Fin 1 → A) : List.ofFn f = [f 0] := ofFn_one 0 le_rfl f
  rcases Nat.eq_zero_or_pos nc with h | h
  · subst h
    have hq : (partSingle p).q = 0 := show HadCaloObj.clear.hwPt.toInt = 0 by decide
    have hr0 : (partSingle p).rest = 0 := by
      refine if_pos (.inl ?_)
      have : 0 ≤ (partSingle p).sub := by unfold Single.sub; have := hg.E; split <;> omega
      omega
    have hn : (partSingle p).neutral = 0 := by
      rw [show (partSingle p).neutral = (partSingle p).rest from if_neg fun k => by have := k.1.1; omega, hr0]
    rw [show (partSingle p).neutrals = [] from if_pos hn]
    rfl
  · have e : neutralSeen inp v (fh ⟨0, h⟩) = neutralSeen (onlyEvent s) v 0 := (a4 _).trans (b4 ⟨0, h⟩).symm
    have hlist : fit 1 (neutralsByPt (neutralSeen (onlyEvent s) v)) = fit 1 s.neutrals := hm1.neutral.symm.trans M.neutrals
    have hlen : s.neutrals.length ≤ 1 := by unfold Single.neutrals; split <;> simp
    have hnz : ∀ y ∈ s.neutrals, y.1 ≠ 0 := fun y hy => by
      unfold Single.neutrals at hy
      split at hy
      · exact absurd hy (by simp)
      · rw [List.mem_singleton.mp hy]; assumption
    have hl := congrArg (List.filter fun y : Seen => decide (y.1 ≠ 0)) hlist
    rw [fit_filter (neutralsByPt_length _) (neutralsByPt_ne _), fit_filter hlen hnz] at hl
    have hp := neutralsByPt_perm (neutralSeen (onlyEvent s) v)
    rw [hl, one1] at hp
    rw [ofFn_one ⟨0, h⟩ h2, e, ← g4]
    rw [List.filter_cons, List.filter_nil] at hp ⊢
    split
    · next hc =>
      rw [if_pos hc] at hp
      exact (List.perm_singleton.mp hp).symm
    · next hc =>
      rw [if_neg hc] at hp
      exact (List.perm_nil.mp hp).symm

theorem neutrals_room {v : Variant} {inp : PFInputs NT NC NE NM} {out : PFOutputs NT NE NS NM} (hm : Makes inp v out)
    (hroom : (∃ i, (out.outne i).hwPt = 0) ∨ NC ≤ NS) : (neutralsByPt (neutralSeen inp v)).length ≤ NS := by
  rcases hroom with ⟨i, hi⟩ | hN
  · by_contra hgt
    have hz : ∀ y ∈ fit NS (neutralsByPt (neutralSeen inp v)), y.1 ≠ 0 := fun y hy => by
      unfold fit at hy
      rw [List.take_append_of_le_length (by omega)] at hy
      exact neutralsByPt_ne _ y (List.mem_of_mem_take hy)
    rw [← hm.neutral] at hz
    refine hz (seen (out.outne i)) ((List.mem_ofFn' _ _).mpr ⟨i, rfl⟩) ?_
    rw [seen_fst, hi]
    decide
  · exact (neutralsByPt_length _).trans hN

theorem isolated_core {v : Variant} {inp : PFInputs NT NC NE NM} {p : PFInputs nt nc ne nm} {ft : Fin nt → Fin NT} {fh : Fin nc → Fin NC} {fe : Fin ne → Fin NE}
    {fm : Fin nm → Fin NM} (hp : Part v inp p ft fh fe fm) (h1 : nt ≤ 1) (h2 : nc ≤ 1) (h3 : ne ≤ 1) (h4 : nm ≤ 1)
    (hem : ∀ c, 0 ≤ (inp.emcalo c).hwPt.toInt) (hg : (partSingle p).Good) {s : Single}
    (hs : Part v (onlyEvent s) p (fun _ => 0) (fun _ => 0) (fun _ => 0) (fun _ => 0)) (hsg : s.Good) (ht : s.p = 0 → s.err = 0)
    (hsame : s.charged = (partSingle p).charged ∧ s.photons = (partSingle p).photons ∧ s.muons = (partSingle p).muons ∧ s.neutrals = (partSingle p).neutrals)
    {out : PFOutputs NT NE NS NM} {out' : PFOutputs nt ne ns nm} {out1 : PFOutputs 1 1 1 1} (hm : Makes inp v out) (hm' : Makes p v out')
    (hm1 : Makes (onlyEvent s) v out1) : IsolatedOne p ft fe fm NC out := by
  have ho := ordered_one v p h1 h2 h3 ft fh fe
  have O := onlyEvent_one s ht
  have M := makesOne O (one_em_nonneg O hsg) hm1
  obtain ⟨a1, a2, a3, a4⟩ := part_lists hp ho hem hm hm'
  obtain ⟨b1, b2, b3, b4⟩ := part_lists hs (ordered_one v p h1 h2 h3 _ _ _) (one_em_nonneg O hsg) hm1 hm'
  obtain ⟨g1, g2, g3, g4⟩ := hsame
  have one1 {A : Type} (f : Fin 1 → A) : List.ofFn f = [f 0] := ofFn_one 0 le_rfl f
  refine ⟨?_, ?_, ?_, ?_⟩
  · rw [a1, ← b1, ← g1, ← M.charged]
    rcases Nat.eq_zero_or_pos nt with h | h
    · subst h
      have : s.charged = [] := g1.trans (if_neg fun k => k.1 (show TkObj.clear.hwPt.toInt = 0 by decide))
      rw [M.charged, this]
      rfl
    · rw [ofFn_one ⟨0, h⟩ h1]
      unfold chargedList
      rw [one1]
  · rw [show (fun c => seen (out.outpho (fe c))) = fun c => seen (out1.outpho 0) from funext fun c => (a2 c).trans (b2 c).symm, ← g2, ← M.photons]
    rcases Nat.eq_zero_or_pos ne with h | h
    · subst h
      have : s.photons = [] := g2.trans (if_pos (by
        unfold Single.photon
        have hE : (partSingle p).E = 0 := show EmCaloObj.clear.hwPt.toInt = 0 by decide
        rw [hE]
        split
        · rfl
        · have := hg.p
          rcases one_inEm (partSingle p) with e | e <;> rw [if_neg (by omega)]))
      rw [M.photons, this]
      rfl
    · rw [ofFn_one ⟨0, h⟩ h3, one1]
  · rw [show (fun m => out.outmu (fm m)) = fun m => out1.outmu 0 from funext fun m => (a3 m).trans (b3 m).symm, ← g3, ← M.muons]
    rcases Nat.eq_zero_or_pos nm with h | h
    · subst h
      have : s.muons = [] := g3.trans (if_neg fun k => absurd k.1 (show ¬ 0 < MuObj.clear.hwPt.toInt by decide))
      rw [M.muons, this]
      rfl
    · rw [ofFn_one ⟨0, h⟩ h4]
      unfold muonList
      rw [one1]
  · intro hroom x hx
    rw [← isolated_neutral hp h1 h2 h3 hem hg hs hsg ht g4 hm1, List.mem_filter] at hx
    obtain ⟨⟨h, e⟩, hx0⟩ := And.imp_left (List.mem_ofFn' _ _).mp hx
    have hmem : x ∈ neutralsByPt (neutralSeen inp v) := by
      rw [(neutralsByPt_perm _).mem_iff, List.mem_filter]
      exact ⟨(List.mem_ofFn' _ _).mpr ⟨_, e⟩, hx0⟩
    have hL := neutrals_room hm hroom
    rw [hm.neutral]
    unfold fit
    rw [List.take_append]
    exact List.mem_append_left _ (by rw [List.take_of_length_le hL]; exact hmem)

theorem ref_makes_empty (inp : PFInputs NT NC NE NM) (hv : Valid inp refVariant) (hempty : ∀ t, (inp.track t).hwPt.toInt = 0 → (inp.track t).hwPtErr.toInt = 0)
    (old : PFOutputs NT NE NS NM) (mem : Arr NC PFNeutralObj) : ∃ out, pfalgo3_full_ref inp old mem = .ok out ∧ Makes inp refVariant out := by
  obtain ⟨out, n, h1, hch, hch0, hpho, hmu, hne, hsort⟩ := ref_meets_spec inp old mem hv hempty
  refine ⟨out, h1, fun t h => ?_, fun t h => ?_, hpho, hmu, ?_⟩
  · refine hch t (lt_of_le_of_ne (hv.trackPt t) fun e => h (hch0 t e.symm))
  · refine hch t (lt_of_le_of_ne (hv.trackPt t) fun e => h ?_)
    rw [(chargedOut_pt h).1]
    exact pt_zero' e.symm
  · rw [hsort, ← ptsort_eq]
    exact outne_fit hv _ hne

/-- The objects of the part, with an EM cluster out of the way if the part has none. -/
theorem part_with (v : Variant) (p : PFInputs nt nc ne nm) (h1 : nt ≤ 1) (h2 : nc ≤ 1) (h3 : ne ≤ 1) (h4 : nm ≤ 1) (hg : (partSingle p).Good) :
    ∃ C, Part v (onlyEvent { partSingle p with C := C }) p (fun _ => 0) (fun _ => 0) (fun _ => 0) (fun _ => 0) ∧ ({ partSingle p with C := C } : Single).Good ∧
      ({ partSingle p with C := C } : Single).charged = (partSingle p).charged ∧ ({ partSingle p with C := C } : Single).photons = (partSingle p).photons ∧
      ({ partSingle p with C := C } : Single).muons = (partSingle p).muons ∧ ({ partSingle p with C := C } : Single).neutrals = (partSingle p).neutrals := by
  rcases Nat.eq_zero_or_pos ne with h | h
  · subst h
    obtain ⟨C, c1, c2, c3, c4⟩ := exists_far (partSingle p).T (partSingle p).H
    refine ⟨C, only_part v p h1 h2 h3 h4 C (fun e => e.elim0) fun _ => ⟨c3, c4⟩, ⟨hg.p, hg.err, ?_, ?_, hg.q, hg.em⟩,
      absent_em (partSingle p) C hg.p (show EmCaloObj.clear.hwPt.toInt = 0 by decide) (show EmCaloObj.clear.hwPtErr.toInt = 0 by decide) (by rw [c1]; decide) (by rw [c2]; decide)⟩
    · show 0 ≤ C.hwPt.toInt
      rw [c1]; decide
    · show C.hwPtErr.toInt ^ 2 ≤ 536870911
      rw [c2]; decide
  · exact ⟨(partSingle p).C, only_part v p h1 h2 h3 h4 _ (fun e => (firstOr_eq _ _ e h3).symm) (fun e => absurd e (by omega)), hg, rfl, rfl, rfl, rfl⟩

theorem part_err {p : PFInputs nt nc ne nm} (h1 : nt ≤ 1) (hempty : ∀ t, (p.track t).hwPt.toInt = 0 → (p.track t).hwPtErr.toInt = 0) :
    (partSingle p).p = 0 → (partSingle p).err = 0 := by
  rcases Nat.eq_zero_or_pos nt with h | h
  · subst h
    exact fun _ => show TkObj.clear.hwPtErr.toInt = 0 by decide
  · have e : (partSingle p).T = p.track ⟨0, h⟩ := firstOr_eq _ _ _ h1
    unfold Single.p Single.err
    rw [e]
    exact hempty _

theorem isolated_fw {inp : PFInputs NT NC NE NM} {p : PFInputs nt nc ne nm} {ft : Fin nt → Fin NT} {fh : Fin nc → Fin NC} {fe : Fin ne → Fin NE}
    {fm : Fin nm → Fin NM} (hp : Part fwVariant inp p ft fh fe fm) (h1 : nt ≤ 1) (h2 : nc ≤ 1) (h3 : ne ≤ 1) (h4 : nm ≤ 1)
    (hv : Valid inp fwVariant) (hg : (partSingle p).Good) (hempty : ∀ t, (p.track t).hwPt.toInt = 0 → (p.track t).hwPtErr.toInt = 0)
    {out : PFOutputs NT NE NS NM} (m : Makes inp fwVariant out) : IsolatedOne p ft fe fm NC out ∧
      (List.ofFn fun h => neutralSeen inp fwVariant (fh h)).filter (fun x => decide (x.1 ≠ 0)) = (partSingle p).neutrals := by
  obtain ⟨C, c1, c2, c3⟩ := part_with fwVariant p h1 h2 h3 h4 hg
  have hv' := valid_part hp (ordered_one fwVariant p h1 h2 h3 ft fh fe) hv
  have ht : ({ partSingle p with C := C } : Single).p = 0 → ({ partSingle p with C := C } : Single).err = 0 := part_err h1 hempty
  obtain ⟨out', -, m'⟩ := fw_makes (NS := 0) p hv' ⟨fun _ => ⟨0, 0, 0, 0, 0⟩, fun _ => ⟨0, 0, 0, 0, 0⟩, fun _ => ⟨0, 0, 0, 0, 0⟩, fun _ => ⟨0, 0, 0, 0, 0⟩⟩
    ⟨fun _ => ⟨0, 0, 0, 0, 0⟩, fun _ => ⟨0, 0, 0, 0, 0⟩⟩
  obtain ⟨out1, -, m1⟩ := fw_makes (NS := 1) (onlyEvent { partSingle p with C := C }) (one_valid (onlyEvent_one _ ht) c2 _)
    ⟨fun _ => ⟨0, 0, 0, 0, 0⟩, fun _ => ⟨0, 0, 0, 0, 0⟩, fun _ => ⟨0, 0, 0, 0, 0⟩, fun _ => ⟨0, 0, 0, 0, 0⟩⟩ ⟨fun _ => ⟨0, 0, 0, 0, 0⟩, fun _ => ⟨0, 0, 0, 0, 0⟩⟩
  exact ⟨isolated_core hp h1 h2 h3 h4 hv.emPt hg c1 c2 ht c3 m m' m1, isolated_neutral hp h1 h2 h3 hv.emPt hg c1 c2 ht c3.2.2.2 m1⟩

theorem isolated_ref {inp : PFInputs NT NC NE NM} {p : PFInputs nt nc ne nm} {ft : Fin nt → Fin NT} {fh : Fin nc → Fin NC} {fe : Fin ne → Fin NE}
    {fm : Fin nm → Fin NM} (hp : Part refVariant inp p ft fh fe fm) (h1 : nt ≤ 1) (h2 : nc ≤ 1) (h3 : ne ≤ 1) (h4 : nm ≤ 1)
    (hv : Valid inp refVariant) (hg : (partSingle p).Good) (hempty : ∀ t, (p.track t).hwPt.toInt = 0 → (p.track t).hwPtErr.toInt = 0)
    {out : PFOutputs NT NE NS NM} (m : Makes inp refVariant out) : IsolatedOne p ft fe fm NC out ∧
      (List.ofFn fun h => neutralSeen inp refVariant (fh h)).filter (fun x => decide (x.1 ≠ 0)) = (partSingle p).neutrals := by
  obtain ⟨C, c1, c2, c3⟩ := part_with refVariant p h1 h2 h3 h4 hg
  have hv' := valid_part hp (ordered_one refVariant p h1 h2 h3 ft fh fe) hv
  have ht : ({ partSingle p with C := C } : Single).p = 0 → ({ partSingle p with C := C } : Single).err = 0 := part_err h1 hempty
  obtain ⟨out', -, m'⟩ := ref_makes_empty (NS := 0) p hv' hempty ⟨fun _ => ⟨0, 0, 0, 0, 0⟩, fun _ => ⟨0, 0, 0, 0, 0⟩, fun _ => ⟨0, 0, 0, 0, 0⟩, fun _ => ⟨0, 0, 0, 0, 0⟩⟩
    (fun _ => ⟨0, 0, 0, 0, 0⟩)
  obtain ⟨out1, -, m1⟩ := ref_makes_one (NS := 1) (onlyEvent_one { partSingle p with C := C } ht) c2
    ⟨fun _ => ⟨0, 0, 0, 0, 0⟩, fun _ => ⟨0, 0, 0, 0, 0⟩, fun _ => ⟨0, 0, 0, 0, 0⟩, fun _ => ⟨0, 0, 0, 0, 0⟩⟩ (fun _ => ⟨0, 0, 0, 0, 0⟩)
  exact ⟨isolated_core hp h1 h2 h3 h4 hv.emPt hg c1 c2 ht c3 m m' m1, isolated_neutral hp h1 h2 h3 hv.emPt hg c1 c2 ht c3.2.2.2 m1⟩

/-- **C109.** In any event, at most one object of each kind with nothing else within the distance cuts of the links: the firmware makes of them
exactly the candidates of an event with nothing else. -/
theorem C109_isolated {inp : PFInputs NT NC NE NM} {p : PFInputs nt nc ne nm} {ft : Fin nt → Fin NT} {fh : Fin nc → Fin NC} {fe : Fin ne → Fin NE}
    {fm : Fin nm → Fin NM} (hp : Part fwVariant inp p ft fh fe fm) (h1 : nt ≤ 1) (h2 : nc ≤ 1) (h3 : ne ≤ 1) (h4 : nm ≤ 1)
    (hv : Valid inp fwVariant) (hg : (partSingle p).Good) (hempty : ∀ t, (p.track t).hwPt.toInt = 0 → (p.track t).hwPtErr.toInt = 0)
    (old : PFOutputs NT NE NS NM) (mem : PFScratch NC NS) :
    ∃ out, pfalgo3_full inp old mem = .ok out ∧ IsolatedOne p ft fe fm NC out := by
  obtain ⟨out, e, m⟩ := fw_makes inp hv old mem
  exact ⟨out, e, (isolated_fw hp h1 h2 h3 h4 hv hg hempty m).1⟩

/-- **C109** for the reference: the same. -/
theorem C109_isolated_ref {inp : PFInputs NT NC NE NM} {p : PFInputs nt nc ne nm} {ft : Fin nt → Fin NT} {fh : Fin nc → Fin NC} {fe : Fin ne → Fin NE}
    {fm : Fin nm → Fin NM} (hp : Part refVariant inp p ft fh fe fm) (h1 : nt ≤ 1) (h2 : nc ≤ 1) (h3 : ne ≤ 1) (h4 : nm ≤ 1)
    (hv : Valid inp refVariant) (hg : (partSingle p).Good) (hempty : ∀ t, (inp.track t).hwPt.toInt = 0 → (inp.track t).hwPtErr.toInt = 0)
    (old : PFOutputs NT NE NS NM) (mem : Arr NC PFNeutralObj) :
    ∃ out, pfalgo3_full_ref inp old mem = .ok out ∧ IsolatedOne p ft fe fm NC out := by
  obtain ⟨out, e, m⟩ := ref_makes_empty inp hv hempty old mem
  exact ⟨out, e, (isolated_ref hp h1 h2 h3 h4 hv hg (fun t => hp.track t ▸ hempty (ft t)) m).1⟩

/-! ### A case -/

/-- A charged hadron with an excess in its cluster, an electron, a muon, a photon and an unmatched track, well apart. -/
def busy : PFInputs 4 3 3 2 where
  track := fun t => if t = 0 then ⟨120, 10, 0, 0, 1, true⟩ else if t = 1 then ⟨100, 8, 100, 0, 2, true⟩ else if t = 2 then ⟨60, 5, -100, 0, 3, true⟩ else ⟨40, 5, 0, 100, 4, false⟩
  hadcalo := fun h => if h = 0 then ⟨200, 5, 5, 30, false⟩ else if h = 1 then ⟨120, 102, 1, 110, true⟩ else ⟨0, 0, 0, 0, false⟩
  emcalo := fun e => if e = 0 then ⟨110, 12, 101, 1⟩ else if e = 1 then ⟨80, 8, 0, -100⟩ else ⟨0, 0, 200, 200⟩
  mu := fun m => if m = 0 then ⟨70, 0, -95, 3⟩ else ⟨0, 0, 0, 0⟩

/-- The charged hadron and its cluster. -/
def busyHadron : PFInputs 1 1 0 0 where
  track := fun _ => ⟨120, 10, 0, 0, 1, true⟩
  hadcalo := fun _ => ⟨200, 5, 5, 30, false⟩
  emcalo := fun e => e.elim0
  mu := fun m => m.elim0

/-- The hadron of this event meets the hypotheses, and this is what comes out of it. -/
theorem busy_hadron : Part fwVariant busy busyHadron (fun _ => 0) (fun _ => 0) (fun e => e.elim0) (fun m => m.elim0) ∧ Physical busy ∧ (partSingle busyHadron).Good ∧
    (partSingle busyHadron).charged = [⟨120, 0, 0, 0, 1⟩] ∧ (partSingle busyHadron).neutrals = [(80, 5, 5, 1)] := by
  refine ⟨?_, ?_, ?_, by decide +kernel, by decide +kernel⟩
  · constructor <;> decide
  · constructor <;> decide
  · constructor <;> decide

example (old : PFOutputs 4 3 3 2) (mem : PFScratch 3 3) : ∃ out, pfalgo3_full busy old mem = .ok out ∧ out.outch 0 = ⟨120, 0, 0, 0, 1⟩ ∧
    (80, 5, 5, 1) ∈ List.ofFn fun i => seen (out.outne i) := by
  obtain ⟨k1, k2, k3, k4, k5⟩ := busy_hadron
  obtain ⟨out, e, h⟩ := C109_isolated (NS := 3) k1 (by decide) (by decide) (by decide) (by decide) (physical_valid _ k2 _) k3 (by decide) old mem
  refine ⟨out, e, ?_, h.neutrals (.inr (by decide)) _ (by rw [k5]; simp)⟩
  have := h.charged
  rw [k4, ofFn_one 0 le_rfl, List.filter_cons] at this
  split at this
  · exact (List.cons.inj this).1
  · exact absurd this (by simp)

/-- The electron with both its clusters. -/
def busyElectron : PFInputs 1 1 1 0 where
  track := fun _ => ⟨100, 8, 100, 0, 2, true⟩
  hadcalo := fun _ => ⟨120, 102, 1, 110, true⟩
  emcalo := fun _ => ⟨110, 12, 101, 1⟩
  mu := fun m => m.elim0

theorem busy_electron : Part refVariant busy busyElectron (fun _ => 1) (fun _ => 1) (fun _ => 0) (fun m => m.elim0) ∧ Physical busy ∧
    (partSingle busyElectron).Good ∧ (partSingle busyElectron).charged = [⟨100, 100, 0, 3, 2⟩] ∧ (partSingle busyElectron).photons = [] := by
  refine ⟨?_, ?_, ?_, by decide +kernel, by decide +kernel⟩
  · constructor <;> decide
  · constructor <;> decide
  · constructor <;> decide

example (old : PFOutputs 4 3 3 2) (mem : Arr 3 PFNeutralObj) : ∃ out, pfalgo3_full_ref busy old mem = .ok out ∧ out.outch 1 = ⟨100, 100, 0, 3, 2⟩ ∧
    (out.outpho 0).hwPt = 0 := by
  obtain ⟨k1, k2, k3, k4, k5⟩ := busy_electron
  obtain ⟨out, e, h⟩ := C109_isolated_ref (NS := 3) k1 (by decide) (by decide) (by decide) (by decide) (physical_valid _ k2 _) k3 (by decide) old mem
  refine ⟨out, e, ?_, ?_⟩
  · have := h.charged
    rw [k4, ofFn_one 0 le_rfl, List.filter_cons] at this
    split at this
    · exact (List.cons.inj this).1
    · exact absurd this (by simp)
  · have := h.photons
    rw [k5, ofFn_one 0 le_rfl, List.filter_cons] at this
    split at this
    · exact absurd this (by simp)
    · rename_i hn
      by_contra hz
      refine hn (decide_eq_true fun e => hz ?_)
      unfold seen at e
      rw [if_neg hz] at e
      exact pt_zero' e

end Verif
