import Verif.Spec.Single
import Verif.Props.OneMoreMuonChain
import Verif.Props.Around
/-! # Events with at most one object of each kind: property C103 -/
namespace Verif
open Spec
variable {NT NC NE NM NS : Nat} {inp : PFInputs NT NC NE NM} {s : Single} {t0 : Fin NT} {c0 : Fin NE} {h0 : Fin NC} {m0 : Fin NM}

theorem firstMin_only {n : Nat} {P : Fin n → Prop} {f : Fin n → Int} {i0 : Fin n} (h : ∀ j, P j → j = i0) (i : Fin n) :
    FirstMin P f i ↔ i = i0 ∧ P i0 := by
  constructor
  · intro hi
    have := h i hi.1
    subst this
    exact ⟨rfl, hi.1⟩
  · rintro ⟨rfl, hp⟩
    refine ⟨hp, fun j hj => ?_⟩
    have := h j hj
    subst this
    exact ⟨le_refl _, fun hlt => absurd hlt (lt_irrefl _)⟩

theorem sum_only {n : Nat} (f : Fin n → Int) (i0 : Fin n) (h : ∀ i, i ≠ i0 → f i = 0) : ∑ i, f i = f i0 :=
  Finset.sum_eq_single i0 (fun i _ hi => h i hi) (fun hn => absurd (Finset.mem_univ _) hn)

theorem one_muMatch (H : OneEach inp s t0 c0 h0 m0) (m : Fin NM) (t : Fin NT) : MuMatch inp m t ↔ m = m0 ∧ t = t0 ∧ s.mu := by
  have hm : 0 < (inp.mu m).hwPt.toInt → m = m0 := fun h => by
    by_contra hn
    have := H.mu m hn
    omega
  have key : 0 < (inp.mu m).hwPt.toInt → ∀ t, muDist2 inp m t < 2101 ∧ muDpt inp m t < (inp.mu m).hwPt.toInt / 2 → t = t0 := fun hp t ht => by
    by_contra hn
    have h1 := (H.track t hn).1
    have h2 := ht.2
    unfold muDpt at h2
    rw [h1] at h2
    omega
  unfold MuMatch
  constructor
  · rintro ⟨hp, hf⟩
    obtain ⟨e, hc⟩ := (firstMin_only (key hp) t).mp hf
    have em := hm hp
    subst em
    subst e
    unfold muDist2 muDpt at hc
    rw [H.T, H.M] at hc
    rw [H.M] at hp
    exact ⟨rfl, rfl, hp, hc⟩
  · rintro ⟨rfl, rfl, hp, hc⟩
    have hp' : 0 < (inp.mu m).hwPt.toInt := by rw [H.M]; exact hp
    refine ⟨hp', (firstMin_only (key hp') t).mpr ⟨rfl, ?_⟩⟩
    unfold muDist2 muDpt
    rw [H.T, H.M]
    exact hc

theorem one_isMu (H : OneEach inp s t0 c0 h0 m0) (t : Fin NT) : IsMu inp t ↔ t = t0 ∧ s.mu :=
  ⟨fun ⟨m, hm⟩ => ((one_muMatch H m t).mp hm).2, fun h => ⟨m0, (one_muMatch H m0 t).mpr ⟨rfl, h⟩⟩⟩

theorem one_emMatch (H : OneEach inp s t0 c0 h0 m0) (hp : s.p ≠ 0) (c : Fin NE) : EmMatch inp t0 c ↔ c = c0 ∧ s.nearEm := by
  have e : ∀ c, tkEmDist2 inp t0 c = dist2 s.T.hwEta s.T.hwPhi (inp.emcalo c).hwEta (inp.emcalo c).hwPhi := fun c => by
    unfold tkEmDist2
    rw [H.T]
  have e0 : tkEmDist2 inp t0 c0 = dist2 s.T.hwEta s.T.hwPhi s.C.hwEta s.C.hwPhi := by rw [e, H.C]
  have far : ∀ c, c ≠ c0 → 84 ≤ tkEmDist2 inp t0 c ∨ tkEmDist2 inp t0 c0 < tkEmDist2 inp t0 c ∨ (tkEmDist2 inp t0 c0 = tkEmDist2 inp t0 c ∧ c0 < c) := fun c hc => by
    rw [e c, e0]
    exact H.far hp c hc
  unfold EmMatch Single.nearEm
  rw [one_isMu H, ← e0]
  constructor
  · rintro ⟨a, b, d⟩
    have hc : c = c0 := by
      by_contra hn
      rcases far c hn with f | f | ⟨f, g⟩
      · omega
      · have := d c0 (by omega)
        omega
      · have := (d c0 (by omega)).2 g
        omega
    subst hc
    exact ⟨rfl, fun h => a ⟨rfl, h⟩, b⟩
  · rintro ⟨rfl, b, d⟩
    refine ⟨fun h => b h.2, d, fun j hj => ?_⟩
    by_cases hn : j = c
    · subst hn
      exact ⟨le_refl _, fun h => absurd h (lt_irrefl _)⟩
    · rcases far j hn with f | f | ⟨f, g⟩
      · omega
      · exact ⟨le_of_lt f, fun _ => f⟩
      · exact ⟨le_of_eq f, fun h => absurd h (not_lt_of_gt g)⟩

theorem one_emTrackPt (H : OneEach inp s t0 c0 h0 m0) (c : Fin NE) : emTrackPt inp c = if c = c0 then s.inEm else 0 := by
  unfold emTrackPt
  rw [sum_only _ t0 fun t ht => by rw [(H.track t ht).1]; split <;> rfl]
  rw [H.T]
  by_cases hp : s.p = 0
  · have hp' : s.T.hwPt.toInt = 0 := hp
    unfold Single.inEm
    rw [hp, hp']
    simp
  · have e := one_emMatch H hp c
    unfold Single.inEm
    by_cases hc : c = c0
    · by_cases hn : s.nearEm
      · rw [if_pos (e.mpr ⟨hc, hn⟩), if_pos hc, if_pos hn]
      · rw [if_neg (fun h => hn (e.mp h).2), if_pos hc, if_neg hn]
    · rw [if_neg (fun h => hc (e.mp h).1), if_neg hc]

theorem one_isEM (H : OneEach inp s t0 c0 h0 m0) (c : Fin NE) : IsEM inp c ↔ c ≠ c0 ∨ s.isEM := by
  unfold IsEM emDiff emErr2
  rw [one_emTrackPt H]
  by_cases hc : c = c0
  · subst hc
    rw [if_pos rfl, H.C]
    unfold Single.isEM
    constructor
    · rintro (h | h | h)
      · exact .inr (.inl h)
      · exact .inr (.inr (.inl (by show _ < s.C.hwPt.toInt; omega)))
      · exact .inr (.inr (.inr ⟨by show s.C.hwPt.toInt < _; omega, h.2⟩))
    · rintro (h | h | h | h)
      · exact absurd rfl h
      · exact .inl h
      · exact .inr (.inl (by have h : _ < s.C.hwPt.toInt := h; omega))
      · exact .inr (.inr ⟨by have h : s.C.hwPt.toInt < _ := h.1; omega, h.2⟩)
  · rw [if_neg hc]
    exact ⟨fun _ => .inl hc, fun _ => .inl rfl⟩

theorem one_photonPt (H : OneEach inp s t0 c0 h0 m0) (c : Fin NE) : photonPt inp c = if c = c0 then s.photon else 0 := by
  unfold photonPt emDiff emErr2
  rw [one_emTrackPt H]
  by_cases hc : c = c0
  · subst hc
    rw [if_pos rfl, if_pos rfl, H.C]
    unfold Single.photon
    by_cases h0 : s.inEm = 0
    · rw [if_pos h0, if_pos h0]
    · rw [if_neg h0, if_neg h0]
      by_cases h1 : s.inEm < s.E
      · have h1' : 0 < s.C.hwPt.toInt - s.inEm := by have h1 : _ < s.C.hwPt.toInt := h1; omega
        simp only [h1, h1', true_and]
      · have h1' : ¬ 0 < s.C.hwPt.toInt - s.inEm := by have h1 : ¬ _ < s.C.hwPt.toInt := h1; omega
        simp only [h1, h1', false_and]
  · rw [if_neg hc, if_neg hc, if_pos rfl, H.em c hc]

theorem one_isEle (H : OneEach inp s t0 c0 h0 m0) (hp : s.p ≠ 0) : IsEle inp t0 ↔ s.electron := by
  unfold IsEle Single.electron
  constructor
  · rintro ⟨c, hc, he⟩
    obtain ⟨rfl, hn⟩ := (one_emMatch H hp c).mp hc
    exact ⟨hn, ((one_isEM H c).mp he).resolve_left fun h => h rfl⟩
  · rintro ⟨hn, he⟩
    exact ⟨c0, (one_emMatch H hp c0).mpr ⟨rfl, hn⟩, (one_isEM H c0).mpr (.inr he)⟩

theorem one_hadMatch (H : OneEach inp s t0 c0 h0 m0) (hem : ∀ c, 0 ≤ (inp.emcalo c).hwPt.toInt) (e : Fin NE) (h : Fin NC) :
    HadMatch inp e h ↔ h = h0 ∧ (inp.emcalo e).hwPt.toInt / 2 < s.H.hwEmPt.toInt ∧ emHadDist2 inp e h0 < 525 := by
  unfold HadMatch
  rw [firstMin_only (i0 := h0), H.H]
  intro j hj
  by_contra hn
  have := (H.had j hn).2
  have := hem e
  have := hj.1
  omega

theorem one_hadMatch0 (H : OneEach inp s t0 c0 h0 m0) (hem : ∀ c, 0 ≤ (inp.emcalo c).hwPt.toInt) (h : Fin NC) : HadMatch inp c0 h ↔ h = h0 ∧ s.inHad := by
  rw [one_hadMatch H hem]
  unfold Single.inHad emHadDist2
  rw [H.C, H.H]

theorem one_emSub (H : OneEach inp s t0 c0 h0 m0) (hem : ∀ c, 0 ≤ (inp.emcalo c).hwPt.toInt) (h : Fin NC) : emSub inp h = if h = h0 then s.sub else 0 := by
  unfold emSub
  rw [sum_only _ c0 fun c hc => by rw [H.em c hc]; split <;> rfl, H.C]
  unfold Single.sub
  have e1 := one_hadMatch0 H hem h
  have e2 : IsEM inp c0 ↔ s.isEM := (one_isEM H c0).trans ⟨fun h => h.resolve_left fun h => h rfl, .inr⟩
  by_cases hh : h = h0
  · rw [if_pos hh]
    have e3 : HadMatch inp c0 h ∧ IsEM inp c0 ↔ s.inHad ∧ s.isEM := by rw [e1, e2]; exact ⟨fun a => ⟨a.1.2, a.2⟩, fun a => ⟨⟨hh, a.1⟩, a.2⟩⟩
    by_cases hc : s.inHad ∧ s.isEM
    · rw [if_pos hc, if_pos (e3.mpr hc)]
    · rw [if_neg hc, if_neg (fun a => hc (e3.mp a))]
  · rw [if_neg hh, if_neg (fun a => hh (e1.mp a.1).1)]

/-- Protection makes no difference here: where it could apply nothing is subtracted. -/
theorem one_removed (H : OneEach inp s t0 c0 h0 m0) (v : Variant) (hem : ∀ c, 0 ≤ (inp.emcalo c).hwPt.toInt) : Removed inp v h0 ↔ s.noise := by
  unfold Removed Single.noise
  rw [one_emSub H hem, if_pos rfl, H.H]
  constructor
  · rintro (h | h)
    · exact .inl h
    · exact .inr ⟨h.1, h.2.1⟩
  · rintro (h | h)
    · exact .inl h
    · refine .inr ⟨h.1, h.2, ?_⟩
      rintro ⟨_, e, hm, hn⟩
      have hc : e = c0 := by
        by_contra hc
        exact hn ((one_isEM H e).mpr (.inl hc))
      subst hc
      have hi := ((one_hadMatch0 H hem h0).mp hm).2
      have hne : ¬ s.isEM := fun h => hn ((one_isEM H e).mpr (.inr h))
      have hs : s.sub = 0 := if_neg fun a => hne a.2
      have h2 := h.2
      rw [hs] at h2
      have h3 := hi.1
      have h4 := hem e
      rw [H.C] at h4
      have h3 : s.C.hwPt.toInt / 2 < s.H.hwEmPt.toInt := h3
      omega

theorem one_hadPt (H : OneEach inp s t0 c0 h0 m0) (v : Variant) (hem : ∀ c, 0 ≤ (inp.emcalo c).hwPt.toInt) (h : Fin NC) :
    hadPt inp v h = if h = h0 then s.rest else 0 := by
  by_cases hh : h = h0
  · subst hh
    unfold hadPt Single.rest
    rw [if_pos rfl]
    have e := one_removed H v hem
    by_cases hn : s.noise
    · rw [if_pos hn, if_pos (e.mpr hn)]
    · rw [if_neg hn, if_neg (fun a => hn (e.mp a)), one_emSub H hem, if_pos rfl, H.H]
  · rw [if_neg hh]
    unfold hadPt
    rw [one_emSub H hem, if_neg hh, (H.had h hh).1]
    split <;> rfl

theorem one_caloMatch (H : OneEach inp s t0 c0 h0 m0) (v : Variant) (hem : ∀ c, 0 ≤ (inp.emcalo c).hwPt.toInt) (h : Fin NC) :
    CaloMatch inp v t0 h ↔ h = h0 ∧ s.ends := by
  unfold CaloMatch
  rw [firstMin_only (i0 := h0)]
  · unfold Compatible tkHadDist2 Single.ends
    rw [one_hadPt H v hem, if_pos rfl, H.T, H.H]
  · intro j hj
    by_contra hn
    have := hj.1
    rw [one_hadPt H v hem, if_neg hn] at this
    omega

theorem one_link (H : OneEach inp s t0 c0 h0 m0) (v : Variant) (hem : ∀ c, 0 ≤ (inp.emcalo c).hwPt.toInt) (hp : s.p ≠ 0) (h : Fin NC) :
    HadronLink inp v t0 h ↔ h = h0 ∧ s.ends ∧ ¬ s.electron ∧ ¬ s.mu := by
  unfold HadronLink
  rw [one_caloMatch H v hem, one_isEle H hp, one_isMu H]
  constructor
  · rintro ⟨⟨a, b⟩, c, d⟩; exact ⟨a, b, c, fun h => d ⟨rfl, h⟩⟩
  · rintro ⟨a, b, c, d⟩; exact ⟨⟨a, b⟩, c, fun h => d h.2⟩

open Classical in
theorem one_neutralPt (H : OneEach inp s t0 c0 h0 m0) (v : Variant) (hem : ∀ c, 0 ≤ (inp.emcalo c).hwPt.toInt) (h : Fin NC) :
    neutralPt inp v h = if h = h0 then s.neutral else 0 := by
  have hpt : caloTrackPt inp v h = if HadronLink inp v t0 h then s.p else 0 := by
    unfold caloTrackPt
    rw [sum_only _ t0 fun t ht => by rw [(H.track t ht).1]; split <;> rfl, H.T]
  have her : caloTrackErr2 inp v h = if HadronLink inp v t0 h then s.err ^ 2 else 0 := by
    unfold caloTrackErr2
    rw [sum_only _ t0 fun t ht => by rw [(H.track t ht).2]; split <;> rfl, H.T]
  unfold neutralPt caloDiff
  rw [hpt, her, one_hadPt H v hem]
  by_cases hp : s.p = 0
  · rw [hp]
    have : s.neutral = s.rest := if_neg fun h => h.2.2.2 hp
    rw [this]
    simp
  · have e := one_link H v hem hp h
    by_cases hh : h = h0
    · rw [if_pos hh, if_pos hh]
      unfold Single.neutral
      by_cases hl : s.ends ∧ ¬ s.electron ∧ ¬ s.mu
      · have hl' : s.ends ∧ ¬ s.electron ∧ ¬ s.mu ∧ s.p ≠ 0 := ⟨hl.1, hl.2.1, hl.2.2, hp⟩
        have he := e.mpr ⟨hh, hl⟩
        rw [if_pos hl', if_pos he, if_pos he, if_neg hp]
        have : (0 < s.rest - s.p) ↔ s.p < s.rest := by omega
        simp only [this]
      · have hl' : ¬ (s.ends ∧ ¬ s.electron ∧ ¬ s.mu ∧ s.p ≠ 0) := fun a => hl ⟨a.1, a.2.1, a.2.2.1⟩
        have he : ¬ HadronLink inp v t0 h := fun a => hl (e.mp a).2
        rw [if_neg hl', if_neg he, if_pos rfl]
    · have he : ¬ HadronLink inp v t0 h := fun a => hh (e.mp a).1
      rw [if_neg hh, if_neg hh, if_neg he, if_pos rfl]

theorem one_chargedOut (H : OneEach inp s t0 c0 h0 m0) (v : Variant) (hem : ∀ c, 0 ≤ (inp.emcalo c).hwPt.toInt) (hp : s.p ≠ 0) :
    chargedOut inp v t0 = if s.kept then ⟨s.T.hwPt, s.T.hwEta, s.T.hwPhi, if s.electron then 3 else if s.mu then 4 else 0, s.T.hwZ0⟩ else ⟨0, 0, 0, 0, 0⟩ := by
  have hmu : IsMu inp t0 ↔ s.mu := (one_isMu H t0).trans ⟨fun h => h.2, fun h => ⟨rfl, h⟩⟩
  have hele := one_isEle H hp
  have hk : Kept inp v t0 ↔ s.kept := by
    unfold Kept Single.kept lowPt
    rw [hmu, hele, H.T]
    constructor
    · rintro (h | h | h | ⟨h', h⟩)
      · exact ⟨hp, .inl h⟩
      · exact ⟨hp, .inr (.inl h)⟩
      · exact ⟨hp, .inr (.inr (.inl h))⟩
      · exact ⟨hp, .inr (.inr (.inr ((one_caloMatch H v hem h').mp h).2))⟩
    · rintro ⟨_, h | h | h | h⟩
      · exact .inl h
      · exact .inr (.inl h)
      · exact .inr (.inr (.inl h))
      · exact .inr (.inr (.inr ⟨h0, (one_caloMatch H v hem h0).mpr ⟨rfl, h⟩⟩))
  unfold chargedOut
  by_cases h : s.kept
  · rw [if_pos h, if_pos (hk.mpr h), H.T]
    by_cases h1 : s.electron
    · rw [if_pos h1, if_pos (hele.mpr h1)]
    · rw [if_neg h1, if_neg (fun a => h1 (hele.mp a))]
      by_cases h2 : s.mu
      · rw [if_pos h2, if_pos (hmu.mpr h2)]
      · rw [if_neg h2, if_neg (fun a => h2 (hmu.mp a))]
  · rw [if_neg h, if_neg (fun a => h (hk.mp a))]

theorem filter_only {A : Type} {n : Nat} (f : Fin n → A) (P : A → Bool) (i0 : Fin n) (h : ∀ i, i ≠ i0 → P (f i) = false) :
    (List.ofFn f).filter P = if P (f i0) then [f i0] else [] := by
  rw [List.ofFn_eq_map, List.filter_map]
  have e : (List.finRange n).filter (P ∘ f) = if P (f i0) then [i0] else [] := by
    cases hp : P (f i0)
    · rw [if_neg (by decide)]
      refine List.filter_eq_nil_iff.mpr fun i _ => ?_
      by_cases hi : i = i0
      · subst hi; simp [hp]
      · simp [h i hi]
    · rw [if_pos rfl]
      have : (List.finRange n).filter (P ∘ f) = (List.finRange n).filter (· == i0) := by
        refine List.filter_congr fun i _ => ?_
        by_cases hi : i = i0
        · subst hi; simp [hp]
        · simp [h i hi, hi]
      rw [this, List.filter_beq, List.count_eq_one_of_mem (List.nodup_finRange n) (List.mem_finRange i0)]
      rfl
  rw [e]
  split <;> rfl

/-- What a run makes of an event with one object of each kind. -/
structure MakesOne (s : Single) (out : PFOutputs NT NE NS NM) : Prop where
  charged : chargedList out = s.charged
  photons : (List.ofFn fun c => seen (out.outpho c)).filter (fun x => decide (x.1 ≠ 0)) = s.photons
  muons : muonList out = s.muons
  neutrals : List.ofFn (fun i => seen (out.outne i)) = fit NS s.neutrals

theorem makesOne (H : OneEach inp s t0 c0 h0 m0) {v : Variant} (hem : ∀ c, 0 ≤ (inp.emcalo c).hwPt.toInt) {out : PFOutputs NT NE NS NM}
    (hm : Makes inp v out) : MakesOne s out where
  charged := by
    have hz : ∀ t, (inp.track t).hwPt.toInt = 0 → (out.outch t).hwPt = 0 := fun t h => by
      by_contra hn
      have e := hm.charged t hn
      rw [e] at hn
      rw [(chargedOut_pt hn).1] at hn
      exact hn (pt_zero' h)
    unfold chargedList
    rw [filter_only _ _ t0 fun t ht => by simpa using hz t (H.track t ht).1]
    by_cases hp : s.p = 0
    · have h0 := hz t0 (by rw [H.T]; exact hp)
      rw [if_neg (by simpa using h0)]
      exact (if_neg fun h => h.1 hp).symm
    · have e := one_chargedOut H v hem hp
      unfold Single.charged
      by_cases hk : s.kept
      · rw [if_pos hk] at e
        have hn : (chargedOut inp v t0).hwPt ≠ 0 := by rw [e]; exact fun h => hp (pt_toInt_zero.mpr h)
        rw [hm.charged' t0 hn, if_pos (by simpa using hn), if_pos hk, e]
      · rw [if_neg hk] at e
        have h0 : (out.outch t0).hwPt = 0 := by
          by_contra h'
          have e2 := hm.charged t0 h'
          rw [e2, e] at h'
          exact h' rfl
        rw [if_neg (by simpa using h0), if_neg hk]
  photons := by
    have hs : ∀ c, seen (out.outpho c) = if photonPt inp c = 0 then (0, 0, 0, 0) else (photonPt inp c, (inp.emcalo c).hwEta, (inp.emcalo c).hwPhi, 2) :=
      fun c => seen_made (hm.photon c)
    rw [filter_only _ _ c0 fun c hc => by rw [hs, one_photonPt H, if_neg hc]; rfl]
    rw [hs, one_photonPt H, if_pos rfl, H.C]
    unfold Single.photons
    by_cases h : s.photon = 0
    · simp [h]
    · simp [h]
  muons := by
    unfold muonList
    have hmu := hm.muon
    have hno : ∀ m, ¬ (m = m0 ∧ s.mu) → (out.outmu m).hwPt = 0 := fun m h => by
      rw [(hmu m).2 fun ⟨t, ht⟩ => h ⟨((one_muMatch H m t).mp ht).1, ((one_muMatch H m t).mp ht).2.2⟩]
    rw [filter_only _ _ m0 fun m h => by simpa using hno m fun a => h a.1]
    unfold Single.muons
    by_cases h : s.mu
    · have e := (hmu m0).1 t0 ((one_muMatch H m0 t0).mpr ⟨rfl, rfl, h⟩)
      have hp : s.T.hwPt ≠ 0 := fun h0 => by
        obtain ⟨a, _, b⟩ := h
        have : s.T.hwPt.toInt = 0 := by rw [h0]; decide
        have b : ((s.M.hwPt.toInt - s.T.hwPt.toInt).natAbs : Int) < s.M.hwPt.toInt / 2 := b
        omega
      rw [H.T] at e
      rw [if_pos h, e, if_pos (by simpa using hp)]
    · rw [if_neg h, if_neg (by simpa using hno m0 fun a => h a.2)]
  neutrals := by
    rw [hm.neutral]
    congr 1
    unfold neutralsByPt
    have hs : ∀ h, neutralSeen inp v h = if h = h0 then (if s.neutral = 0 then (0, 0, 0, 0) else (s.neutral, s.H.hwEta, s.H.hwPhi, 1)) else (0, 0, 0, 0) := fun h => by
      unfold neutralSeen
      rw [one_neutralPt H v hem]
      by_cases hh : h = h0
      · subst hh; simp only [if_true, H.H]
      · rw [if_neg hh, if_neg hh, if_pos rfl]
    rw [List.filter_reverse, filter_only _ _ h0 fun h hh => by rw [hs, if_neg hh]; rfl, hs, if_pos rfl]
    unfold Single.neutrals
    by_cases h : s.neutral = 0
    · simp [h]
    · simp [h]

theorem one_noGhosts (H : OneEach inp s t0 c0 h0 m0) (hv : ∀ t, 0 ≤ (inp.track t).hwPt.toInt) : noGhosts inp = inp := by
  have e : (noGhosts inp).track = inp.track := by
    funext t
    show { inp.track t with hwPtErr := if 0 < (inp.track t).hwPt.toInt then (inp.track t).hwPtErr else 0 } = inp.track t
    by_cases h : 0 < (inp.track t).hwPt.toInt
    · rw [if_pos h]
    · have h0 : (inp.track t).hwPt.toInt = 0 := by have := hv t; omega
      have he : (inp.track t).hwPtErr.toInt = 0 := by
        by_cases ht : t = t0
        · subst ht
          rw [H.T] at h0 ⊢
          exact H.noTrack h0
        · exact (H.track t ht).2
      rw [if_neg h, ← pt_zero' he]
  show { inp with track := (noGhosts inp).track } = inp
  rw [e]

theorem one_em_nonneg (H : OneEach inp s t0 c0 h0 m0) (hg : s.Good) (c : Fin NE) : 0 ≤ (inp.emcalo c).hwPt.toInt := by
  by_cases h : c = c0
  · rw [h, H.C]; exact hg.E
  · rw [H.em c h]

theorem one_inEm (s : Single) : s.inEm = s.p ∨ s.inEm = 0 := by
  unfold Single.inEm
  split
  · exact .inl rfl
  · exact .inr rfl

theorem toInt_max (x : Pt) : x.toInt ≤ 32767 := by
  have := @BitVec.toInt_lt 16 x
  omega

open Classical in
theorem one_valid (H : OneEach inp s t0 c0 h0 m0) (hg : s.Good) (v : Variant) : Valid inp v := by
  have hem := one_em_nonneg H hg
  have hmax := toInt_max s.T.hwPt
  have hmaxE := toInt_max s.C.hwPt
  refine ⟨⟨fun t => ?_, fun t => ?_, fun t => ?_, hem, fun h => ?_, fun h => ?_, fun c => ?_, fun h => ?_, fun h => ?_⟩, fun c hc => ?_, fun h => ?_⟩
  · by_cases h : t = t0
    · rw [h, H.T]; exact hg.p
    · rw [(H.track t h).1]
  · by_cases h : t = t0
    · rw [h, H.T]; exact hg.err.1
    · rw [(H.track t h).2]
  · by_cases h : t = t0
    · rw [h, H.T]
      have a : 0 ≤ s.T.hwPt.toInt := hg.p
      have b : s.T.hwPtErr.toInt ≤ 16384 := hg.err.2
      omega
    · rw [(H.track t h).2, (H.track t h).1]; decide
  · by_cases hh : h = h0
    · rw [hh, H.H]; exact hg.q
    · rw [(H.had h hh).1]
  · by_cases hh : h = h0
    · rw [hh, H.H]; exact hg.em
    · rw [(H.had h hh).2]
  · rw [one_emTrackPt H]
    split
    · rcases one_inEm s with e | e <;> rw [e]
      · exact hmax
      · decide
    · decide
  · rw [one_emSub H hem]
    split
    · unfold Single.sub
      split
      · exact hmaxE
      · decide
    · decide
  · unfold caloTrackPt
    rw [sum_only _ t0 fun t ht => by rw [(H.track t ht).1]; split <;> rfl, H.T]
    split
    · exact hmax
    · decide
  · rw [one_emTrackPt H] at hc
    have e : c = c0 := by
      by_contra hn
      rw [if_neg hn] at hc
      exact hc rfl
    unfold emErr2
    rw [e, H.C]
    have := hg.σ
    omega
  · unfold caloTrackErr2
    rw [sum_only _ t0 fun t ht => by rw [(H.track t ht).2]; split <;> rfl, H.T]
    split
    · have := hg.err
      have h2 : s.T.hwPtErr.toInt ^ 2 ≤ 16384 ^ 2 := by
        have a : 0 ≤ s.T.hwPtErr.toInt := hg.err.1
        have b : s.T.hwPtErr.toInt ≤ 16384 := hg.err.2
        exact pow_le_pow_left₀ a b 2
      omega
    · decide

/-- The firmware's candidates of an event with at most one object of each kind. -/
theorem C103_single (H : OneEach inp s t0 c0 h0 m0) (hg : s.Good) (old : PFOutputs NT NE NS NM) (mem : PFScratch NC NS) :
    ∃ out, pfalgo3_full inp old mem = .ok out ∧ MakesOne s out := by
  obtain ⟨out, h1, h2⟩ := fw_makes inp (one_valid H hg fwVariant) old mem
  exact ⟨out, h1, makesOne H (one_em_nonneg H hg) h2⟩

/-- And the reference's: the same. -/
theorem C103_single_ref (H : OneEach inp s t0 c0 h0 m0) (hg : s.Good) (old : PFOutputs NT NE NS NM) (mem : Arr NC PFNeutralObj) :
    ∃ out, pfalgo3_full_ref inp old mem = .ok out ∧ MakesOne s out := by
  have hv := one_valid H hg refVariant
  obtain ⟨out, n, h1, hch, hch0, hpho, hmu, hne, hsort⟩ := ref_meets_spec_all inp old mem hv
  rw [one_noGhosts H hv.trackPt] at hne
  refine ⟨out, h1, makesOne (v := refVariant) H hv.emPt ⟨fun t h => ?_, fun t h => ?_, hpho, hmu, ?_⟩⟩
  · refine hch t (lt_of_le_of_ne (hv.trackPt t) fun e => h (hch0 t e.symm))
  · refine hch t (lt_of_le_of_ne (hv.trackPt t) fun e => h ?_)
    rw [(chargedOut_pt h).1]
    exact pt_zero' e.symm
  · rw [hsort, ← ptsort_eq]
    exact outne_fit hv _ hne

/-! ### Particles -/

/-- A photon: an EM cluster, in a calorimeter cluster that holds it, and no track.  It comes out with its pt, and the calorimeter cluster
only if more than noise is left. -/
theorem C103_photon (s : Single) (hp : s.p = 0) (hin : s.inHad) :
    s.photon = s.E ∧ s.charged = [] ∧
      s.neutral = if 16 * (s.q - s.E) ≤ s.q ∨ (s.H.hwIsEM = true ∧ 8 * (s.H.hwEmPt.toInt - s.E) ≤ s.H.hwEmPt.toInt) then 0 else s.q - s.E := by
  have hk : s.inEm = 0 := by rcases one_inEm s with e | e <;> rw [e]; exact hp
  have hs : s.sub = s.E := if_pos ⟨hin, .inl hk⟩
  refine ⟨if_pos hk, if_neg fun h => h.1 hp, ?_⟩
  rw [show s.neutral = s.rest from if_neg fun h => h.2.2.2 hp]
  unfold Single.rest
  have e : s.noise ↔ 16 * (s.q - s.E) ≤ s.q ∨ (s.H.hwIsEM = true ∧ 8 * (s.H.hwEmPt.toInt - s.E) ≤ s.H.hwEmPt.toInt) := by
    unfold Single.noise
    rw [hs]
  simp only [e, hs]

/-- A charged hadron: a track and the calorimeter cluster it ends in, no EM cluster and no muon.  The track comes out; a neutral hadron with
the excess beside it if the excess is over √1.5 track errors. -/
theorem C103_charged_hadron (s : Single) (hp : 0 < s.p) (hE : s.E = 0) (hσ : s.C.hwPtErr.toInt = 0) (hmu : s.M.hwPt.toInt ≤ 0) (hq : s.q ≠ 0) (hq' : 0 ≤ s.q)
    (hem : s.H.hwIsEM = true → 0 < s.H.hwEmPt.toInt) (hpt : max 0 (s.p - 2 * s.err) < s.q)
    (hd : dist2 s.T.hwEta s.T.hwPhi s.H.hwEta s.H.hwPhi < 756) :
    s.photon = 0 ∧ s.charged = [⟨s.T.hwPt, s.T.hwEta, s.T.hwPhi, 0, s.T.hwZ0⟩] ∧ s.muons = [] ∧
      s.neutral = if s.p < s.q ∧ 3 * s.err ^ 2 < 2 * (s.q - s.p) ^ 2 then s.q - s.p else 0 := by
  have hnm : ¬ s.mu := fun h => absurd h.1 (by omega)
  have hne : ¬ s.electron := by
    rintro ⟨hn, he⟩
    have hi : s.inEm = s.p := if_pos hn
    rcases he with h | h | h
    · omega
    · omega
    · have h2 := h.2
      rw [hσ] at h2
      have := sq_nonneg (s.E - s.inEm)
      omega
  have hsub : s.sub = 0 := by unfold Single.sub; rw [hE]; split <;> rfl
  have hr : s.rest = s.q := by
    unfold Single.rest
    rw [if_neg]
    · omega
    · unfold Single.noise
      rw [hsub]
      rintro (h | h)
      · omega
      · have := hem h.1
        have := h.2
        omega
  have hends : s.ends := ⟨by rw [hr]; exact hpt, hd⟩
  refine ⟨?_, ?_, if_neg hnm, ?_⟩
  · unfold Single.photon
    rw [hE]
    split
    · rfl
    · refine if_neg fun h => ?_
      rcases one_inEm s with e | e <;> omega
  · unfold Single.charged
    rw [if_pos ⟨by omega, .inr (.inr (.inr hends))⟩, if_neg hne, if_neg hnm]
  · unfold Single.neutral
    rw [if_pos ⟨hends, hne, hnm, by omega⟩, hr]

/-- An electron: a track at an EM cluster.  The track comes out as an electron, and a photon with the excess if that is over √1.5 errors of the
cluster; together they have the pt of the one or of the other. -/
theorem C103_electron (s : Single) (hp : 0 < s.p) (hn : s.nearEm) (he : s.p < s.E ∨ (s.E < s.p ∧ (s.E - s.p) ^ 2 < 4 * s.C.hwPtErr.toInt ^ 2)) :
    s.charged = [⟨s.T.hwPt, s.T.hwEta, s.T.hwPhi, 3, s.T.hwZ0⟩] ∧ s.muons = [] ∧
      s.photon = (if s.p < s.E ∧ 3 * s.C.hwPtErr.toInt ^ 2 < 2 * (s.E - s.p) ^ 2 then s.E - s.p else 0) ∧ (s.p + s.photon = s.p ∨ s.p + s.photon = s.E) := by
  have hi : s.inEm = s.p := if_pos hn
  have hele : s.electron := ⟨hn, .inr (by rw [hi]; exact he)⟩
  have hph : s.photon = (if s.p < s.E ∧ 3 * s.C.hwPtErr.toInt ^ 2 < 2 * (s.E - s.p) ^ 2 then s.E - s.p else 0) := by
    unfold Single.photon
    rw [hi, if_neg (by omega)]
  refine ⟨?_, if_neg hn.1, hph, ?_⟩
  · unfold Single.charged
    rw [if_pos ⟨by omega, .inr (.inl hele)⟩, if_pos hele]
  · rw [hph]
    split
    · right; omega
    · left; omega

/-- Not so if track and cluster have just the same pt: then the cluster is a hadron's, and a track of high pt that ends nowhere is dropped, the
cluster with it. -/
theorem C103_equal_pt (s : Single) (hp : 0 < s.p) (hn : s.nearEm) (he : s.p = s.E) : ¬ s.electron ∧ s.photon = 0 ∧
    (¬ s.ends → (if s.T.hwTightQuality then 80 else 40) ≤ s.p → s.charged = []) := by
  have hi : s.inEm = s.p := if_pos hn
  have hne : ¬ s.electron := by
    rintro ⟨_, h | h | h⟩ <;> omega
  refine ⟨hne, ?_, fun h1 h2 => if_neg ?_⟩
  · unfold Single.photon
    rw [hi, if_neg (by omega), if_neg (by omega)]
  · rintro ⟨_, h | h | h | h⟩
    · exact hn.1 h
    · exact hne h
    · omega
    · exact h1 h

/-- A muon: its track comes out as a muon, in both lists, and takes nothing from the calorimeter. -/
theorem C103_muon (s : Single) (hp : 0 < s.p) (hm : s.mu) :
    s.charged = [⟨s.T.hwPt, s.T.hwEta, s.T.hwPhi, 4, s.T.hwZ0⟩] ∧ s.muons = s.charged ∧ s.photon = s.E ∧ s.neutral = s.rest := by
  have hn : ¬ s.nearEm := fun h => h.1 hm
  have hc : s.charged = [⟨s.T.hwPt, s.T.hwEta, s.T.hwPhi, 4, s.T.hwZ0⟩] := by
    unfold Single.charged
    rw [if_pos ⟨by omega, .inl hm⟩, if_neg (fun h => hn h.1), if_pos hm]
  refine ⟨hc, ?_, if_pos (if_neg hn), if_neg fun h => h.2.2.1 hm⟩
  rw [hc]
  exact if_pos hm

/-! ### Such events -/

/-- An electron of pt 200 whose cluster has pt 260: an electron and a photon of 60. -/
def electronPair : Single where
  T := ⟨200, 10, 100, 100, 7, true⟩
  C := ⟨260, 20, 103, 101⟩
  H := ⟨270, 102, 100, 262, true⟩
  M := ⟨0, 0, 0, 0⟩

/-- The same with just the track's pt in the clusters. -/
def electronEqual : Single where
  T := ⟨200, 10, 100, 100, 7, true⟩
  C := ⟨200, 20, 103, 101⟩
  H := ⟨0, 0, 0, 0, false⟩
  M := ⟨0, 0, 0, 0⟩

/-- An event of the objects, each in the second slot of three. -/
def oneEvent (s : Single) : PFInputs 3 3 3 3 where
  emcalo := fun c => if c = 1 then s.C else ⟨0, 0, 0, 0⟩
  hadcalo := fun h => if h = 1 then s.H else ⟨0, 0, 0, 0, false⟩
  track := fun t => if t = 1 then s.T else ⟨0, 0, 0, 0, 0, false⟩
  mu := fun m => if m = 1 then s.M else ⟨0, 0, 0, 0⟩

theorem oneEvent_one (s : Single) (hf : 84 ≤ dist2 s.T.hwEta s.T.hwPhi 0 0) (hn : s.p = 0 → s.err = 0) : OneEach (oneEvent s) s 1 1 1 1 where
  T := rfl
  C := rfl
  H := rfl
  M := rfl
  track t ht := by
    have e : (oneEvent s).track t = ⟨0, 0, 0, 0, 0, false⟩ := if_neg ht
    rw [e]; decide
  em c hc := by
    have e : (oneEvent s).emcalo c = ⟨0, 0, 0, 0⟩ := if_neg hc
    rw [e]; decide
  had h hh := by
    have e : (oneEvent s).hadcalo h = ⟨0, 0, 0, 0, false⟩ := if_neg hh
    rw [e]; decide
  mu m hm := by
    have e : (oneEvent s).mu m = ⟨0, 0, 0, 0⟩ := if_neg hm
    rw [e]; decide
  far _ c hc := by
    have e : (oneEvent s).emcalo c = ⟨0, 0, 0, 0⟩ := if_neg hc
    rw [e]; exact .inl hf
  noTrack := hn

theorem electronPair_good : electronPair.Good := ⟨by decide, by decide, by decide, by decide, by decide, by decide⟩
theorem electronEqual_good : electronEqual.Good := ⟨by decide, by decide, by decide, by decide, by decide, by decide⟩

example : OneEach (oneEvent electronPair) electronPair 1 1 1 1 := oneEvent_one _ (by decide) (by decide)
example : electronPair.charged = [⟨200, 100, 100, 3, 7⟩] ∧ electronPair.photons = [(60, 103, 101, 2)] ∧ electronPair.neutrals = [] ∧ electronPair.muons = [] := by
  decide +kernel
example : 0 < electronPair.p ∧ electronPair.nearEm ∧ electronPair.p < electronPair.E := by decide +kernel

/-- The track of an electron and its cluster, of the same pt, are both lost, by the firmware and by the reference. -/
theorem C103_lost_electron (old : PFOutputs 3 3 3 3) (mem : PFScratch 3 3) (mem' : Arr 3 PFNeutralObj) :
    ∃ out out', pfalgo3_full (oneEvent electronEqual) old mem = .ok out ∧ pfalgo3_full_ref (oneEvent electronEqual) old mem' = .ok out' ∧
      (∀ o, o = out ∨ o = out' → chargedList o = [] ∧ muonList o = [] ∧ (∀ c, seen (o.outpho c) = (0, 0, 0, 0)) ∧ ∀ i, seen (o.outne i) = (0, 0, 0, 0)) := by
  have H : OneEach (oneEvent electronEqual) electronEqual 1 1 1 1 := oneEvent_one _ (by decide) (by decide)
  obtain ⟨out, h1, h2⟩ := C103_single H electronEqual_good old mem
  obtain ⟨out', h1', h2'⟩ := C103_single_ref H electronEqual_good old mem'
  refine ⟨out, out', h1, h1', ?_⟩
  have key : ∀ o : PFOutputs 3 3 3 3, MakesOne electronEqual o → chargedList o = [] ∧ muonList o = [] ∧ (∀ c, seen (o.outpho c) = (0, 0, 0, 0)) ∧
      ∀ i, seen (o.outne i) = (0, 0, 0, 0) := fun o h => by
    refine ⟨h.charged.trans (by decide +kernel), h.muons.trans (by decide +kernel), fun c => ?_, fun i => ?_⟩
    · have e := h.photons.trans (show electronEqual.photons = [] by decide +kernel)
      have := List.filter_eq_nil_iff.mp e (seen (o.outpho c)) ((List.mem_ofFn' _ _).mpr ⟨c, rfl⟩)
      have hz : (seen (o.outpho c)).1 = 0 := by simpa using this
      rw [seen_fst] at hz
      exact if_pos (pt_toInt_zero.mp hz)
    · have e := h.neutrals.trans (show fit 3 electronEqual.neutrals = List.ofFn (fun _ : Fin 3 => ((0, 0, 0, 0) : Seen)) by decide +kernel)
      exact congrFun (List.ofFn_injective e) i
  rintro o (rfl | rfl)
  · exact key _ h2
  · exact key _ h2'

/-- A pion of pt 100 with an error of 5, and 130 in the calorimeter. -/
def pion : Single where
  T := ⟨100, 5, 100, 100, 7, true⟩
  C := ⟨0, 0, 0, 0⟩
  H := ⟨130, 110, 100, 30, false⟩
  M := ⟨0, 0, 0, 0⟩

example : pion.charged = [⟨100, 100, 100, 0, 7⟩] ∧ pion.neutrals = [(30, 110, 100, 1)] ∧ pion.photons = [] ∧ pion.muons = [] := by decide +kernel
example : 0 < pion.p ∧ pion.E = 0 ∧ pion.C.hwPtErr.toInt = 0 ∧ pion.M.hwPt.toInt ≤ 0 ∧ pion.q ≠ 0 ∧ max 0 (pion.p - 2 * pion.err) < pion.q ∧
    dist2 pion.T.hwEta pion.T.hwPhi pion.H.hwEta pion.H.hwPhi < 756 := by decide +kernel

/-- A muon of pt 90 at a track of pt 100, with 130 in the calorimeter and 20 in an EM cluster. -/
def muonCalo : Single where
  T := ⟨100, 5, 100, 100, 7, true⟩
  C := ⟨20, 2, 101, 100⟩
  H := ⟨130, 110, 100, 30, false⟩
  M := ⟨90, 0, 95, 99⟩

example : muonCalo.mu ∧ muonCalo.charged = [⟨100, 100, 100, 4, 7⟩] ∧ muonCalo.muons = [⟨100, 100, 100, 4, 7⟩] ∧ muonCalo.photons = [(20, 101, 100, 2)] ∧
    muonCalo.neutrals = [(110, 110, 100, 1)] := by decide +kernel

/-- An electron of 20 GeV whose track is closer to the centre of the region, where the empty EM slots are, than to its cluster; in two EM slots, and in one. -/
def nearCentre (NE : Nat) : PFInputs 1 1 NE 1 where
  emcalo := fun c => if c.val = 0 then ⟨84, 6, 8, 1⟩ else ⟨0, 0, 0, 0⟩
  hadcalo := fun _ => ⟨90, 7, 2, 84, false⟩
  track := fun _ => ⟨80, 4, 3, 0, 7, true⟩
  mu := fun _ => ⟨0, 0, 0, 0⟩

/-- The condition `far` of C103 is needed: with a free EM slot the same electron loses its track to the slot and is a photon; without one it is an electron. -/
theorem C103_near_centre :
    (pfalgo3_full (nearCentre 1) ⟨fun _ => ⟨0, 0, 0, 0, 0⟩, fun _ => ⟨0, 0, 0, 0, 0⟩, fun _ => ⟨0, 0, 0, 0, 0⟩, fun _ => ⟨0, 0, 0, 0, 0⟩⟩
        (⟨fun _ => ⟨0, 0, 0, 0, 0⟩, fun _ => ⟨0, 0, 0, 0, 0⟩⟩ : PFScratch 1 1)).map
        (fun o => ((o.outch 0).hwPt, (o.outch 0).hwId, (o.outpho 0).hwPt)) = .ok (80, 3, 0) ∧
    (pfalgo3_full (nearCentre 2) ⟨fun _ => ⟨0, 0, 0, 0, 0⟩, fun _ => ⟨0, 0, 0, 0, 0⟩, fun _ => ⟨0, 0, 0, 0, 0⟩, fun _ => ⟨0, 0, 0, 0, 0⟩⟩
        (⟨fun _ => ⟨0, 0, 0, 0, 0⟩, fun _ => ⟨0, 0, 0, 0, 0⟩⟩ : PFScratch 1 1)).map
        (fun o => ((o.outch 0).hwPt, (o.outpho 0).hwPt, (o.outpho 0).hwId)) = .ok (0, 84, 2) := by
  decide +kernel

end Verif
