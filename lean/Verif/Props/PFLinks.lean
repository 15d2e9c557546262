import Verif.Proofs.PFFacts
/-! # C05, C06, C14, C16 — links, EM subtraction and the sorters -/
namespace Verif
open Spec

variable {NT NC NE NM NS : Nat}

/-! ### C05: track to EM cluster -/

/-- **C05.** A link bit is set exactly when the track is no muon and the cluster is the nearest one
within `dR² < 84`, lowest index on ties. -/
theorem C05_em_link (calo : Arr NE EmCaloObj) (track : Arr NT TkObj) (isMu : Arr NT Bool)
    (t : Fin NT) (c : Fin NE) :
    tk2em_link calo track isMu t c = true ↔
      isMu t = false ∧
      dist2 (track t).hwEta (track t).hwPhi (calo c).hwEta (calo c).hwPhi < 84 ∧
      (∀ c', dist2 (track t).hwEta (track t).hwPhi (calo c).hwEta (calo c).hwPhi ≤
        dist2 (track t).hwEta (track t).hwPhi (calo c').hwEta (calo c').hwPhi) ∧
      (∀ c', c' < c → dist2 (track t).hwEta (track t).hwPhi (calo c).hwEta (calo c).hwPhi <
        dist2 (track t).hwEta (track t).hwPhi (calo c').hwEta (calo c').hwPhi) := by
  rw [tk2em_link_iff]
  constructor
  · rintro ⟨hm, hc, hall⟩
    refine ⟨hm, hc, fun c' => ?_, fun c' hlt => ?_⟩
    · by_cases h : dist2 (track t).hwEta (track t).hwPhi (calo c').hwEta (calo c').hwPhi < 84
      · exact (hall c' h).1
      · omega
    · by_cases h : dist2 (track t).hwEta (track t).hwPhi (calo c').hwEta (calo c').hwPhi < 84
      · exact (hall c' h).2 hlt
      · omega
  · rintro ⟨hm, hc, h1, h2⟩
    exact ⟨hm, hc, fun j _ => ⟨h1 j, h2 j⟩⟩

/-- **C05.** At most one EM cluster per track, and one as soon as a cluster is near enough. -/
theorem C05_em_link_unique (calo : Arr NE EmCaloObj) (track : Arr NT TkObj) (isMu : Arr NT Bool)
    (t : Fin NT) :
    (∀ c c', tk2em_link calo track isMu t c = true → tk2em_link calo track isMu t c' = true → c = c') ∧
    ((∃ c, tk2em_link calo track isMu t c = true) ↔
      isMu t = false ∧
        ∃ c, dist2 (track t).hwEta (track t).hwPhi (calo c).hwEta (calo c).hwPhi < 84) := by
  refine ⟨fun c c' h h' => ?_, ?_⟩
  · exact firstMin_unique ((tk2em_link_iff ..).mp h).2 ((tk2em_link_iff ..).mp h').2
  · constructor
    · rintro ⟨c, h⟩
      have := (tk2em_link_iff ..).mp h
      exact ⟨this.1, c, this.2.1⟩
    · rintro ⟨hm, hex⟩
      obtain ⟨c, hc⟩ := firstMin_exists (P := fun c =>
        dist2 (track t).hwEta (track t).hwPhi (calo c).hwEta (calo c).hwPhi < 84)
        (f := fun c => dist2 (track t).hwEta (track t).hwPhi (calo c).hwEta (calo c).hwPhi) hex
      exact ⟨c, (tk2em_link_iff ..).mpr ⟨hm, hc⟩⟩

/-- Non-vacuity: of three clusters (far, near, equally near) the first near one is linked. -/
example :
    let calo : Arr 3 EmCaloObj := fun i =>
      if i = 0 then ⟨10, 1, 300, 0⟩ else if i = 1 then ⟨10, 1, 3, 4⟩ else ⟨10, 1, -5, 0⟩
    let track : Arr 1 TkObj := fun _ => ⟨10, 1, 0, 0, 0, false⟩
    (tk2em_link calo track (fun _ => false) 0 0, tk2em_link calo track (fun _ => false) 0 1,
      tk2em_link calo track (fun _ => false) 0 2) = (false, true, false) := by decide +kernel

/-! ### C06: track to calorimeter cluster -/

/-- The pt-and-position metric: `dR²` plus the pt deficit squared in units of the pt error squared
(rounded down), scaled by 756. -/
def linkMetric (t : TkObj) (c : HadCaloObj) : Int :=
  dist2 t.hwEta t.hwPhi c.hwEta c.hwPhi +
    (max 0 (t.hwPt.toInt - c.hwPt.toInt)) ^ 2 * fwScale t.hwPtErr.toInt / 256

/-- The cuts of the link. -/
def LinkCuts (t : TkObj) (c : HadCaloObj) : Prop :=
  t.hwPt.toInt - 2 * t.hwPtErr.toInt < c.hwPt.toInt ∧ 0 < c.hwPt.toInt ∧
    dist2 t.hwEta t.hwPhi c.hwEta c.hwPhi < 756

/-- **C06.** With non-negative pt errors the link array is computed without faults; for each track
of non-negative pt whose `pt - 2 err` is representable, a cluster is linked exactly when it passes
the cuts and minimises the metric among those that do, lowest index on ties. -/
theorem C06_calo_link (calo : Arr NC HadCaloObj) (track : Arr NT TkObj)
    (herr : ∀ t, 0 ≤ (track t).hwPtErr.toInt) :
    ∃ link, tk2calo_link_drdpt calo track = .ok link ∧
      ∀ t, 0 ≤ (track t).hwPt.toInt → -32768 ≤ (track t).hwPt.toInt - 2 * (track t).hwPtErr.toInt →
      ∀ h, link t h = true ↔
        LinkCuts (track t) (calo h) ∧
        ∀ h', LinkCuts (track t) (calo h') →
          linkMetric (track t) (calo h) ≤ linkMetric (track t) (calo h') ∧
          (h' < h → linkMetric (track t) (calo h) < linkMetric (track t) (calo h')) := by
  obtain ⟨link, h1, h2⟩ := tk2calo_link_ok calo track herr
  refine ⟨link, h1, fun t hp hw h => ?_⟩
  rw [h2 t hp hw h]
  have hcut : ∀ j, (max 0 ((track t).hwPt.toInt - 2 * (track t).hwPtErr.toInt) < (calo j).hwPt.toInt ∧
      dist2 (track t).hwEta (track t).hwPhi (calo j).hwEta (calo j).hwPhi < 756) ↔
      LinkCuts (track t) (calo j) := by
    intro j
    unfold LinkCuts
    rw [max_lt_iff]
    tauto
  exact firstMin_congr (Q := fun j => LinkCuts (track t) (calo j))
    (g := fun j => linkMetric (track t) (calo j)) h hcut (fun j _ => rfl)

/-- **C06.** Hence at most one cluster, and one as soon as some cluster passes the cuts. -/
theorem C06_calo_link_unique (calo : Arr NC HadCaloObj) (track : Arr NT TkObj)
    (herr : ∀ t, 0 ≤ (track t).hwPtErr.toInt) :
    ∃ link, tk2calo_link_drdpt calo track = .ok link ∧
      ∀ t, 0 ≤ (track t).hwPt.toInt → -32768 ≤ (track t).hwPt.toInt - 2 * (track t).hwPtErr.toInt →
      (∀ h h', link t h = true → link t h' = true → h = h') ∧
      ((∃ h, link t h = true) ↔ ∃ h, LinkCuts (track t) (calo h)) := by
  obtain ⟨link, h1, h2⟩ := C06_calo_link calo track herr
  refine ⟨link, h1, fun t hp hw => ⟨fun h h' hl hl' => ?_, ?_⟩⟩
  · exact firstMin_unique (P := fun j => LinkCuts (track t) (calo j))
      (f := fun j => linkMetric (track t) (calo j)) ((h2 t hp hw h).mp hl) ((h2 t hp hw h').mp hl')
  · constructor
    · rintro ⟨h, hl⟩
      exact ⟨h, ((h2 t hp hw h).mp hl).1⟩
    · intro hex
      obtain ⟨i, hi⟩ := firstMin_exists (P := fun j => LinkCuts (track t) (calo j))
        (f := fun j => linkMetric (track t) (calo j)) hex
      exact ⟨i, (h2 t hp hw i).mpr hi⟩

/-- The range hypothesis of C06 is needed: with `pt - 2 err` below `-2^15` the minimum pt wraps to a
large value and an excellent cluster is missed. -/
theorem C06_window_wraps :
    let t : TkObj := ⟨100, 20000, 0, 0, 0, false⟩
    let c : HadCaloObj := ⟨100, 0, 0, 0, false⟩
    LinkCuts t c ∧ (tk2calo_link_drdpt (fun _ : Fin 1 => c) (fun _ : Fin 1 => t)).map
      (fun l => l 0 0) = .ok false := by
  refine ⟨⟨by decide, by decide, by decide⟩, ?_⟩
  decide +kernel

/-- Non-vacuity: a nearer cluster with a bad pt loses to a farther one with a good pt. -/
example :
    let t : TkObj := ⟨100, 10, 0, 0, 0, false⟩
    let c : Arr 2 HadCaloObj := fun i => if i = 0 then ⟨85, 0, 3, 0, false⟩ else ⟨100, 0, 12, 0, false⟩
    (tk2calo_link_drdpt c (fun _ : Fin 1 => t)).map (fun l => (l 0 0, l 0 1)) = .ok (false, true) := by
  decide +kernel

/-! ### C14: EM subtraction -/

/-- EM energy linked to a calorimeter cluster. -/
def linkedEM (emcalo : Arr NE EmCaloObj) (isEM : Arr NE Bool) (link : Arr NE (Arr NC Bool))
    (h : Fin NC) : Int :=
  ∑ e, if link e h = true ∧ isEM e = true then (emcalo e).hwPt.toInt else 0

/-- **C14.** For any links and EM flags, provided the 16-bit sums and differences do not wrap: the
cluster is removed exactly when at most 1/16 of its pt remains, or it is flagged EM and at most 1/8 of
its EM pt remains (the protection flag of the firmware never being set); otherwise pt and EM pt are
reduced by the linked EM energy (EM pt not below 0), position and flag kept. -/
theorem C14_em_subtraction (emcalo : Arr NE EmCaloObj) (hadcalo : Arr NC HadCaloObj) (isEM : Arr NE Bool)
    (link : Arr NE (Arr NC Bool)) (h : Fin NC)
    (hs0 : -32768 ≤ linkedEM emcalo isEM link h) (hs1 : linkedEM emcalo isEM link h ≤ 32767)
    (hd0 : -32768 ≤ (hadcalo h).hwPt.toInt - linkedEM emcalo isEM link h)
    (hd1 : (hadcalo h).hwPt.toInt - linkedEM emcalo isEM link h ≤ 32767)
    (he0 : -32768 ≤ (hadcalo h).hwEmPt.toInt - linkedEM emcalo isEM link h)
    (he1 : (hadcalo h).hwEmPt.toInt - linkedEM emcalo isEM link h ≤ 32767) :
    let S := linkedEM emcalo isEM link h
    let out := em2calo_sub hadcalo (fun i => (em2calo_sumem emcalo isEM link i).1)
      (fun i => (em2calo_sumem emcalo isEM link i).2) h
    ((16 * ((hadcalo h).hwPt.toInt - S) ≤ (hadcalo h).hwPt.toInt ∨
        ((hadcalo h).hwIsEM = true ∧ 8 * ((hadcalo h).hwEmPt.toInt - S) ≤ (hadcalo h).hwEmPt.toInt)) →
      out = ⟨0, 0, 0, 0, false⟩) ∧
    (¬ (16 * ((hadcalo h).hwPt.toInt - S) ≤ (hadcalo h).hwPt.toInt ∨
        ((hadcalo h).hwIsEM = true ∧ 8 * ((hadcalo h).hwEmPt.toInt - S) ≤ (hadcalo h).hwEmPt.toInt)) →
      out.hwPt.toInt = (hadcalo h).hwPt.toInt - S ∧
      out.hwEmPt.toInt = max 0 ((hadcalo h).hwEmPt.toInt - S) ∧
      out.hwEta = (hadcalo h).hwEta ∧ out.hwPhi = (hadcalo h).hwPhi ∧
      out.hwIsEM = (hadcalo h).hwIsEM) := by
  intro S out
  have hsum : (em2calo_sumem emcalo isEM link h).1 = reg 16 S ∧
      (em2calo_sumem emcalo isEM link h).2 = false := by
    have key : ∀ (l : List (Fin NE)) (a : Pt),
        l.foldl (fun (s : Pt × Bool) iem =>
          if link iem h then
            if isEM iem then (reg 16 (s.1.toInt + (emcalo iem).hwPt.toInt), s.2) else (s.1, false)
          else s) (a, false) =
        (l.foldl (fun (s : Pt) iem =>
          if link iem h && isEM iem then reg 16 (s.toInt + (emcalo iem).hwPt.toInt) else s) a, false) := by
      intro l
      induction l with
      | nil => intro a; rfl
      | cons e l ih =>
        intro a
        rw [List.foldl_cons, List.foldl_cons]
        cases link e h <;> cases isEM e <;> exact ih _
    have hreg := loop_regsum (w := 16) (fun e => link e h && isEM e) (fun e => (emcalo e).hwPt.toInt)
    have hk := key (List.finRange NE) 0
    have hS : (∑ i, if (link i h && isEM i) = true then (emcalo i).hwPt.toInt else 0) = S := by
      simp only [Bool.and_eq_true]; rfl
    rw [hS] at hreg
    refine ⟨?_, congrArg Prod.snd hk⟩
    rw [← hreg]
    exact congrArg Prod.fst hk
  have hS : (reg 16 S).toInt = S := reg16_toInt hs0 (by omega)
  have e1 : (reg 16 ((hadcalo h).hwPt.toInt - S)).toInt = (hadcalo h).hwPt.toInt - S :=
    reg16_toInt hd0 (by omega)
  have e2 : (reg 16 ((hadcalo h).hwEmPt.toInt - S)).toInt = (hadcalo h).hwEmPt.toInt - S :=
    reg16_toInt he0 (by omega)
  have hout : out = if (hadcalo h).hwPt.toInt - S ≤ (hadcalo h).hwPt.toInt / 16 ∨
        ((hadcalo h).hwIsEM = true ∧ (hadcalo h).hwEmPt.toInt - S ≤ (hadcalo h).hwEmPt.toInt / 8) then
      ⟨0, 0, 0, 0, false⟩
      else ⟨reg 16 ((hadcalo h).hwPt.toInt - S), (hadcalo h).hwEta, (hadcalo h).hwPhi,
        if (hadcalo h).hwEmPt.toInt - S > 0 then reg 16 ((hadcalo h).hwEmPt.toInt - S) else 0,
        (hadcalo h).hwIsEM⟩ := by
    simp only [out]
    unfold em2calo_sub
    simp only [hsum.1, hsum.2, hS, e1, e2, and_true]
    rfl
  constructor
  · intro hr
    rw [hout, if_pos]
    rcases hr with hr | ⟨hr, hr'⟩
    · left; omega
    · right; exact ⟨hr, by omega⟩
  · intro hr
    rw [hout, if_neg]
    · refine ⟨e1, ?_, rfl, rfl, rfl⟩
      show (if (hadcalo h).hwEmPt.toInt - S > 0 then reg 16 ((hadcalo h).hwEmPt.toInt - S) else 0).toInt = _
      split
      · rw [e2, max_eq_right (by omega)]
      · rw [max_eq_left (by omega)]; rfl
    · rintro (hc | ⟨hc, hc'⟩)
      · exact hr (Or.inl (by omega))
      · exact hr (Or.inr ⟨hc, by omega⟩)

/-- Non-vacuity of C14: one cluster of 160 with 100 of linked EM energy, kept; one with 150, removed. -/
example :
    let emc : Arr 1 EmCaloObj := fun _ => ⟨150, 1, 0, 0⟩
    let had : Arr 2 HadCaloObj := fun i => if i = 0 then ⟨160, 0, 0, 160, false⟩ else ⟨400, 0, 0, 100, false⟩
    let s := em2calo_sumem emc (fun _ => true) (fun _ _ => true)
    (em2calo_sub had (fun i => (s i).1) (fun i => (s i).2) 0,
     em2calo_sub had (fun i => (s i).1) (fun i => (s i).2) 1) =
      (⟨0, 0, 0, 0, false⟩, ⟨250, 0, 0, 0, false⟩) := by decide +kernel

/-! ### C16: the sorters -/

/-- **C16.** The firmware and the reference sorter are the same function — any element type, any
sizes, any pts (negative ones and ties included), any initial contents of the output array. -/
theorem C16_sorters_equal {T : Type} [HasPt T] [LawfulPt T] {NIn NOut : Nat} (mem : Arr NOut T)
    (inp : Arr NIn T) : ptsort_hwopt mem inp = ptsort_ref mem inp := ptsort_eq mem inp

/-- **C16.** What they compute: a top-N selection, by descending pt, of the inputs and of `NOut` slots
of pt 0. -/
theorem C16_sorter_spec {T : Type} [HasPt T] [LawfulPt T] {NIn NOut : Nat} (mem : Arr NOut T)
    (inp : Arr NIn T) :
    TopN (fun x : T => (HasPt.pt x).toInt)
      (List.ofFn inp ++ List.ofFn (fun i => HasPt.setPt (mem i) 0))
      (List.ofFn (ptsort_hwopt mem inp)) := hwopt_topN_zeros mem inp

/-- **C16.** The exact result, ties included: the inputs by descending pt, the later one first among
equals, empty slots after inputs of pt 0, cut to `NOut`. -/
theorem C16_sorter_order {T : Type} [HasPt T] [LawfulPt T] {NIn NOut : Nat} (mem : Arr NOut T)
    (inp : Arr NIn T) :
    List.ofFn (ptsort_hwopt mem inp) = sortedTop (fun x : T => (HasPt.pt x).toInt) (List.ofFn inp)
      (List.ofFn (fun i => HasPt.setPt (mem i) 0)) NOut := hwopt_sortedTop mem inp

/-- Non-vacuity of C16, with a tie (later input first) and a negative pt. -/
example :
    let inp : Arr 4 PFNeutralObj := fun i =>
      if i = 0 then ⟨5, 1, 0, 1, 0⟩ else if i = 1 then ⟨-3, 2, 0, 1, 0⟩ else if i = 2 then ⟨5, 3, 0, 1, 0⟩
      else ⟨9, 4, 0, 1, 0⟩
    let o := ptsort_hwopt (fun _ : Fin 4 => (⟨7, 0, 0, 0, 0⟩ : PFNeutralObj)) inp
    ((o 0).hwEta, (o 1).hwEta, (o 2).hwEta, (o 3).hwPt) = (4, 3, 1, 0) := by decide +kernel

end Verif
