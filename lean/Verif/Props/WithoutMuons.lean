import Verif.Proofs.WithoutMuons
import Verif.Props.OneMore
/-! # Muons and the rest of the event: property C97 -/
open scoped BigOperators
namespace Verif
open Spec
variable {NT NC NE NM NM' NM'' NS : Nat}

/-- Two outputs with the same photons, the same neutral hadrons, and the same charged candidates but for certain tracks. -/
structure SameBut (apart : Fin NT → Prop) (out : PFOutputs NT NE NS NM) (out' : PFOutputs NT NE NS NM') : Prop where
  charged : ∀ t, ¬ apart t → (out'.outch t).hwPt = (out.outch t).hwPt ∧ ((out'.outch t).hwPt ≠ 0 → out'.outch t = out.outch t)
  photon : ∀ c, seen (out'.outpho c) = seen (out.outpho c)
  neutral : ∀ i, seen (out'.outne i) = seen (out.outne i)

/-- **C97.** Firmware: the rest of the event is what it would be without muons and without their tracks; a track matched to a muon gives
the same candidate twice, among the charged candidates and among the muons. -/
theorem C97_without_muons {inp : PFInputs NT NC NE NM} {inp0 : PFInputs NT NC NE NM'} (W : WithoutMuons inp inp0) (hv : Valid inp fwVariant)
    (old : PFOutputs NT NE NS NM) (old0 : PFOutputs NT NE NS NM') (mem mem0 : PFScratch NC NS) :
    ∃ out out0, pfalgo3_full inp old mem = .ok out ∧ pfalgo3_full inp0 old0 mem0 = .ok out0 ∧ SameBut (IsMu inp) out out0 ∧
      (∀ m t, MuMatch inp m t → out.outmu m = muonOf (inp.track t) ∧ out.outch t = muonOf (inp.track t)) ∧
      ∀ m, (¬ ∃ t, MuMatch inp m t) → out.outmu m = ⟨0, 0, 0, 0, 0⟩ := by
  have hv0 := W.valid hv
  obtain ⟨out, n, h1, hch, hpho, hmu, hne, hsort⟩ := fw_meets_spec inp old mem hv
  obtain ⟨out', n', h1', hch', hpho', hmu', hne', hsort'⟩ := fw_meets_spec inp0 old0 mem0 hv0
  have f : List.ofFn (fun i => seen (out.outne i)) = fit NS (neutralsByPt (neutralSeen inp fwVariant)) := by
    rw [hsort]
    exact outne_fit hv mem.tmp fun h => (hne h).1
  have f' : List.ofFn (fun i => seen (out'.outne i)) = fit NS (neutralsByPt (neutralSeen inp0 fwVariant)) := by
    rw [hsort']
    exact outne_fit hv0 mem0.tmp fun h => (hne' h).1
  refine ⟨out, out', h1, h1', ⟨fun t ht => ?_, fun c => ?_, ofFn_seen_inj ?_⟩, fun m t ht => ⟨(hmu m).1 t ht, ?_⟩, fun m hm => (hmu m).2 hm⟩
  · rw [hch, hch', W.chargedOut ht]
    exact ⟨rfl, fun _ => rfl⟩
  · have a := (hpho' c).1
    rw [W.photonPt, W.em] at a
    exact (sameNeutral_iff _ _).mp (neutralOut_same a (hpho c).1)
  · rw [f, f', W.neutralSeen]
  · rw [hch]
    exact WithoutMuons.chargedOut_mu ⟨m, ht⟩

/-- **C97** for the reference. -/
theorem C97_without_muons_ref {inp : PFInputs NT NC NE NM} {inp0 : PFInputs NT NC NE NM'} (W : WithoutMuons inp inp0) (hv : Valid inp refVariant)
    (old : PFOutputs NT NE NS NM) (old0 : PFOutputs NT NE NS NM') (mem mem0 : Arr NC PFNeutralObj) :
    ∃ out out0, pfalgo3_full_ref inp old mem = .ok out ∧ pfalgo3_full_ref inp0 old0 mem0 = .ok out0 ∧ SameBut (IsMu inp) out out0 ∧
      (∀ m t, MuMatch inp m t → out.outmu m = muonOf (inp.track t) ∧ out.outch t = muonOf (inp.track t)) ∧
      ∀ m, (¬ ∃ t, MuMatch inp m t) → out.outmu m = ⟨0, 0, 0, 0, 0⟩ := by
  have hv0 := W.valid hv
  have G := W.noGhosts
  obtain ⟨out, n, h1, hch, hch0, hpho, hmu, hne, hsort⟩ := ref_meets_spec_all inp old mem hv
  obtain ⟨out', n', h1', hch', hch0', hpho', hmu', hne', hsort'⟩ := ref_meets_spec_all inp0 old0 mem0 hv0
  have f : List.ofFn (fun i => seen (out.outne i)) = fit NS (neutralsByPt (neutralSeen (noGhosts inp) refVariant)) := by
    rw [hsort, ← ptsort_eq]
    exact outne_fit (valid_noGhosts hv) _ hne
  have f' : List.ofFn (fun i => seen (out'.outne i)) = fit NS (neutralsByPt (neutralSeen (noGhosts inp0) refVariant)) := by
    rw [hsort', ← ptsort_eq]
    exact outne_fit (valid_noGhosts hv0) _ hne'
  refine ⟨out, out', h1, h1', ⟨fun t ht => ?_, fun c => ?_, ofFn_seen_inj ?_⟩, fun m t ht => ⟨(hmu m).1 t ht, ?_⟩, fun m hm => (hmu m).2 hm⟩
  · rcases eq_or_lt_of_le (hv.trackPt t) with h | h
    · rw [hch0 t h.symm, hch0' t (by rw [W.others t ht]; exact h.symm)]
      exact ⟨rfl, fun h => absurd rfl h⟩
    · rw [hch t h, hch' t (by rw [W.others t ht]; exact h), W.chargedOut ht]
      exact ⟨rfl, fun _ => rfl⟩
  · have a := hpho' c
    rw [W.photonPt, W.em] at a
    exact (sameNeutral_iff _ _).mp (neutralOut_same a (hpho c))
  · rw [f, f', G.neutralSeen]
  · rw [hch t (muMatch_pos ht)]
    exact WithoutMuons.chargedOut_mu ⟨m, ht⟩

open Classical in
/-- The event without its muons. -/
noncomputable def bare (inp : PFInputs NT NC NE NM) : PFInputs NT NC NE 0 where
  hadcalo := inp.hadcalo
  emcalo := inp.emcalo
  mu := fun m => m.elim0
  track := fun t => if IsMu inp t then { hwPt := 0, hwPtErr := 0, hwEta := 0, hwPhi := 0, hwZ0 := 0, hwTightQuality := false } else inp.track t

theorem bare_without (inp : PFInputs NT NC NE NM) : WithoutMuons inp (bare inp) where
  had := rfl
  em := rfl
  none m := m.elim0
  others t ht := by unfold bare; simp only [if_neg ht]
  freePt t ht := by unfold bare; simp only [if_pos ht]; rfl
  freeErr t ht := by unfold bare; simp only [if_pos ht]; rfl

/-- A muon whose match is a muon already, or that has no match, is removed like the others. -/
theorem without_old {inp inp' : PFInputs NT NC NE NM} {m0 : Fin NM} (H : OneMoreMuon inp inp' m0) (h : ∀ t, MuMatch inp' m0 t → IsMu inp t) :
    WithoutMuons inp (bare inp') := by
  have e : ∀ t, IsMu inp' t ↔ IsMu inp t := fun t => (H.isMu t).trans ⟨fun h' => h'.elim id (h t), Or.inl⟩
  refine ⟨H.had, H.em, fun m => m.elim0, fun t ht => ?_, fun t ht => ?_, fun t ht => ?_⟩
  · rw [(bare_without inp').others t (by rwa [e]), H.track]
  · exact (bare_without inp').freePt t ((e t).mpr ht)
  · exact (bare_without inp').freeErr t ((e t).mpr ht)

/-- A muon whose match was no muon: as if the track had gone. -/
theorem without_new {inp inp' : PFInputs NT NC NE NM} {m0 : Fin NM} (H : OneMoreMuon inp inp' m0) {t0 : Fin NT} (h : MuMatch inp' m0 t0)
    (h0 : ¬ IsMu inp t0) : WithoutMuons (dropTrack inp t0) (bare inp') := by
  have e : ∀ t, IsMu (dropTrack inp t0) t ↔ IsMu inp t := fun t => exists_congr fun m => muMatch_dropTrack h0 m t
  refine ⟨H.had, H.em, fun m => m.elim0, fun t ht => ?_, fun t ht => ?_, fun t ht => ?_⟩
  · by_cases ht0 : t = t0
    · subst ht0
      unfold bare dropTrack
      simp only [if_pos ((H.isMu t).mpr (Or.inr h)), if_pos]
    · have : ¬ IsMu inp' t := fun hm => by
        rcases (H.isMu t).mp hm with hm | hm
        · exact ht ((e t).mpr hm)
        · exact ht0 (firstMin_unique hm.2 h.2)
      rw [(bare_without inp').others t this, H.track]
      unfold dropTrack
      simp only [if_neg ht0]
  · exact (bare_without inp').freePt t ((H.isMu t).mpr (Or.inl ((e t).mp ht)))
  · exact (bare_without inp').freeErr t ((H.isMu t).mpr (Or.inl ((e t).mp ht)))

/-- What is known of the output for an event with muons, given the output for the event without. -/
def Apart (inp : PFInputs NT NC NE NM) (out : PFOutputs NT NE NS NM) (out0 : PFOutputs NT NE NS NM') : Prop :=
  SameBut (IsMu inp) out out0 ∧
    (∀ m t, MuMatch inp m t → out.outmu m = muonOf (inp.track t) ∧ out.outch t = muonOf (inp.track t)) ∧
    ∀ m, (¬ ∃ t, MuMatch inp m t) → out.outmu m = ⟨0, 0, 0, 0, 0⟩

theorem apart_same {a b : PFInputs NT NC NE NM} {oa ob : PFOutputs NT NE NS NM} {o0 : PFOutputs NT NE NS NM'} (A : Apart a oa o0) (B : Apart b ob o0)
    {P : Fin NT → Prop} (hP : ∀ t, ¬ P t → (IsMu b t ↔ IsMu a t) ∧ b.track t = a.track t) : SameBut P oa ob where
  charged t ht := by
    obtain ⟨h1, h2⟩ := hP t ht
    by_cases hm : IsMu a t
    · obtain ⟨m, hm'⟩ := hm
      obtain ⟨k, hk⟩ := h1.mpr ⟨m, hm'⟩
      have e : ob.outch t = oa.outch t := by rw [(A.2.1 m t hm').2, (B.2.1 k t hk).2, h2]
      exact ⟨by rw [e], fun _ => e⟩
    · obtain ⟨a1, a2⟩ := A.1.charged t hm
      obtain ⟨b1, b2⟩ := B.1.charged t (by rwa [h1])
      refine ⟨by rw [← a1, ← b1], fun h => ?_⟩
      rw [← b1] at h
      rw [← a2 h, ← b2 h]
  photon c := by rw [← A.1.photon, ← B.1.photon]
  neutral i := by rw [← A.1.neutral, ← B.1.neutral]

theorem apart_muon {a b : PFInputs NT NC NE NM} {oa ob : PFOutputs NT NE NS NM} {o0 o0' : PFOutputs NT NE NS NM'} (A : Apart a oa o0) (B : Apart b ob o0')
    {m : Fin NM} (hm : ∀ t, (MuMatch b m t ↔ MuMatch a m t) ∧ (MuMatch a m t → b.track t = a.track t)) : ob.outmu m = oa.outmu m := by
  by_cases h : ∃ t, MuMatch a m t
  · obtain ⟨t, ht⟩ := h
    rw [(A.2.1 m t ht).1, (B.2.1 m t ((hm t).1.mpr ht)).1, (hm t).2 ht]
  · rw [A.2.2 m h, B.2.2 m fun ⟨t, ht⟩ => h ⟨t, (hm t).1.mp ht⟩]

theorem physical_dropTrack {inp : PFInputs NT NC NE NM} (h : Physical inp) (t0 : Fin NT) : Physical (dropTrack inp t0) := by
  have key : ∀ {P : TkObj → Prop}, P { hwPt := 0, hwPtErr := 0, hwEta := 0, hwPhi := 0, hwZ0 := 0, hwTightQuality := false } → (∀ t, P (inp.track t)) →
      ∀ t, P ((dropTrack inp t0).track t) := fun {P} hz ha t => by
    unfold dropTrack
    by_cases e : t = t0
    · simp only [if_pos e]; exact hz
    · simp only [if_neg e]; exact ha t
  have sum : ∀ f : TkObj → Int, f { hwPt := 0, hwPtErr := 0, hwEta := 0, hwPhi := 0, hwZ0 := 0, hwTightQuality := false } = 0 →
      (∀ t, 0 ≤ f (inp.track t)) → (∑ t, f ((dropTrack inp t0).track t)) ≤ ∑ t, f (inp.track t) := fun f hz hf =>
    Finset.sum_le_sum fun t _ => by
      unfold dropTrack
      by_cases e : t = t0
      · simp only [if_pos e, hz]; exact hf t
      · simp only [if_neg e]; exact le_refl _
  exact
    { trackPt := key (P := fun t => 0 ≤ t.hwPt.toInt) (by decide) h.trackPt
      trackErr := key (P := fun t => 0 ≤ t.hwPtErr.toInt) (by decide) h.trackErr
      trackErrMax := key (P := fun t => t.hwPtErr.toInt ≤ 16384) (by decide) h.trackErrMax
      emPt := h.emPt
      emErrMax := h.emErrMax
      hadPt := h.hadPt
      hadEmPt := h.hadEmPt
      trackSum := le_trans (sum (fun t => t.hwPt.toInt) rfl h.trackPt) h.trackSum
      emSum := h.emSum
      trackErrSum := le_trans (Int.mul_le_mul_of_nonneg_left (sum (fun t => t.hwPtErr.toInt ^ 2) rfl fun t => sq_nonneg _) (by decide)) h.trackErrSum }

theorem physical_oneMoreMuon {inp inp' : PFInputs NT NC NE NM} {m0 : Fin NM} (H : OneMoreMuon inp inp' m0) (h : Physical inp) : Physical inp' where
  trackPt := H.track ▸ h.trackPt
  trackErr := H.track ▸ h.trackErr
  trackErrMax := H.track ▸ h.trackErrMax
  emPt := H.em ▸ h.emPt
  emErrMax := H.em ▸ h.emErrMax
  hadPt := H.had ▸ h.hadPt
  hadEmPt := H.had ▸ h.hadEmPt
  trackSum := H.track ▸ h.trackSum
  emSum := H.em ▸ h.emSum
  trackErrSum := H.track ▸ h.trackErrSum

/-- What a further muon in slot `m0` does to the outputs.  The other muons stay.  If no track matches, or the match is the track of another
muon already, nothing else changes; if it is another track, the rest is as if the track were not there.  `outd t` is the output for the event
without track `t`. -/
structure MuonAdded (inp inp' : PFInputs NT NC NE NM) (m0 : Fin NM) (out out' : PFOutputs NT NE NS NM) (outd : Fin NT → PFOutputs NT NE NS NM) : Prop where
  others : ∀ m, m ≠ m0 → out'.outmu m = out.outmu m
  unmatched : (¬ ∃ t, MuMatch inp' m0 t) → out'.outmu m0 = ⟨0, 0, 0, 0, 0⟩ ∧ SameBut (fun _ => False) out out'
  matched : ∀ t, MuMatch inp' m0 t → out'.outmu m0 = muonOf (inp.track t) ∧ out'.outch t = muonOf (inp.track t)
  again : ∀ t, MuMatch inp' m0 t → IsMu inp t → SameBut (fun _ => False) out out'
  taken : ∀ t, MuMatch inp' m0 t → ¬ IsMu inp t → SameBut (· = t) (outd t) out'

theorem muonAdded_of {inp inp' : PFInputs NT NC NE NM} {m0 : Fin NM} (H : OneMoreMuon inp inp' m0) {out out' : PFOutputs NT NE NS NM}
    {outd : Fin NT → PFOutputs NT NE NS NM} {o0 : PFOutputs NT NE NS 0} {o1 : PFOutputs NT NE NS 0} (A' : Apart inp' out' o0) (A : Apart inp out o1)
    (hold : (∀ t, MuMatch inp' m0 t → IsMu inp t) → Apart inp out o0)
    (hnew : ∀ t, MuMatch inp' m0 t → ¬ IsMu inp t → Apart (dropTrack inp t) (outd t) o0) : MuonAdded inp inp' m0 out out' outd where
  others m hm := apart_muon A A' fun t => ⟨H.muMatch hm t, fun _ => by rw [H.track]⟩
  unmatched h := ⟨A'.2.2 m0 h, apart_same (hold fun t ht => absurd ⟨t, ht⟩ h) A' fun t _ =>
    ⟨(H.isMu t).trans ⟨fun h' => h'.resolve_right fun hm => h ⟨t, hm⟩, Or.inl⟩, by rw [H.track]⟩⟩
  matched t ht := by
    have := A'.2.1 m0 t ht
    rwa [H.track] at this
  again t ht hm := by
    have hall : ∀ k, MuMatch inp' m0 k → IsMu inp k := fun k hk => by rwa [firstMin_unique hk.2 ht.2]
    exact apart_same (hold hall) A' fun k _ => ⟨(H.isMu k).trans ⟨fun h' => h'.elim id (hall k), Or.inl⟩, by rw [H.track]⟩
  taken t ht hm := by
    refine apart_same (hnew t ht hm) A' fun k hk => ⟨?_, ?_⟩
    · have e : IsMu (dropTrack inp t) k ↔ IsMu inp k := exists_congr fun m => muMatch_dropTrack hm m k
      rw [e]
      exact (H.isMu k).trans ⟨fun h' => h'.resolve_right fun hm => hk (firstMin_unique hm.2 ht.2), Or.inl⟩
    · rw [H.track]
      unfold dropTrack
      simp only [if_neg hk]

/-- **C97.** Firmware: one more muon. -/
theorem C97_one_more_muon {inp inp' : PFInputs NT NC NE NM} {m0 : Fin NM} (H : OneMoreMuon inp inp' m0) (hp : Physical inp)
    (old old' : PFOutputs NT NE NS NM) (mem mem' : PFScratch NC NS) :
    ∃ out out' outd, pfalgo3_full inp old mem = .ok out ∧ pfalgo3_full inp' old' mem' = .ok out' ∧
      (∀ t, pfalgo3_full (dropTrack inp t) old mem = .ok (outd t)) ∧ MuonAdded inp inp' m0 out out' outd := by
  have V := physical_valid inp hp fwVariant
  have V' := physical_valid inp' (physical_oneMoreMuon H hp) fwVariant
  have Vd := fun t => physical_valid (dropTrack inp t) (physical_dropTrack hp t) fwVariant
  have o0 : PFOutputs NT NE NS 0 := ⟨old.outch, old.outpho, old.outne, fun m => m.elim0⟩
  obtain ⟨out', b, h1', hb, A'⟩ := C97_without_muons (bare_without inp') V' old' o0 mem' mem
  obtain ⟨out, b1, h1, -, A⟩ := C97_without_muons (bare_without inp) V old o0 mem mem
  have hd : ∀ t, ∃ o, pfalgo3_full (dropTrack inp t) old mem = .ok o := fun t =>
    let ⟨o, _, h, _⟩ := C97_without_muons (bare_without (dropTrack inp t)) (Vd t) old o0 mem mem
    ⟨o, h⟩
  choose outd hd using hd
  refine ⟨out, out', outd, h1, h1', hd, muonAdded_of H A' A (fun h => ?_) (fun t ht hm => ?_)⟩
  · obtain ⟨x, y, e1, e2, R⟩ := C97_without_muons (without_old H h) V old o0 mem mem
    rw [h1] at e1
    rw [hb] at e2
    cases e1
    cases e2
    exact R
  · obtain ⟨x, y, e1, e2, R⟩ := C97_without_muons (without_new H ht hm) (Vd t) old o0 mem mem
    rw [hd] at e1
    rw [hb] at e2
    cases e1
    cases e2
    exact R

/-- **C97.** Reference: one more muon. -/
theorem C97_one_more_muon_ref {inp inp' : PFInputs NT NC NE NM} {m0 : Fin NM} (H : OneMoreMuon inp inp' m0) (hp : Physical inp)
    (old old' : PFOutputs NT NE NS NM) (mem mem' : Arr NC PFNeutralObj) :
    ∃ out out' outd, pfalgo3_full_ref inp old mem = .ok out ∧ pfalgo3_full_ref inp' old' mem' = .ok out' ∧
      (∀ t, pfalgo3_full_ref (dropTrack inp t) old mem = .ok (outd t)) ∧ MuonAdded inp inp' m0 out out' outd := by
  have V := physical_valid inp hp refVariant
  have V' := physical_valid inp' (physical_oneMoreMuon H hp) refVariant
  have Vd := fun t => physical_valid (dropTrack inp t) (physical_dropTrack hp t) refVariant
  have o0 : PFOutputs NT NE NS 0 := ⟨old.outch, old.outpho, old.outne, fun m => m.elim0⟩
  obtain ⟨out', b, h1', hb, A'⟩ := C97_without_muons_ref (bare_without inp') V' old' o0 mem' mem
  obtain ⟨out, b1, h1, -, A⟩ := C97_without_muons_ref (bare_without inp) V old o0 mem mem
  have hd : ∀ t, ∃ o, pfalgo3_full_ref (dropTrack inp t) old mem = .ok o := fun t =>
    let ⟨o, _, h, _⟩ := C97_without_muons_ref (bare_without (dropTrack inp t)) (Vd t) old o0 mem mem
    ⟨o, h⟩
  choose outd hd using hd
  refine ⟨out, out', outd, h1, h1', hd, muonAdded_of H A' A (fun h => ?_) (fun t ht hm => ?_)⟩
  · obtain ⟨x, y, e1, e2, R⟩ := C97_without_muons_ref (without_old H h) V old o0 mem mem
    rw [h1] at e1
    rw [hb] at e2
    cases e1
    cases e2
    exact R
  · obtain ⟨x, y, e1, e2, R⟩ := C97_without_muons_ref (without_new H ht hm) (Vd t) old o0 mem mem
    rw [hd] at e1
    rw [hb] at e2
    cases e1
    cases e2
    exact R

/-! ### Examples -/

/-- A cluster of pt 100 and a track of pt 60 on it, and the given muons. -/
def muonsNear (a b : MuObj) : PFInputs 1 1 0 2 where
  hadcalo := fun _ => ⟨100, 0, 0, 0, false⟩
  track := fun _ => ⟨60, 3, 1, 0, 5, true⟩
  emcalo := fun i => i.elim0
  mu := fun i => if i = 0 then a else b

/-- What comes out: pt and id of charged candidates, pts of neutrals and of muons. -/
def muonsSeen (o : PFOutputs 1 0 1 2) : Int × Int × Int × Int × Int :=
  ((o.outch 0).hwPt.toInt, (o.outch 0).hwId.toNat, (o.outne 0).hwPt.toInt, (o.outmu 0).hwPt.toInt, (o.outmu 1).hwPt.toInt)

/-- **C97**, non-vacuity: a muon of pt 50 near the track takes it, and all of the cluster becomes neutral. -/
example : OneMoreMuon (muonsNear ⟨0, 0, 0, 0⟩ ⟨0, 0, 0, 0⟩) (muonsNear ⟨50, 2, 3, 4⟩ ⟨0, 0, 0, 0⟩) 0 ∧
    Physical (muonsNear ⟨0, 0, 0, 0⟩ ⟨0, 0, 0, 0⟩) ∧
    (pfalgo3_full (muonsNear ⟨0, 0, 0, 0⟩ ⟨0, 0, 0, 0⟩) (old0 1 0 1 2) (mem0 1 1)).map muonsSeen = .ok (60, 0, 40, 0, 0) ∧
    (pfalgo3_full (muonsNear ⟨50, 2, 3, 4⟩ ⟨0, 0, 0, 0⟩) (old0 1 0 1 2) (mem0 1 1)).map muonsSeen = .ok (60, 4, 100, 60, 0) := by
  refine ⟨⟨rfl, rfl, rfl, fun m hm => ?_, by decide⟩, ?_, by decide +kernel, by decide +kernel⟩
  · match m with
    | 0 => exact absurd rfl hm
    | 1 => rfl
  · constructor <;> decide

/-- **C97.** A track can be the match of two muons: it is then given three times. -/
theorem C97_thrice : Physical (muonsNear ⟨50, 2, 3, 4⟩ ⟨70, 2, 0, 9⟩) ∧
    (pfalgo3_full (muonsNear ⟨50, 2, 3, 4⟩ ⟨70, 2, 0, 9⟩) (old0 1 0 1 2) (mem0 1 1)).map muonsSeen = .ok (60, 4, 100, 60, 60) ∧
    (pfalgo3_full_ref (muonsNear ⟨50, 2, 3, 4⟩ ⟨70, 2, 0, 9⟩) (old0 1 0 1 2) (mem0 1 1).outne_all).map muonsSeen = .ok (60, 4, 100, 60, 60) := by
  refine ⟨?_, by decide +kernel, by decide +kernel⟩
  constructor <;> decide

end Verif
