import Verif.Proofs.Influence
import Verif.Props.PFPart
import Verif.Props.Puppi
import Verif.Proofs.System
/-! # How far a candidate looks: property C90 -/
open scoped BigOperators
namespace Verif
open Spec
variable {NT NC NE NM NS NN NN' : Nat}

/-- Each candidate is the same in the two events if its own object is and the events agree around it; the neutral lists are
made from the candidates `s` and `s'`. -/
structure LocalAgrees (inp inp' : PFInputs NT NC NE NM) (out out' : PFOutputs NT NE NS NM) (s s' : Fin NC → Seen) : Prop where
  muon : ∀ m, inp.mu m = inp'.mu m → SameWithin muonReach ((inp.mu m).hwEta, (inp.mu m).hwPhi) inp inp' → out.outmu m = out'.outmu m
  photon : ∀ c, inp.emcalo c = inp'.emcalo c → SameWithin photonReach ((inp.emcalo c).hwEta, (inp.emcalo c).hwPhi) inp inp' →
    seen (out.outpho c) = seen (out'.outpho c)
  charged : ∀ t, inp.track t = inp'.track t → SameWithin chargedReach ((inp.track t).hwEta, (inp.track t).hwPhi) inp inp' →
    (out.outch t).hwPt = (out'.outch t).hwPt ∧ ((out.outch t).hwPt ≠ 0 → out.outch t = out'.outch t)
  cand : ∀ h, inp.hadcalo h = inp'.hadcalo h → SameWithin neutralReach ((inp.hadcalo h).hwEta, (inp.hadcalo h).hwPhi) inp inp' →
    s h = s' h
  neutral : List.ofFn (fun i => seen (out.outne i)) = fit NS (neutralsByPt s)
  neutral' : List.ofFn (fun i => seen (out'.outne i)) = fit NS (neutralsByPt s')

/-- **C90.** Firmware: what lies farther from a candidate than its reach does not change it. -/
theorem C90_reach (inp inp' : PFInputs NT NC NE NM) (hv : Valid inp fwVariant) (hv' : Valid inp' fwVariant)
    (old old' : PFOutputs NT NE NS NM) (mem mem' : PFScratch NC NS) :
    ∃ out out', pfalgo3_full inp old mem = .ok out ∧ pfalgo3_full inp' old' mem' = .ok out' ∧
      (∀ t, inp.track t = inp'.track t → SameWithin chargedReach ((inp.track t).hwEta, (inp.track t).hwPhi) inp inp' →
        out.outch t = out'.outch t) ∧
      LocalAgrees inp inp' out out' (neutralSeen inp fwVariant) (neutralSeen inp' fwVariant) := by
  obtain ⟨out, n, h1, hch, hpho, hmu, hne, hsort⟩ := fw_meets_spec inp old mem hv
  obtain ⟨out', n', h1', hch', hpho', hmu', hne', hsort'⟩ := fw_meets_spec inp' old' mem' hv'
  have key : ∀ t, inp.track t = inp'.track t → SameWithin chargedReach ((inp.track t).hwEta, (inp.track t).hwPhi) inp inp' →
      out.outch t = out'.outch t := fun t ht hs => by rw [hch, hch', chargedOut_within hv.emPt hv'.emPt ht hs]
  refine ⟨out, out', h1, h1', key, fun m hm hs => muOut_within hm hs (hmu m) (hmu' m), fun c hc hs => ?_, fun t ht hs => ?_,
    fun h hh hs => neutralSeen_within hv.emPt hv'.emPt hh hs, ?_, ?_⟩
  · have a := (hpho c).1
    rw [photonPt_within hc hs, hc] at a
    exact (sameNeutral_iff _ _).mp (neutralOut_same a (hpho' c).1)
  · rw [key t ht hs]
    exact ⟨rfl, fun _ => rfl⟩
  · rw [hsort]
    exact outne_fit hv mem.tmp fun h => (hne h).1
  · rw [hsort']
    exact outne_fit hv' mem'.tmp fun h => (hne' h).1

/-- Errors of empty slots play no part in the comparison of two events. -/
theorem sameWithin_noGhosts {R : ℝ} {p : Dir} {inp inp' : PFInputs NT NC NE NM} (h : SameWithin R p inp inp') :
    SameWithin R p (noGhosts inp) (noGhosts inp') where
  track t := by
    rcases h.track t with h | ⟨h1, h2⟩
    · left
      unfold noGhosts
      simp only [h]
    · right
      have k : ∀ t : TkObj, TrackOut R p t → TrackOut R p { t with hwPtErr := if 0 < t.hwPt.toInt then t.hwPtErr else 0 } := by
        intro t ht
        refine ht.imp_left fun h => ⟨h.1, ?_⟩
        show (if 0 < t.hwPt.toInt then t.hwPtErr else 0).toInt = 0
        rw [if_neg (by omega)]
        rfl
      exact ⟨k _ h1, k _ h2⟩
  had := h.had
  em := h.em
  mu := h.mu

/-- **C90** for the reference. -/
theorem C90_reach_ref (inp inp' : PFInputs NT NC NE NM) (hv : Valid inp refVariant) (hv' : Valid inp' refVariant)
    (old old' : PFOutputs NT NE NS NM) (mem mem' : Arr NC PFNeutralObj) :
    ∃ out out', pfalgo3_full_ref inp old mem = .ok out ∧ pfalgo3_full_ref inp' old' mem' = .ok out' ∧
      LocalAgrees inp inp' out out' (neutralSeen (noGhosts inp) refVariant) (neutralSeen (noGhosts inp') refVariant) := by
  obtain ⟨out, n, h1, hch, hch0, hpho, hmu, hne, hsort⟩ := ref_meets_spec_all inp old mem hv
  obtain ⟨out', n', h1', hch', hch0', hpho', hmu', hne', hsort'⟩ := ref_meets_spec_all inp' old' mem' hv'
  refine ⟨out, out', h1, h1', fun m hm hs => muOut_within hm hs (hmu m) (hmu' m), fun c hc hs => ?_, fun t ht hs => ?_,
    fun h hh hs => neutralSeen_within (inp := noGhosts inp) (inp' := noGhosts inp') hv.emPt hv'.emPt hh (sameWithin_noGhosts hs), ?_, ?_⟩
  · have a := hpho c
    rw [photonPt_within hc hs, hc] at a
    exact (sameNeutral_iff _ _).mp (neutralOut_same a (hpho' c))
  · rcases eq_or_lt_of_le (hv.trackPt t) with h | h
    · rw [hch0 t h.symm, hch0' t (by rw [← ht]; exact h.symm)]
      exact ⟨rfl, fun h => absurd rfl h⟩
    · rw [hch t h, hch' t (by rw [← ht]; exact h), chargedOut_within hv.emPt hv'.emPt ht hs]
      exact ⟨rfl, fun _ => rfl⟩
  · rw [hsort, ← ptsort_eq]
    exact outne_fit (valid_noGhosts hv) _ hne
  · rw [hsort', ← ptsort_eq]
    exact outne_fit (valid_noGhosts hv') _ hne'

/-! ### PUPPI -/

theorem puppiGuard_zero (Z0 : Z0) (ne : PFNeutralObj) {c : PFChargedObj} (h : c.hwPt = 0) :
    (if PuppiNear Z0 ne c then puppiTerm ne c else 0) = 0 := by
  split
  · unfold puppiTerm
    rw [h]
    have : (0 : Pt).toInt = 0 := rfl
    rw [this]
    norm_num
  · rfl

theorem puppiTerm_local {inp inp' : PFInputs NT NC NE NM} {v : Variant} (hem : ∀ c, 0 ≤ (inp.emcalo c).hwPt.toInt)
    (hem' : ∀ c, 0 ≤ (inp'.emcalo c).hwPt.toInt) (Z0 : Z0) (ne : PFNeutralObj)
    (hs : SameWithin puppiReach (ne.hwEta, ne.hwPhi) inp inp') (t : Fin NT) :
    (if PuppiNear Z0 ne (chargedOut inp v t) then puppiTerm ne (chargedOut inp v t) else 0) = 0 ∨
      chargedOut inp v t = chargedOut inp' v t := by
  by_cases hn : PuppiNear Z0 ne (chargedOut inp v t)
  · by_cases hz : (chargedOut inp v t).hwPt = 0
    · exact .inl (puppiGuard_zero Z0 ne hz)
    · right
      have hk : Kept inp v t := by
        by_contra hk
        unfold chargedOut at hz
        rw [if_neg hk] at hz
        exact hz rfl
      have e : (chargedOut inp v t).hwPt = (inp.track t).hwPt ∧ (chargedOut inp v t).hwEta = (inp.track t).hwEta ∧
          (chargedOut inp v t).hwPhi = (inp.track t).hwPhi := by
        unfold chargedOut
        rw [if_pos hk]
        exact ⟨rfl, rfl, rfl⟩
      have h1 := hn.2
      rw [e.2.1, e.2.2] at h1
      have h2 := gap_le h1
      rw [gap_symm] at h2
      push_cast at h2
      have h3 : puppiReach = Real.sqrt 8404 + chargedReach := rfl
      have h4 : chargedReach = Real.sqrt 756 + Real.sqrt 525 + photonReach := rfl
      have h5 : 0 < Real.sqrt 525 := Real.sqrt_pos.mpr (by norm_num)
      have h6 := Real.sqrt_nonneg 756
      have h7 := cut525_le
      have ht : inp.track t = inp'.track t := by
        rcases hs.near_track (t := t) (by linarith) with h | h
        · exact h
        · refine absurd ?_ hz
          rw [e.1]
          exact BitVec.eq_of_toInt_eq h.1
      exact chargedOut_within hem hem' ht (hs.move (by linarith))
  · exact .inl (if_neg hn)

/-- **C90.** The sum of PUPPI over the charged candidates is the same in two events that agree around the neutral. -/
theorem puppiSum_local {inp inp' : PFInputs NT NC NE NM} {v : Variant} (hem : ∀ c, 0 ≤ (inp.emcalo c).hwPt.toInt)
    (hem' : ∀ c, 0 ≤ (inp'.emcalo c).hwPt.toInt) (Z0 : Z0) (ne : PFNeutralObj)
    (hs : SameWithin puppiReach (ne.hwEta, ne.hwPhi) inp inp') :
    puppiSum (chargedOut inp v) Z0 ne = puppiSum (chargedOut inp' v) Z0 ne := by
  unfold puppiSum
  refine Finset.sum_congr rfl fun t _ => ?_
  rcases puppiTerm_local (v := v) hem hem' Z0 ne hs t with h | h
  · rcases puppiTerm_local (v := v) hem' hem Z0 ne hs.symm t with h' | h'
    · rw [h, h']
    · rw [h']
  · rw [h]

/-- **C90.** PUPPI after the firmware's particle flow: two neutrals of the same pt and position, one in each event, get the same
PUPPI pt if the events agree within the reach of PUPPI around them. -/
theorem C90_puppi (table : PuppiTable) (inp inp' : PFInputs NT NC NE NM) (hv : Valid inp fwVariant) (hv' : Valid inp' fwVariant)
    (old old' : PFOutputs NT NE NS NM) (mem mem' : PFScratch NC NS) (Z0 : Z0) :
    ∃ out out', pfalgo3_full inp old mem = .ok out ∧ pfalgo3_full inp' old' mem' = .ok out' ∧
      ∀ (ne : Arr NN PFNeutralObj) (ne' : Arr NN' PFNeutralObj), (∀ n, puppiSum out.outch Z0 (ne n) ≤ 2147483647) →
        (∀ n, puppiSum out'.outch Z0 (ne' n) ≤ 2147483647) →
        ∃ hw hw', simple_puppi_hw table out.outch ne Z0 = .ok hw ∧ simple_puppi_hw table out'.outch ne' Z0 = .ok hw' ∧
          ∀ i j, (ne i).hwPt = (ne' j).hwPt → (ne i).hwEta = (ne' j).hwEta → (ne i).hwPhi = (ne' j).hwPhi →
            SameWithin puppiReach ((ne i).hwEta, (ne i).hwPhi) inp inp' → (hw i).hwPtPuppi = (hw' j).hwPtPuppi := by
  obtain ⟨out, n, h1, hch, -⟩ := fw_meets_spec inp old mem hv
  obtain ⟨out', n', h1', hch', -⟩ := fw_meets_spec inp' old' mem' hv'
  refine ⟨out, out', h1, h1', fun ne ne' hf hf' => ?_⟩
  obtain ⟨hw, _, h2, _, h3⟩ := C22_puppi_agree table out.outch ne Z0 hf
  obtain ⟨hw', _, h2', _, h3'⟩ := C22_puppi_agree table out'.outch ne' Z0 hf'
  refine ⟨hw, hw', h2, h2', fun i j e1 e2 e3 hs => ?_⟩
  rw [(h3 i).1, (h3' j).1]
  have ec : out.outch = chargedOut inp fwVariant := funext hch
  have ec' : out'.outch = chargedOut inp' fwVariant := funext hch'
  have e4 : puppiSum (chargedOut inp' fwVariant) Z0 (ne i) = puppiSum (chargedOut inp' fwVariant) Z0 (ne' j) := puppiSum_pos _ Z0 e2 e3
  show reg 16 (puppiPt table (puppiSum out.outch Z0 (ne i)) (ne i).hwPt.toInt) =
    reg 16 (puppiPt table (puppiSum out'.outch Z0 (ne' j)) (ne' j).hwPt.toInt)
  rw [ec, ec', puppiSum_local hv.emPt hv'.emPt Z0 (ne i) hs, e4, e1]

/-! ### The reaches in numbers, and a chain that uses nearly all of one -/

/-- **C90.** The reaches, in units of the code. -/
theorem C90_numbers : muonReach < 45.84 ∧ photonReach < 100.84 ∧ chargedReach < 151.25 ∧ neutralReach < 178.75 ∧ puppiReach < 242.93 := by
  have a : Real.sqrt 2101 < 45.837 := (Real.sqrt_lt' (by norm_num)).mpr (by norm_num)
  have b : Real.sqrt 84 < 9.1652 := (Real.sqrt_lt' (by norm_num)).mpr (by norm_num)
  have c : Real.sqrt 525 < 22.913 := (Real.sqrt_lt' (by norm_num)).mpr (by norm_num)
  have d : Real.sqrt 756 < 27.4955 := (Real.sqrt_lt' (by norm_num)).mpr (by norm_num)
  have e : Real.sqrt 8404 < 91.6734 := (Real.sqrt_lt' (by norm_num)).mpr (by norm_num)
  unfold neutralReach puppiReach chargedReach photonReach muonReach
  refine ⟨?_, ?_, ?_, ?_, ?_⟩ <;> linarith

/-- A chain of objects along `eta`: two calorimeter clusters with a track between them, an EM cluster in the second, a track on
it, a muon, and a last track, of the given pt and `eta`, on the other side of the muon. -/
def chain (pt : Pt) (eta : EtaPhi) : PFInputs 3 2 1 1 where
  hadcalo := fun h => if h = 0 then ⟨60, 0, 0, 0, false⟩ else ⟨52, 53, 0, 52, false⟩
  track := fun t => if t = 0 then ⟨45, 1, 27, 0, 0, true⟩ else if t = 1 then ⟨90, 1, 84, 0, 0, true⟩ else ⟨pt, 1, eta, 0, 0, true⟩
  emcalo := fun _ => ⟨50, 1, 75, 0⟩
  mu := fun _ => ⟨100, 0, 129, 0⟩

theorem chain_within (pt pt' : Pt) {eta : EtaPhi} {R d : ℝ} (hd : 0 ≤ d) (h : (dist2 0 0 eta 0 : ℤ) = d ^ 2) (hR : R ≤ d) :
    SameWithin R (0, 0) (chain pt eta) (chain pt' eta) := by
  refine ⟨fun t => ?_, fun _ => .inl rfl, fun _ => .inl rfl, fun _ => .inl rfl⟩
  have g : R ≤ gap (0, 0) (eta, 0) := by
    unfold gap
    rw [show ((dist2 ((0, 0) : Dir).1 ((0, 0) : Dir).2 ((eta, 0) : Dir).1 ((eta, 0) : Dir).2 : ℤ) : ℝ) = d ^ 2 from h, Real.sqrt_sq hd]
    exact hR
  match t with
  | 0 => exact .inl rfl
  | 1 => exact .inl rfl
  | 2 => exact .inr ⟨.inr g, .inr g⟩

/-- **C90.** The reach of the neutrals is needed but for five units: a track 174 units away changes a neutral. -/
theorem C90_chain :
    SameWithin 174 (0, 0) (chain 100 174) (chain 1 174) ∧
    (pfalgo3_full (chain 100 174) (old0 3 1 2 1) (mem0 2 2)).map (fun o => ((o.outne 0).hwPt, (o.outne 0).hwEta)) = .ok (60, 0) ∧
    (pfalgo3_full (chain 1 174) (old0 3 1 2 1) (mem0 2 2)).map (fun o => ((o.outne 0).hwPt, (o.outne 0).hwEta)) = .ok (15, 0) ∧
    (pfalgo3_full_ref (chain 100 174) (old0 3 1 2 1) (mem0 2 2).outne_all).map (fun o => ((o.outne 0).hwPt, (o.outne 0).hwEta)) = .ok (60, 0) ∧
    (pfalgo3_full_ref (chain 1 174) (old0 3 1 2 1) (mem0 2 2).outne_all).map (fun o => ((o.outne 0).hwPt, (o.outne 0).hwEta)) = .ok (15, 0) := by
  refine ⟨chain_within 100 1 (d := 174) (by norm_num) ?_ (le_refl _), by decide +kernel, by decide +kernel, by decide +kernel, by decide +kernel⟩
  rw [show dist2 0 0 174 0 = 174 ^ 2 by decide]
  norm_num

/-- **C90**, non-vacuity: with the last track five units farther, the events agree within the reach of the neutral. -/
example : Physical (chain 100 179) ∧ Physical (chain 1 179) ∧ SameWithin neutralReach (0, 0) (chain 100 179) (chain 1 179) ∧
    (pfalgo3_full (chain 100 179) (old0 3 1 2 1) (mem0 2 2)).map (fun o => ((o.outne 0).hwPt, (o.outne 0).hwEta)) = .ok (15, 0) := by
  refine ⟨?_, ?_, chain_within 100 1 (d := 179) (by norm_num) ?_ (by have := C90_numbers.2.2.2.1; linarith), by decide +kernel⟩
  · constructor <;> decide
  · constructor <;> decide
  · rw [show dist2 0 0 179 0 = 179 ^ 2 by decide]
    norm_num

end Verif
