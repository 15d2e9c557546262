import Verif.Spec.Parts
import Verif.Props.Groups
/-! # Events that fall apart into parts: property C111 -/
namespace Verif
open Spec
variable {NT NC NE NM NS : Nat}

/-! ### What is claimed -/

/-- The candidates that are there: charged particles, photons, muons and neutral hadrons of an output. -/
structure Found where
  charged : List PFChargedObj
  photons : List Seen
  muons : List PFChargedObj
  neutrals : List Seen

/-- What is found in an output. -/
def found {NT NE NS NM : Nat} (out : PFOutputs NT NE NS NM) : Found where
  charged := (List.ofFn out.outch).filter fun x => decide (x.hwPt ≠ 0)
  photons := (List.ofFn fun c => seen (out.outpho c)).filter fun x => decide (x.1 ≠ 0)
  muons := (List.ofFn out.outmu).filter fun x => decide (x.hwPt ≠ 0)
  neutrals := (List.ofFn fun i => seen (out.outne i)).filter fun x => decide (x.1 ≠ 0)

/-- The same particles are found as in several outputs together. -/
structure FoundTogether (f : Found) (fs : List Found) : Prop where
  charged : f.charged.Perm (fs.flatMap Found.charged)
  photons : f.photons.Perm (fs.flatMap Found.photons)
  muons : f.muons.Perm (fs.flatMap Found.muons)
  neutrals : f.neutrals.Perm (fs.flatMap Found.neutrals)

/-! ### Slots of parts -/

theorem flatMap_parts {G A : Type} {N : Nat} (f : Fin N → A) (q : A → Bool) (gs : List G) (slots : G → List (Fin N)) (L : G → List A)
    (hL : ∀ g ∈ gs, L g = ((slots g).map f).filter q) : gs.flatMap L = ((gs.flatMap slots).map f).filter q := by
  induction gs with
  | nil => rfl
  | cons g gs ih =>
    rw [List.flatMap_cons, ih fun x hx => hL x (List.mem_cons_of_mem _ hx), hL g List.mem_cons_self, List.flatMap_cons, List.map_append, List.filter_append]

theorem perm_parts {G A : Type} {N : Nat} (f : Fin N → A) (q : A → Bool) (gs : List G) (slots : G → List (Fin N)) (L : G → List A)
    (hL : ∀ g ∈ gs, L g = ((slots g).map f).filter q) (hcov : ∀ i, q (f i) = true → ∃ g ∈ gs, i ∈ slots g)
    (hone : (gs.flatMap slots).Nodup) : ((List.ofFn f).filter q).Perm (gs.flatMap L) := by
  rw [flatMap_parts f q gs slots L hL, List.ofFn_eq_map, List.filter_map, List.filter_map]
  refine List.Perm.map f ?_
  rw [List.perm_ext_iff_of_nodup ((List.nodup_finRange N).filter _) (hone.filter _)]
  intro i
  rw [List.mem_filter, List.mem_filter]
  constructor
  · rintro ⟨-, h⟩
    obtain ⟨g, h1, h2⟩ := hcov i h
    exact ⟨List.mem_flatMap.mpr ⟨g, h1, h2⟩, h⟩
  · exact fun h => ⟨List.mem_finRange i, h.2⟩

theorem has_ofFn {N n : Nat} {f : Fin n → Fin N} {i : Fin N} (h : Has f i) : i ∈ List.ofFn f := (List.mem_ofFn' _ _).mpr h

/-! ### C111 -/

theorem found_together {v : Variant} {inp : PFInputs NT NC NE NM} {ps : List (SeparatePart v inp)} (hf : FallsApart inp ps) (hv : Valid inp v)
    {out : PFOutputs NT NE NS NM} (m : Makes inp v out) (hroom : (∃ i, (out.outne i).hwPt = 0) ∨ NC ≤ NS)
    (outs : (p : SeparatePart v inp) → PFOutputs p.nt p.ne p.nc p.nm) (ms : ∀ p ∈ ps, Makes p.event v (outs p)) :
    FoundTogether (found out) (ps.map fun p => found (outs p)) := by
  have H := fun p hp => part_lists (SeparatePart.part p) p.ordered hv.emPt m (ms p hp)
  constructor
  · rw [List.flatMap_map]
    refine perm_parts _ _ ps (fun p => List.ofFn p.ft) _ (fun p h => ?_) (fun t h => ?_) hf.oneTrack
    · rw [List.map_ofFn]
      exact (H p h).1.symm
    · have h0 : (out.outch t).hwPt ≠ 0 := of_decide_eq_true h
      have e := m.charged t h0
      rw [e] at h0
      rw [(chargedOut_pt h0).1] at h0
      obtain ⟨p, h1, h2⟩ := hf.track t fun z => h0 (pt_zero' z)
      exact ⟨p, h1, has_ofFn h2⟩
  · rw [List.flatMap_map]
    refine perm_parts _ _ ps (fun p => List.ofFn p.fe) _ (fun p h => ?_) (fun c h => ?_) hf.oneEm
    · rw [List.map_ofFn, show ((fun c => seen (out.outpho c)) ∘ p.fe) = fun c => seen ((outs p).outpho c) from funext (H p h).2.1]
      rfl
    · have h0 : (seen (out.outpho c)).1 ≠ 0 := of_decide_eq_true h
      rw [seen_fst] at h0
      obtain ⟨p, h1, h2⟩ := hf.em c (photon_slot hv.trackPt fun z => h0 ((m.photon c).1.trans z))
      exact ⟨p, h1, has_ofFn h2⟩
  · rw [List.flatMap_map]
    refine perm_parts _ _ ps (fun p => List.ofFn p.fm) _ (fun p h => ?_) (fun k h => ?_) hf.oneMu
    · rw [List.map_ofFn, show (out.outmu ∘ p.fm) = (outs p).outmu from funext (H p h).2.2.1]
      rfl
    · obtain ⟨p, h1, h2⟩ := hf.mu k (muon_slot (m.muon k) (of_decide_eq_true h))
      exact ⟨p, h1, has_ofFn h2⟩
  · rw [List.flatMap_map]
    have e : (found out).neutrals = neutralsByPt (neutralSeen inp v) := by
      unfold found
      rw [m.neutral]
      exact fit_filter (neutrals_room m hroom) (neutralsByPt_ne _)
    rw [e]
    refine (neutralsByPt_perm _).trans ((perm_parts _ _ ps (fun p => List.ofFn p.fh)
      (fun p => (List.ofFn (neutralSeen p.event v)).filter fun x => decide (x.1 ≠ 0)) (fun p h => ?_) (fun k h => ?_) hf.oneHad).trans ?_)
    · rw [List.map_ofFn, show (neutralSeen inp v ∘ p.fh) = neutralSeen p.event v from funext (H p h).2.2.2]
    · have h0 : (neutralSeen inp v k).1 ≠ 0 := of_decide_eq_true h
      obtain ⟨p, h1, h2⟩ := hf.had k (neutral_slot hv fun z => h0 (by unfold neutralSeen; rw [if_pos z]))
      exact ⟨p, h1, has_ofFn h2⟩
    · refine List.Perm.flatMap_left _ (fun p h => ?_)
      have e : (found (outs p)).neutrals = neutralsByPt (neutralSeen p.event v) := by
        unfold found
        rw [(ms p h).neutral]
        exact fit_filter (neutralsByPt_length _) (neutralsByPt_ne _)
      rw [e]
      exact (neutralsByPt_perm _).symm

/-- **C111.** What the firmware finds in an event that falls apart is what it finds in its parts, one after the other. -/
theorem C111_parts {inp : PFInputs NT NC NE NM} {ps : List (SeparatePart fwVariant inp)} (hf : FallsApart inp ps) (hv : Valid inp fwVariant) (hN : NC ≤ NS)
    (old : PFOutputs NT NE NS NM) (mem : PFScratch NC NS) (olds : (p : SeparatePart fwVariant inp) → PFOutputs p.nt p.ne p.nc p.nm)
    (mems : (p : SeparatePart fwVariant inp) → PFScratch p.nc p.nc) :
    ∃ out, ∃ outs : (p : SeparatePart fwVariant inp) → PFOutputs p.nt p.ne p.nc p.nm, pfalgo3_full inp old mem = .ok out ∧ (∀ p ∈ ps, pfalgo3_full p.event (olds p) (mems p) = .ok (outs p)) ∧
      FoundTogether (found out) (ps.map fun p => found (outs p)) := by
  obtain ⟨out, e, m⟩ := fw_makes inp hv old mem
  choose outs es ms using fun p : SeparatePart fwVariant inp => fw_makes p.event (valid_part p.part p.ordered hv) (olds p) (mems p)
  exact ⟨out, outs, e, fun p _ => es p, found_together hf hv m (.inr hN) outs fun p _ => ms p⟩

/-- **C111** for the reference. -/
theorem C111_parts_ref {inp : PFInputs NT NC NE NM} {ps : List (SeparatePart refVariant inp)} (hf : FallsApart inp ps) (hv : Valid inp refVariant) (hN : NC ≤ NS)
    (hempty : ∀ t, (inp.track t).hwPt.toInt = 0 → (inp.track t).hwPtErr.toInt = 0)
    (old : PFOutputs NT NE NS NM) (mem : Arr NC PFNeutralObj) (olds : (p : SeparatePart refVariant inp) → PFOutputs p.nt p.ne p.nc p.nm)
    (mems : (p : SeparatePart refVariant inp) → Arr p.nc PFNeutralObj) :
    ∃ out, ∃ outs : (p : SeparatePart refVariant inp) → PFOutputs p.nt p.ne p.nc p.nm, pfalgo3_full_ref inp old mem = .ok out ∧ (∀ p ∈ ps, pfalgo3_full_ref p.event (olds p) (mems p) = .ok (outs p)) ∧
      FoundTogether (found out) (ps.map fun p => found (outs p)) := by
  obtain ⟨out, e, m⟩ := ref_makes_empty inp hv hempty old mem
  choose outs es ms using fun p : SeparatePart refVariant inp =>
    ref_makes_empty p.event (valid_part p.part p.ordered hv) (fun t => p.part.track t ▸ hempty (p.ft t)) (olds p) (mems p)
  exact ⟨out, outs, e, fun p _ => es p, found_together hf hv m (.inr hN) outs fun p _ => ms p⟩

/-! ### A case -/

/-- The first three particles of the event `busy`. -/
def busyFirst : PFInputs 3 2 1 1 where
  track := fun t => busy.track (Fin.castLE (by decide) t)
  hadcalo := fun h => busy.hadcalo (Fin.castLE (by decide) h)
  emcalo := fun e => busy.emcalo (Fin.castLE (by decide) e)
  mu := fun m => busy.mu (Fin.castLE (by decide) m)

/-- The other two. -/
def busySecond : PFInputs 1 0 1 0 where
  track := fun _ => busy.track 3
  hadcalo := fun h => h.elim0
  emcalo := fun _ => busy.emcalo 1
  mu := fun m => m.elim0

def busyParts : List (SeparatePart fwVariant busy) :=
  [⟨3, 2, 1, 1, busyFirst, Fin.castLE (by decide), Fin.castLE (by decide), Fin.castLE (by decide), Fin.castLE (by decide),
      by constructor <;> decide +kernel, castLE_ordered _ _ _ _ _⟩,
    ⟨1, 0, 1, 0, busySecond, fun _ => 3, fun h => h.elim0, fun _ => 1, fun m => m.elim0,
      by constructor <;> decide +kernel, ordered_one _ _ (by decide) (by decide) (by decide) _ _ _⟩]

theorem busy_fallsApart : FallsApart busy busyParts := by constructor <;> decide

example (old : PFOutputs 4 3 3 2) (mem : PFScratch 3 3) (olds : (p : SeparatePart fwVariant busy) → PFOutputs p.nt p.ne p.nc p.nm)
    (mems : (p : SeparatePart fwVariant busy) → PFScratch p.nc p.nc) :
    ∃ out, ∃ outs : (p : SeparatePart fwVariant busy) → PFOutputs p.nt p.ne p.nc p.nm, pfalgo3_full busy old mem = .ok out ∧ (∀ p ∈ busyParts, pfalgo3_full p.event (olds p) (mems p) = .ok (outs p)) ∧
      FoundTogether (found out) (busyParts.map fun p => found (outs p)) :=
  C111_parts busy_fallsApart (physical_valid _ busy_hadron.2.1 _) (by decide) old mem olds mems

end Verif
