import Verif.Spec.Pieces
import Verif.Props.GroupsHadrons
/-! # Regions made of isolated particles of all kinds: property C115 -/
namespace Verif
open Spec Rounding
variable {R : Rounding} {NT NC NE NM NS : Nat}

/-! ### Slots -/

section
variable {P A B : Type} (f : P → List A) (ps : List P)

/-- The slot of the object of piece `i`. -/
def slotAt (i : Fin ps.length) : Option Nat := if (f ps[i.val]).length = 0 then none else some ((ps.take i.val).flatMap f).length

variable {f ps}

theorem slot_split (i : Fin ps.length) : ps.flatMap f = (ps.take i.val).flatMap f ++ (f ps[i.val] ++ (ps.drop (i.val + 1)).flatMap f) := by
  conv_lhs => rw [← List.take_append_drop i.val ps, List.drop_eq_getElem_cons i.2, List.flatMap_append, List.flatMap_cons]

theorem slot_get (h1 : ∀ p ∈ ps, (f p).length ≤ 1) {i : Fin ps.length} {k : Nat} (h : slotAt f ps i = some k) :
    ∃ a, f ps[i.val] = [a] ∧ (ps.flatMap f)[k]? = some a := by
  unfold slotAt at h
  by_cases h0 : (f ps[i.val]).length = 0
  · rw [if_pos h0] at h; exact absurd h (by simp)
  · rw [if_neg h0] at h
    obtain ⟨a, ha⟩ := List.length_eq_one_iff.mp (show (f ps[i.val]).length = 1 by have := h1 _ (List.getElem_mem i.2); omega)
    refine ⟨a, ha, ?_⟩
    rw [← Option.some.inj h, slot_split i, List.getElem?_append_right (Nat.le_refl _), Nat.sub_self, ha]
    rfl

theorem slot_none {i : Fin ps.length} (h : slotAt f ps i = none) : f ps[i.val] = [] := by
  unfold slotAt at h
  by_cases h0 : (f ps[i.val]).length = 0
  · exact List.length_eq_zero_iff.mp h0
  · rw [if_neg h0] at h; exact absurd h (by simp)

theorem slot_mono {i j : Fin ps.length} (hij : i < j) {k l : Nat} (hi : slotAt f ps i = some k) (hj : slotAt f ps j = some l) : k < l := by
  unfold slotAt at hi hj
  by_cases h0 : (f ps[i.val]).length = 0
  · rw [if_pos h0] at hi; exact absurd hi (by simp)
  by_cases h1 : (f ps[j.val]).length = 0
  · rw [if_pos h1] at hj; exact absurd hj (by simp)
  rw [if_neg h0] at hi
  rw [if_neg h1] at hj
  obtain rfl := Option.some.inj hi
  obtain rfl := Option.some.inj hj
  have e : ps.take j.val = ps.take i.val ++ (ps[i.val] :: (ps.drop (i.val + 1)).take (j.val - i.val - 1)) := by
    have : j.val = i.val + (j.val - i.val - 1 + 1) := by have : i.val < j.val := hij; omega
    rw [this, List.take_add, List.drop_eq_getElem_cons i.2, List.take_succ_cons]
    congr 3
    omega
  rw [e, List.flatMap_append, List.flatMap_cons, List.length_append, List.length_append]
  omega

theorem slot_inj {i j : Fin ps.length} {k : Nat} (hi : slotAt f ps i = some k) (hj : slotAt f ps j = some k) : i = j := by
  rcases lt_trichotomy i j with h | h | h
  · exact absurd (slot_mono h hi hj) (lt_irrefl _)
  · exact h
  · exact absurd (slot_mono h hj hi) (lt_irrefl _)

theorem slot_cover : ∀ {ps : List P}, (∀ p ∈ ps, (f p).length ≤ 1) → ∀ {k : Nat}, k < (ps.flatMap f).length → ∃ i, slotAt f ps i = some k
  | [], _, k, h => absurd h (by simp)
  | p :: ps, h1, k, h => by
    rw [List.flatMap_cons, List.length_append] at h
    have hp := h1 p List.mem_cons_self
    by_cases hk : k < (f p).length
    · refine ⟨⟨0, by simp⟩, ?_⟩
      unfold slotAt
      rw [if_neg (by show ¬ (f p).length = 0; omega)]
      simp
      omega
    · obtain ⟨i, hi⟩ := slot_cover (ps := ps) (fun q hq => h1 q (List.mem_cons_of_mem _ hq)) (k := k - (f p).length) (by omega)
      refine ⟨i.succ, ?_⟩
      unfold slotAt at hi ⊢
      by_cases h0 : (f ps[i.val]).length = 0
      · rw [if_pos h0] at hi; exact absurd hi (by simp)
      · rw [if_neg h0] at hi
        have := Option.some.inj hi
        rw [if_neg (by show ¬ (f ((p :: ps)[i.val + 1])).length = 0; rw [List.getElem_cons_succ]; exact h0)]
        show some ((List.take (i.val + 1) (p :: ps)).flatMap f).length = some k
        rw [List.take_succ_cons, List.flatMap_cons, List.length_append, this]
        congr 1
        omega

/-- The slot as an index of an array. -/
def slotIn (N : Nat) (f : P → List A) (ps : List P) (i : Fin ps.length) : Option (Fin N) := (slotAt f ps i).bind fun k => if h : k < N then some ⟨k, h⟩ else none

theorem slotIn_iff {N : Nat} {i : Fin ps.length} {k : Fin N} : slotIn N f ps i = some k ↔ slotAt f ps i = some k.val := by
  unfold slotIn
  cases e : slotAt f ps i with
  | none => simp
  | some l =>
    simp only [Option.bind_some, Option.some.injEq]
    by_cases h : l < N
    · rw [dif_pos h]
      simp only [Option.some.injEq]
      exact ⟨fun x => by rw [← x], fun x => Fin.ext x⟩
    · rw [dif_neg h]
      exact ⟨fun x => absurd x (by simp), fun x => absurd (x ▸ k.2) h⟩

theorem slotIn_bind {N : Nat} (hN : (ps.flatMap f).length ≤ N) (h1 : ∀ p ∈ ps, (f p).length ≤ 1) (i : Fin ps.length) :
    ((slotIn N f ps i).bind fun k => (ps.flatMap f)[k.val]?).toList = f ps[i.val] := by
  cases e : slotAt f ps i with
  | none =>
    rw [slot_none e]
    unfold slotIn
    rw [e]
    rfl
  | some k =>
    obtain ⟨a, h2, h3⟩ := slot_get h1 e
    have hk : k < N := by have := (List.getElem?_eq_some_iff.mp h3).1; omega
    rw [slotIn_iff.mpr (show slotAt f ps i = some (⟨k, hk⟩ : Fin N).val from e), h2, Option.bind_some, h3]
    rfl

/-- An array slot has the object of a piece, or is empty. -/
theorem slot_cases {N : Nat} (conv : A → B) (z : B) (h1 : ∀ p ∈ ps, (f p).length ≤ 1) (k : Fin N) :
    (∃ i a, slotIn N f ps i = some k ∧ f ps[i.val] = [a] ∧ padded N conv z (ps.flatMap f) k = conv a) ∨
    ((ps.flatMap f).length ≤ k.val ∧ padded N conv z (ps.flatMap f) k = z ∧ ∀ i, slotIn N f ps i ≠ some k) := by
  by_cases h : k.val < (ps.flatMap f).length
  · obtain ⟨i, hi⟩ := slot_cover h1 h
    obtain ⟨a, h2, h3⟩ := slot_get h1 hi
    refine .inl ⟨i, a, slotIn_iff.mpr hi, h2, ?_⟩
    unfold padded
    rw [h3]
  · refine .inr ⟨by omega, ?_, fun i hi => ?_⟩
    · unfold padded
      rw [List.getElem?_eq_none (by omega)]
    · obtain ⟨a, -, h3⟩ := slot_get h1 (slotIn_iff.mp hi)
      exact h (List.getElem?_eq_some_iff.mp h3).1

theorem slotIn_inj {N : Nat} {i j : Fin ps.length} {k : Fin N} (hi : slotIn N f ps i = some k) (hj : slotIn N f ps j = some k) : i = j :=
  slot_inj (slotIn_iff.mp hi) (slotIn_iff.mp hj)

/-- The direction of a slot. -/
noncomputable def slotDir (N : Nat) (f : P → List A) (ps : List P) (dir : P → RealDir) (k : Fin N) : RealDir :=
  open Classical in if h : ∃ i, slotIn N f ps i = some k then dir ps[h.choose.val] else (0, 0)

theorem slotDir_of {N : Nat} {dir : P → RealDir} {i : Fin ps.length} {k : Fin N} (h : slotIn N f ps i = some k) : slotDir N f ps dir k = dir ps[i.val] := by
  have hx : ∃ i, slotIn N f ps i = some k := ⟨i, h⟩
  unfold slotDir
  rw [dif_pos hx]
  have e : hx.choose = i := slotIn_inj hx.choose_spec h
  simp only [e]

theorem slotDir_none {N : Nat} {dir : P → RealDir} {k : Fin N} (h : ∀ i, slotIn N f ps i ≠ some k) : slotDir N f ps dir k = (0, 0) := by
  unfold slotDir
  rw [dif_neg fun ⟨i, hi⟩ => h i hi]

end

/-! ### Pieces as groups -/

/-- The slots of piece `i`. -/
def pieceGroup (NT NC NE NM : Nat) (ps : List RegionPiece) (i : Fin ps.length) : Group NT NC NE NM :=
  ⟨slotIn NT (fun p => p.r.track) ps i, slotIn NC (fun p => p.r.calo) ps i, slotIn NE (fun p => p.r.emcalo) ps i, slotIn NM (fun p => p.r.muon) ps i⟩

noncomputable def pieceDirections (NT NC NE NM : Nat) (ps : List RegionPiece) : Directions NT NC NE NM where
  track := slotDir NT (fun p => p.r.track) ps RegionPiece.dt
  had := slotDir NC (fun p => p.r.calo) ps RegionPiece.dh
  em := slotDir NE (fun p => p.r.emcalo) ps RegionPiece.de
  mu := slotDir NM (fun p => p.r.muon) ps RegionPiece.dm

section
variable {r : InputRegion} {ps : List RegionPiece} (H : MadeOf NE r ps)
include H

theorem piece_track (k : Fin NT) : (∃ i a, slotIn NT (fun p => p.r.track) ps i = some k ∧ ps[i.val].r.track = [a] ∧ (regionInputs NT NC NE NM r).track k = fw_track a) ∨
    (r.track.length ≤ k.val ∧ (regionInputs NT NC NE NM r).track k = TkObj.clear ∧ ∀ i, slotIn NT (fun p => p.r.track) ps i ≠ some k) := by
  have := slot_cases fw_track TkObj.clear (fun (p : RegionPiece) (_ : p ∈ ps) => p.one.track) k
  rwa [← H.track] at this

theorem piece_calo (k : Fin NC) : (∃ i a, slotIn NC (fun p => p.r.calo) ps i = some k ∧ ps[i.val].r.calo = [a] ∧ (regionInputs NT NC NE NM r).hadcalo k = fw_had a) ∨
    (r.calo.length ≤ k.val ∧ (regionInputs NT NC NE NM r).hadcalo k = HadCaloObj.clear ∧ ∀ i, slotIn NC (fun p => p.r.calo) ps i ≠ some k) := by
  have := slot_cases fw_had HadCaloObj.clear (fun (p : RegionPiece) (_ : p ∈ ps) => p.one.calo) k
  rwa [← H.calo] at this

theorem piece_em (k : Fin NE) : (∃ i a, slotIn NE (fun p => p.r.emcalo) ps i = some k ∧ ps[i.val].r.emcalo = [a] ∧ (regionInputs NT NC NE NM r).emcalo k = fw_em a) ∨
    (r.emcalo.length ≤ k.val ∧ (regionInputs NT NC NE NM r).emcalo k = EmCaloObj.clear ∧ ∀ i, slotIn NE (fun p => p.r.emcalo) ps i ≠ some k) := by
  have := slot_cases fw_em EmCaloObj.clear (fun (p : RegionPiece) (_ : p ∈ ps) => p.one.em) k
  rwa [← H.em] at this

theorem piece_mu (k : Fin NM) : (∃ i a, slotIn NM (fun p => p.r.muon) ps i = some k ∧ ps[i.val].r.muon = [a] ∧ (regionInputs NT NC NE NM r).mu k = fw_mu a) ∨
    (r.muon.length ≤ k.val ∧ (regionInputs NT NC NE NM r).mu k = MuObj.clear ∧ ∀ i, slotIn NM (fun p => p.r.muon) ps i ≠ some k) := by
  have := slot_cases fw_mu MuObj.clear (fun (p : RegionPiece) (_ : p ∈ ps) => p.one.mu) k
  rwa [← H.mu] at this

theorem piece_directions : HasDirections (regionInputs NT NC NE NM r) (pieceDirections NT NC NE NM ps) := by
  refine ⟨fun k => ?_, fun k => ?_, fun k => ?_, fun k => ?_⟩
  · show Stands _ _ (slotDir _ _ _ _ _)
    rcases piece_track (NC := NC) (NM := NM) H k with ⟨i, a, h1, h2, h3⟩ | ⟨-, h2, h3⟩
    · rw [h3, slotDir_of h1]; exact ps[i.val].st a (by rw [h2]; simp)
    · rw [h2, slotDir_none h3]; exact stands_centre
  · show Stands _ _ (slotDir _ _ _ _ _)
    rcases piece_calo (NT := NT) (NM := NM) H k with ⟨i, a, h1, h2, h3⟩ | ⟨-, h2, h3⟩
    · rw [h3, slotDir_of h1]; exact ps[i.val].sh a (by rw [h2]; simp)
    · rw [h2, slotDir_none h3]; exact stands_centre
  · show Stands _ _ (slotDir _ _ _ _ _)
    rcases piece_em (NT := NT) (NC := NC) (NM := NM) H k with ⟨i, a, h1, h2, h3⟩ | ⟨-, h2, h3⟩
    · rw [h3, slotDir_of h1]; exact ps[i.val].se a (by rw [h2]; simp)
    · rw [h2, slotDir_none h3]; exact stands_centre
  · show Stands _ _ (slotDir _ _ _ _ _)
    rcases piece_mu (NT := NT) (NC := NC) H k with ⟨i, a, h1, h2, h3⟩ | ⟨-, h2, h3⟩
    · rw [h3, slotDir_of h1]; exact ps[i.val].sm a (by rw [h2]; simp)
    · rw [h2, slotDir_none h3]; exact stands_centre

theorem piece_trackPt {k : Fin NT} {i : Fin ps.length} (h : slotIn NT (fun p => p.r.track) ps i = some k) :
    ((regionInputs NT NC NE NM r).track k).hwPt.toInt ≠ 0 ∧ ps[i.val].r.track ≠ [] := by
  rcases piece_track (NC := NC) (NM := NM) H k with ⟨j, a, h1, h2, h3⟩ | ⟨-, -, h3⟩
  · obtain rfl := slotIn_inj h h1
    refine ⟨?_, by rw [h2]; simp⟩
    rw [h3]
    have := ps[i.val].one.pt a (by rw [h2]; simp)
    have e : (fw_track a).hwPt.toInt = a.hwPt.toInt := fw_pt _
    omega
  · exact absurd h (h3 i)

theorem piece_caloPt {k : Fin NC} {i : Fin ps.length} (h : slotIn NC (fun p => p.r.calo) ps i = some k) :
    ((regionInputs NT NC NE NM r).hadcalo k).hwPt.toInt ≠ 0 ∧ ps[i.val].r.calo ≠ [] := by
  rcases piece_calo (NT := NT) (NM := NM) H k with ⟨j, a, h1, h2, h3⟩ | ⟨-, -, h3⟩
  · obtain rfl := slotIn_inj h h1
    refine ⟨?_, by rw [h2]; simp⟩
    rw [h3]
    have := ps[i.val].calo a (by rw [h2]; simp)
    have e : (fw_had a).hwPt.toInt = a.hwPt.toInt := fw_pt _
    omega
  · exact absurd h (h3 i)

theorem piece_muPt {k : Fin NM} {i : Fin ps.length} (h : slotIn NM (fun p => p.r.muon) ps i = some k) :
    ((regionInputs NT NC NE NM r).mu k).hwPt.toInt ≠ 0 ∧ ps[i.val].r.muon ≠ [] := by
  rcases piece_mu (NT := NT) (NC := NC) H k with ⟨j, a, h1, h2, h3⟩ | ⟨-, -, h3⟩
  · obtain rfl := slotIn_inj h h1
    refine ⟨?_, by rw [h2]; simp⟩
    rw [h3]
    have := ps[i.val].mu a (by rw [h2]; simp)
    have e : (fw_mu a).hwPt.toInt = a.hwPt.toInt := fw_pt _
    omega
  · exact absurd h (h3 i)

theorem piece_emIs {k : Fin NE} {i : Fin ps.length} (h : slotIn NE (fun p => p.r.emcalo) ps i = some k) : ps[i.val].r.emcalo ≠ [] := by
  rcases piece_em (NT := 0) (NC := 0) (NM := 0) H k with ⟨j, a, h1, h2, h3⟩ | ⟨-, -, h3⟩
  · obtain rfl := slotIn_inj h h1
    rw [h2]; simp
  · exact absurd h (h3 i)

theorem piece_slots : EmptySlots (regionInputs NT NC NE NM r) := by
  constructor
  · intro k h0
    rcases piece_track (NC := NC) (NM := NM) H k with ⟨i, a, h1, -, -⟩ | ⟨-, h2, -⟩
    · exact absurd h0 (piece_trackPt H h1).1
    · rw [h2]; decide
  · intro k h0
    rcases piece_calo (NT := NT) (NM := NM) H k with ⟨i, a, h1, -, -⟩ | ⟨-, h2, -⟩
    · exact absurd h0 (piece_caloPt H h1).1
    · rw [h2]; decide

theorem piece_filled (i : Fin ps.length) : Filled (regionInputs NT NC NE NM r) (pieceGroup NT NC NE NM ps i) :=
  ⟨fun _ h => (piece_trackPt H h).1, fun _ h => (piece_caloPt H h).1, fun _ h => (piece_muPt H h).1⟩

theorem piece_apart (i : Fin ps.length) : ApartR (regionInputs NT NC NE NM r) (pieceDirections NT NC NE NM ps) (pieceGroup NT NC NE NM ps i) := by
  have ap : ∀ {a b : Fin ps.length}, a ≠ b → PiecesApart ps[a.val] ps[b.val] := fun {a b} h => H.apart _ _ a.2 b.2 fun e => h (Fin.ext e)
  constructor
  · intro m t x hm ht
    show _ ≤ deltaR (slotDir _ _ _ _ _) (slotDir _ _ _ _ _)
    rcases piece_mu (NT := NT) (NC := NC) H m with ⟨a, _, ha, -, -⟩ | ⟨-, h2, -⟩
    · rcases piece_track (NC := NC) (NM := NM) H t with ⟨b, _, hb, -, -⟩ | ⟨-, h2, -⟩
      · rw [slotDir_of ha, slotDir_of hb]
        refine (ap fun e => ?_).muTk (piece_muPt (NT := NT) (NC := NC) H ha).2 (piece_trackPt (NC := NC) (NM := NM) H hb).2
        subst e
        rcases x with ⟨x, y⟩ | ⟨x, y⟩
        · obtain rfl := slotIn_inj x ha; exact y hb
        · obtain rfl := slotIn_inj x hb; exact y ha
      · rw [h2] at ht; exact absurd (by decide) ht
    · rw [h2] at hm; exact absurd (by decide) hm
  · intro t e x ht
    show _ ≤ deltaR (slotDir _ _ _ _ _) (slotDir _ _ _ _ _)
    rcases piece_track (NC := NC) (NM := NM) H t with ⟨a, _, ha, -, -⟩ | ⟨-, h2, -⟩
    · rcases piece_em (NT := NT) (NC := NC) (NM := NM) H e with ⟨b, _, hb, -, -⟩ | ⟨h1, -, h3⟩
      · rw [slotDir_of ha, slotDir_of hb]
        refine (ap fun e => ?_).tkEm (piece_trackPt (NC := NC) (NM := NM) H ha).2 (piece_emIs H hb)
        subst e
        rcases x with ⟨x, y⟩ | ⟨x, y⟩
        · obtain rfl := slotIn_inj x ha; exact y hb
        · obtain rfl := slotIn_inj x hb; exact y ha
      · rw [slotDir_of ha, slotDir_none h3]
        exact (H.centre (by omega) _ (List.getElem_mem a.2)).1 (piece_trackPt (NC := NC) (NM := NM) H ha).2
    · rw [h2] at ht; exact absurd (by decide) ht
  · intro e h x hh
    show _ ≤ deltaR (slotDir _ _ _ _ _) (slotDir _ _ _ _ _)
    rcases piece_calo (NT := NT) (NM := NM) H h with ⟨a, _, ha, -, -⟩ | ⟨-, h2, -⟩
    · rcases piece_em (NT := NT) (NC := NC) (NM := NM) H e with ⟨b, _, hb, -, -⟩ | ⟨h1, -, h3⟩
      · rw [slotDir_of ha, slotDir_of hb]
        refine (ap fun e => ?_).emHad (piece_emIs H hb) (piece_caloPt (NT := NT) (NM := NM) H ha).2
        subst e
        rcases x with ⟨x, y⟩ | ⟨x, y⟩
        · obtain rfl := slotIn_inj x hb; exact y ha
        · obtain rfl := slotIn_inj x ha; exact y hb
      · rw [slotDir_of ha, slotDir_none h3]
        exact (H.centre (by omega) _ (List.getElem_mem a.2)).2 (piece_caloPt (NT := NT) (NM := NM) H ha).2
    · rw [h2] at hh; exact absurd (by decide) hh
  · intro t h x ht hh
    show _ ≤ deltaR (slotDir _ _ _ _ _) (slotDir _ _ _ _ _)
    rcases piece_track (NC := NC) (NM := NM) H t with ⟨a, _, ha, -, -⟩ | ⟨-, h2, -⟩
    · rcases piece_calo (NT := NT) (NM := NM) H h with ⟨b, _, hb, -, -⟩ | ⟨-, h2, -⟩
      · rw [slotDir_of ha, slotDir_of hb]
        refine (ap fun e => ?_).tkHad (piece_trackPt (NC := NC) (NM := NM) H ha).2 (piece_caloPt (NT := NT) (NM := NM) H hb).2
        subst e
        rcases x with ⟨x, y⟩ | ⟨x, y⟩
        · obtain rfl := slotIn_inj x ha; exact y hb
        · obtain rfl := slotIn_inj x hb; exact y ha
      · rw [h2] at hh; exact absurd (by decide) hh
    · rw [h2] at ht; exact absurd (by decide) ht

theorem piece_groups (hp : Physical (regionInputs NT NC NE NM r)) : RegionGroups NT NC NE NM r (List.ofFn (pieceGroup NT NC NE NM ps)) := by
  have nd : ∀ {A : Type} {N : Nat} (f : RegionPiece → List A) (g : Group NT NC NE NM → Option (Fin N)), (∀ i, g (pieceGroup NT NC NE NM ps i) = slotIn N f ps i) →
      ((List.ofFn (pieceGroup NT NC NE NM ps)).filterMap g).Nodup := fun f g e => by
    rw [List.ofFn_eq_map, List.filterMap_map]
    refine List.Nodup.filterMap (fun a b c ha hb => ?_) (List.nodup_finRange _)
    have ha : slotIn _ f ps a = some c := (e a).symm.trans ha
    have hb : slotIn _ f ps b = some c := (e b).symm.trans hb
    exact slotIn_inj ha hb
  refine ⟨hp, (piece_slots H).track, ?_, fun g hg => ?_⟩
  · constructor
    · intro k h0
      rcases piece_track (NC := NC) (NM := NM) H k with ⟨i, a, h1, -, -⟩ | ⟨-, h2, -⟩
      · exact ⟨_, List.mem_ofFn.mpr ⟨i, rfl⟩, h1⟩
      · rw [h2] at h0; exact absurd (by decide) h0
    · intro k h0
      rcases piece_calo (NT := NT) (NM := NM) H k with ⟨i, a, h1, -, -⟩ | ⟨-, h2, -⟩
      · exact ⟨_, List.mem_ofFn.mpr ⟨i, rfl⟩, h1⟩
      · rw [h2] at h0; exact absurd (by decide) h0
    · intro k h0
      rcases piece_em (NT := NT) (NC := NC) (NM := NM) H k with ⟨i, a, h1, -, -⟩ | ⟨-, h2, -⟩
      · exact ⟨_, List.mem_ofFn.mpr ⟨i, rfl⟩, h1⟩
      · rw [h2] at h0; exact absurd (by decide) h0
    · intro k h0
      rcases piece_mu (NT := NT) (NC := NC) H k with ⟨i, a, h1, -, -⟩ | ⟨-, h2, -⟩
      · exact ⟨_, List.mem_ofFn.mpr ⟨i, rfl⟩, h1⟩
      · rw [h2] at h0; exact absurd h0 (by decide)
    · exact nd (fun p => p.r.track) _ fun _ => rfl
    · exact nd (fun p => p.r.calo) _ fun _ => rfl
    · exact nd (fun p => p.r.emcalo) _ fun _ => rfl
    · exact nd (fun p => p.r.muon) _ fun _ => rfl
  · obtain ⟨i, rfl⟩ := List.mem_ofFn.mp hg
    exact apart_alone (piece_directions H) (piece_slots H) (piece_filled H i) (piece_apart H i)

end

/-! ### C115 -/

/-- The outputs are determined by the inputs, so that facts about them can be put together. -/
theorem regionGives_all {ι : Type} [Nonempty ι] {r : InputRegion} {P : ι → List PFParticle → Prop} (h : ∀ i, RegionGives NT NC NE NM NS r (P i)) :
    RegionGives NT NC NE NM NS r fun l => ∀ i, P i l := by
  have i0 : ι := Classical.choice inferInstance
  constructor
  · intro old mem
    obtain ⟨out, e, -⟩ := (h i0).1 old mem
    refine ⟨out, e, fun a b c => ?_⟩
    have key : ∀ i, ConvertTo r out (P i) := fun i => by
      obtain ⟨out', e', c'⟩ := (h i).1 old mem
      obtain rfl := Except.ok.inj (e.symm.trans e')
      exact c'
    obtain ⟨l, el, -⟩ := key i0 a b c
    refine ⟨l, el, fun i => ?_⟩
    obtain ⟨l', el', hl⟩ := key i a b c
    obtain rfl := Except.ok.inj (el.symm.trans el')
    exact hl
  · intro old mem
    obtain ⟨out, e, -⟩ := (h i0).2 old mem
    refine ⟨out, e, fun a b c => ?_⟩
    have key : ∀ i, ConvertTo r out (P i) := fun i => by
      obtain ⟨out', e', c'⟩ := (h i).2 old mem
      obtain rfl := Except.ok.inj (e.symm.trans e')
      exact c'
    obtain ⟨l, el, -⟩ := key i0 a b c
    refine ⟨l, el, fun i => ?_⟩
    obtain ⟨l', el', hl⟩ := key i a b c
    obtain rfl := Except.ok.inj (el.symm.trans el')
    exact hl

theorem regionGives_lists {r r' : InputRegion} {P : List PFParticle → Prop} (h1 : r.track = r'.track) (h2 : r.calo = r'.calo) (h3 : r.emcalo = r'.emcalo) (h4 : r.muon = r'.muon)
    (h : RegionGives NT NC NE NM NS r P) : RegionGives NT NC NE NM NS r' P := by
  unfold RegionGives ConvertTo regionInputs at h ⊢
  rwa [h1, h2, h3, h4] at h

theorem regionOne_lists {r r' : InputRegion} (h1 : r.track = r'.track) (h2 : r.calo = r'.calo) (h3 : r.emcalo = r'.emcalo) (h4 : r.muon = r'.muon)
    (h : RegionOne r) : RegionOne r' := by
  obtain ⟨a, b, c, d, e, f⟩ := h
  refine ⟨h1 ▸ a, h3 ▸ b, h2 ▸ c, h4 ▸ d, h1 ▸ e, ?_⟩
  unfold regionSingle at f ⊢
  rwa [h1, h3] at f

/-- **C115.** A region made of isolated pieces — a photon here, a hadron there, an electron, a muon — gives, in firmware and in the reference, the particles that
each piece gives as a region of its own, and nothing else. -/
theorem C115_pieces {r : InputRegion} {ps : List RegionPiece} (H : MadeOf NE r ps) (hT : r.track.length ≤ NT) (hC : r.calo.length ≤ NC) (hE : r.emcalo.length ≤ NE)
    (hM : r.muon.length ≤ NM) (hN : NC ≤ NS) (hp : Physical (regionInputs NT NC NE NM r)) {P : RegionPiece → List PFParticle → Prop}
    (hv : ∀ p ∈ ps, ∀ l l', l.map particleView = l'.map particleView → P p l → P p l') (hP : ∀ p ∈ ps, RegionGives 1 1 1 1 1 p.r (P p)) :
    RegionGives NT NC NE NM NS r fun l => ∃ ls, l.Perm ls.flatten ∧ List.Forall₂ P ps ls := by
  have G := piece_groups H hp
  have t1 : ∀ i : Fin ps.length, ps[i.val].r.track = (groupRegion r (pieceGroup NT NC NE NM ps i)).track := fun i => by
    have := slotIn_bind (H.track ▸ hT) (fun (p : RegionPiece) (_ : p ∈ ps) => p.one.track) i
    rw [← H.track] at this
    exact this.symm
  have t2 : ∀ i : Fin ps.length, ps[i.val].r.calo = (groupRegion r (pieceGroup NT NC NE NM ps i)).calo := fun i => by
    have := slotIn_bind (H.calo ▸ hC) (fun (p : RegionPiece) (_ : p ∈ ps) => p.one.calo) i
    rw [← H.calo] at this
    exact this.symm
  have t3 : ∀ i : Fin ps.length, ps[i.val].r.emcalo = (groupRegion r (pieceGroup NT NC NE NM ps i)).emcalo := fun i => by
    have := slotIn_bind (H.em ▸ hE) (fun (p : RegionPiece) (_ : p ∈ ps) => p.one.em) i
    rw [← H.em] at this
    exact this.symm
  have t4 : ∀ i : Fin ps.length, ps[i.val].r.muon = (groupRegion r (pieceGroup NT NC NE NM ps i)).muon := fun i => by
    have := slotIn_bind (H.mu ▸ hM) (fun (p : RegionPiece) (_ : p ∈ ps) => p.one.mu) i
    rw [← H.mu] at this
    exact this.symm
  have R1 := C114_regions (NS := NS) G hN (P := fun g l => ∀ i, g = pieceGroup NT NC NE NM ps i → P ps[i.val] l) (fun g hg => by
      obtain ⟨i, rfl⟩ := List.mem_ofFn.mp hg
      exact regionOne_lists (t1 i) (t2 i) (t3 i) (t4 i) ps[i.val].one)
    (fun g l l' h k i e => hv _ (List.getElem_mem i.2) _ _ h (k i e)) (fun g hg => by
      obtain ⟨i, rfl⟩ := List.mem_ofFn.mp hg
      haveI : Nonempty { j : Fin ps.length // pieceGroup NT NC NE NM ps i = pieceGroup NT NC NE NM ps j } := ⟨⟨i, rfl⟩⟩
      refine regionGives_mono (regionGives_all (ι := { j : Fin ps.length // pieceGroup NT NC NE NM ps i = pieceGroup NT NC NE NM ps j })
        (P := fun j => P ps[j.1.val]) fun j => ?_) fun l hl j e => hl ⟨j, e⟩
      obtain ⟨j, hj⟩ := j
      show RegionGives 1 1 1 1 1 _ (P ps[j.val])
      rw [hj]
      exact regionGives_lists (t1 _) (t2 _) (t3 _) (t4 _) (hP _ (List.getElem_mem j.2)))
  refine regionGives_mono R1 fun l ⟨ls, p, f⟩ => ⟨ls, p, ?_⟩
  rw [List.forall₂_iff_get] at f ⊢
  obtain ⟨f1, f2⟩ := f
  rw [List.length_ofFn] at f1
  refine ⟨f1, fun k a b => ?_⟩
  exact f2 k (by rwa [List.length_ofFn]) b ⟨k, a⟩ (by simp)

/-! ### In GeV and radians -/

theorem padded_sum {A B : Type} (conv : A → B) (z : B) (f : B → ℤ) (hz : f z = 0) : ∀ {N : Nat} {l : List A}, l.length ≤ N →
    ∑ k : Fin N, f (padded N conv z l k) = (l.map fun a => f (conv a)).sum
  | N, [], _ => by simp [padded, hz]
  | 0, a :: l, h => absurd h (by simp)
  | N + 1, a :: l, h => by
    rw [Fin.sum_univ_succ, List.map_cons, List.sum_cons, ← padded_sum conv z f hz (N := N) (by simpa using h)]
    rfl

theorem padded_all {A B : Type} (conv : A → B) (z : B) {Q : B → Prop} (hz : Q z) {N : Nat} {l : List A} (h : ∀ a ∈ l, Q (conv a)) (k : Fin N) : Q (padded N conv z l k) := by
  unfold padded
  cases e : l[k.val]? with
  | none => exact hz
  | some a => exact h a (List.mem_of_getElem? e)

theorem region_physical {r : InputRegion} (h : RegionPhysical r) (hT : r.track.length ≤ NT) (hE : r.emcalo.length ≤ NE) : Physical (regionInputs NT NC NE NM r) where
  trackPt := padded_all fw_track _ (Q := fun x => 0 ≤ x.hwPt.toInt) (by decide) fun a ha => by rw [show (fw_track a).hwPt.toInt = a.hwPt.toInt from fw_pt _]; exact (h.track a ha).1
  trackErr := padded_all fw_track _ (Q := fun x => 0 ≤ x.hwPtErr.toInt) (by decide) fun a ha => by
    rw [show (fw_track a).hwPtErr.toInt = a.hwCaloPtErr.toInt from fw_pt _]; exact (h.track a ha).2.1
  trackErrMax := padded_all fw_track _ (Q := fun x => x.hwPtErr.toInt ≤ 16384) (by decide) fun a ha => by
    rw [show (fw_track a).hwPtErr.toInt = a.hwCaloPtErr.toInt from fw_pt _]; exact (h.track a ha).2.2
  emPt := padded_all fw_em _ (Q := fun x => 0 ≤ x.hwPt.toInt) (by decide) fun a ha => by rw [show (fw_em a).hwPt.toInt = a.hwPt.toInt from fw_pt _]; exact (h.em a ha).1
  emErrMax := padded_all fw_em _ (Q := fun x => x.hwPtErr.toInt ^ 2 ≤ 536870911) (by decide) fun a ha => by
    rw [show (fw_em a).hwPtErr.toInt = a.hwPtErr.toInt from fw_pt _]; exact (h.em a ha).2
  hadPt := padded_all fw_had _ (Q := fun x => 0 ≤ x.hwPt.toInt) (by decide) fun a ha => by rw [show (fw_had a).hwPt.toInt = a.hwPt.toInt from fw_pt _]; exact (h.calo a ha).1
  hadEmPt := padded_all fw_had _ (Q := fun x => 0 ≤ x.hwEmPt.toInt) (by decide) fun a ha => by
    rw [show (fw_had a).hwEmPt.toInt = a.hwEmPt.toInt from fw_pt _]; exact (h.calo a ha).2
  trackSum := by
    refine (padded_sum fw_track TkObj.clear (fun x => x.hwPt.toInt) (by decide) hT).trans_le ?_
    simpa only [show ∀ a, (fw_track a).hwPt.toInt = a.hwPt.toInt from fun a => fw_pt _] using h.trackSum
  emSum := by
    refine (padded_sum fw_em EmCaloObj.clear (fun x => x.hwPt.toInt) (by decide) hE).trans_le ?_
    simpa only [show ∀ a, (fw_em a).hwPt.toInt = a.hwPt.toInt from fun a => fw_pt _] using h.emSum
  trackErrSum := by
    have := padded_sum fw_track TkObj.clear (fun x => x.hwPtErr.toInt ^ 2) (by decide) hT
    simp only [show ∀ a, (fw_track a).hwPtErr.toInt = a.hwCaloPtErr.toInt from fun a => fw_pt _] at this
    exact (congrArg (3 * ·) this).trans_le h.errSum

theorem isolated_gives (A : IEEE R) {p : RegionPiece} {P : List PFParticle → Prop} (h : Isolated R p P) : RegionGives 1 1 1 1 1 p.r P := by
  have o := Nat.one_pos
  cases h with
  | photon ht hm hc hh C H hpt hσ hQ hemQ hd hx => exact (C108_photon A ht hm hc hh C H o o o o o hpt hσ hQ hemQ hd).1 hx
  | photonRest ht hm hc hh C H hpt hσ hQ hemQ hd hx hy => exact (C108_photon A ht hm hc hh C H o o o o o hpt hσ hQ hemQ hd).2 hx hy
  | photonAlone ht hm hc hh C hpt hσ => exact C108_photon_alone A ht hm hc hh C o o o o o hpt hσ
  | neutral ht hm hc hh H hQ hemQ hem => exact C108_neutral A ht hm hc hh H o o o o o hQ hemQ hem
  | hadron ht hm hc hh T H hpt he hQ hemQ hem hlow hd hx => exact (C108_hadron A ht hm hc hh T H o o o o o hpt he hQ hemQ hem hlow hd).1 hx
  | hadronRest ht hm hc hh T H hpt he hQ hemQ hem hlow hd hx => exact (C108_hadron A ht hm hc hh T H o o o o o hpt he hQ hemQ hem hlow hd).2 hx
  | electron ht hm hc hh T C hpt he hE0 hσ0 hσ hd hd0 hx => exact (C108_electron A ht hm hc hh T C o o o o o hpt he hE0 hσ0 hσ hd hd0).1 hx
  | electronRest ht hm hc hh T C hpt he hE0 hσ0 hσ hd hd0 hx => exact (C108_electron A ht hm hc hh T C o o o o o hpt he hE0 hσ0 hσ hd hd0).2 hx
  | muon ht hm hc hh T M hpt he hμ hd => exact C108_muon A ht hm hc hh T M o o o o o hpt he hμ hd

theorem view_one {l l' : List PFParticle} {id : Nat} {pt eta phi e : ℝ} (h : l.map particleView = l'.map particleView)
    (g : ∃ x, l = [x] ∧ AboutParticle R x id pt eta phi e ∧ pfCharge x = 0) : ∃ x, l' = [x] ∧ AboutParticle R x id pt eta phi e ∧ pfCharge x = 0 := by
  obtain ⟨x, rfl, b, c⟩ := g
  obtain ⟨y, rfl, e⟩ := views_one h.symm
  exact ⟨y, rfl, view_about e.symm b, (view_charge e).trans c⟩

theorem view_oneTrack {l l' : List PFParticle} {id : Nat} {pt eta phi e : ℝ} {t : PropagatedTrack} (hp : 0 < t.hwPt.toInt) (h : l.map particleView = l'.map particleView)
    (g : ∃ x, l = [x] ∧ AboutParticle R x id pt eta phi e ∧ x.track = t) : ∃ x, l' = [x] ∧ AboutParticle R x id pt eta phi e ∧ x.track = t := by
  obtain ⟨x, rfl, b, c⟩ := g
  obtain ⟨y, rfl, e⟩ := views_one h.symm
  exact ⟨y, rfl, view_about e.symm b, view_track e.symm hp c⟩

theorem view_twoTrack {l l' : List PFParticle} {id id' : Nat} {pt eta phi e pt' eta' phi' e' : ℝ} {t : PropagatedTrack} (hp : 0 < t.hwPt.toInt)
    (h : l.map particleView = l'.map particleView)
    (g : ∃ x y, l = [x, y] ∧ AboutParticle R x id pt eta phi e ∧ x.track = t ∧ AboutParticle R y id' pt' eta' phi' e' ∧ pfCharge y = 0) :
    ∃ x y, l' = [x, y] ∧ AboutParticle R x id pt eta phi e ∧ x.track = t ∧ AboutParticle R y id' pt' eta' phi' e' ∧ pfCharge y = 0 := by
  obtain ⟨x, z, rfl, b, c, b', c'⟩ := g
  obtain ⟨y, w, rfl, e, e'⟩ := views_two h.symm
  exact ⟨y, w, rfl, view_about e.symm b, view_track e.symm hp c, view_about e'.symm b', (view_charge e').trans c'⟩

theorem isolated_view (A : IEEE R) {p : RegionPiece} {P : List PFParticle → Prop} (h : Isolated R p P) {l l' : List PFParticle} (hl : l.map particleView = l'.map particleView) (hP : P l) :
    P l' := by
  cases h with
  | photon => exact view_one hl hP
  | photonRest =>
    obtain ⟨x, z, rfl, b, c, b', c'⟩ := hP
    obtain ⟨y, w, rfl, e, e'⟩ := views_two hl.symm
    exact ⟨y, w, rfl, view_about e.symm b, (view_charge e).trans c, view_about e'.symm b', (view_charge e').trans c'⟩
  | photonAlone => exact view_one hl hP
  | neutral => exact view_one hl hP
  | hadron _ _ _ _ T _ hpt => exact view_oneTrack ((T.facts A).2.1 hpt) hl hP
  | hadronRest _ _ _ _ T _ hpt => exact view_twoTrack ((T.facts A).2.1 hpt) hl hP
  | electron _ _ _ _ T _ hpt => exact view_oneTrack ((T.facts A).2.1 hpt) hl hP
  | electronRest _ _ _ _ T _ hpt => exact view_twoTrack ((T.facts A).2.1 hpt) hl hP
  | muon _ _ _ _ T _ hpt => exact view_oneTrack ((T.facts A).2.1 hpt) hl hP

/-- **C115.** Any number of isolated photons, neutral hadrons, charged hadrons, electrons and muons in one region: firmware and reference give each with its type, pt
in GeV, direction in radians and charge or track, the neutral particles of clear excesses, and nothing else. -/
theorem C115_particles (A : IEEE R) {r : InputRegion} {ps : List RegionPiece} (H : MadeOf NE r ps) (hT : r.track.length ≤ NT) (hC : r.calo.length ≤ NC)
    (hE : r.emcalo.length ≤ NE) (hM : r.muon.length ≤ NM) (hN : NC ≤ NS) (hp : RegionPhysical r) {P : RegionPiece → List PFParticle → Prop}
    (hP : ∀ p ∈ ps, Isolated R p (P p)) : RegionGives NT NC NE NM NS r fun l => ∃ ls, l.Perm ls.flatten ∧ List.Forall₂ P ps ls :=
  C115_pieces H hT hC hE hM hN (region_physical hp hT hE) (fun p h _ _ e x => isolated_view A (hP p h) e x) fun p h => isolated_gives A (hP p h)

/-- **C115.** Particle flow behind its links and then PUPPI, for the same regions: the candidates of the pieces, and for each neutral the PUPPI pt that belongs to
the sum over the pieces. -/
theorem C115_puppi {N N' : Nat} {r : InputRegion} {ps : List RegionPiece} (H : MadeOf NE r ps) (hT : r.track.length ≤ NT) (hE : r.emcalo.length ≤ NE) (hN : NC ≤ NS)
    (hp : RegionPhysical r) (hpt2 : (r.track.map fun t => t.hwPt.toInt ^ 2).sum < 2 ^ 21)
    (table : PuppiTable) (z : Z0) (data : Arr N Word) (out0 : Arr N' Word) (pf0 old old' : PFOutputs NT NE NS NM) (mem : PFScratch NC NS) (mem' : Arr NC PFNeutralObj)
    (hi : 2 * NE + 2 * NT + 2 * NC + 2 * NM ≤ min N MP7_NCHANN) (ho : 2 * NT + 2 * NE + 2 * NS + 2 * NM ≤ min N' MP7_NCHANN) :
    ∃ o o', fwBoard table z (regionInputs NT NC NE NM r) data out0 pf0 old mem = .ok o ∧ refBoard table z (regionInputs NT NC NE NM r) old' mem' = .ok o' ∧
      PuppiGroups (regionInputs NT NC NE NM r) (List.ofFn (pieceGroup NT NC NE NM ps)) table z o ∧
      PuppiGroups (regionInputs NT NC NE NM r) (List.ofFn (pieceGroup NT NC NE NM ps)) table z o' := by
  have hp' := region_physical (NT := NT) (NC := NC) (NE := NE) (NM := NM) hp hT hE
  have G := piece_groups H hp'
  refine C112_groups hp' G.grouped G.alone G.empty ?_ hN table z data out0 pf0 old old' mem mem' hi ho
  refine (padded_sum fw_track TkObj.clear (fun x => x.hwPt.toInt ^ 2) (by decide) hT).trans_lt ?_
  simpa only [show ∀ a, (fw_track a).hwPt.toInt = a.hwPt.toInt from fun a => fw_pt _] using hpt2

/-! ### A case -/

/-- A charged hadron of 30 GeV with a cluster of 40 GeV and a photon of 30 GeV on the other side: a charged hadron, a neutral hadron of 10 GeV and the photon. -/
example (A : IEEE R) : ∃ r : InputRegion, RegionGives 22 15 13 2 20 r fun l => ∃ x y z, l.Perm [x, y, z] ∧ AboutParticle R x 0 30 0.5 0.25 (1 / 8) ∧
    AboutParticle R y 2 (40 - 30) 0.5 0.25 (1 / 4) ∧ AboutParticle R z 3 30 (-0.5) 0.25 (1 / 8) := by
  have f40 : IsFloat (40 : ℝ) ∧ |(40 : ℝ)| ≤ 8191 := ⟨⟨40, 0, by norm_num, by norm_num, by norm_num, by norm_num⟩, by norm_num [abs_of_pos]⟩
  have f30 : IsFloat (30 : ℝ) ∧ |(30 : ℝ)| ≤ 8191 := ⟨⟨30, 0, by norm_num, by norm_num, by norm_num, by norm_num⟩, by norm_num [abs_of_pos]⟩
  have f4 : IsFloat (4 : ℝ) ∧ |(4 : ℝ)| ≤ 8191 := ⟨⟨4, 0, by norm_num, by norm_num, by norm_num, by norm_num⟩, by norm_num [abs_of_pos]⟩
  have e2 : |(0.25 : ℝ)| ≤ 1.1 := by norm_num [abs_of_pos]
  have e3 : |(-0.5 : ℝ)| ≤ 1.1 := by norm_num [abs_of_pos]
  have F : ∀ x ∈ [(30 : ℝ), 4, 4], IsFloat x ∧ |x| ≤ 8191 := by
    intro x hx
    simp only [List.mem_cons, List.not_mem_nil, or_false] at hx
    rcases hx with rfl | rfl | rfl <;> assumption
  obtain ⟨⟨t, h, pt, err, dir, Q, emQ, errQ, dirQ, em, T, H, hpt, herr, hQ, hemQ, hem, low, near⟩, a1, a2, a3, a4, a5⟩ :=
    hadron_case A f40 (by norm_num) (eta := 0.5) (by norm_num [abs_of_pos])
  obtain rfl : pt = 30 := a1
  obtain rfl : err = 4 := a2
  obtain rfl : Q = 40 := a3
  obtain rfl : dir = (0.5, 0.25) := a4
  obtain rfl : dirQ = (0.5, 0.25) := a5
  obtain ⟨c, hc, -⟩ := C61_cluster A (eta := -0.5) (phi := 0.25) false 0 F (e3.trans (by norm_num)) (e2.trans (by norm_num))
  have C : RealCluster R c 30 4 4 (-0.5) 0.25 false := ⟨⟨0, hc⟩, F, e3, e2⟩
  obtain ⟨t1, t2, t3, t4⟩ := T.facts A
  obtain ⟨h1, h2, h3, -, -, -, h6, -⟩ := H.facts A
  obtain ⟨c1, c2, -, -, c4, -, -, c6⟩ := C.facts A
  have t2 := t2 hpt
  have h2 := h2 hQ
  have c2 := c2 (by norm_num)
  let p : RegionPiece := {
    r := ⟨0, 0, 0, 0, 0, 0, 0, [h], [], [t], []⟩
    one := ⟨by simp, by simp, by simp, by simp, by simpa using t2, fun _ h => absurd rfl h⟩
    calo := by simpa using h2.ne'
    mu := by simp
    dt := (0.5, 0.25), dh := (0.5, 0.25), de := (0, 0), dm := (0, 0)
    st := by simpa using t4
    sh := by simpa using h6
    se := by simp
    sm := by simp }
  let q : RegionPiece := {
    r := ⟨0, 0, 0, 0, 0, 0, 0, [], [c], [], []⟩
    one := ⟨by simp, by simp, by simp, by simp, by simp, fun h => absurd rfl h⟩
    calo := by simp
    mu := by simp
    dt := (0, 0), dh := (0, 0), de := (-0.5, 0.25), dm := (0, 0)
    st := by simp
    sh := by simp
    se := by simpa using c6
    sm := by simp }
  have M : MadeOf 13 ⟨0, 0, 0, 0, 0, 0, 0, [h], [c], [t], []⟩ [p, q] := by
    refine ⟨rfl, rfl, rfl, rfl, ?_, ?_⟩
    · intro i j hi hj hij
      simp only [List.length_cons, List.length_nil] at hi hj
      obtain ⟨rfl, rfl⟩ | ⟨rfl, rfl⟩ : (i = 0 ∧ j = 1) ∨ (i = 1 ∧ j = 0) := by omega
      · exact ⟨fun x => absurd rfl x, fun _ _ => Real.le_sqrt_of_sq_le (by norm_num [p, q]), fun x => absurd rfl x, fun _ x => absurd rfl x⟩
      · exact ⟨fun x => absurd rfl x, fun x => absurd rfl x, fun _ _ => Real.le_sqrt_of_sq_le (by norm_num [p, q]), fun x => absurd rfl x⟩
    · intro _ x hx
      simp only [List.mem_cons, List.not_mem_nil, or_false] at hx
      rcases hx with rfl | rfl
      · exact ⟨fun _ => Real.le_sqrt_of_sq_le (by norm_num [p]), fun _ => Real.le_sqrt_of_sq_le (by norm_num [p])⟩
      · exact ⟨fun x => absurd rfl x, fun x => absurd rfl x⟩
  have n0 := round_nonneg t3 herr.1
  have hphys : RegionPhysical ⟨0, 0, 0, 0, 0, 0, 0, [h], [c], [t], []⟩ := by
    have u1 : t.hwPt.toInt ≤ 121 := by have : (t.hwPt.toInt : ℝ) ≤ 121 := by linarith [(abs_le.mp t1).2]
                                       exact_mod_cast this
    have u2 : t.hwCaloPtErr.toInt ≤ 17 := by have : (t.hwCaloPtErr.toInt : ℝ) ≤ 17 := by linarith [(abs_le.mp t3).2]
                                             exact_mod_cast this
    have u3 : c.hwPt.toInt ≤ 121 := by have : (c.hwPt.toInt : ℝ) ≤ 121 := by linarith [(abs_le.mp c1).2]
                                       exact_mod_cast this
    have u4 : c.hwPtErr.toInt ≤ 17 := by have : (c.hwPtErr.toInt : ℝ) ≤ 17 := by linarith [(abs_le.mp c4).2]
                                         exact_mod_cast this
    have u5 := round_nonneg c4 (by norm_num)
    have u6 := round_nonneg h3 hemQ
    refine ⟨?_, ?_, ?_, ?_, ?_, ?_⟩
    · simpa using ⟨t2.le, n0, by omega⟩
    · simpa using ⟨c2.le, by nlinarith⟩
    · simpa using ⟨h2.le, u6⟩
    · simpa using by omega
    · simpa using by omega
    · simp only [List.map_cons, List.map_nil, List.sum_cons, List.sum_nil]
      nlinarith
  open Classical in
  have I : ∀ x ∈ [p, q], Isolated R x ((fun x => if x = p then (fun l => ∃ x y, l = [x, y] ∧ AboutParticle R x 0 30 0.5 0.25 (1 / 8) ∧ x.track = t ∧
        AboutParticle R y 2 (40 - 30) 0.5 0.25 (1 / 4) ∧ pfCharge y = 0) else fun l => ∃ x, l = [x] ∧ AboutParticle R x 3 30 (-0.5) 0.25 (1 / 8) ∧ pfCharge x = 0) x) := by
    intro x hx
    simp only [List.mem_cons, List.not_mem_nil, or_false] at hx
    have ne : q ≠ p := fun e => by have := congrArg (fun x : RegionPiece => x.r.track) e; simp [p, q] at this
    rcases hx with rfl | rfl
    · simp only [if_true]
      exact Isolated.hadronRest (p := p) rfl rfl rfl rfl T H hpt herr hQ hemQ hem low near (by norm_num)
    · simp only [if_neg ne]
      exact Isolated.photonAlone (p := q) rfl rfl rfl rfl C (by norm_num) (by norm_num [abs_of_pos])
  have ne : q ≠ p := fun e => by have := congrArg (fun x : RegionPiece => x.r.track) e; simp [p, q] at this
  refine ⟨_, regionGives_mono (C115_particles A M (by simp) (by simp) (by simp) (by simp) (by norm_num) hphys I) ?_⟩
  rintro l ⟨ls, perm, f⟩
  obtain ⟨la, ls', ga, f', rfl⟩ := List.forall₂_cons_left_iff.mp f
  obtain ⟨lb, ls'', gb, f'', rfl⟩ := List.forall₂_cons_left_iff.mp f'
  obtain rfl := List.forall₂_nil_left_iff.mp f''
  simp only [if_true, if_neg ne] at ga gb
  obtain ⟨x, y, rfl, hx, -, hy, -⟩ := ga
  obtain ⟨z, rfl, hz, -⟩ := gb
  exact ⟨x, y, z, by simpa using perm, hx, hy, hz⟩

end Verif
