import Verif.Model.Unused
import Verif.Props.Symmetry
import Verif.Props.PuppiTest
import Verif.Props.PFLinks
import Verif.Proofs.RegMuon
import Verif.Proofs.Sort
import Verif.Spec.Dump
/-! # C75: code that nothing calls -/
namespace Verif
open Spec

/-! ## `operator<` -/

/-- **C75.** All four are what `std::sort` needs (strict weak orders); two objects are equivalent when they have the same pt, and the one
with more pt comes first. -/
theorem C75_order {T : Type} (before : T → T → Bool) (pt : T → BitVec 16) (h : ∀ a b, before a b = true ↔ (pt b).toInt < (pt a).toInt) :
    (∀ a, before a a = false) ∧ (∀ a b c, before a b = true → before b c = true → before a c = true) ∧
    (∀ a b, (before a b = false ∧ before b a = false) ↔ pt a = pt b) := by
  have hf : ∀ a b, before a b = false ↔ (pt a).toInt ≤ (pt b).toInt := by
    intro a b
    rw [← Bool.not_eq_true, h]
    omega
  refine ⟨fun a => (hf a a).mpr (le_refl _), fun a b c h1 h2 => ?_, fun a b => ?_⟩
  · rw [h] at h1 h2 ⊢
    omega
  · rw [hf, hf, ← BitVec.toInt_inj]
    omega

theorem C75_order_calo (a b : CaloCluster) : a.before b = true ↔ b.hwPt.toInt < a.hwPt.toInt := decide_eq_true_iff
theorem C75_order_track (a b : PropagatedTrack) : a.before b = true ↔ b.hwPt.toInt < a.hwPt.toInt := decide_eq_true_iff
theorem C75_order_muon (a b : Muon) : a.before b = true ↔ b.hwPt.toInt < a.hwPt.toInt := decide_eq_true_iff
theorem C75_order_pf (a b : PFParticle) : a.before b = true ↔ b.hwPt.toInt < a.hwPt.toInt := decide_eq_true_iff

/-- Sorted as `std::sort` leaves it: nothing belongs before something earlier. -/
def SortedBy {T : Type} (before : T → T → Bool) (l : List T) : Prop := l.Pairwise fun a b => before b a = false

theorem ofFn_padded {A B : Type} (N : Nat) (conv : A → B) (clear : B) (l : List A) :
    List.ofFn (padded N conv clear l) = (l.map conv ++ List.replicate N clear).take N := by
  refine List.ext_getElem (by simp) fun i h1 h2 => ?_
  rw [List.getElem_ofFn, List.getElem_take]
  have hi : i < N := by simpa using h1
  unfold padded
  by_cases hl : i < l.length
  · rw [List.getElem_append_left (by simpa using hl), List.getElem_map]
    simp [hl]
  · rw [List.getElem_append_right (by simpa using hl), List.getElem_replicate]
    simp [hl]

theorem padded_best {A B : Type} (N : Nat) {before : A → A → Bool} {conv : A → B} {clear : B} {key : B → Int}
    (hk : ∀ a b, before a b = true ↔ key (conv b) < key (conv a)) (hc : key clear = 0) (l : List A) (h : SortedBy before l)
    (h0 : ∀ a ∈ l, 0 ≤ key (conv a)) :
    TopN key (l.map conv ++ List.replicate N clear) (List.ofFn (padded N conv clear l)) := by
  have hs : (l.map conv ++ List.replicate N clear).Pairwise fun a b => key b ≤ key a := by
    refine List.pairwise_append.mpr ⟨?_, ?_, ?_⟩
    · refine List.pairwise_map.mpr (h.imp fun {a b} hab => ?_)
      rw [← Bool.not_eq_true, hk] at hab
      omega
    · exact List.pairwise_replicate.mpr (Or.inr (le_refl _))
    · intro a ha b hb
      obtain ⟨x, hx, rfl⟩ := List.mem_map.mp ha
      rw [List.eq_of_mem_replicate hb, hc]
      exact h0 x hx
  rw [ofFn_padded]
  refine ⟨hs.sublist (List.take_sublist _ _), _, (by rw [List.take_append_drop]), ?_⟩
  rw [← List.take_append_drop N (l.map conv ++ List.replicate N clear)] at hs
  exact (List.pairwise_append.mp hs).2.2

/-- **C75.** If the lists of a region are sorted with `operator<` and have no negative pt, the arrays that PF gets hold the best objects of
the region, sorted: what does not fit is no better than what does. -/
theorem C75_sorted_region (NT NC NE NM : Nat) (r : InputRegion)
    (ht : SortedBy PropagatedTrack.before r.track) (hc : SortedBy CaloCluster.before r.calo) (he : SortedBy CaloCluster.before r.emcalo)
    (hm : SortedBy Muon.before r.muon) (t0 : ∀ x ∈ r.track, 0 ≤ x.hwPt.toInt) (c0 : ∀ x ∈ r.calo, 0 ≤ x.hwPt.toInt)
    (e0 : ∀ x ∈ r.emcalo, 0 ≤ x.hwPt.toInt) (m0 : ∀ x ∈ r.muon, 0 ≤ x.hwPt.toInt) :
    let inp := regionInputs NT NC NE NM r
    TopN (fun o : TkObj => o.hwPt.toInt) (r.track.map fw_track ++ List.replicate NT TkObj.clear) (List.ofFn inp.track) ∧
    TopN (fun o : HadCaloObj => o.hwPt.toInt) (r.calo.map fw_had ++ List.replicate NC HadCaloObj.clear) (List.ofFn inp.hadcalo) ∧
    TopN (fun o : EmCaloObj => o.hwPt.toInt) (r.emcalo.map fw_em ++ List.replicate NE EmCaloObj.clear) (List.ofFn inp.emcalo) ∧
    TopN (fun o : MuObj => o.hwPt.toInt) (r.muon.map fw_mu ++ List.replicate NM MuObj.clear) (List.ofFn inp.mu) := by
  have hr : ∀ x : BitVec 16, (reg 16 x.toInt).toInt = x.toInt := fun x => by
    have h1 := BitVec.toInt_lt (x := x)
    have h2 := BitVec.le_toInt (x := x)
    exact reg16_toInt (by omega) (by omega)
  refine ⟨padded_best (key := fun o : TkObj => o.hwPt.toInt) (clear := TkObj.clear) NT (fun a b => ?_) rfl _ ht fun a ha => ?_,
    padded_best (key := fun o : HadCaloObj => o.hwPt.toInt) (clear := HadCaloObj.clear) NC (fun a b => ?_) rfl _ hc fun a ha => ?_,
    padded_best (key := fun o : EmCaloObj => o.hwPt.toInt) (clear := EmCaloObj.clear) NE (fun a b => ?_) rfl _ he fun a ha => ?_,
    padded_best (key := fun o : MuObj => o.hwPt.toInt) (clear := MuObj.clear) NM (fun a b => ?_) rfl _ hm fun a ha => ?_⟩
  · rw [C75_order_track]; show _ ↔ (reg 16 _).toInt < (reg 16 _).toInt; rw [hr, hr]
  · show 0 ≤ (reg 16 _).toInt; rw [hr]; exact t0 a ha
  · rw [C75_order_calo]; show _ ↔ (reg 16 _).toInt < (reg 16 _).toInt; rw [hr, hr]
  · show 0 ≤ (reg 16 _).toInt; rw [hr]; exact c0 a ha
  · rw [C75_order_calo]; show _ ↔ (reg 16 _).toInt < (reg 16 _).toInt; rw [hr, hr]
  · show 0 ≤ (reg 16 _).toInt; rw [hr]; exact e0 a ha
  · rw [C75_order_muon]; show _ ↔ (reg 16 _).toInt < (reg 16 _).toInt; rw [hr, hr]
  · show 0 ≤ (reg 16 _).toInt; rw [hr]; exact m0 a ha

/-! ## `deserialize_ptsort` -/

theorem deserialize_fold {T : Type} [RegObj T] {N : Nat} : ∀ (k : Nat) (instream : List T) (out : Arr N T),
    loopM (fun (_ : Fin k) s => deserialize_step s) (instream, out) =
      if k ≤ instream.length then .ok (instream.drop k, (instream.take k).foldl (fun a x => push_in x a) out)
      else .error .emptyStream := by
  intro k
  induction k with
  | zero => intro instream out; rw [loopM_zero, if_pos (Nat.zero_le _)]; rfl
  | succ k ih =>
    intro instream out
    rw [loopM_succ, ih]
    by_cases h : k < instream.length
    · rw [if_pos (by omega), if_pos (by omega), Run.ok_bind, List.drop_eq_getElem_cons h, List.take_succ_eq_append_getElem h,
        List.foldl_append]
      rfl
    · by_cases h' : k ≤ instream.length
      · rw [if_pos h', if_neg (by omega), Run.ok_bind, List.drop_eq_nil_of_le (by omega)]
        rfl
      · rw [if_neg h', if_neg (by omega)]
        rfl

/-- **C75.** `deserialize_ptsort` would take `N` objects from the stream and sort those of positive pt into a cleared array, the first
ones first among equals, as the reference does; with fewer objects in the stream it would wait forever. -/
theorem C75_deserialize {T : Type} [RegObj T] [LawfulReg T] {N : Nat} (instream : List T) :
    (N ≤ instream.length → ∃ out : Arr N T, deserialize_ptsort instream (fun _ => RegObj.clear) = .ok (instream.drop N, out) ∧
      List.ofFn out = pad N (best N (instream.take N))) ∧
    (instream.length < N → ∀ out : Arr N T, deserialize_ptsort instream out = .error .emptyStream) := by
  constructor
  · intro h
    refine ⟨_, ?_, push_in_all (instream.take N)⟩
    unfold deserialize_ptsort
    rw [deserialize_fold, if_pos h]
  · intro h out
    unfold deserialize_ptsort
    rw [deserialize_fold, if_neg (by omega)]

/-! ## `link_ref` -/

theorem read_all {NCALO NCAL : Nat} {A : Type} (h : NCALO ≤ NCAL) (calo : Arr NCAL A) :
    buildM (fun ic : Fin NCALO => calo.read ic.val) = .ok (fun ic => calo ⟨ic.val, by omega⟩) := by
  refine buildM_eq_ok.mpr fun ic => ?_
  unfold Arr.read
  rw [dif_pos (show ic.val < NCAL by omega)]

theorem read_beyond {NCALO NCAL : Nat} {A : Type} (h : NCAL < NCALO) (calo : Arr NCAL A) :
    buildM (fun ic : Fin NCALO => calo.read ic.val) = .error .oob := by
  cases hr : buildM (fun it : Fin NCALO => calo.read it.val) with
  | ok a =>
    have := buildM_eq_ok.mp hr ⟨NCAL, h⟩
    unfold Arr.read at this
    rw [dif_neg (Nat.lt_irrefl NCAL)] at this
    cases this
  | error e =>
    obtain ⟨it, hit⟩ := buildM_error hr
    unfold Arr.read at hit
    split at hit
    · cases hit
    · cases hit; rfl

theorem link_bits_some {NCAL k : Nat} (h : k ≤ NCAL) (b : Option (Fin k)) :
    link_bits NCAL (b.map Fin.val) = .ok (fun c => decide (b.map Fin.val = some c.val)) := by
  cases b with
  | none => exact congrArg Except.ok (funext fun c => by simp)
  | some i =>
    show Arr.write _ _ _ = _
    unfold Arr.write
    rw [dif_pos (show i.val < NCAL by omega)]
    refine congrArg Except.ok (funext fun c => ?_)
    unfold Arr.set
    by_cases hc : c = ⟨i.val, by omega⟩
    · subst hc; simp
    · have : ¬ i.val = c.val := fun e => hc (Fin.ext e.symm)
      simp [hc, this]

/-- **C75.** For the calorimeter array of the build `link_ref` is the distance-only linking of the firmware (C52). -/
theorem C75_link_calo {NC NT : Nat} (calo : Arr NC HadCaloObj) (track : Arr NT TkObj) :
    link_ref_calo NC PFALGO3_DR2MAX_TK_CALO calo track = .ok (tk2calo_link_dronly calo track) := by
  refine buildM_eq_ok.mpr fun it => ?_
  rw [read_all (le_refl _), Run.ok_bind]
  have := link_bits_some (le_refl NC) (best_match_ref_calo PFALGO3_DR2MAX_TK_CALO calo (track it))
  refine this.trans (congrArg Except.ok (funext fun c => ?_))
  have h := C52_dronly_agrees calo track it c
  rw [Bool.eq_iff_iff, h, decide_eq_true_iff]
  constructor
  · intro e
    obtain ⟨i, h1, h2⟩ := Option.map_eq_some_iff.mp e
    rw [h1, Fin.ext h2]
  · intro e
    rw [e]; rfl

/-- **C75.** For an array of EM clusters it would look at `NCALO` of them: it is out of bounds where there are fewer,
and where there are as many (as in every build, `C75_link_builds`) or more it links each track to the nearest of the first `NCALO`, ties to the lowest
index. -/
theorem C75_link_em {NCALO NE NT : Nat} (calo : Arr NE EmCaloObj) (track : Arr NT TkObj) (D : Int) :
    (NE < NCALO → 0 < NT → link_ref_em NCALO D calo track = .error .oob) ∧
    (NCALO ≤ NE → ∃ l, link_ref_em NCALO D calo track = .ok l ∧ ∀ t c, l t c = true ↔
      FirstMin (fun c => c.val < NCALO ∧ dist2 (track t).hwEta (track t).hwPhi (calo c).hwEta (calo c).hwPhi < D)
        (fun c => dist2 (track t).hwEta (track t).hwPhi (calo c).hwEta (calo c).hwPhi) c) := by
  constructor
  · intro h hn
    unfold link_ref_em
    rw [read_beyond h]
    cases NT with
    | zero => omega
    | succ n => rw [buildM]; rfl
  · intro h
    refine ⟨fun t c => decide ((best_match_ref_em D (fun ic : Fin NCALO => calo ⟨ic.val, by omega⟩) (track t)).map Fin.val = some c.val), ?_, fun t c => ?_⟩
    · refine buildM_eq_ok.mpr fun it => ?_
      rw [read_all h, Run.ok_bind]
      exact link_bits_some h _
    · rw [decide_eq_true_iff]
      unfold best_match_ref_em
      constructor
      · intro e
        obtain ⟨i, h1, h2⟩ := Option.map_eq_some_iff.mp e
        rw [best_match_loop_iff] at h1
        have hc : c = ⟨i.val, by omega⟩ := Fin.ext h2.symm
        rw [hc]
        simp only [dr2_int_eq_dist2] at h1
        obtain ⟨g1, g2⟩ := h1
        refine ⟨⟨i.isLt, g1.2⟩, fun j hj => ?_⟩
        have := g2 ⟨j.val, hj.1⟩ ⟨trivial, hj.2⟩
        exact this
      · rintro ⟨g1, g2⟩
        refine Option.map_eq_some_iff.mpr ⟨⟨c.val, g1.1⟩, ?_, rfl⟩
        rw [best_match_loop_iff]
        simp only [dr2_int_eq_dist2]
        refine ⟨⟨trivial, g1.2⟩, fun j hj => ?_⟩
        exact g2 ⟨j.val, by omega⟩ ⟨j.isLt, hj.2⟩

/-- In every build there are as many EM clusters as calorimeter clusters. -/
theorem C75_link_builds : ∀ c ∈ [Config.mp7, Config.ctp7, Config.default], c.NEMCALO = c.NCALO := by decide

/-- **C75.** `dummy` of the block-memory vertexing tells the positive positions. -/
theorem C75_dummy (z0 : Z0) : bhv_dummy z0 = true ↔ 1 ≤ z0.toInt := by
  unfold bhv_dummy
  rw [decide_eq_true_iff]
  exact Int.lt_iff_add_one_le

/-! ## Concrete cases -/

/-- Two clusters, sorted, with room for one. -/
example : SortedBy CaloCluster.before [⟨8, 0, 0, 0, 0, 0, false, false⟩, ⟨4, 0, 0, 0, 0, 0, false, false⟩] ∧
    ¬ SortedBy CaloCluster.before [⟨4, 0, 0, 0, 0, 0, false, false⟩, ⟨8, 0, 0, 0, 0, 0, false, false⟩] := by
  unfold SortedBy
  decide

example : bhv_dummy 1 = true ∧ bhv_dummy 0 = false ∧ bhv_dummy (-1) = false := by decide

end Verif
