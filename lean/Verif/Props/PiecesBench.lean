import Verif.Props.Pieces
import Verif.Props.PFTest
import Verif.Props.PFAgree2
/-! # The PF test bench on isolated particles: property C116 -/
namespace Verif
open Spec
variable {NT NC NE NM NS : Nat}

theorem filter_slot {A B : Type} {q : B → Bool} {o : Option A} {a : A} {f f' : A → B} (ho : o = some a) {l : List B} (h : (o.toList.map f).filter q = l) (h' : (o.toList.map f').filter q = l)
    (ha : q (f a) = true) : f' a = f a := by
  subst ho
  have e := h.trans h'.symm
  simp only [Option.toList_some, List.map_cons, List.map_nil] at e
  by_cases hb : q (f' a) = true
  · rw [List.filter_cons_of_pos ha, List.filter_cons_of_pos hb] at e
    exact (List.cons.inj e).1.symm
  · rw [List.filter_cons_of_pos ha, List.filter_cons_of_neg hb] at e
    exact absurd e (by simp)

theorem neutralSeen_null {inp : PFInputs NT NC NE NM} {v : Variant} {h : Fin NC} (h0 : (neutralSeen inp v h).1 = 0) : neutralSeen inp v h = (0, 0, 0, 0) := by
  unfold neutralSeen at h0 ⊢
  by_cases z : neutralPt inp v h = 0
  · rw [if_pos z]
  · rw [if_neg z] at h0; exact absurd h0 z

/-- **C116.** On an event that falls apart into groups with at most one object of each kind the firmware and the reference agree in every slot. -/
theorem C116_groups {inp : PFInputs NT NC NE NM} {gs : List (Group NT NC NE NM)} (hp : Physical inp) (hg : Grouped inp gs)
    (ha : ∀ g ∈ gs, Alone refVariant inp g) (hempty : ∀ t, (inp.track t).hwPt.toInt = 0 → (inp.track t).hwPtErr.toInt = 0) : Passes NS inp := by
  intro old old' mem mem'
  have ha' : ∀ g ∈ gs, Alone fwVariant inp g := fun g h => { ha g h with hadEm := fun e k a d => ((ha g h).hadEm e k a d).imp_right fun x => ⟨rfl, x.2⟩ }
  have hv := physical_valid inp hp fwVariant
  have hv' := physical_valid inp hp refVariant
  obtain ⟨o, e, m⟩ := fw_makes inp hv old mem
  obtain ⟨o', e', m'⟩ := ref_makes_empty inp hv' hempty old' mem'
  have H : ∀ g ∈ gs, _ := fun g h => isolated_fw (group_part (ha' g h)) (toList_le _) (toList_le _) (toList_le _) (toList_le _) hv
    (by rw [group_single]; exact group_good hp g) (fun _ => hempty _) m
  have H' : ∀ g ∈ gs, _ := fun g h => isolated_ref (group_part (ha g h)) (toList_le _) (toList_le _) (toList_le _) (toList_le _) hv'
    (by rw [group_single]; exact group_good hp g) (fun _ => hempty _) m'
  have ne : ∀ h, neutralSeen inp refVariant h = neutralSeen inp fwVariant h := fun k => by
    have key : ∀ g ∈ gs, g.had = some k → neutralSeen inp refVariant k = neutralSeen inp fwVariant k := fun g h hk => by
      have a := (H g h).2
      have b := (H' g h).2
      rw [ofFn_toList _ (neutralSeen inp fwVariant)] at a
      rw [ofFn_toList _ (neutralSeen inp refVariant)] at b
      by_cases z : (neutralSeen inp fwVariant k).1 = 0
      · by_cases z' : (neutralSeen inp refVariant k).1 = 0
        · rw [neutralSeen_null z, neutralSeen_null z']
        · exact (filter_slot hk b a (decide_eq_true z')).symm
      · exact filter_slot hk a b (decide_eq_true z)
    by_cases z : neutralPt inp fwVariant k = 0
    · by_cases z' : neutralPt inp refVariant k = 0
      · unfold neutralSeen; rw [if_pos z, if_pos z']
      · obtain ⟨g, h, hk⟩ := hg.had k (neutral_slot hv' z')
        exact key g h hk
    · obtain ⟨g, h, hk⟩ := hg.had k (neutral_slot hv z)
      exact key g h hk
  have kept : ∀ t, 0 < (inp.track t).hwPt.toInt → (Kept inp fwVariant t ↔ Kept inp refVariant t) := fun t ht => by
    have nz : (inp.track t).hwPt ≠ 0 := fun h => by rw [h] at ht; exact absurd ht (by decide)
    obtain ⟨g, h, hk⟩ := hg.track t (fun z => by omega)
    have a := (H g h).1.charged
    have b := (H' g h).1.charged
    rw [ofFn_toList _ o.outch] at a
    rw [ofFn_toList _ o'.outch] at b
    have out0 : ∀ v, ¬ Kept inp v t → (chargedOut inp v t).hwPt = 0 := fun v k => by unfold chargedOut; rw [if_neg k]
    have out1 : ∀ v, Kept inp v t → (chargedOut inp v t).hwPt ≠ 0 := fun v k => by unfold chargedOut; rw [if_pos k]; exact nz
    constructor
    · intro k
      have e1 := m.charged' t (out1 _ k)
      have e2 : o'.outch t = o.outch t := filter_slot hk a b (decide_eq_true (by rw [e1]; exact out1 _ k))
      have e3 : (o'.outch t).hwPt ≠ 0 := by rw [e2, e1]; exact out1 _ k
      by_contra k'
      exact e3 (by rw [m'.charged t e3]; exact out0 _ k')
    · intro k
      have e1 := m'.charged' t (out1 _ k)
      have e2 : o.outch t = o'.outch t := filter_slot hk b a (decide_eq_true (by rw [e1]; exact out1 _ k))
      have e3 : (o.outch t).hwPt ≠ 0 := by rw [e2, e1]; exact out1 _ k
      by_contra k'
      exact e3 (by rw [m.charged t e3]; exact out0 _ k')
  obtain ⟨out, out', r1, r2, r3⟩ := C02_agree_iff inp old old' mem mem' hv hv' hempty
  obtain ⟨c, p, n, u⟩ := r3.mpr ⟨kept, by rw [funext ne]⟩
  obtain ⟨-, -, -, -, qch, qne⟩ := C47_equals_iff
  exact ⟨out, out', r1, r2, ⟨fun i => (qch _ _).mp (c i), fun i => (qne _ _).mp (p i), fun i => (qne _ _).mp (n i), fun i => (qch _ _).mp (u i)⟩⟩

/-- **C116.** So they do on a region made of isolated pieces. -/
theorem C116_pieces {r : InputRegion} {ps : List RegionPiece} (H : MadeOf NE r ps) (hp : RegionPhysical r) (hT : r.track.length ≤ NT) (hE : r.emcalo.length ≤ NE) :
    Passes NS (regionInputs NT NC NE NM r) := by
  have G := piece_groups (NT := NT) (NC := NC) (NM := NM) H (region_physical hp hT hE)
  exact C116_groups G.physical G.grouped G.alone G.empty

/-- **C116.** The PF test bench, in each of its builds, ends with success on every dump whose first 500 barrel regions are made of isolated pieces. -/
theorem C116_bench {kind : TestKind} (hk : kind.Fits NT NC NE NM NS) (hv : kind.validates = true) (zpv : BitVec 32 → Z0)
    (evs : List DumpEvent) (hev : ∀ e ∈ evs, eventFits e ∧ e.event ≠ 0 ∧ e.regions ≠ [])
    (fjunk : Nat → BitVec 32) (genZ0 : BitVec 32) (junk : Nat → TestJunk NT NC NE NM NS)
    (inp : PFInputs NT NC NE NM) (z : Z0) (out ref : PFOutputs NT NE NS NM)
    (h : ∀ x ∈ (barrel evs).take 500, RegionPhysical x.1 ∧ x.1.track.length ≤ NT ∧ x.1.emcalo.length ≤ NE ∧ ∃ ps, MadeOf NE x.1 ps) :
    pfTestMain kind (some true) zpv genZ0 ⟨evs.flatMap eventBytes, false, fjunk⟩ junk inp z out ref = .ok 0 := by
  refine (C54_exit_0_iff hk hv zpv evs hev fjunk genZ0 junk inp z out ref).mpr fun x hx => ?_
  obtain ⟨hp, hT, hE, ps, H⟩ := h x hx
  exact C116_pieces H hp hT hE

/-! ### A case -/

def caseRegion (t : List PropagatedTrack) (h e : List CaloCluster) (m : List Muon) : InputRegion := ⟨0, 0, 0, 0, 0, 0, 0, h, e, t, m⟩

/-- A track of 30 GeV with an error of 1 unit and its cluster of 50 GeV, flagged as electromagnetic. -/
noncomputable def caseHadron : RegionPiece where
  r := caseRegion [⟨Dump.zero, 120, 0, 1, 100, 0, false, false, false⟩] [⟨200, 30, 0, 105, 5, 0, true, false⟩] [] []
  one := ⟨by decide, by decide, by decide, by decide, by decide, fun _ h => absurd rfl h⟩
  calo := by decide
  mu := by decide
  dt := ((100 : ℤ) * quarterDegree, (0 : ℤ) * quarterDegree)
  dh := ((105 : ℤ) * quarterDegree, (5 : ℤ) * quarterDegree)
  de := (0, 0)
  dm := (0, 0)
  st := fun t ht => by
    obtain rfl := List.mem_singleton.mp ht
    exact grid_stands 100 0 (by decide) (by decide)
  sh := fun t ht => by
    obtain rfl := List.mem_singleton.mp ht
    exact grid_stands 105 5 (by decide) (by decide)
  se := fun _ h => absurd h (by simp [caseRegion])
  sm := fun _ h => absurd h (by simp [caseRegion])

/-- A photon of 20 GeV. -/
noncomputable def casePhoton : RegionPiece where
  r := caseRegion [] [] [⟨80, 0, 8, -100, 0, 0, false, false⟩] []
  one := ⟨by decide, by decide, by decide, by decide, by decide, fun h => absurd rfl h⟩
  calo := by decide
  mu := by decide
  dt := (0, 0)
  dh := (0, 0)
  de := ((-100 : ℤ) * quarterDegree, (0 : ℤ) * quarterDegree)
  dm := (0, 0)
  st := fun _ h => absurd h (by simp [caseRegion])
  sh := fun _ h => absurd h (by simp [caseRegion])
  se := fun t ht => by
    obtain rfl := List.mem_singleton.mp ht
    exact grid_stands (-100) 0 (by decide) (by decide)
  sm := fun _ h => absurd h (by simp [caseRegion])

def caseDump : InputRegion := caseRegion [⟨Dump.zero, 120, 0, 1, 100, 0, false, false, false⟩] [⟨200, 30, 0, 105, 5, 0, true, false⟩] [⟨80, 0, 8, -100, 0, 0, false, false⟩] []

theorem case_kept : keepRegion caseDump = caseDump := by decide

theorem case_made : MadeOf 2 caseDump [caseHadron, casePhoton] := by
  have z : ((0 : ℝ), (0 : ℝ)) = ((0 : ℤ) * quarterDegree, (0 : ℤ) * quarterDegree) := by simp
  refine ⟨rfl, rfl, rfl, rfl, ?_, ?_⟩
  · intro i j hi hj hij
    simp only [List.length_cons, List.length_nil] at hi hj
    obtain ⟨rfl, rfl⟩ | ⟨rfl, rfl⟩ : (i = 0 ∧ j = 1) ∨ (i = 1 ∧ j = 0) := by omega
    · exact ⟨fun x => absurd rfl x, fun _ _ => grid_apart (by decide) (by norm_num), fun x => absurd rfl x, fun _ x => absurd rfl x⟩
    · exact ⟨fun x => absurd rfl x, fun x => absurd rfl x, fun _ _ => grid_apart (by decide) (by norm_num), fun x => absurd rfl x⟩
  · intro _ x hx
    simp only [List.mem_cons, List.not_mem_nil, or_false] at hx
    rw [z]
    rcases hx with rfl | rfl
    · exact ⟨fun _ => grid_apart (by decide) (by norm_num), fun _ => grid_apart (by decide) (by norm_num)⟩
    · exact ⟨fun x => absurd rfl x, fun x => absurd rfl x⟩

/-- The bench passes on this region, although its cluster is flagged and its error is 1, which `C54_physical_passes` excludes. -/
example (zpv : BitVec 32 → Z0) (fjunk : Nat → BitVec 32) (genZ0 : BitVec 32) (junk : Nat → TestJunk 2 2 2 1 2) (inp : PFInputs 2 2 2 1) (z : Z0) (out ref : PFOutputs 2 2 2 1) :
    pfTestMain .plain (some true) zpv genZ0 ⟨[eventOf [caseDump]].flatMap eventBytes, false, fjunk⟩ junk inp z out ref = .ok 0 := by
  refine C116_bench (kind := .plain) trivial rfl zpv [eventOf [caseDump]] (fun e he => ?_) fjunk genZ0 junk inp z out ref fun x hx => ?_
  · rw [List.mem_singleton] at he
    subst he
    refine ⟨⟨by decide, fun r hr => ?_⟩, by decide, by decide⟩
    have hr : r ∈ [caseDump] := hr
    rw [List.mem_singleton] at hr
    subst hr
    exact ⟨by decide, by decide, by decide, by decide⟩
  · have e : (barrel [eventOf [caseDump]]).take 500 = [(keepRegion caseDump, 0)] := rfl
    rw [e, List.mem_singleton] at hx
    subst hx
    rw [case_kept]
    exact ⟨⟨by decide, by decide, by decide, by decide, by decide, by decide⟩, by decide, by decide, _, case_made⟩

end Verif
