import Verif.Spec.VertexTest
import Verif.Props.BramHist
import Verif.Proofs.RegionizerFiles
import Verif.Proofs.RegionizerTest
/-! # Lemmas about the vertex test bench -/
namespace Verif
open Spec
open scoped BigOperators

/-- A loop that appends one result per step. -/
theorem loopM_collect {n : Nat} {α : Type} (f : Fin n → Run α) (g : Fin n → α) (h : ∀ i, f i = .ok (g i)) :
    loopM (fun i (out : List α) => do
      let w ← f i
      .ok (out ++ [w])) [] = .ok (List.ofFn g) := by
  induction n with
  | zero => rw [loopM_zero]; rfl
  | succ n ih =>
    rw [loopM_succ, ih (fun i => f i.castSucc) (fun i => g i.castSucc) (fun i => h _), Run.ok_bind, h, Run.ok_bind, List.ofFn_succ_last]

/-! ### Inputs -/

theorem bhvSplit_eq (is : Fin N_IN_SECTORS) (tmp : Arr 36 TkObj) (a : BhvTracks) :
    ∃ a', bhvSplit is tmp a = .ok a' ∧ ∀ (s : Fin 24) (i : Fin 18), a' s i =
      if s.val / 2 = is.val then tmp ⟨2 * i.val + s.val % 2, by omega⟩ else a s i := by
  have his : is.val < 12 := is.isLt
  unfold bhvSplit
  obtain ⟨r, h1, h2, h3⟩ := loopM_induct (fun m (st : BhvTracks × Nat) => st.2 = 2 * m ∧ ∀ (s : Fin 24) (i : Fin 18), st.1 s i =
      if s.val / 2 = is.val ∧ i.val < m then tmp ⟨2 * i.val + s.val % 2, by omega⟩ else a s i)
    (fun (i : Fin BHV_NTRACKS) (st : BhvTracks × Nat) => (do
      let (a, t) := st
      let x ← tmp.read t
      let row ← a.read (2 * is.val + 0)
      let a ← a.write (2 * is.val + 0) (row.set i x)
      let t := t + 1
      let x ← tmp.read t
      let row ← a.read (2 * is.val + 1)
      let a ← a.write (2 * is.val + 1) (row.set i x)
      .ok (a, t + 1) : Run (BhvTracks × Nat))) (a, 0) ⟨rfl, fun s i => by rw [if_neg (by omega)]⟩
    (by
      intro i st ⟨h1, h2⟩
      have hi : i.val < 18 := i.isLt
      obtain ⟨b, t⟩ := st
      dsimp only at h1 h2 ⊢
      subst h1
      rw [Arr.read_ok tmp (show 2 * i.val < 36 by omega), Run.ok_bind, Arr.read_ok b (show 2 * is.val + 0 < 24 by omega), Run.ok_bind,
        Arr.write_ok b _ (show 2 * is.val + 0 < 24 by omega), Run.ok_bind, Arr.read_ok tmp (show 2 * i.val + 1 < 36 by omega), Run.ok_bind,
        Arr.read_ok _ (show 2 * is.val + 1 < 24 by omega), Run.ok_bind, Arr.write_ok _ _ (show 2 * is.val + 1 < 24 by omega), Run.ok_bind]
      refine ⟨_, rfl, by show 2 * i.val + 1 + 1 = _; omega, fun s j => ?_⟩
      dsimp only
      by_cases hs : s.val / 2 = is.val
      · have hrow : ∀ k (hk : k < 2) (hs' : s.val = 2 * is.val + k), (if j.val = i.val then tmp ⟨2 * i.val + k, by omega⟩ else b s j) =
            if s.val / 2 = is.val ∧ j.val < i.val + 1 then tmp ⟨2 * j.val + s.val % 2, by omega⟩ else a s j := by
          intro k hk hs'
          by_cases hj : j.val = i.val
          · rw [if_pos hj, if_pos ⟨hs, by omega⟩]
            congr 2
            omega
          · rw [if_neg hj, h2]
            by_cases hlt : j.val < i.val
            · rw [if_pos ⟨hs, hlt⟩, if_pos ⟨hs, by omega⟩]
            · rw [if_neg (by omega), if_neg (by omega)]
        by_cases h0 : s.val = 2 * is.val
        · rw [Arr.set_ne _ _ (by intro h; rw [h] at h0; simp at h0), ← hrow 0 (by decide) h0]
          obtain rfl : s = ⟨2 * is.val + 0, show 2 * is.val + 0 < 24 by clear hrow h0 hs; omega⟩ := Fin.ext h0
          rw [Arr.set_same]
          by_cases hj : j = i
          · subst hj; rw [Arr.set_same, if_pos rfl]; rfl
          · rw [Arr.set_ne _ _ hj, if_neg (fun h => hj (Fin.ext h))]
        · have h1' : s.val = 2 * is.val + 1 := by omega
          rw [← hrow 1 (by decide) h1']
          obtain rfl : s = ⟨2 * is.val + 1, show 2 * is.val + 1 < 24 by clear hrow h0 hs h1'; omega⟩ := Fin.ext h1'
          rw [Arr.set_same]
          by_cases hj : j = i
          · subst hj; rw [Arr.set_same, if_pos rfl]
          · rw [Arr.set_ne _ _ hj, if_neg (fun h => hj (Fin.ext h)), Arr.set_ne _ _ (by intro h; have := congrArg Fin.val h; simp at this)]
      · rw [Arr.set_ne _ _ (by intro h; rw [h] at hs; exact hs (by show (2 * is.val + 1) / 2 = _; omega)),
          Arr.set_ne _ _ (by intro h; rw [h] at hs; exact hs (by show (2 * is.val + 0) / 2 = _; omega)), h2, if_neg (by tauto), if_neg (by tauto)])
  refine ⟨r.1, by rw [h1]; rfl, fun s i => ?_⟩
  rw [h3]
  have hi := i.isLt
  by_cases hs : s.val / 2 = is.val
  · rw [if_pos ⟨hs, hi⟩, if_pos hs]
  · rw [if_neg (fun h => hs h.1), if_neg hs]

theorem bhvInputs_ok (regions : List InputRegion) (hl : regions.length = 12) (a : BhvTracks) (tmp : Arr 36 TkObj) :
    ∃ a' tmp', bhvInputs regions a tmp = .ok (a', tmp') ∧ ∀ (s : Fin 24) (i : Fin 18) r, regions[s.val / 2]? = some r →
      a' s i = padded 36 fw_track TkObj.clear r.track ⟨2 * i.val + s.val % 2, by omega⟩ := by
  unfold bhvInputs
  obtain ⟨st, h1, h2⟩ := loopM_induct (fun m (st : BhvTracks × Arr 36 TkObj) => ∀ (s : Fin 24) (i : Fin 18) r, s.val / 2 < m →
      regions[s.val / 2]? = some r → st.1 s i = padded 36 fw_track TkObj.clear r.track ⟨2 * i.val + s.val % 2, by omega⟩)
    (fun (is : Fin N_IN_SECTORS) (st : BhvTracks × Arr 36 TkObj) =>
      match regions[is.val]? with
      | none => .error .oob
      | some r => do
        let tmp := fw_many fw_track TkObj.clear r.track st.2
        let a ← bhvSplit is tmp st.1
        .ok (a, tmp)) (a, tmp) (fun s i r h => by omega)
    (by
      intro is st ih
      have his : is.val < 12 := is.isLt
      have hr : regions[is.val]? = some (regions[is.val]'(by omega)) := List.getElem?_eq_getElem _
      obtain ⟨a', h1, h2⟩ := bhvSplit_eq is (fw_many fw_track TkObj.clear (regions[is.val]'(by omega)).track st.2) st.1
      refine ⟨(a', fw_many fw_track TkObj.clear (regions[is.val]'(by omega)).track st.2), ?_, fun s i r hs hsr => ?_⟩
      · rw [hr]
        dsimp only
        rw [h1]
        rfl
      · dsimp only
        rw [h2, fw_many_eq]
        by_cases h : s.val / 2 = is.val
        · rw [if_pos h]
          rw [h, hr] at hsr
          obtain rfl := Option.some.inj hsr
          rfl
        · rw [if_neg h]
          exact ih s i r (by omega) hsr)
  exact ⟨st.1, st.2, h1, fun s i r hr => h2 s i r (show s.val / 2 < 12 by omega) hr⟩

theorem tracksOf_stored {e : DumpEvent} {trk : BhvTracks}
    (h : ∀ (s : Fin 24) (i : Fin 18) r, (storedEvent e).regions[s.val / 2]? = some r →
      trk s i = padded 36 fw_track TkObj.clear r.track ⟨2 * i.val + s.val % 2, by omega⟩) : TracksOf e trk := by
  intro s i r hr
  have hr' : (storedEvent e).regions[s.val / 2]? = some (keepRegion r) := by
    show (e.regions.map keepRegion)[s.val / 2]? = _
    rw [List.getElem?_map, hr]
    rfl
  rw [h s i _ hr']
  refine (congrFun (padded_map 36 fw_track TkObj.clear keepTrack (fun _ => rfl) r.track) ⟨2 * i.val + s.val % 2, by omega⟩).trans ?_
  unfold padded
  dsimp only
  cases r.track[2 * i.val + s.val % 2]? <;> rfl

theorem ptOK_tracks {e : DumpEvent} (hl : e.regions.length = 12) (hp : PtOK e) {trk : BhvTracks} (h : TracksOf e trk) :
    ∀ s i, 0 ≤ (trk s i).hwPt.toInt := by
  intro s i
  have hs : s.val < 24 := s.isLt
  have hi : i.val < 18 := i.isLt
  have hr : e.regions[s.val / 2]? = some (e.regions[s.val / 2]'(by omega)) := List.getElem?_eq_getElem _
  rw [h s i _ hr]
  generalize hx : (e.regions[s.val / 2]'(by omega)).track[2 * i.val + s.val % 2]? = x
  cases x with
  | none => decide
  | some x =>
    have hmem : x ∈ ((e.regions[s.val / 2]'(by omega)).track).take 36 := by
      apply List.mem_of_getElem? (i := 2 * i.val + s.val % 2)
      rw [List.getElem?_take_of_lt (by omega), hx]
    have := hp _ (List.getElem_mem _) x hmem
    show 0 ≤ (reg 16 x.hwPt.toInt).toInt
    rw [show reg 16 x.hwPt.toInt = x.hwPt from BitVec.ofInt_toInt]
    exact this

/-! ### The reference and the firmware on any tracks -/

theorem ref_add_positive (trk : BhvTracks) (s i) (h : Arr BHV_NBINS PtSum) : bhv_ref_add (positive trk s i) h = bhv_ref_add (trk s i) h := by
  unfold positive
  split
  · rename_i hn
    have e1 : ¬ ((reg 16 (shr (trk s i).hwPt.toInt 1)).toInt > 0) := by
      have hr := pt_range (trk s i).hwPt
      rw [show shr (trk s i).hwPt.toInt 1 = (trk s i).hwPt.toInt / 2 from rfl, reg16_toInt (by omega) (by omega)]
      omega
    unfold bhv_ref_add
    simp only []
    rw [if_neg e1, if_neg (by decide)]
  · rfl

theorem ref_positive (trk : BhvTracks) : bhv_find_pv_ref trk = bhv_find_pv_ref (positive trk) := by
  have : bhv_ref_histos trk = bhv_ref_histos (positive trk) := by
    unfold bhv_ref_histos
    simp only [ref_add_positive]
  unfold bhv_find_pv_ref
  rw [this]

theorem positive_nonneg (trk : BhvTracks) (s i) : 0 ≤ (positive trk s i).hwPt.toInt := by
  unfold positive
  split
  · exact Int.le_refl 0
  · omega

theorem positive_id {trk : BhvTracks} (h : ∀ s i, 0 ≤ (trk s i).hwPt.toInt) : positive trk = trk := by
  funext s i
  unfold positive
  rw [if_neg (by have := h s i; omega)]

/-- The reference always gives the vertex of the tracks of positive pt. -/
theorem ref_vertex (trk : BhvTracks) : ∃ bin z sum, bhv_find_pv_ref trk = .ok (bin, z, sum) ∧
    IsVertex (positive trk) (bin.toNat : Nat) z.toInt sum := by
  obtain ⟨bin, z, sum, _, h2, b, h3, h4, h5, h6⟩ := C26_firmware_eq_ref (positive trk) (positive_nonneg trk) (by decide)
  rw [← ref_positive] at h2
  exact ⟨bin, z, sum.toInt, h2, b, by rw [h3], h4, h6, h5⟩

theorem add_track_total (z : Z0) (p : Pt) (h : Arr BHV_NBINS PtSum) : ∃ h', bhv_add_track (fetch_bin_ref z) p h = .ok h' := by
  unfold bhv_add_track
  split
  · have hb := (fetch_bin_spec z).1
    dsimp only
    rw [Arr.read_ok _ hb, Run.ok_bind, Arr.write_ok _ _ hb]
    exact ⟨_, rfl⟩
  · exact ⟨_, rfl⟩

theorem fill_total (tracks : Arr BHV_NTRACKS TkObj) : ∃ h, bhv_fill tracks = .ok h := by
  obtain ⟨h, h1, _⟩ := loopM_induct (fun _ _ => True)
    (fun it h => bhv_add_track (fetch_bin_ref (tracks it).hwZ0) (tracks it).hwPt h) (fun _ => 0) trivial
    (fun i h _ => by
      obtain ⟨h', e⟩ := add_track_total (tracks i).hwZ0 (tracks i).hwPt h
      exact ⟨h', e, trivial⟩)
  exact ⟨h, h1⟩

/-- The lines printed for a histogram. -/
def histLine (h : Arr BHV_NBINS PtSum) (frame : Nat) (k : Fin 36) : List Int :=
  [(frame + k.val : Nat), (2 * k.val : Nat), ((h ⟨2 * k.val, by show _ < 72; omega⟩).toNat : Int),
    ((h ⟨2 * k.val + 1, by show _ < 72; omega⟩).toNat : Int)]

theorem bhvOutLines_ok (h : Arr BHV_NBINS PtSum) (lines : List (List Int)) (frame : Nat) :
    bhvOutLines h lines frame = .ok (lines ++ List.ofFn (histLine h frame), frame + 36) := by
  unfold bhvOutLines
  have key : ∀ n (hn : n ≤ 36), loopM (fun (k : Fin n) (st : List (List Int) × Nat) => (do
      let x ← h.read (2 * k.val)
      let y ← h.read (2 * k.val + 1)
      .ok (st.1 ++ [[(st.2 : Int), (2 * k.val : Nat), (x.toNat : Int), (y.toNat : Int)]], st.2 + 1) : Run (List (List Int) × Nat))) (lines, frame) =
      .ok (lines ++ List.ofFn (fun k : Fin n => histLine h frame ⟨k.val, by omega⟩), frame + n) := by
    intro n
    induction n with
    | zero => intro _; rw [loopM_zero]; simp
    | succ n ih =>
      intro hn
      rw [loopM_succ]
      have := ih (by omega)
      simp only [Fin.val_castSucc] at this ⊢
      rw [this, Run.ok_bind]
      dsimp only
      rw [Fin.val_last, Arr.read_ok h (show 2 * n < 72 by omega), Run.ok_bind, Arr.read_ok h (show 2 * n + 1 < 72 by omega), Run.ok_bind,
        List.ofFn_succ_last, List.append_assoc]
      rfl
  exact key 36 (Nat.le_refl _)

theorem bhvSectorHist_ok (is : Fin BHV_NSECTORS) (tracks : Arr BHV_NTRACKS TkObj) (lines : List (List Int)) (frame : Nat)
    (h : Arr BHV_NBINS PtSum) (hf : bhv_fill tracks = .ok h) :
    bhvSectorHist is tracks lines frame = .ok (if is.val = 0 then (h, lines ++ List.ofFn (histLine h frame), frame + 36) else (h, lines, frame)) := by
  unfold bhvSectorHist
  unfold bhv_fill at hf
  have key : ∀ n (hn : n ≤ 17) (h' : Arr BHV_NBINS PtSum),
      loopM (fun (it : Fin n) h => bhv_add_track (fetch_bin_ref (tracks ⟨it.val, by show _ < 18; omega⟩).hwZ0) (tracks ⟨it.val, by show _ < 18; omega⟩).hwPt h) (fun _ => 0) = .ok h' →
      loopM (fun (it : Fin n) (st : Arr BHV_NBINS PtSum × List (List Int) × Nat) => (do
        let hist ← bhv_add_track (fetch_bin_ref (tracks ⟨it.val, by show _ < 18; omega⟩).hwZ0) (tracks ⟨it.val, by show _ < 18; omega⟩).hwPt st.1
        if it.val = 17 ∧ is.val = 0 then do
          let l ← bhvOutLines hist st.2.1 st.2.2
          .ok (hist, l)
        else .ok (hist, st.2) : Run (Arr BHV_NBINS PtSum × List (List Int) × Nat))) (fun _ => 0, lines, frame) = .ok (h', lines, frame) := by
    intro n
    induction n with
    | zero =>
      intro _ h' he
      rw [loopM_zero] at he ⊢
      injection he with he
      rw [he]
    | succ n ih =>
      intro hn h' he
      rw [loopM_succ] at he ⊢
      obtain ⟨h1, e1, e2⟩ := Run.bind_eq_ok.mp he
      have := ih (by omega) h1 e1
      simp only [Fin.val_castSucc] at this ⊢
      rw [this, Run.ok_bind]
      dsimp only
      refine (congrArg (fun x => x >>= _) e2).trans ?_
      rw [Run.ok_bind, if_neg (by rw [Fin.val_last]; omega)]
  rw [loopM_succ (n := 17)] at hf ⊢
  obtain ⟨h1, e1, e2⟩ := Run.bind_eq_ok.mp hf
  have := key 17 (Nat.le_refl _) h1 e1
  simp only [Fin.val_castSucc] at this ⊢
  refine (congrArg (fun x => x >>= _) this).trans ?_
  rw [Run.ok_bind]
  dsimp only
  rw [e2, Run.ok_bind]
  by_cases h0 : is.val = 0
  · rw [if_pos ⟨rfl, h0⟩, bhvOutLines_ok, Run.ok_bind, if_pos h0]
  · rw [if_neg (fun h => h0 h.2), if_neg h0]

theorem bhvHists_ok (trk : BhvTracks) (old : Arr BHV_NSECTORS (Arr BHV_NHALFBINS TwoPtSums)) (frame : Nat)
    (hs : Arr BHV_NSECTORS (Arr BHV_NBINS PtSum)) (hf : ∀ is, bhv_fill (trk is) = .ok (hs is)) :
    bhvHists trk old frame = .ok (fun is => bhv_pack (hs is), List.ofFn (histLine (hs 0) frame), frame + 36) := by
  unfold bhvHists
  obtain ⟨st, h1, h2, h3, h4⟩ := loopM_induct (fun m (st : Arr BHV_NSECTORS (Arr BHV_NHALFBINS TwoPtSums) × List (List Int) × Nat) =>
      (∀ is : Fin 24, is.val < m → st.1 is = bhv_pack (hs is)) ∧ (m = 0 → st.2 = ([], frame)) ∧
      (0 < m → st.2 = (List.ofFn (histLine (hs 0) frame), frame + 36)))
    (fun (is : Fin BHV_NSECTORS) (st : Arr BHV_NSECTORS (Arr BHV_NHALFBINS TwoPtSums) × List (List Int) × Nat) => (do
      let r ← bhvSectorHist is (trk is) st.2.1 st.2.2
      .ok (st.1.set is (bhv_pack r.1), r.2) : Run (Arr BHV_NSECTORS (Arr BHV_NHALFBINS TwoPtSums) × List (List Int) × Nat)))
    (old, [], frame) ⟨fun is h => by omega, fun _ => rfl, fun h => by omega⟩
    (by
      intro is st ⟨i1, i2, i3⟩
      rw [bhvSectorHist_ok is _ _ _ _ (hf is), Run.ok_bind]
      refine ⟨_, rfl, fun j hj => ?_, fun h => by omega, fun _ => ?_⟩
      · dsimp only
        by_cases h : j = is
        · subst h
          rw [Arr.set_same]
          split <;> rfl
        · rw [Arr.set_ne _ _ h]
          exact i1 j (by have : j.val ≠ is.val := fun hh => h (Fin.ext hh); omega)
      · dsimp only
        by_cases h0 : is.val = 0
        · obtain rfl : is = 0 := Fin.ext h0
          rw [if_pos h0, i2 rfl]
          rfl
        · rw [if_neg h0]
          exact i3 (by omega))
  rw [h1]
  have e1 : st.1 = fun is => bhv_pack (hs is) := funext fun is => h2 is is.isLt
  have e2 := h4 (by decide)
  obtain ⟨a, b⟩ := st
  dsimp only at e1 e2
  rw [e1, e2]

/-! ### What is written -/

theorem binNo_eq (z : Z0) : (fetch_bin_ref z).bin.toNat = (zBin z.toInt).getD 0 := by
  revert z
  decide +kernel

theorem bhvInLines_ok (trk : BhvTracks) (frame : Nat) :
    ∃ l, bhvInLines trk frame = (l, frame + 36) ∧ l.length = 36 ∧ ∀ k : Fin 36, l[k.val]? = some (inLine frame trk k) := by
  unfold bhvInLines
  have key := loop_induct (fun m (st : List (List Int) × Nat) => st.2 = frame + 2 * m ∧ st.1.length = 2 * m ∧
      ∀ k : Fin 36, k.val < 2 * m → st.1[k.val]? = some (inLine frame trk k))
    (fun (it : Fin 18) (st : List (List Int) × Nat) =>
      loopDown (fun (go : Fin 2) (st : List (List Int) × Nat) =>
        (st.1 ++ [[(st.2 : Int), (go.val : Int), ((fetch_bin_ref (trk 0 it).hwZ0).bin.toNat : Int), shr (trk 0 it).hwPt.toInt 1]],
          st.2 + 1)) st) ([], frame) ⟨rfl, rfl, fun k h => by omega⟩
    (by
      intro it st ⟨h1, h2, h3⟩
      obtain ⟨l, f⟩ := st
      dsimp only at h1 h2 h3
      subst h1
      show (frame + 2 * it.val + 1 + 1 = _ ∧ ((l ++ [[((frame + 2 * it.val : Nat) : Int), 1, ((fetch_bin_ref (trk 0 it).hwZ0).bin.toNat : Int),
        shr (trk 0 it).hwPt.toInt 1]]) ++ [[((frame + 2 * it.val + 1 : Nat) : Int), 0, ((fetch_bin_ref (trk 0 it).hwZ0).bin.toNat : Int),
        shr (trk 0 it).hwPt.toInt 1]]).length = _ ∧ ∀ k : Fin 36, k.val < _ → ((l ++ [[((frame + 2 * it.val : Nat) : Int), 1,
        ((fetch_bin_ref (trk 0 it).hwZ0).bin.toNat : Int), shr (trk 0 it).hwPt.toInt 1]]) ++ [[((frame + 2 * it.val + 1 : Nat) : Int), 0,
        ((fetch_bin_ref (trk 0 it).hwZ0).bin.toNat : Int), shr (trk 0 it).hwPt.toInt 1]])[k.val]? = _)
      refine ⟨by omega, by simp only [List.length_append, h2, List.length_cons, List.length_nil]; omega, fun k hk => ?_⟩
      have hline : ∀ b : Nat, k.val = 2 * it.val + b → b < 2 → inLine frame trk k = [((frame + 2 * it.val + b : Nat) : Int), 1 - (b : Int),
          ((fetch_bin_ref (trk 0 it).hwZ0).bin.toNat : Int), shr (trk 0 it).hwPt.toInt 1] := by
        intro b hb hb2
        have : (⟨k.val / 2, show k.val / 2 < 18 by omega⟩ : Fin 18) = it := Fin.ext (show k.val / 2 = it.val by omega)
        unfold inLine
        rw [this, binNo_eq]
        dsimp only
        rw [show (frame : Int) + (k.val : Int) = ((frame + 2 * it.val + b : Nat) : Int) by rw [hb]; push_cast; ring,
          show 1 - (k.val : Int) % 2 = 1 - (b : Int) by omega]
        rfl
      by_cases hlt : k.val < 2 * it.val
      · rw [List.getElem?_append_left (by rw [List.length_append, h2]; show _ < _ + 1; omega), List.getElem?_append_left (by omega)]
        exact h3 k hlt
      · by_cases h0 : k.val = 2 * it.val
        · rw [List.getElem?_append_left (by rw [List.length_append, h2]; show _ < _ + 1; omega), List.getElem?_append_right (by omega), h2, h0,
            Nat.sub_self, hline 0 (by omega) (by decide)]
          rfl
        · rw [List.getElem?_append_right (by rw [List.length_append, h2]; show _ + 1 ≤ _; omega), List.length_append, h2,
            show k.val - (2 * it.val + [[((frame + 2 * it.val : Nat) : Int), 1, ((fetch_bin_ref (trk 0 it).hwZ0).bin.toNat : Int),
              shr (trk 0 it).hwPt.toInt 1]].length) = 0 by show k.val - (2 * it.val + 1) = 0; omega, hline 1 (by omega) (by decide)]
          rfl)
  obtain ⟨h1, h2, h3⟩ := key
  exact ⟨_, Prod.ext rfl h1, h2, fun k => h3 k (by omega)⟩

theorem bhvInFrames_ok (trk : BhvTracks) :
    ∃ l, bhvInFrames (fun io is => trk is io) = .ok l ∧ l.length = 18 ∧ ∀ ic : Fin 18, ∃ w, l[ic.val]? = some w ∧
      ∀ c (hc : c < 72), chan w c hc = if h : c < 24 then tkWords (trk ⟨c, h⟩ ic) else (0, 0) := by
  have h := fun ic : Fin 18 => packIf_ok (packs_tk (n := BHV_NSECTORS) 0 (by decide)) (fun (io : Fin 18) (is : Fin BHV_NSECTORS) => trk is io) ic.val zeroWords
  choose w h1 h2 using h
  refine ⟨_, loopM_collect _ w h1, by rw [List.length_ofFn], fun ic => ⟨w ic, by rw [List.getElem?_ofFn, dif_pos ic.isLt], fun c hc => ?_⟩⟩
  rw [h2]
  by_cases hc' : c < 24
  · rw [dif_pos ⟨⟨Nat.zero_le _, by show c < 0 + 24; omega⟩, ic.isLt⟩, dif_pos hc']
    rfl
  · rw [dif_neg (by rintro ⟨⟨_, h⟩, _⟩; have : c < 0 + 24 := h; omega), dif_neg hc', chan_zero]

theorem word32_reg (x : Int) : (reg 32 x).toNat = word32 x := by
  unfold reg word32
  rw [BitVec.toNat_ofInt]
  rfl

theorem binWord_eq (z : Z0) :
    (reg 32 (((fetch_bin_ref z).bin.toNat : Int) + 0x10000000 * (if (fetch_bin_ref z).valid then 1 else 0))).toNat = binWord z.toInt := by
  revert z
  decide +kernel

/-- Writing two words. -/
theorem write_pair {N : Nat} (w : Arr N Word) (k : Nat) (h : k + 1 < N) (x y : Word) :
    (do let w ← w.write (k + 0) x
        w.write (k + 1) y) = .ok (fun j : Fin N => if j.val = k then x else if j.val = k + 1 then y else w j) := by
  rw [Arr.write_ok w x (show k + 0 < N by omega), Run.ok_bind, Arr.write_ok _ y h]
  congr 1
  funext j
  by_cases h1 : j.val = k + 1
  · obtain rfl : j = ⟨k + 1, h⟩ := Fin.ext h1
    rw [Arr.set_same, if_neg (show ¬ k + 1 = k by omega), if_pos rfl]
  · rw [Arr.set_ne _ _ (fun hh => h1 (congrArg Fin.val hh))]
    by_cases h2 : j.val = k
    · obtain rfl : j = ⟨k + 0, show k + 0 < N by clear h1 h2; omega⟩ := Fin.ext h2
      rw [Arr.set_same, if_pos h2]
    · rw [Arr.set_ne _ _ (fun hh => h2 (congrArg Fin.val hh)), if_neg h2, if_neg h1]

theorem bhvInDebug_ok (trk : BhvTracks) :
    ∃ l, bhvInDebug trk = .ok l ∧ l.length = 36 ∧ ∀ ic : Fin 36, ∃ w, l[ic.val]? = some w ∧
      ∀ j : Fin 144, (w j).toNat = inDebugWord trk ic j.val := by
  have h : ∀ ic : Fin 36, ∃ w : MP7Event, loopM (fun (is : Fin BHV_NSECTORS) (w : MP7Event) => (do
      let t ← (trk is).read (ic.val / 2)
      let bin := fetch_bin_ref t.hwZ0
      let w ← w.write (2 * is.val + 0) (reg 32 ((bin.bin.toNat : Int) + 0x10000000 * (if bin.valid then 1 else 0)))
      w.write (2 * is.val + 1) (reg 32 (shr t.hwPt.toInt 1)) : Run MP7Event)) zeroWords = .ok w ∧ ∀ j : Fin 144, (w j).toNat = inDebugWord trk ic j.val := by
    intro ic
    have hic := ic.isLt
    obtain ⟨w, h1, h2⟩ := loopM_induct (fun m (w : MP7Event) => ∀ j : Fin 144, (w j).toNat = if j.val < 2 * m then inDebugWord trk ic j.val else 0)
      (fun (is : Fin BHV_NSECTORS) (w : MP7Event) => (do
        let t ← (trk is).read (ic.val / 2)
        let bin := fetch_bin_ref t.hwZ0
        let w ← w.write (2 * is.val + 0) (reg 32 ((bin.bin.toNat : Int) + 0x10000000 * (if bin.valid then 1 else 0)))
        w.write (2 * is.val + 1) (reg 32 (shr t.hwPt.toInt 1)) : Run MP7Event)) zeroWords
      (fun j => by rw [if_neg (by omega)]; rfl)
      (by
        intro is w ih
        have his : is.val < 24 := is.isLt
        rw [Arr.read_ok _ (show ic.val / 2 < 18 by omega), Run.ok_bind]
        dsimp only
        rw [write_pair w (2 * is.val) (show 2 * is.val + 1 < 144 by omega)]
        refine ⟨_, rfl, fun j => ?_⟩
        have hword : ∀ b, b < 2 → j.val = 2 * is.val + b → inDebugWord trk ic j.val =
            if b = 0 then binWord (trk is ⟨ic.val / 2, show ic.val / 2 < 18 by omega⟩).hwZ0.toInt
            else word32 ((trk is ⟨ic.val / 2, show ic.val / 2 < 18 by omega⟩).hwPt.toInt / 2) := by
          intro b hb hj
          unfold inDebugWord
          rw [dif_pos (by omega)]
          have : (⟨j.val / 2, show j.val / 2 < 24 by omega⟩ : Fin 24) = is := Fin.ext (show j.val / 2 = is.val by omega)
          dsimp only
          rw [this]
          by_cases hb0 : b = 0
          · rw [if_pos (by omega), if_pos hb0]
          · rw [if_neg (by omega), if_neg hb0]
        by_cases h0 : j.val = 2 * is.val
        · rw [if_pos h0, binWord_eq, if_pos (show j.val < 2 * (is.val + 1) by omega), hword 0 (by decide) (by omega), if_pos rfl]
        · rw [if_neg h0]
          by_cases h1 : j.val = 2 * is.val + 1
          · rw [if_pos h1, if_pos (show j.val < 2 * (is.val + 1) by omega), hword 1 (by decide) h1, if_neg (by decide), word32_reg]
            rfl
          · rw [if_neg h1, ih]
            by_cases h2 : j.val < 2 * is.val
            · rw [if_pos h2, if_pos (by omega)]
            · rw [if_neg h2, if_neg (by omega)])
    refine ⟨w, h1, fun j => ?_⟩
    rw [h2]
    split
    · rfl
    · rename_i hj
      have hj' : ¬ j.val < 48 := hj
      unfold inDebugWord
      rw [dif_neg hj']
  choose w h1 h2 using h
  exact ⟨_, loopM_collect _ w h1, by rw [List.length_ofFn],
    fun ic => ⟨w ic, by rw [List.getElem?_ofFn, dif_pos ic.isLt], h2 ic⟩⟩

theorem bhvOutFrames_ok (bin : ZBin) (sum : Pt) :
    (bhvOutFrames bin sum).length = 36 ∧ ∀ ic : Fin 36, ∃ w, (bhvOutFrames bin sum)[ic.val]? = some w ∧
      ∀ j : Fin 144, (w j).toNat = outWord bin.toNat sum.toInt ic.val j.val := by
  unfold bhvOutFrames
  have key := loop_induct (fun m (st : MP7Event × List MP7Event) => (∀ j : Fin 144, 3 ≤ j.val → st.1 j = 0) ∧ st.2.length = m ∧
      ∀ ic : Fin 36, ic.val < m → ∃ w, st.2[ic.val]? = some w ∧ ∀ j : Fin 144, (w j).toNat = outWord bin.toNat sum.toInt ic.val j.val)
    (fun (ic : Fin N_CLOCKS) (st : MP7Event × List MP7Event) =>
      let done := ic.val == 0
      let w := st.1.set 0 (reg 32 (if done then 1 else 0))
      let w := w.set 1 (reg 32 (if done then sum.toInt else 0))
      let w := w.set 2 (reg 32 (if done then (bin.toNat : Int) else 0))
      (w, st.2 ++ [w])) (zeroWords, []) ⟨fun _ _ => rfl, rfl, fun ic h => by omega⟩
    (by
      intro ic st ⟨h1, h2, h3⟩
      dsimp only
      have hz : ∀ (x y z : Word) (j : Fin 144), ((st.1.set 0 x).set 1 y).set 2 z j =
          if j.val = 0 then x else if j.val = 1 then y else if j.val = 2 then z else 0 := by
        intro x y z j
        by_cases j2 : j.val = 2
        · obtain rfl : j = 2 := Fin.ext j2
          rw [Arr.set_same]; rfl
        · rw [Arr.set_ne _ _ (fun h => j2 (congrArg Fin.val h))]
          by_cases j1 : j.val = 1
          · obtain rfl : j = 1 := Fin.ext j1
            rw [Arr.set_same]; rfl
          · rw [Arr.set_ne _ _ (fun h => j1 (congrArg Fin.val h))]
            by_cases j0 : j.val = 0
            · obtain rfl : j = 0 := Fin.ext j0
              rw [Arr.set_same]; rfl
            · rw [Arr.set_ne _ _ (fun h => j0 (congrArg Fin.val h)), if_neg j0, if_neg j1, if_neg j2, h1 j (by omega)]
      refine ⟨fun j hj => ?_, by rw [List.length_append, h2]; rfl, fun k hk => ?_⟩
      · rw [hz, if_neg (by omega), if_neg (by omega), if_neg (by omega)]
      · by_cases hlt : k.val < ic.val
        · rw [List.getElem?_append_left (by omega)]
          exact h3 k hlt
        · have hke : k.val = ic.val := by omega
          rw [List.getElem?_append_right (by omega), h2, hke, Nat.sub_self]
          refine ⟨_, rfl, fun j => ?_⟩
          rw [hz]
          unfold outWord
          by_cases h0 : ic.val = 0
          · rw [if_neg (show ¬ (ic.val ≠ 0) from not_not.mpr h0), show (ic.val == 0) = true by rw [h0]; rfl]
            simp only [if_true]
            by_cases j0 : j.val = 0
            · rw [if_pos j0, if_pos j0]; rfl
            · rw [if_neg j0, if_neg j0]
              by_cases j1 : j.val = 1
              · rw [if_pos j1, if_pos j1]; exact word32_reg _
              · rw [if_neg j1, if_neg j1]
                by_cases j2 : j.val = 2
                · rw [if_pos j2, if_pos j2]; exact word32_reg _
                · rw [if_neg j2, if_neg j2]; rfl
          · rw [if_pos (show ic.val ≠ 0 from h0), show (ic.val == 0) = false from beq_false_of_ne h0]
            simp only [Bool.false_eq_true, if_false]
            split
            · rfl
            · split
              · rfl
              · split <;> rfl)
  obtain ⟨_, h2, h3⟩ := key
  exact ⟨h2, fun ic => h3 ic ic.isLt⟩

/-- The second word of a sector in the debug output. -/
theorem packWord (h : Arr BHV_NBINS PtSum) (ic : Fin 36) :
    ((bhv_pack h ic).extractLsb' 0 9).toNat = (h ⟨2 * ic.val + 1, by show _ < 72; omega⟩).toNat ∧
    ((bhv_pack h ic).extractLsb' 9 9).toNat = (h ⟨2 * ic.val, by show _ < 72; omega⟩).toNat := by
  have e : bhv_pack h ic = ((h ⟨2 * ic.val, by show _ < 72; omega⟩) ++ (h ⟨2 * ic.val + 1, by show _ < 72; omega⟩) : BitVec (9 + 9)) := rfl
  rw [e]
  generalize h ⟨2 * ic.val, _⟩ = a
  generalize h ⟨2 * ic.val + 1, _⟩ = b
  have ha := a.isLt
  have hb := b.isLt
  constructor
  · rw [BitVec.extractLsb'_toNat, BitVec.toNat_append]
    rw [Nat.shiftRight_zero, ← Nat.shiftLeft_add_eq_or_of_lt hb, Nat.shiftLeft_eq]
    omega
  · rw [BitVec.extractLsb'_toNat, BitVec.toNat_append]
    rw [← Nat.shiftLeft_add_eq_or_of_lt hb, Nat.shiftLeft_eq, Nat.shiftRight_eq_div_pow]
    omega

theorem bhvOutDebug_ok (test : Nat) (hs : Arr BHV_NSECTORS (Arr BHV_NBINS PtSum)) :
    ∃ l, bhvOutDebug test (fun is => bhv_pack (hs is)) = .ok l ∧ l.length = 36 ∧
      ∀ trk : BhvTracks, (∀ is (b : Fin BHV_NBINS), ((hs is b).toNat : Int) = sectorBin trk is b.val) →
        ∀ ic : Fin 36, ∃ w, l[ic.val]? = some w ∧ ∀ j : Fin 144, (w j).toNat = outDebugWord test trk ic.val j.val := by
  unfold bhvOutDebug
  rw [show cassert (decide (N_CLOCKS = BHV_NHALFBINS)) = .ok () from rfl, Run.ok_bind]
  obtain ⟨st, h1, _, h3, h4⟩ := loopM_induct (fun m (st : MP7Event × List MP7Event) =>
      (∀ j : Fin 144, ¬ (3 ≤ j.val ∧ j.val < 51) → st.1 j = 0) ∧ st.2.length = m ∧
      ∀ trk : BhvTracks, (∀ is (b : Fin BHV_NBINS), ((hs is b).toNat : Int) = sectorBin trk is b.val) →
        ∀ ic : Fin 36, ic.val < m → ∃ w, st.2[ic.val]? = some w ∧ ∀ j : Fin 144, (w j).toNat = outDebugWord test trk ic.val j.val)
    (fun (ic : Fin N_CLOCKS) (st : MP7Event × List MP7Event) => (do
      let w ← loopM (fun (is : Fin BHV_NSECTORS) (w : MP7Event) => (do
        let h ← (bhv_pack (hs is)).read ic.val
        let w ← w.write (3 + 2 * is.val + 0)
          (reg 32 (0x10000 * (if ic.val = 0 then 1 else 0) + (ic.val : Int) * 2 + ((test % 2 : Nat) : Int) * 2 ^ 24))
        w.write (3 + 2 * is.val + 1)
          (reg 32 (((h.extractLsb' 0 9).toNat : Int) * 2 ^ 16 + ((h.extractLsb' 9 9).toNat : Int))) : Run MP7Event)) st.1
      .ok (w, st.2 ++ [w]) : Run (MP7Event × List MP7Event))) (zeroWords, []) ⟨fun _ _ => rfl, rfl, fun _ _ ic h => by omega⟩
    (by
      intro ic st ⟨h1, h2, h3⟩
      have hic : ic.val < 36 := ic.isLt
      obtain ⟨w, g1, g2, g3⟩ := loopM_induct (fun m (w : MP7Event) => (∀ j : Fin 144, ¬ (3 ≤ j.val ∧ j.val < 51) → w j = 0) ∧
          ∀ trk : BhvTracks, (∀ is (b : Fin BHV_NBINS), ((hs is b).toNat : Int) = sectorBin trk is b.val) →
            ∀ j : Fin 144, 3 ≤ j.val → j.val < 3 + 2 * m → (w j).toNat = outDebugWord test trk ic.val j.val)
        (fun (is : Fin BHV_NSECTORS) (w : MP7Event) => (do
          let h ← (bhv_pack (hs is)).read ic.val
          let w ← w.write (3 + 2 * is.val + 0)
            (reg 32 (0x10000 * (if ic.val = 0 then 1 else 0) + (ic.val : Int) * 2 + ((test % 2 : Nat) : Int) * 2 ^ 24))
          w.write (3 + 2 * is.val + 1)
            (reg 32 (((h.extractLsb' 0 9).toNat : Int) * 2 ^ 16 + ((h.extractLsb' 9 9).toNat : Int))) : Run MP7Event)) st.1
        ⟨h1, fun _ _ j _ h => by omega⟩
        (by
          intro is w ⟨i1, i2⟩
          have his : is.val < 24 := is.isLt
          rw [Arr.read_ok _ (show ic.val < 36 by omega), Run.ok_bind]
          rw [write_pair w (3 + 2 * is.val) (show 3 + 2 * is.val + 1 < 144 by omega)]
          refine ⟨_, rfl, fun j hj => ?_, fun trk htrk j hj1 hj2 => ?_⟩
          · rw [if_neg (by omega), if_neg (by omega)]
            exact i1 j hj
          · by_cases k0 : j.val = 3 + 2 * is.val
            · rw [if_pos k0]
              unfold outDebugWord
              rw [dif_pos (by omega)]
              dsimp only
              rw [if_pos (show j.val % 2 = 1 by omega), word32_reg]
              unfold word32
              have : test % 2 < 2 := Nat.mod_lt _ (by decide)
              by_cases hz : ic.val = 0
              · simp only [if_pos hz]; push_cast; omega
              · simp only [if_neg hz]; push_cast; omega
            · rw [if_neg k0]
              by_cases k1 : j.val = 3 + 2 * is.val + 1
              · rw [if_pos k1]
                unfold outDebugWord
                rw [dif_pos (by omega)]
                dsimp only
                rw [if_neg (by omega), word32_reg]
                have p := packWord (hs is) ⟨ic.val, hic⟩
                rw [p.1, p.2, htrk, htrk]
                have : (⟨(j.val - 3) / 2, show (j.val - 3) / 2 < 24 by omega⟩ : Fin 24) = is := Fin.ext (show (j.val - 3) / 2 = is.val by omega)
                rw [this]
              · rw [if_neg k1]
                exact i2 trk htrk j hj1 (by omega))
      refine ⟨(w, st.2 ++ [w]), by rw [g1]; rfl, g2, by rw [List.length_append, h2]; rfl, fun trk htrk k hk => ?_⟩
      dsimp only
      by_cases hlt : k.val < ic.val
      · rw [List.getElem?_append_left (by omega)]
        exact h3 trk htrk k hlt
      · have hke : k.val = ic.val := by omega
        rw [List.getElem?_append_right (by omega), h2, hke, Nat.sub_self]
        refine ⟨_, rfl, fun j => ?_⟩
        by_cases hj : 3 ≤ j.val ∧ j.val < 51
        · exact g3 trk htrk j hj.1 hj.2
        · rw [g2 j hj]
          unfold outDebugWord
          rw [dif_neg hj]
          rfl)
  exact ⟨st.2, by rw [h1]; rfl, h3, fun trk htrk ic => h4 trk htrk ic ic.isLt⟩

/-! ### A test and the loop over tests -/

/-- The counters with the frames of one more test. -/
def BhvStats.advance (st : BhvStats) : BhvStats :=
  { st with test_in_frame := st.test_in_frame + 36, test_out_frame := st.test_out_frame + 36 }

theorem bhvStep_core (toZ0 : BitVec 32 → Z0) (test : Nat) (e x : DumpEvent) (hl : e.regions.length = 12) (hl' : x.regions.length = 12)
    (hz : x.genZ0 = e.genZ0) (hz' : x.z0 = e.z0)
    (htr : ∀ {trk : BhvTracks}, (∀ (s : Fin 24) (i : Fin 18) r, x.regions[s.val / 2]? = some r →
      trk s i = padded 36 fw_track TkObj.clear r.track ⟨2 * i.val + s.val % 2, by omega⟩) → TracksOf e trk) (m : BhvMem) (st : BhvStats)
    (hf1 : st.test_in_frame = 36 * (test - 1)) (hf2 : st.test_out_frame = 36 * (test - 1)) :
    ∃ t, bhvStep toZ0 test x m st = .ok (t, st.advance) ∧ TestOf toZ0 test e t := by
  obtain ⟨trk, tmp', a1, a2⟩ := bhvInputs_ok _ hl' m.track_in m.tmp
  have htrk : TracksOf e trk := htr a2
  obtain ⟨bin, z, sum, b1, b2⟩ := ref_vertex trk
  obtain ⟨l, c1, c2, c3⟩ := bhvInLines_ok trk st.test_in_frame
  obtain ⟨fr, d1, d2, d3⟩ := bhvInFrames_ok trk
  obtain ⟨dbg, e1, e2, e3⟩ := bhvInDebug_ok trk
  have hfill : ∀ is, ∃ h, bhv_fill (trk is) = .ok h ∧ ((∀ i, 0 ≤ (trk is i).hwPt.toInt) →
      ∀ b : Fin BHV_NBINS, ((h b).toNat : Int) = sectorBin trk is b) := by
    intro is
    obtain ⟨h, h1⟩ := fill_total (trk is)
    refine ⟨h, h1, fun hp b => ?_⟩
    obtain ⟨h', h2, h3⟩ := fill_spec (trk is) hp
    rw [h1] at h2
    injection h2 with h2
    rw [h2]
    exact h3 b
  choose hs f1 f2 using hfill
  have f3 := bhvHists_ok trk m.hists st.test_out_frame hs f1
  obtain ⟨pvbin, ptsum, g1, g2, g3, g4⟩ := C28_first_max (fun is => bhv_pack (hs is)) (by decide)
  obtain ⟨o1, o2⟩ := bhvOutFrames_ok pvbin ptsum
  obtain ⟨od, p1, p2, p3⟩ := bhvOutDebug_ok test hs
  have hcenter : (bin_center_ref pvbin).toInt = 8 * (pvbin.toNat : Int) - 284 := by
    unfold bin_center_ref
    simp only []
    rw [reg10_toInt (by show -512 ≤ ((pvbin.toNat : Int) - 36) * 8 + 4; omega) (by show ((pvbin.toNat : Int) - 36) * 8 + 4 < 512; omega)]
    show ((pvbin.toNat : Int) - 36) * 8 + 4 = _
    omega
  refine ⟨⟨trk, toZ0 e.genZ0, toZ0 e.z0, bin, z, sum, pvbin, bin_center_ref pvbin, ptsum, l, List.ofFn (histLine (hs 0) st.test_out_frame), fr,
    dbg, bhvOutFrames pvbin ptsum, od⟩, ?_, ?_⟩
  · unfold bhvStep
    rw [a1, Run.ok_bind]
    dsimp only
    rw [b1, Run.ok_bind]
    dsimp only
    rw [transposeIn_eq, d1, Run.ok_bind, e1, Run.ok_bind, f3, Run.ok_bind]
    dsimp only
    rw [g1, Run.ok_bind]
    dsimp only
    rw [p1, Run.ok_bind, c1, hz, hz']
    rfl
  · have hbins : PtOK e → ∀ is (b : Fin BHV_NBINS), ((hs is b).toNat : Int) = sectorBin trk is b.val :=
      fun hp is b => f2 is (ptOK_tracks hl hp htrk is) b
    refine ⟨htrk, rfl, rfl, b2, fun hp => ?_, ⟨g2, hcenter⟩, ⟨c2, fun k => by rw [c3 k, hf1]⟩, fun hp => ⟨List.length_ofFn, fun k => ?_⟩,
      ⟨d2, d3⟩, ⟨e2, e3⟩, ⟨o1, o2⟩, p2, fun hp => p3 trk (hbins hp)⟩
    · have htot : ∀ b : Fin 72, packedTotal (fun is => bhv_pack (hs is)) b.val = ∑ s, sectorBin trk s b := by
        intro b
        unfold packedTotal
        exact Finset.sum_congr rfl fun s _ => by rw [packedBin_pack (hs s) b, hbins hp s b]
      refine ⟨⟨pvbin.toNat, g2⟩, rfl, hcenter, ?_, ?_⟩
      · exact g4.trans (htot ⟨pvbin.toNat, g2⟩)
      · have : (fun b : Fin 72 => packedTotal (fun is => bhv_pack (hs is)) b.val) = fun b : Fin 72 => ∑ s, sectorBin trk s b := funext htot
        rw [← this]
        exact g3
    · rw [List.getElem?_ofFn, dif_pos k.isLt, hf2]
      unfold histLine outLine
      rw [hbins hp, hbins hp]
      push_cast
      rfl

/-- One event more. -/
theorem bhvStep_ok (toZ0 : BitVec 32 → Z0) (test : Nat) (e : DumpEvent) (hl : e.regions.length = 12) (m : BhvMem) (st : BhvStats)
    (hf1 : st.test_in_frame = 36 * (test - 1)) (hf2 : st.test_out_frame = 36 * (test - 1)) :
    ∃ t, bhvStep toZ0 test (storedEvent e) m st = .ok (t, st.advance) ∧ TestOf toZ0 test e t :=
  bhvStep_core toZ0 test e (storedEvent e) hl (by
    show (e.regions.map keepRegion).length = 12
    rw [List.length_map, hl]) rfl rfl tracksOf_stored m st hf1 hf2

theorem bhvStep_any (toZ0 : BitVec 32 → Z0) (test : Nat) (e : DumpEvent) (hl : e.regions.length = 12) (m : BhvMem) (st : BhvStats)
    (hf1 : st.test_in_frame = 36 * (test - 1)) (hf2 : st.test_out_frame = 36 * (test - 1)) :
    ∃ t, bhvStep toZ0 test e m st = .ok (t, st.advance) ∧ TestOf toZ0 test e t :=
  bhvStep_core toZ0 test e e hl hl rfl rfl (fun {trk} h s i r hr => by
    rw [h s i r hr]
    unfold padded
    dsimp only
    cases r.track[2 * i.val + s.val % 2]? <;> rfl) m st hf1 hf2

theorem BhvStats.add_frames (st : BhvStats) (t : BhvTest) : (st.add t).test_in_frame = st.test_in_frame ∧ (st.add t).test_out_frame = st.test_out_frame := by
  unfold BhvStats.add
  dsimp only
  constructor <;> (split <;> split <;> split <;> split <;> rfl)

theorem bhvLoop_good (toZ0 : BitVec 32 → Z0) (mem : Nat → BhvMem) (n : Nat) (rest : List DumpEvent) :
    ∀ (pre : List DumpEvent) (test : Nat) (s : DumpReader) (st : BhvStats) (junk : Nat → BitVec 32),
    (∀ e ∈ pre, eventFits e ∧ e.regions.length = 12) → s.file = ⟨(pre ++ rest).flatMap eventBytes, false, junk⟩ →
    0 < test → st.test_in_frame = 36 * (test - 1) → st.test_out_frame = 36 * (test - 1) →
    ∃ (ts : List BhvTest) (s' : DumpReader) (junk' : Nat → BitVec 32), ts.length = pre.length ∧
      (∀ i e t, pre[i]? = some e → ts[i]? = some t → TestOf toZ0 (test + i) e t) ∧
      s'.file = ⟨rest.flatMap eventBytes, false, junk'⟩ ∧
      bhvLoop (some true) toZ0 mem (pre.length + n) test s st =
        (bhvLoop (some true) toZ0 mem n (test + pre.length) s' (ts.foldl (fun st t => st.advance.add t) st)).map
          (fun x => (x.1, ts ++ x.2.1, x.2.2)) := by
  intro pre
  induction pre with
  | nil =>
    intro test s st junk _ hs _ _ _
    refine ⟨[], s, junk, rfl, fun i e t h => by simp at h, hs, ?_⟩
    simp only [List.length_nil, Nat.zero_add, Nat.add_zero, List.nil_append, List.foldl_nil]
    cases bhvLoop (some true) toZ0 mem n test s st <;> rfl
  | cons e pre ih =>
    intro test s st junk hfit hs ht hf1 hf2
    obtain ⟨he, hpre⟩ := List.forall_mem_cons.mp hfit
    rw [List.cons_append, List.flatMap_cons] at hs
    obtain ⟨j1, h1⟩ := nextEvent_cons s e he.1 _ junk hs
    obtain ⟨t, h2, h3⟩ := bhvStep_ok toZ0 test e he.2 (mem test) st hf1 hf2
    have hadd : ∀ (st : BhvStats) t, (st.add t).test_in_frame = st.test_in_frame ∧ (st.add t).test_out_frame = st.test_out_frame := by
      intro st t
      unfold BhvStats.add
      dsimp only
      constructor <;> (split <;> split <;> split <;> split <;> rfl)
    obtain ⟨ts, s', j', i1, i2, i3, i4⟩ := ih (test + 1) { s with event := storedEvent e, file := ⟨(pre ++ rest).flatMap eventBytes, false, j1⟩ }
      (st.advance.add t) j1 hpre rfl (by omega) (by rw [(hadd _ _).1]; show st.test_in_frame + 36 = _; omega)
      (by rw [(hadd _ _).2]; show st.test_out_frame + 36 = _; omega)
    refine ⟨t :: ts, s', j', by rw [List.length_cons, List.length_cons, i1], ?_, i3, ?_⟩
    · intro i e' t' he' ht'
      cases i with
      | zero =>
        obtain rfl := Option.some.inj he'
        obtain rfl := Option.some.inj ht'
        exact h3
      | succ i =>
        have := i2 i e' t' he' ht'
        rwa [show test + 1 + i = test + (i + 1) by omega] at this
    · rw [List.length_cons, show pre.length + 1 + n = pre.length + n + 1 by omega]
      conv_lhs => unfold bhvLoop
      rw [h1, Run.ok_bind]
      dsimp only
      rw [if_neg (by simp), if_neg (by
        show ¬ (e.regions.map keepRegion).length ≠ 12
        rw [List.length_map, he.2]
        decide), h2, Run.ok_bind]
      dsimp only
      rw [i4, List.foldl_cons, show test + 1 + pre.length = test + (pre.length + 1) by omega]
      cases bhvLoop (some true) toZ0 mem n (test + (pre.length + 1)) s' (ts.foldl (fun st t => st.advance.add t) (st.advance.add t)) <;> rfl

theorem close_eq (a b : Z0) : bhvClose a b = near a b := by
  unfold bhvClose near
  rw [decide_eq_decide]
  omega

theorem add_eq (st : BhvStats) (t : BhvTest) : st.add t =
    ⟨st.ngood + (if near t.pv_ref t.pv_gen = true then 1 else 0), st.ntot + 1, st.ncmssw_good + (if near t.pv_gen t.pv_cmssw = true then 1 else 0),
     st.nagree + (if near t.pv_ref t.pv_cmssw = true then 1 else 0), st.nerr + (if mismatch t = true then 1 else 0),
     st.resol + (if near t.pv_ref t.pv_gen = true then (t.pv_gen.toInt - t.pv_ref.toInt) ^ 2 else 0),
     st.cmssw_resol + (if near t.pv_gen t.pv_cmssw = true then (t.pv_gen.toInt - t.pv_cmssw.toInt) ^ 2 else 0),
     st.test_in_frame, st.test_out_frame⟩ := by
  have hm : mismatch t = decide (t.pv_ref ≠ t.pv_hw ∨ t.ptsum_hw.toInt ≠ t.ptsum_ref) := by
    unfold mismatch
    rw [decide_eq_decide, Ne, BitVec.toInt_inj]
  unfold BhvStats.add
  rw [close_eq, close_eq, close_eq]
  have h4 : (mismatch t = true) ↔ (t.pv_ref ≠ t.pv_hw ∨ t.ptsum_hw.toInt ≠ t.ptsum_ref) := by rw [hm, decide_eq_true_eq]
  by_cases h : (t.pv_ref ≠ t.pv_hw ∨ t.ptsum_hw.toInt ≠ t.ptsum_ref)
  · rw [if_pos h, h4.mpr h]
    cases near t.pv_ref t.pv_gen <;> cases near t.pv_gen t.pv_cmssw <;> cases near t.pv_ref t.pv_cmssw <;> simp
  · rw [if_neg h, Bool.eq_false_iff.mpr (fun hh => h (h4.mp hh))]
    cases near t.pv_ref t.pv_gen <;> cases near t.pv_gen t.pv_cmssw <;> cases near t.pv_ref t.pv_cmssw <;> simp

theorem statsOf_append (ts : List BhvTest) (t : BhvTest) : statsOf (ts ++ [t]) = (statsOf ts).advance.add t := by
  rw [add_eq]
  have hsum : ∀ (p : BhvTest → Bool) (f : BhvTest → Int),
      (((ts ++ [t]).filter p).map f).sum = ((ts.filter p).map f).sum + (if p t = true then f t else 0) := by
    intro p f
    rw [List.filter_append, List.map_append, List.sum_append]
    congr 1
    cases h : p t <;> simp [h]
  unfold statsOf BhvStats.advance
  dsimp only
  rw [hsum, hsum, List.length_append, List.length_singleton]
  simp only [List.countP_append, List.countP_cons, List.countP_nil, Nat.zero_add]
  rfl

theorem stats_foldl (ts : List BhvTest) : ts.foldl (fun st t => st.advance.add t) BhvStats.zero = statsOf ts := by
  induction ts using List.reverseRecOn with
  | nil => rfl
  | append_singleton ts t ih => rw [List.foldl_append, ih, statsOf_append]; rfl

end Verif
