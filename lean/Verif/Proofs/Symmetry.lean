import Verif.Model.PFRef
import Verif.Model.Puppi
import Verif.Spec.Symmetry
import Verif.Proofs.Basic
import Verif.Proofs.Links
/-! # Lemmas: the algorithms only see distances -/
namespace Verif
open Spec

section Rel
variable {σ τ : Type}

theorem loop_rel (P : σ → τ → Prop) {n : Nat} (b : Fin n → σ → σ) (b' : Fin n → τ → τ) {s : σ} {s' : τ}
    (h0 : P s s') (h : ∀ i s s', P s s' → P (b i s) (b' i s')) : P (loop b s) (loop b' s') := by
  unfold loop
  generalize List.finRange n = l
  induction l generalizing s s' with
  | nil => exact h0
  | cons i l ih => exact ih (h i _ _ h0)

theorem loopDown_rel (P : σ → τ → Prop) {n : Nat} (b : Fin n → σ → σ) (b' : Fin n → τ → τ) {s : σ} {s' : τ}
    (h0 : P s s') (h : ∀ i s s', P s s' → P (b i s) (b' i s')) : P (loopDown b s) (loopDown b' s') := by
  unfold loopDown
  generalize (List.finRange n).reverse = l
  induction l generalizing s s' with
  | nil => exact h0
  | cons i l ih => exact ih (h i _ _ h0)

theorem SameRun.bind {α β α' β' : Type} {R : α → α' → Prop} {S : β → β' → Prop} {x : Run α} {x' : Run α'}
    {f : α → Run β} {f' : α' → Run β'} (h : SameRun R x x') (hf : ∀ a a', R a a' → SameRun S (f a) (f' a')) :
    SameRun S (x >>= f) (x' >>= f') := by
  cases x <;> cases x' <;> first | exact h | exact h.elim | exact hf _ _ h

theorem SameRun.refl {α : Type} {R : α → α → Prop} (hR : ∀ a, R a a) (x : Run α) : SameRun R x x := by
  cases x with
  | error e => exact rfl
  | ok a => exact hR a

theorem SameRun.buildM {α β : Type} {n : Nat} {R : Fin n → α → β → Prop} {f : Fin n → Run α} {f' : Fin n → Run β}
    (h : ∀ i, SameRun (R i) (f i) (f' i)) : SameRun (fun a a' => ∀ i, R i (a i) (a' i)) (buildM f) (buildM f') := by
  induction n with
  | zero => exact fun i => i.elim0
  | succ n ih =>
    unfold Verif.buildM
    refine SameRun.bind (h 0) fun a a' ha => ?_
    refine SameRun.bind (ih fun i => h i.succ) fun t t' ht => ?_
    intro i
    refine Fin.cases ?_ ?_ i
    · exact ha
    · exact ht

end Rel

theorem dr2_cap_of_dr2 {NB : Nat} (max : BitVec NB) {e1 p1 e2 p2 e1' p1' e2' p2' : EtaPhi}
    (h : dr2_int e1' p1' e2' p2' = dr2_int e1 p1 e2 p2) :
    dr2_int_cap e1' p1' e2' p2' max = dr2_int_cap e1 p1 e2 p2 max := by
  show (if dr2_int e1' p1' e2' p2' < (max.toNat : Int) then reg NB (dr2_int e1' p1' e2' p2') else max) = _
  rw [h]
  rfl

theorem dr2_dpt_cap_of_dr2 {NB : Nat} (pt1 pt2 : Pt) (sc : BitVec 18) (m1 m2 : BitVec NB)
    {e1 p1 e2 p2 e1' p1' e2' p2' : EtaPhi} (h : dr2_int e1' p1' e2' p2' = dr2_int e1 p1 e2 p2) :
    dr2_dpt_int_cap e1' p1' e2' p2' pt1 pt2 sc m1 m2 = dr2_dpt_int_cap e1 p1 e2 p2 pt1 pt2 sc m1 m2 := by
  have e : ∀ a b c d : EtaPhi, dr2_dpt_int_cap a b c d pt1 pt2 sc m1 m2 =
      (let dpt0 : Pt := reg 16 (pt1.toInt - pt2.toInt)
       let dpt : Pt := if dpt0.toInt < 0 then 0 else dpt0
       let dpt2 : BitVec 26 := if dpt.toInt > 5792 then reg 26 33554431 else reg 26 (dpt.toInt * dpt.toInt)
       let dq : Int := toCInt (dr2_int a b c d + shr (dpt2.toInt * sc.toInt) 8)
       if dr2_int a b c d < (m1.toNat : Int) ∧ dq < (m2.toNat : Int) then reg NB dq else m2) := fun _ _ _ _ => rfl
  rw [e, e, h]

variable {NT NC NE NM NS : Nat} (g : Motion) (inp : PFInputs NT NC NE NM)

theorem Motion.dr2 (e1 p1 e2 p2 : EtaPhi) :
    dr2_int (g.eta e1 p1) (g.phi e1 p1) (g.eta e2 p2) (g.phi e2 p2) = dr2_int e1 p1 e2 p2 := by
  rw [dr2_int_eq_dist2, dr2_int_eq_dist2, g.isometry]

/-! ### Firmware -/

theorem Motion.mutrk_link : spfph_mutrk_link (g.inputs inp).mu (g.inputs inp).track = spfph_mutrk_link inp.mu inp.track := by
  have h : spfph_mu2trk_dptvals (g.inputs inp).mu (g.inputs inp).track = spfph_mu2trk_dptvals inp.mu inp.track := by
    funext im it
    unfold spfph_mu2trk_dptvals
    simp only [Motion.inputs, dr2_cap_of_dr2 _ (Motion.dr2 g _ _ _ _)]
    rfl
  unfold spfph_mutrk_link
  rw [h]
  rfl

theorem Motion.charged_zero : g.Charged { hwPt := 0, hwEta := 0, hwPhi := 0, hwId := 0, hwZ0 := 0 }
    { hwPt := 0, hwEta := 0, hwPhi := 0, hwId := 0, hwZ0 := 0 } :=
  ⟨rfl, rfl, rfl, fun h => absurd rfl h, fun h => absurd rfl h⟩

theorem Motion.charged_ite (b : Bool) (t : TkObj) (id : ParticleId) : g.Charged
    (if b then { hwPt := t.hwPt, hwEta := t.hwEta, hwPhi := t.hwPhi, hwId := id, hwZ0 := t.hwZ0 }
      else { hwPt := 0, hwEta := 0, hwPhi := 0, hwId := 0, hwZ0 := 0 })
    (if b then { hwPt := t.hwPt, hwEta := g.eta t.hwEta t.hwPhi, hwPhi := g.phi t.hwEta t.hwPhi, hwId := id, hwZ0 := t.hwZ0 }
      else { hwPt := 0, hwEta := 0, hwPhi := 0, hwId := 0, hwZ0 := 0 }) := by
  cases b
  · exact Motion.charged_zero g
  · exact ⟨rfl, rfl, rfl, fun _ => rfl, fun _ => rfl⟩

theorem Motion.mualgo (link : Arr NT (Arr NM Bool)) (old : Arr NM PFChargedObj) (isMu : Arr NT Bool) :
    (spfph_mualgo (g.inputs inp).mu (g.inputs inp).track link old isMu).2 = (spfph_mualgo inp.mu inp.track link old isMu).2 ∧
    ∀ i, g.Charged ((spfph_mualgo inp.mu inp.track link old isMu).1 i)
      ((spfph_mualgo (g.inputs inp).mu (g.inputs inp).track link old isMu).1 i) := by
  unfold spfph_mualgo
  have gen : ∀ (body body' : Fin NM → Arr NM PFChargedObj × Arr NT Bool → Arr NM PFChargedObj × Arr NT Bool),
      (∀ i s s', s'.2 = s.2 → (body' i s').2 = (body i s).2 ∧ (∀ j, j ≠ i → (body i s).1 j = s.1 j ∧ (body' i s').1 j = s'.1 j) ∧
        g.Charged ((body i s).1 i) ((body' i s').1 i)) →
      (loop body' (old, isMu)).2 = (loop body (old, isMu)).2 ∧ ∀ i, g.Charged ((loop body (old, isMu)).1 i) ((loop body' (old, isMu)).1 i) := by
    intro body body' hb
    unfold loop
    have hl : ∀ (l : List (Fin NM)) (s s' : Arr NM PFChargedObj × Arr NT Bool), s'.2 = s.2 → 
        (l.foldl (fun s i => body' i s) s').2 = (l.foldl (fun s i => body i s) s).2 ∧
        ∀ i, (i ∈ l ∨ g.Charged (s.1 i) (s'.1 i)) →
          g.Charged ((l.foldl (fun s i => body i s) s).1 i) ((l.foldl (fun s i => body' i s) s').1 i) := by
      intro l
      induction l with
      | nil => intro s s' h; exact ⟨h, fun i hi => hi.resolve_left (by simp)⟩
      | cons a l ih =>
        intro s s' h
        obtain ⟨h1, h2, h3⟩ := hb a s s' h
        obtain ⟨k1, k2⟩ := ih _ _ h1
        refine ⟨k1, fun i hi => k2 i ?_⟩
        by_cases hia : i = a
        · right; rw [hia]; exact h3
        · rcases hi with hi | hi
          · left; exact (List.mem_cons.mp hi).resolve_left hia
          · right; rw [(h2 i hia).1, (h2 i hia).2]; exact hi
    exact ⟨(hl _ _ _ rfl).1, fun i => (hl _ _ _ rfl).2 i (Or.inl (List.mem_finRange i))⟩
  refine gen _ _ fun im s s' hs => ?_
  simp only []
  generalize (loop (fun it gb => if link it im then (true, some it) else gb) (false, none) : Bool × Option (Fin NT)) = gb
  rcases gb with ⟨gd, _ | ibest⟩
  · refine ⟨hs, fun j hj => ⟨Arr.set_ne _ _ hj, Arr.set_ne _ _ hj⟩, ?_⟩
    simp only [Arr.set_same]
    exact (Motion.charged_zero g)
  · simp only []
    have hp : ((g.inputs inp).mu im).hwPt = (inp.mu im).hwPt := rfl
    rw [hp]
    split
    · refine ⟨by simp only [hs], fun j hj => ⟨Arr.set_ne _ _ hj, Arr.set_ne _ _ hj⟩, ?_⟩
      simp only [Arr.set_same]
      exact ⟨rfl, rfl, rfl, fun _ => rfl, fun _ => rfl⟩
    · refine ⟨hs, fun j hj => ⟨Arr.set_ne _ _ hj, Arr.set_ne _ _ hj⟩, ?_⟩
      simp only [Arr.set_same]
      exact (Motion.charged_zero g)

theorem Motion.em_link (isMu : Arr NT Bool) :
    tk2em_link (g.inputs inp).emcalo (g.inputs inp).track isMu = tk2em_link inp.emcalo inp.track isMu := by
  unfold tk2em_link
  congr 1
  funext it ic
  unfold tk2em_drvals
  simp only [Motion.inputs, dr2_cap_of_dr2 _ (Motion.dr2 g _ _ _ _)]

theorem Motion.emcalo_link :
    em2calo_link (g.inputs inp).emcalo (g.inputs inp).hadcalo = em2calo_link inp.emcalo inp.hadcalo := by
  unfold em2calo_link
  congr 1
  funext ie ic
  unfold em2calo_drvals
  simp only [Motion.inputs, dr2_cap_of_dr2 _ (Motion.dr2 g _ _ _ _)]

/-- A calorimeter cluster moved (its position only matters if it has pt). -/
structure Motion.Had (c c' : HadCaloObj) : Prop where
  pt : c'.hwPt = c.hwPt
  eta : c.hwPt ≠ 0 → c'.hwEta = g.eta c.hwEta c.hwPhi
  phi : c.hwPt ≠ 0 → c'.hwPhi = g.phi c.hwEta c.hwPhi

theorem Motion.calo_sub (sum : Arr NC Pt) (keep : Arr NC Bool) (i : Fin NC) :
    Motion.Had g (em2calo_sub inp.hadcalo sum keep i) (em2calo_sub (g.inputs inp).hadcalo sum keep i) := by
  unfold em2calo_sub
  have e1 : ((g.inputs inp).hadcalo i).hwPt = (inp.hadcalo i).hwPt := rfl
  have e2 : ((g.inputs inp).hadcalo i).hwEmPt = (inp.hadcalo i).hwEmPt := rfl
  have e3 : ((g.inputs inp).hadcalo i).hwIsEM = (inp.hadcalo i).hwIsEM := rfl
  dsimp only
  rw [e1, e2, e3]
  split
  · exact ⟨rfl, fun h => absurd rfl h, fun h => absurd rfl h⟩
  · exact ⟨rfl, fun _ => rfl, fun _ => rfl⟩

theorem caloPtMin_nonneg' (t : TkObj) : 0 ≤ (caloPtMin t).toInt := by
  unfold caloPtMin
  simp only []
  split
  · decide
  · omega

theorem Motion.calo_link {c c' : Arr NC HadCaloObj} (hc : ∀ i, Motion.Had g (c i) (c' i)) :
    tk2calo_link_drdpt c' (g.inputs inp).track = tk2calo_link_drdpt c inp.track := by
  unfold tk2calo_link_drdpt
  congr 1
  unfold tk2calo_drdptvals
  simp only []
  congr 1
  funext it
  have e1 : ((g.inputs inp).track it).hwPtErr = (inp.track it).hwPtErr := rfl
  have e2 : ((g.inputs inp).track it).hwPt = (inp.track it).hwPt := rfl
  have e3 : caloPtMin ((g.inputs inp).track it) = caloPtMin (inp.track it) := rfl
  rw [e1, e2, e3]
  congr 1
  funext s
  congr 1
  funext ic
  rw [(hc ic).pt]
  split
  · rename_i hpt
    have hne : (c ic).hwPt ≠ 0 := by
      intro h
      rw [h] at hpt
      have := caloPtMin_nonneg' (inp.track it)
      simp at hpt
      omega
    apply dr2_dpt_cap_of_dr2
    rw [(hc ic).eta hne, (hc ic).phi hne]
    exact Motion.dr2 g _ _ _ _
  · rfl

/-- A track is never linked to a calorimeter cluster of zero pt. -/
theorem calo_link_zero {c : Arr NC HadCaloObj} {track : Arr NT TkObj} {l : Arr NT (Arr NC Bool)}
    (h : tk2calo_link_drdpt c track = .ok l) {ic : Fin NC} (hc : (c ic).hwPt = 0) (it : Fin NT) : l it ic = false := by
  unfold tk2calo_link_drdpt at h
  obtain ⟨d, hd, h⟩ := Run.bind_eq_ok.mp h
  injection h with h
  have hv : d it ic = reg 12 ((5 * PFALGO3_DR2MAX_TK_CALO : Nat) : Int) := by
    unfold tk2calo_drdptvals at hd
    have := buildM_eq_ok.mp hd it
    obtain ⟨s, _, this⟩ := Run.bind_eq_ok.mp this
    injection this with this
    rw [← this]
    have := caloPtMin_nonneg' (track it)
    beta_reduce
    rw [if_neg (by rw [hc]; exact not_lt.mpr this)]
    rfl
  rw [← h]
  unfold pick_closest
  simp only []
  exact loop_rel (fun (b : Bool) (_ : Unit) => b = false) _ (fun _ _ => ()) (s' := ()) (by simp [hv])
    (fun j b _ hb => by rw [hb]; split <;> rfl)

theorem Motion.caloalgo {c c' : Arr NC HadCaloObj} (hc : ∀ i, Motion.Had g (c i) (c' i)) (st : Arr NC Pt) (se : Arr NC Int)
    (hs : ∀ i, (c i).hwPt = 0 → st i = 0)
    (old : Arr NC PFNeutralObj) : SameRun (fun a a' => ∀ i, g.Neutral (a i) (a' i))
      (tk2calo_caloalgo c st se old) (tk2calo_caloalgo c' st se old) := by
  unfold tk2calo_caloalgo
  refine SameRun.buildM fun i => ?_
  have e : tk2calo_calopt (c' i) (st i) (se i) = tk2calo_calopt (c i) (st i) (se i) := by
    unfold tk2calo_calopt
    rw [(hc i).pt]
  rw [e]
  cases hx : tk2calo_calopt (c i) (st i) (se i) with
  | error e => exact rfl
  | ok p =>
    show g.Neutral _ _
    have hne : p ≠ 0 → (c i).hwPt ≠ 0 := by
      intro hp h0
      unfold tk2calo_calopt at hx
      rw [hs i h0, if_pos rfl, h0] at hx
      injection hx with hx
      exact hp hx.symm
    refine ⟨rfl, rfl, rfl, fun (hp : p ≠ 0) => ?_, fun (hp : p ≠ 0) => ?_⟩ <;>
      simp only [if_pos hp, (hc i).eta (hne hp), (hc i).phi (hne hp)]

theorem sumtk_zero {c : Arr NC HadCaloObj} {track : Arr NT TkObj} {l : Arr NT (Arr NC Bool)} {isEle isMu : Arr NT Bool}
    {tkerr2 : Arr NT Int} {sums : Arr NC (Pt × Int)} (h : tk2calo_link_drdpt c track = .ok l)
    (hs : tk2calo_sumtk track isEle isMu tkerr2 l = .ok sums) {ic : Fin NC} (hc : (c ic).hwPt = 0) : (sums ic).1 = 0 := by
  unfold tk2calo_sumtk at hs
  have hs := buildM_eq_ok.mp hs ic
  have : ∀ (b : Fin NT → Pt × Int → Run (Pt × Int)), (∀ it s, b it s = .ok s) → loopM b ((0 : Pt), (0 : Int)) = .ok (0, 0) := by
    intro b hb
    have e : b = fun _ s => .ok s := by funext it s; exact hb it s
    rw [e]
    unfold loopM
    generalize List.finRange NT = L
    induction L with
    | nil => rfl
    | cons a L ih => exact ih
  rw [this _ (fun it s => by rw [calo_link_zero h hc it]; simp)] at hs
  injection hs with hs
  rw [← hs]

/-! ### Sorting -/

theorem Motion.hwopt {tmp : Arr NS PFNeutralObj} {a a' : Arr NC PFNeutralObj} (h : ∀ i, g.Neutral (a i) (a' i)) (i : Fin NS) :
    g.Neutral (ptsort_hwopt tmp a i) (ptsort_hwopt tmp a' i) := by
  revert i
  unfold ptsort_hwopt
  refine loop_rel (fun s s' : Arr NS PFNeutralObj => ∀ i, g.Neutral (s i) (s' i)) _ _ ?_ ?_
  · intro i
    exact ⟨rfl, rfl, rfl, fun h => absurd rfl h, fun h => absurd rfl h⟩
  · intro it s s' hs
    refine loopDown_rel (fun s s' : Arr NS PFNeutralObj => ∀ i, g.Neutral (s i) (s' i)) _ _ hs ?_
    intro io s s' hs i
    have hpt : ∀ k, HasPt.pt (s' k) = HasPt.pt (s k) := fun k => (hs k).pt
    have hpa : HasPt.pt (a' it) = HasPt.pt (a it) := (h it).pt
    unfold ptsort_hwopt_step
    simp only [hpt, hpa]
    have hset : ∀ {x x' : PFNeutralObj}, g.Neutral x x' → g.Neutral (s.set io x i) (s'.set io x' i) := by
      intro x x' hx
      by_cases hi : i = io
      · rw [hi, Arr.set_same, Arr.set_same]; exact hx
      · rw [Arr.set_ne _ _ hi, Arr.set_ne _ _ hi]; exact hs i
    split
    · split
      · exact hset (h it)
      · split
        · exact hset (h it)
        · exact hset (hs _)
    · exact hs i

theorem loopBreak_rel {σ τ : Type} {n : Nat} (P : σ → τ → Prop) (b : Fin n → σ → σ × Bool) (b' : Fin n → τ → τ × Bool) (l : List (Fin n))
    {s : σ} {s' : τ} (h0 : P s s') (h : ∀ i s s', P s s' → (b' i s').2 = (b i s).2 ∧ P (b i s).1 (b' i s').1) :
    P (loopBreak b l s) (loopBreak b' l s') := by
  induction l generalizing s s' with
  | nil => exact h0
  | cons i l ih =>
    unfold loopBreak
    obtain ⟨h1, h2⟩ := h i _ _ h0
    simp only [h1]
    split
    · exact h2
    · exact ih h2

theorem Motion.sref {tmp : Arr NS PFNeutralObj} {a a' : Arr NC PFNeutralObj} (h : ∀ i, g.Neutral (a i) (a' i)) (i : Fin NS) :
    g.Neutral (ptsort_ref tmp a i) (ptsort_ref tmp a' i) := by
  revert i
  have hset : ∀ (s s' : Arr NS PFNeutralObj), (∀ i, g.Neutral (s i) (s' i)) → ∀ (io) (x x' : PFNeutralObj), g.Neutral x x' →
      ∀ i, g.Neutral (s.set io x i) (s'.set io x' i) := by
    intro s s' hs io x x' hx i
    by_cases hi : i = io
    · rw [hi, Arr.set_same, Arr.set_same]; exact hx
    · rw [Arr.set_ne _ _ hi, Arr.set_ne _ _ hi]; exact hs i
  unfold ptsort_ref
  refine loop_rel (fun s s' : Arr NS PFNeutralObj => ∀ i, g.Neutral (s i) (s' i)) _ _ ?_ ?_
  · intro i
    exact ⟨rfl, rfl, rfl, fun h => absurd rfl h, fun h => absurd rfl h⟩
  · intro it s s' hs
    refine loopBreak_rel (fun s s' : Arr NS PFNeutralObj => ∀ i, g.Neutral (s i) (s' i)) _ _ _ hs ?_
    intro io s s' hs
    have hpt : HasPt.pt (s' io) = HasPt.pt (s io) := (hs io).pt
    have hpa : HasPt.pt (a' it) = HasPt.pt (a it) := (h it).pt
    simp only [hpt, hpa]
    split
    · refine ⟨rfl, ?_⟩
      refine hset _ _ ?_ io _ _ (h it)
      unfold ptsort_ref_shift
      refine loopDown_rel (fun s s' : Arr NS PFNeutralObj => ∀ i, g.Neutral (s i) (s' i)) _ _ hs ?_
      intro k s s' hs
      split
      · exact hset _ _ hs k _ _ (hs _)
      · exact hs
    · exact ⟨rfl, hs⟩

theorem Motion.full (old : PFOutputs NT NE NS NM) (mem : PFScratch NC NS) :
    SameRun (g.Outputs) (pfalgo3_full inp old mem) (pfalgo3_full (g.inputs inp) old mem) := by
  unfold pfalgo3_full
  dsimp only
  rw [Motion.mutrk_link]
  obtain ⟨m1, m2⟩ := Motion.mualgo g inp (spfph_mutrk_link inp.mu inp.track) old.outmu (fun _ => false)
  rw [m1, Motion.em_link, Motion.emcalo_link]
  generalize hmu : spfph_mualgo inp.mu inp.track _ old.outmu (fun _ => false) = mures at m2 ⊢
  generalize hmu' : spfph_mualgo (g.inputs inp).mu (g.inputs inp).track _ old.outmu (fun _ => false) = mures' at m2 ⊢
  have e1 : ∀ l : Arr NT (Arr NE Bool), tk2em_sumtk (g.inputs inp).track l = tk2em_sumtk inp.track l := fun _ => rfl
  have e2 : ∀ s, tk2em_emalgo (g.inputs inp).emcalo s = tk2em_emalgo inp.emcalo s := fun _ => rfl
  rw [e1, e2]
  cases hem : tk2em_emalgo inp.emcalo (tk2em_sumtk inp.track (tk2em_link inp.emcalo inp.track mures.2)) with
  | error e => exact rfl
  | ok em =>
    rw [Run.ok_bind, Run.ok_bind]
    have e3 : ∀ (a) (b : Arr NE (Arr NC Bool)), em2calo_sumem (g.inputs inp).emcalo a b = em2calo_sumem inp.emcalo a b := fun _ _ => rfl
    rw [e3]
    have hhad := Motion.calo_sub g inp (fun i => (em2calo_sumem inp.emcalo (fun i => (em i).1) (em2calo_link inp.emcalo inp.hadcalo) i).1)
      (fun i => (em2calo_sumem inp.emcalo (fun i => (em i).1) (em2calo_link inp.emcalo inp.hadcalo) i).2)
    rw [Motion.calo_link g inp hhad]
    generalize em2calo_sub inp.hadcalo _ _ = had at hhad ⊢
    generalize em2calo_sub (g.inputs inp).hadcalo _ _ = had' at hhad ⊢
    cases hl : tk2calo_link_drdpt had inp.track with
    | error e => exact rfl
    | ok l =>
      rw [Run.ok_bind, Run.ok_bind]
      have e4 : ∀ a b (l : Arr NT (Arr NC Bool)), tk2calo_sumtk (g.inputs inp).track a b (tk2calo_tkerr2 (g.inputs inp).track) l =
        tk2calo_sumtk inp.track a b (tk2calo_tkerr2 inp.track) l := fun _ _ _ => rfl
      rw [e4]
      cases hs : tk2calo_sumtk inp.track (tk2em_elealgo (tk2em_link inp.emcalo inp.track mures.2) fun i => (em i).1) mures.2
          (tk2calo_tkerr2 inp.track) l with
      | error e => exact rfl
      | ok sums =>
        rw [Run.ok_bind, Run.ok_bind]
        refine SameRun.bind (Motion.caloalgo g hhad _ _ (fun i hi => sumtk_zero hl hs hi) _) fun ne ne' hne => ?_
        refine ⟨fun i => ?_, fun i => ?_, fun i => Motion.hwopt g hne i, m2⟩
        · exact Motion.charged_ite g _ (inp.track i) _
        · simp only [tk2em_photons]
          refine ⟨rfl, rfl, rfl, fun h => ?_, fun h => ?_⟩
          · have h : (em i).2 ≠ 0 := h
            simp only [if_pos h]; rfl
          · have h : (em i).2 ≠ 0 := h
            simp only [if_pos h]; rfl

/-! ### Reference -/

theorem Motion.mu_best (mu : MuObj) :
    mu_ref_best { mu with hwEta := g.eta mu.hwEta mu.hwPhi, hwPhi := g.phi mu.hwEta mu.hwPhi } (g.inputs inp).track =
      mu_ref_best mu inp.track := by
  unfold mu_ref_best
  simp only [Motion.inputs, Motion.dr2 g]
  rfl

theorem Motion.mu_ref : (mu_ref (g.inputs inp).mu (g.inputs inp).track).2 = (Verif.mu_ref inp.mu inp.track).2 ∧
    ∀ i, g.Charged ((Verif.mu_ref inp.mu inp.track).1 i) ((Verif.mu_ref (g.inputs inp).mu (g.inputs inp).track).1 i) := by
  unfold Verif.mu_ref
  refine loop_rel (fun s s' : Arr NM PFChargedObj × Arr NT Bool => s'.2 = s.2 ∧ ∀ i, g.Charged (s.1 i) (s'.1 i)) _ _
    ⟨rfl, fun _ => (Motion.charged_zero g)⟩ ?_
  intro im s s' hs
  have e : mu_ref_best ((g.inputs inp).mu im) (g.inputs inp).track = mu_ref_best (inp.mu im) inp.track := Motion.mu_best g inp _
  have hp : ((g.inputs inp).mu im).hwPt = (inp.mu im).hwPt := rfl
  rw [e, hp]
  split
  · cases mu_ref_best (inp.mu im) inp.track with
    | none => exact hs
    | some ib =>
      refine ⟨by simp only [hs.1], fun i => ?_⟩
      by_cases hi : i = im
      · simp only [hi, Arr.set_same]; exact ⟨rfl, rfl, rfl, fun _ => rfl, fun _ => rfl⟩
      · simp only [Arr.set_ne _ _ hi]; exact hs.2 i
  · exact hs

/-- All clusters moved. -/
def Motion.hads (c : Arr NC HadCaloObj) : Arr NC HadCaloObj := fun i =>
  { c i with hwEta := g.eta (c i).hwEta (c i).hwPhi, hwPhi := g.phi (c i).hwEta (c i).hwPhi }

theorem Motion.hadsub (h : HadCaloObj) (sub : Pt) (keep : Bool) :
    em_ref_hadsub { h with hwEta := g.eta h.hwEta h.hwPhi, hwPhi := g.phi h.hwEta h.hwPhi } sub keep =
      { em_ref_hadsub h sub keep with
        hwEta := g.eta (em_ref_hadsub h sub keep).hwEta (em_ref_hadsub h sub keep).hwPhi
        hwPhi := g.phi (em_ref_hadsub h sub keep).hwEta (em_ref_hadsub h sub keep).hwPhi } := by
  cases h
  unfold em_ref_hadsub
  dsimp only
  split_ifs <;> rfl

theorem Motion.em_ref (isMu : Arr NT Bool) (old : Arr NE PFNeutralObj) :
    SameRun (fun a a' => a'.isEle = a.isEle ∧ a'.hadcalo_out = Motion.hads g a.hadcalo_out ∧ ∀ i, g.Neutral (a.outpho i) (a'.outpho i))
      (pfalgo3_em_ref inp.emcalo inp.hadcalo inp.track isMu old)
      (pfalgo3_em_ref (g.inputs inp).emcalo (g.inputs inp).hadcalo (g.inputs inp).track isMu old) := by
  have b1 : ∀ it, best_match_ref_em PFALGO3_DR2MAX_TK_EM (g.inputs inp).emcalo ((g.inputs inp).track it) =
      best_match_ref_em PFALGO3_DR2MAX_TK_EM inp.emcalo (inp.track it) := by
    intro it
    unfold best_match_ref_em
    simp only [Motion.inputs, Motion.dr2 g]
  have b2 : ∀ ic, best_match_ref_had PFALGO3_DR2MAX_EM_CALO (g.inputs inp).hadcalo ((g.inputs inp).emcalo ic) =
      best_match_ref_had PFALGO3_DR2MAX_EM_CALO inp.hadcalo (inp.emcalo ic) := by
    intro it
    unfold best_match_ref_had
    simp only [Motion.inputs, Motion.dr2 g]
    rfl
  have hp : ∀ it, ((g.inputs inp).track it).hwPt = (inp.track it).hwPt := fun _ => rfl
  unfold pfalgo3_em_ref
  simp only [b1, b2, hp]
  have e1 : ∀ l : Arr NT (Option (Fin NE)), em_ref_sumtk (g.inputs inp).track l = em_ref_sumtk inp.track l := fun _ => rfl
  have e2 : ∀ ic s, em_ref_algo ((g.inputs inp).emcalo ic) s = em_ref_algo (inp.emcalo ic) s := fun _ _ => rfl
  simp only [e1, e2]
  refine SameRun.bind (SameRun.refl (R := Eq) (fun _ => rfl) _) fun em em' he => ?_
  subst he
  refine ⟨rfl, ?_, fun i => ?_⟩
  · funext ih
    have e3 : ∀ (a) (b : Arr NE (Option (Fin NC))), em_ref_subkeep (g.inputs inp).emcalo a b ih = em_ref_subkeep inp.emcalo a b ih := fun _ _ => rfl
    simp only [e3, Motion.hads]
    exact Motion.hadsub g _ _ _
  · refine ⟨rfl, rfl, rfl, fun h => ?_, fun h => ?_⟩
    · have h : (em i).2 ≠ 0 := h
      simp only [if_pos h]; rfl
    · have h : (em i).2 ≠ 0 := h
      simp only [if_pos h]; rfl

theorem Motion.tkhad (c : Arr NC HadCaloObj) (isEle isMu tg : Arr NT Bool) :
    tkhad_ref (Motion.hads g c) (g.inputs inp).track isEle isMu tg = tkhad_ref c inp.track isEle isMu tg := by
  have b : ∀ it, best_match_with_pt_ref PFALGO3_DR2MAX_TK_CALO (Motion.hads g c) ((g.inputs inp).track it) =
      best_match_with_pt_ref PFALGO3_DR2MAX_TK_CALO c (inp.track it) := by
    intro it
    unfold best_match_with_pt_ref
    have h : caloPtMin ((g.inputs inp).track it) = caloPtMin (inp.track it) := rfl
    rw [h]
    simp only [Motion.inputs, Motion.hads, Motion.dr2 g]
  unfold tkhad_ref
  simp only [b]
  rfl

theorem Motion.full_ref (old : PFOutputs NT NE NS NM) (mem : Arr NC PFNeutralObj) :
    SameRun (g.Outputs) (pfalgo3_full_ref inp old mem) (pfalgo3_full_ref (g.inputs inp) old mem) := by
  unfold pfalgo3_full_ref
  dsimp only
  obtain ⟨m1, m2⟩ := Motion.mu_ref g inp
  rw [m1]
  generalize Verif.mu_ref inp.mu inp.track = mures at m2 ⊢
  generalize Verif.mu_ref (g.inputs inp).mu (g.inputs inp).track = mures' at m2 ⊢
  refine SameRun.bind (Motion.em_ref g inp mures.2 old.outpho) fun em em' ⟨h1, h2, h3⟩ => ?_
  rw [h1, h2, Motion.tkhad]
  refine SameRun.bind (SameRun.refl (R := Eq) (fun _ => rfl) _) fun s s' hs => ?_
  subst hs
  refine SameRun.bind (SameRun.refl (R := Eq) (fun _ => rfl) _) fun sub sub' hs => ?_
  subst hs
  refine ⟨fun i => ?_, h3, fun i => Motion.sref g (fun ic => ?_) i, m2⟩
  · exact Motion.charged_ite g _ (inp.track i) _
  · split
    · exact ⟨rfl, rfl, rfl, fun _ => rfl, fun _ => rfl⟩
    · exact ⟨rfl, rfl, rfl, fun h => absurd rfl h, fun h => absurd rfl h⟩

/-! ### PUPPI -/

theorem SameRun.loopM {σ τ : Type} {n : Nat} {R : σ → τ → Prop} {b : Fin n → σ → Run σ} {b' : Fin n → τ → Run τ} {s : σ} {s' : τ}
    (h0 : R s s') (h : ∀ i s s', R s s' → SameRun R (b i s) (b' i s')) : SameRun R (loopM b s) (loopM b' s') := by
  unfold Verif.loopM
  generalize List.finRange n = l
  induction l generalizing s s' with
  | nil => exact h0
  | cons i l ih =>
    rw [List.foldlM_cons, List.foldlM_cons]
    exact SameRun.bind (h i _ _ h0) fun a a' ha => ih ha

theorem cint_same (x : Int) : SameRun (fun a b => b = a ∧ cint a = .ok a) (cint x) (cint x) := by
  cases h : cint x with
  | error e => exact rfl
  | ok a =>
    have e : a = x := (cint_eq_ok.mp h).2
    subst e
    exact ⟨rfl, h⟩

theorem Motion.puppi_hw_sum {pfch pfch' : Arr NT PFChargedObj} (hch : ∀ i, g.Charged (pfch i) (pfch' i)) {ne ne' : PFNeutralObj}
    (h1 : ne'.hwEta = g.eta ne.hwEta ne.hwPhi) (h2 : ne'.hwPhi = g.phi ne.hwEta ne.hwPhi) (z : Z0) :
    SameRun (fun a b => b = a ∧ cint a = .ok a) (puppi_hw_sum pfch ne z) (puppi_hw_sum pfch' ne' z) := by
  unfold Verif.puppi_hw_sum
  refine SameRun.loopM ⟨rfl, by decide +kernel⟩ fun it s s' hs => ?_
  obtain ⟨rfl, hs⟩ := hs
  have ho : puppi_outside z (pfch' it) = puppi_outside z (pfch it) := by
    unfold puppi_outside
    rw [(hch it).z0]
  have hp : puppi_pt2_shift (pfch' it) = puppi_pt2_shift (pfch it) := by
    unfold puppi_pt2_shift
    rw [(hch it).pt]
  rw [ho, hp]
  split
  · exact ⟨rfl, hs⟩
  · by_cases hz : (pfch it).hwPt = 0
    · have h0 : puppi_pt2_shift (pfch it) = 0 := by
        unfold puppi_pt2_shift
        rw [hz]
        decide
      have hd : ∀ d, lut_shift15_divide 0 d = 0 := by
        intro d
        unfold lut_shift15_divide
        simp [toCInt]
      have hc : cint (s' + 0) = .ok s' := by rw [add_zero]; exact hs
      rw [h0]
      dsimp only
      simp only [hd, hc]
      split <;> split <;> exact ⟨rfl, hs⟩
    · dsimp only
      rw [(hch it).eta hz, (hch it).phi hz, h1, h2, Motion.dr2 g]
      split
      · exact cint_same _
      · exact ⟨rfl, hs⟩

theorem Motion.puppi_weight (table : PuppiTable) {ne ne' : PFNeutralObj} (h : g.Neutral ne ne') (s s' : Int)
    (hs : ne.hwPt ≠ 0 → s' = s) : g.Neutral (puppi_hw_weight table s ne) (puppi_hw_weight table s' ne') := by
  by_cases hz : ne.hwPt = 0
  · have hv : ∀ (n : PFNeutralObj) (t : Int), n.hwPt = 0 → puppi_hw_weight table t n = { n with hwPtPuppi := 0 } := by
      intro n t hn
      unfold puppi_hw_weight
      dsimp only
      rw [hn]
      split
      · have : ∀ w : Int, reg 16 (shr (BitVec.toInt (0 : Pt) * w) 8) = 0 := by
          intro w
          simp [shr]
        rw [this]
      · rfl
    rw [hv _ _ hz, hv _ _ (h.pt.trans hz)]
    exact ⟨h.pt, h.id, rfl, h.eta, h.phi⟩
  · rw [hs hz]
    unfold puppi_hw_weight
    dsimp only
    rw [h.pt]
    split
    · exact ⟨rfl, h.id, rfl, h.eta, h.phi⟩
    · exact ⟨rfl, h.id, rfl, h.eta, h.phi⟩

theorem Motion.puppi_hw {NN : Nat} (table : PuppiTable) {pfch pfch' : Arr NT PFChargedObj} {ne ne' : Arr NN PFNeutralObj}
    (hch : ∀ i, g.Charged (pfch i) (pfch' i)) (hne : ∀ i, g.Neutral (ne i) (ne' i)) (z : Z0)
    {out out' : Arr NN PFNeutralObj} (h : simple_puppi_hw table pfch ne z = .ok out)
    (h' : simple_puppi_hw table pfch' ne' z = .ok out') (i : Fin NN) : g.Neutral (out i) (out' i) := by
  unfold simple_puppi_hw at h h'
  obtain ⟨s, hs, h⟩ := Run.bind_eq_ok.mp h
  obtain ⟨s', hs', h'⟩ := Run.bind_eq_ok.mp h'
  injection h with h
  injection h' with h'
  rw [← h, ← h']
  refine Motion.puppi_weight g table (hne i) _ _ fun hz => ?_
  have k := Motion.puppi_hw_sum g hch ((hne i).eta hz) ((hne i).phi hz) z
  rw [buildM_eq_ok.mp hs i, buildM_eq_ok.mp hs' i] at k
  exact k.1

theorem Motion.puppi_hw_all {NN : Nat} (table : PuppiTable) {pfch pfch' : Arr NT PFChargedObj} {ne ne' : Arr NN PFNeutralObj}
    (hch : ∀ i, g.Charged (pfch i) (pfch' i)) (hne : ∀ i, g.Neutral (ne i) (ne' i))
    (he : ∀ i, (ne' i).hwEta = g.eta (ne i).hwEta (ne i).hwPhi) (hp : ∀ i, (ne' i).hwPhi = g.phi (ne i).hwEta (ne i).hwPhi) (z : Z0) :
    SameRun (fun a b => ∀ i, g.Neutral (a i) (b i)) (simple_puppi_hw table pfch ne z) (simple_puppi_hw table pfch' ne' z) := by
  unfold simple_puppi_hw
  refine SameRun.bind (SameRun.buildM fun i => Motion.puppi_hw_sum g hch (he i) (hp i) z) fun a a' ha => ?_
  exact fun i => Motion.puppi_weight g table (hne i) _ _ fun _ => (ha i).1

theorem Motion.puppi_ref_sum {pfch pfch' : Arr NT PFChargedObj} (hch : ∀ i, g.Charged (pfch i) (pfch' i)) {ne ne' : PFNeutralObj}
    (h1 : ne'.hwEta = g.eta ne.hwEta ne.hwPhi) (h2 : ne'.hwPhi = g.phi ne.hwEta ne.hwPhi) (z : Z0) :
    SameRun (fun a b => b = a ∧ cint a = .ok a) (puppi_ref_sum pfch ne z) (puppi_ref_sum pfch' ne' z) := by
  unfold Verif.puppi_ref_sum
  refine SameRun.loopM ⟨rfl, by decide +kernel⟩ fun it s s' hs => ?_
  obtain ⟨rfl, hs⟩ := hs
  have ho : puppi_outside z (pfch' it) = puppi_outside z (pfch it) := by
    unfold puppi_outside
    rw [(hch it).z0]
  rw [ho]
  split
  · exact ⟨rfl, hs⟩
  · rw [(hch it).pt]
    by_cases hz : (pfch it).hwPt = 0
    · have h0 : ∀ t : Int, min (shr (BitVec.toInt (0 : Pt) * BitVec.toInt (0 : Pt)) 5) 131071 * t = 0 := by
        intro t
        have : shr (BitVec.toInt (0 : Pt) * BitVec.toInt (0 : Pt)) 5 = 0 := by decide
        rw [this]
        simp
      have hc : cint (s' + 0) = .ok s' := by rw [add_zero]; exact hs
      have hc0 : cint 0 = .ok 0 := by decide +kernel
      rw [hz]
      dsimp only
      simp only [h0, hc0, Run.ok_bind, hc]
      split <;> split <;> exact ⟨rfl, hs⟩
    · dsimp only
      rw [(hch it).eta hz, (hch it).phi hz, h1, h2, Motion.dr2 g]
      split
      · exact SameRun.bind (SameRun.refl (R := Eq) (fun _ => rfl) _) fun a a' ha => by subst ha; exact cint_same _
      · exact ⟨rfl, hs⟩

theorem Motion.puppi_ref {NN : Nat} (table : PuppiTable) {pfch pfch' : Arr NT PFChargedObj} {ne ne' : Arr NN PFNeutralObj}
    (hch : ∀ i, g.Charged (pfch i) (pfch' i)) (hne : ∀ i, g.Neutral (ne i) (ne' i)) (z : Z0) :
    SameRun (fun a b => ∀ i, g.Neutral (a i) (b i)) (simple_puppi_ref table pfch ne z) (simple_puppi_ref table pfch' ne' z) := by
  unfold simple_puppi_ref
  refine SameRun.buildM fun i => ?_
  unfold puppi_ref_one
  rw [(hne i).pt]
  split
  · exact hne i
  · rename_i hz
    refine SameRun.bind (Motion.puppi_ref_sum g hch ((hne i).eta hz) ((hne i).phi hz) z) fun s s' hs => ?_
    rw [hs.1]
    refine SameRun.bind (SameRun.refl (R := Eq) (fun _ => rfl) _) fun w w' hw => ?_
    subst hw
    exact ⟨rfl, (hne i).id, rfl, (hne i).eta, (hne i).phi⟩

end Verif
