import Verif.Spec.Memory
import Verif.Proofs.Symmetry
/-! # Lemmas: what the results depend on -/
namespace Verif
open Spec
variable {NT NC NE NM NS NIn NOut : Nat}

theorem set_rel {T T' : Type} {R : T → T' → Prop} {s : Arr NOut T} {s' : Arr NOut T'} (hs : ∀ i, R (s i) (s' i))
    (io : Fin NOut) {x : T} {x' : T'} (hx : R x x') (i : Fin NOut) : R (s.set io x i) (s'.set io x' i) := by
  by_cases hi : i = io
  · rw [hi, Arr.set_same, Arr.set_same]; exact hx
  · rw [Arr.set_ne _ _ hi, Arr.set_ne _ _ hi]; exact hs i

/-- Both sorts keep any relation that implies equal pt. -/
theorem hwopt_keeps {T T' : Type} [HasPt T] [HasPt T'] {R : T → T' → Prop} (hR : ∀ a b, R a b → HasPt.pt a = HasPt.pt b)
    {tmp : Arr NOut T} {tmp' : Arr NOut T'} (h0 : ∀ i, R (HasPt.setPt (tmp i) 0) (HasPt.setPt (tmp' i) 0))
    {a : Arr NIn T} {a' : Arr NIn T'} (h : ∀ i, R (a i) (a' i)) :
    ∀ i, R (ptsort_hwopt tmp a i) (ptsort_hwopt tmp' a' i) := by
  unfold ptsort_hwopt
  refine loop_rel (fun (s : Arr NOut T) (s' : Arr NOut T') => ∀ i, R (s i) (s' i)) _ _ h0 ?_
  intro it s s' hs
  refine loopDown_rel (fun (s : Arr NOut T) (s' : Arr NOut T') => ∀ i, R (s i) (s' i)) _ _ hs ?_
  intro io s s' hs i
  have hpt : ∀ k, HasPt.pt (s k) = HasPt.pt (s' k) := fun k => hR _ _ (hs k)
  have hpa : HasPt.pt (a it) = HasPt.pt (a' it) := hR _ _ (h it)
  unfold ptsort_hwopt_step
  simp only [hpt, hpa]
  split
  · split
    · exact set_rel hs io (h it) i
    · split
      · exact set_rel hs io (h it) i
      · exact set_rel hs io (hs _) i
  · exact hs i

@[inherit_doc hwopt_keeps]
theorem sref_keeps {T T' : Type} [HasPt T] [HasPt T'] {R : T → T' → Prop} (hR : ∀ a b, R a b → HasPt.pt a = HasPt.pt b)
    {tmp : Arr NOut T} {tmp' : Arr NOut T'} (h0 : ∀ i, R (HasPt.setPt (tmp i) 0) (HasPt.setPt (tmp' i) 0))
    {a : Arr NIn T} {a' : Arr NIn T'} (h : ∀ i, R (a i) (a' i)) :
    ∀ i, R (ptsort_ref tmp a i) (ptsort_ref tmp' a' i) := by
  unfold ptsort_ref
  refine loop_rel (fun (s : Arr NOut T) (s' : Arr NOut T') => ∀ i, R (s i) (s' i)) _ _ h0 ?_
  intro it s s' hs
  refine loopBreak_rel (fun (s : Arr NOut T) (s' : Arr NOut T') => ∀ i, R (s i) (s' i)) _ _ _ hs ?_
  intro io s s' hs
  have hpt : HasPt.pt (s io) = HasPt.pt (s' io) := hR _ _ (hs io)
  have hpa : HasPt.pt (a it) = HasPt.pt (a' it) := hR _ _ (h it)
  simp only [hpt, hpa]
  split
  · refine ⟨rfl, ?_⟩
    refine set_rel ?_ io (h it)
    unfold ptsort_ref_shift
    refine loopDown_rel (fun (s : Arr NOut T) (s' : Arr NOut T') => ∀ i, R (s i) (s' i)) _ _ hs ?_
    intro k s s' hs
    split
    · exact set_rel hs k (hs _)
    · exact hs
  · exact ⟨rfl, hs⟩

theorem mualgo_old (mu : Arr NM MuObj) (track : Arr NT TkObj) (link : Arr NT (Arr NM Bool))
    (old old' : Arr NM PFChargedObj) (isMu : Arr NT Bool) :
    spfph_mualgo mu track link old isMu = spfph_mualgo mu track link old' isMu := by
  unfold spfph_mualgo
  have gen : ∀ (body : Fin NM → Arr NM PFChargedObj × Arr NT Bool → Arr NM PFChargedObj × Arr NT Bool),
      (∀ i s s', s'.2 = s.2 → (body i s').2 = (body i s).2 ∧
        (∀ j, j ≠ i → (body i s).1 j = s.1 j ∧ (body i s').1 j = s'.1 j) ∧ (body i s').1 i = (body i s).1 i) →
      loop body (old, isMu) = loop body (old', isMu) := by
    intro body hb
    unfold loop
    have hl : ∀ (l : List (Fin NM)) (s s' : Arr NM PFChargedObj × Arr NT Bool), s'.2 = s.2 →
        (l.foldl (fun s i => body i s) s').2 = (l.foldl (fun s i => body i s) s).2 ∧
        ∀ i, (i ∈ l ∨ s.1 i = s'.1 i) → (l.foldl (fun s i => body i s) s).1 i = (l.foldl (fun s i => body i s) s').1 i := by
      intro l
      induction l with
      | nil => exact fun s s' h => ⟨h, fun i hi => hi.elim (fun h => by cases h) id⟩
      | cons a l ih =>
        intro s s' h
        obtain ⟨b1, b2, b3⟩ := hb a s s' h
        refine ⟨(ih _ _ b1).1, fun i hi => (ih _ _ b1).2 i ?_⟩
        by_cases hia : i = a
        · right; rw [hia, b3]
        · rcases hi with hi | hi
          · left; exact (List.mem_cons.mp hi).resolve_left hia
          · right; rw [(b2 i hia).1, (b2 i hia).2, hi]
    obtain ⟨h1, h2⟩ := hl (List.finRange NM) (old, isMu) (old', isMu) rfl
    exact Prod.ext (funext fun i => h2 i (Or.inl (List.mem_finRange i))) h1.symm
  apply gen
  intro i s s' hs
  dsimp only
  split
  · split
    · exact ⟨by simp only [hs], fun j hj => ⟨Arr.set_ne _ _ hj, Arr.set_ne _ _ hj⟩, (Arr.set_same _ _ _).trans (Arr.set_same _ _ _).symm⟩
    · exact ⟨hs, fun j hj => ⟨Arr.set_ne _ _ hj, Arr.set_ne _ _ hj⟩, (Arr.set_same _ _ _).trans (Arr.set_same _ _ _).symm⟩
  · exact ⟨hs, fun j hj => ⟨Arr.set_ne _ _ hj, Arr.set_ne _ _ hj⟩, (Arr.set_same _ _ _).trans (Arr.set_same _ _ _).symm⟩

theorem full_mem (inp : PFInputs NT NC NE NM) (old old' : PFOutputs NT NE NS NM) (mem mem' : PFScratch NC NS) :
    SameRun (SameLists SameParticle) (pfalgo3_full inp old mem) (pfalgo3_full inp old' mem') := by
  unfold pfalgo3_full
  dsimp only
  rw [mualgo_old inp.mu inp.track _ old'.outmu old.outmu]
  refine SameRun.bind (SameRun.refl (R := Eq) (fun _ => rfl) _) fun em em' he => ?_
  subst he
  refine SameRun.bind (SameRun.refl (R := Eq) (fun _ => rfl) _) fun lk lk' he => ?_
  subst he
  refine SameRun.bind (SameRun.refl (R := Eq) (fun _ => rfl) _) fun sums sums' he => ?_
  subst he
  refine SameRun.bind (R := fun a a' => ∀ i, SameParticle (a i) (a' i)) ?_ fun ne ne' hne => ?_
  · unfold tk2calo_caloalgo
    refine SameRun.buildM fun i => ?_
    refine SameRun.bind (SameRun.refl (R := Eq) (fun _ => rfl) _) fun p p' he => ?_
    subst he
    exact ⟨rfl, fun _ => rfl, fun _ => rfl, fun _ => rfl⟩
  · refine ⟨rfl, fun i => ⟨rfl, rfl, rfl, rfl⟩, ?_, rfl⟩
    exact hwopt_keeps (R := SameParticle) (tmp := mem.tmp) (tmp' := mem'.tmp) (fun a b h => h.pt)
      (fun i => ⟨rfl, fun h => absurd rfl h, fun h => absurd rfl h, fun h => absurd rfl h⟩) hne

theorem em_ref_old (emcalo : Arr NE EmCaloObj) (hadcalo : Arr NC HadCaloObj) (track : Arr NT TkObj)
    (isMu : Arr NT Bool) (old old' : Arr NE PFNeutralObj) :
    SameRun (fun a a' => a.isEle = a'.isEle ∧ a.hadcalo_out = a'.hadcalo_out ∧ ∀ i, SameButPuppi (a.outpho i) (a'.outpho i))
      (pfalgo3_em_ref emcalo hadcalo track isMu old) (pfalgo3_em_ref emcalo hadcalo track isMu old') := by
  unfold pfalgo3_em_ref
  dsimp only
  refine SameRun.bind (SameRun.refl (R := Eq) (fun _ => rfl) _) fun em em' he => ?_
  subst he
  exact ⟨rfl, rfl, fun i => ⟨rfl, rfl, rfl, rfl⟩⟩

theorem full_ref_mem (inp : PFInputs NT NC NE NM) (old old' : PFOutputs NT NE NS NM) (mem mem' : Arr NC PFNeutralObj) :
    SameRun (SameLists SameButPuppi) (pfalgo3_full_ref inp old mem) (pfalgo3_full_ref inp old' mem') := by
  unfold pfalgo3_full_ref
  dsimp only
  refine SameRun.bind (em_ref_old _ _ _ _ old.outpho old'.outpho) fun em em' ⟨h1, h2, h3⟩ => ?_
  rw [h1, h2]
  refine SameRun.bind (SameRun.refl (R := Eq) (fun _ => rfl) _) fun s s' he => ?_
  subst he
  refine SameRun.bind (SameRun.refl (R := Eq) (fun _ => rfl) _) fun sub sub' he => ?_
  subst he
  refine ⟨rfl, h3, ?_, rfl⟩
  refine sref_keeps (R := SameButPuppi) (tmp := fun i => { old.outne i with hwPt := 0, hwEta := 0, hwPhi := 0, hwId := 0 })
    (tmp' := fun i => { old'.outne i with hwPt := 0, hwEta := 0, hwPhi := 0, hwId := 0 })
    (fun a b h => h.pt) (fun i => ⟨rfl, rfl, rfl, rfl⟩) fun ic => ?_
  split
  · exact ⟨rfl, rfl, rfl, rfl⟩
  · exact ⟨rfl, rfl, rfl, rfl⟩

end Verif
