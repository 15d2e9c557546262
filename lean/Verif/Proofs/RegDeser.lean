import Verif.Proofs.RegMerge
/-! # Reading the fibers -/
namespace Verif
open Spec

variable {T α : Type} {NIS NF K : Nat}

theorem loopM_err {σ : Type} {X : Fault} {n : Nat} (body : Fin n → σ → Run σ)
    (h : ∀ i s e, body i s = .error e → e = X) : ∀ s e, loopM body s = .error e → e = X := by
  induction n with
  | zero => intro s e h; rw [loopM_zero] at h; cases h
  | succ n ih =>
    intro s e he
    rw [loopM_succ] at he
    cases h1 : loopM (fun i => body i.castSucc) s with
    | error e' => rw [h1] at he; cases he; exact ih _ (fun i s e => h i.castSucc s e) s _ h1
    | ok s1 => rw [h1] at he; exact h _ _ _ he

/-- All the deserializers: `n` rounds, in each round one object from each fiber of each sector in turn. -/
def deserG (n : Nat) (idx : Fin NIS → Fin NF → Fin K) (step : Fin NIS → T → α → α)
    (fib : Arr K (List T)) (a0 : Arr NIS α) : Run (Arr K (List T) × Arr NIS α) :=
  loopM (fun (_ : Fin n) s =>
    loopM (fun (is : Fin NIS) s =>
      loopM (fun (f : Fin NF) (s : Arr K (List T) × Arr NIS α) => do
        let (inn, fibers) ← readFiber s.1 (idx is f)
        .ok (fibers, s.2.set is (step is inn (s.2 is)))) s) s) (fib, a0)

section
variable (idx : Fin NIS → Fin NF → Fin K) (step : Fin NIS → T → α → α) (fib : Arr K (List T)) (a0 : Arr NIS α)

/-- Objects read in a round. -/
def heads (is : Fin NIS) (m : Nat) (f : Fin NF) : List T := ((fib (idx is f)).drop m).take 1

/-- The state in the middle of round `m`, sector `j`, fiber `q`. -/
def DInv (m j q : Nat) (s : Arr K (List T) × Arr NIS α) : Prop :=
  (∀ (is : Fin NIS) (f : Fin NF), s.1 (idx is f) =
    (fib (idx is f)).drop (if is.val < j ∨ is.val = j ∧ f.val < q then m + 1 else m)) ∧
  (∀ is : Fin NIS, s.2 is = (interleave NF m (fun f => fib (idx is f)) ++
    ((List.finRange NF).take (if is.val < j then NF else if is.val = j then q else 0)).flatMap
      (heads idx fib is m)).foldl (fun a x => step is x a) (a0 is))

theorem interleave_succ (m : Nat) (g : Fin NF → List T) :
    interleave NF (m + 1) g = interleave NF m g ++ (List.finRange NF).flatMap fun f => ((g f).drop m).take 1 := by
  unfold interleave
  rw [List.range_succ, List.flatMap_append, List.flatMap_singleton]

theorem DInv.next_sector {m j : Nat} {s} (h : DInv idx step fib a0 m j NF s) : DInv idx step fib a0 m (j + 1) 0 s := by
  refine ⟨fun is f => ?_, fun is => ?_⟩
  · rw [h.1 is f]
    have := f.isLt
    congr 1
    by_cases h1 : is.val < j
    · rw [if_pos (Or.inl h1), if_pos (Or.inl (by omega))]
    · by_cases h2 : is.val = j
      · rw [if_pos (Or.inr ⟨h2, this⟩), if_pos (Or.inl (by omega))]
      · rw [if_neg (by omega), if_neg (by omega)]
  · rw [h.2 is]
    congr 3
    by_cases h1 : is.val < j
    · rw [if_pos h1, if_pos (by omega)]
    · by_cases h2 : is.val = j
      · rw [if_neg h1, if_pos h2, if_pos (by omega)]
      · rw [if_neg h1, if_neg h2, if_neg (by omega)]; split <;> rfl

theorem DInv.next_round {m : Nat} {s} (h : DInv idx step fib a0 m NIS 0 s) : DInv idx step fib a0 (m + 1) 0 0 s := by
  refine ⟨fun is f => ?_, fun is => ?_⟩
  · rw [h.1 is f, if_pos (Or.inl is.isLt), if_neg (by omega)]
  · rw [h.2 is, if_pos is.isLt, List.take_of_length_le (by simp), interleave_succ, if_neg (by omega)]
    have : (if is.val = 0 then 0 else 0) = 0 := by split <;> rfl
    rw [this, List.take_zero, List.flatMap_nil, List.append_nil]
    rfl

theorem DInv.read (hinj : ∀ a b c d, idx a b = idx c d → a = c ∧ b = d) {m : Nat} {is : Fin NIS} {f : Fin NF}
    {s : Arr K (List T) × Arr NIS α} (h : DInv idx step fib a0 m is.val f.val s) (hlen : m < (fib (idx is f)).length) :
    ∃ s', (do
        let (inn, fibers) ← readFiber s.1 (idx is f)
        .ok (fibers, s.2.set is (step is inn (s.2 is))) : Run _) = .ok s' ∧
      DInv idx step fib a0 m is.val (f.val + 1) s' := by
  have e := h.1 is f
  rw [if_neg (by omega), List.drop_eq_getElem_cons hlen] at e
  unfold readFiber
  rw [e]
  refine ⟨_, rfl, fun is' f' => ?_, fun is' => ?_⟩
  · simp only []
    by_cases hh : is' = is ∧ f' = f
    · obtain ⟨rfl, rfl⟩ := hh
      rw [Arr.set_same, if_pos (Or.inr ⟨rfl, by omega⟩)]
    · have : idx is' f' ≠ idx is f := fun x => hh (hinj _ _ _ _ x)
      rw [Arr.set_ne _ _ this, h.1]
      congr 1
      by_cases h1 : is'.val < is.val
      · rw [if_pos (Or.inl h1), if_pos (Or.inl h1)]
      · by_cases h2 : is'.val = is.val
        · have h3 : f'.val ≠ f.val := fun x => hh ⟨Fin.ext h2, Fin.ext x⟩
          by_cases h4 : f'.val < f.val
          · rw [if_pos (Or.inr ⟨h2, h4⟩), if_pos (Or.inr ⟨h2, by omega⟩)]
          · rw [if_neg (by omega), if_neg (by omega)]
        · rw [if_neg (by omega), if_neg (by omega)]
  · simp only []
    by_cases hh : is' = is
    · subst hh
      have := h.2 is'
      rw [if_neg (by omega), if_pos rfl] at this
      rw [Arr.set_same, this, if_neg (by omega), if_pos rfl,
        List.take_succ_eq_append_getElem (by rw [List.length_finRange]; exact f.isLt), List.flatMap_append,
        List.flatMap_singleton, ← List.append_assoc, List.foldl_append (l' := heads _ _ _ _ _)]
      have e2 : heads idx fib is' m (List.finRange NF)[f.val] = [(fib (idx is' f))[m]] := by
        unfold heads
        simp only [List.getElem_finRange, Fin.cast_mk, Fin.eta]
        rw [List.drop_eq_getElem_cons hlen]; rfl
      rw [e2]; rfl
    · have hne : is'.val ≠ is.val := fun x => hh (Fin.ext x)
      rw [Arr.set_ne _ _ hh, h.2]
      by_cases h1 : is'.val < is.val
      · rw [if_pos h1, if_pos h1]
      · rw [if_neg h1, if_neg hne, if_neg h1, if_neg hne]

/-- Enough data: everything is read in order. -/
theorem deserG_ok (hinj : ∀ a b c d, idx a b = idx c d → a = c ∧ b = d) (n : Nat)
    (hlen : ∀ is f, n ≤ (fib (idx is f)).length) :
    ∃ s, deserG n idx step fib a0 = .ok s ∧ (∀ is f, s.1 (idx is f) = (fib (idx is f)).drop n) ∧
      ∀ is, s.2 is = (interleave NF n (fun f => fib (idx is f))).foldl (fun a x => step is x a) (a0 is) := by
  obtain ⟨s, e1, e2⟩ := loopM_induct (n := n) (fun m s => DInv idx step fib a0 m 0 0 s) (fun (_ : Fin n) s =>
    loopM (fun (is : Fin NIS) s =>
      loopM (fun (f : Fin NF) (s : Arr K (List T) × Arr NIS α) => do
        let (inn, fibers) ← readFiber s.1 (idx is f)
        .ok (fibers, s.2.set is (step is inn (s.2 is)))) s) s) (fib, a0)
    ⟨fun is f => by rw [if_neg (by omega), List.drop_zero], fun is => by
      have : (if is.val < 0 then NF else if is.val = 0 then 0 else 0) = 0 := by
        rw [if_neg (by omega)]; split <;> rfl
      rw [this, List.take_zero, List.flatMap_nil, List.append_nil]; rfl⟩
    (by
      intro m s hs
      obtain ⟨s2, f1, f2⟩ := loopM_induct (n := NIS) (fun j s => DInv idx step fib a0 m j 0 s)
        (fun (is : Fin NIS) s =>
          loopM (fun (f : Fin NF) (s : Arr K (List T) × Arr NIS α) => do
            let (inn, fibers) ← readFiber s.1 (idx is f)
            .ok (fibers, s.2.set is (step is inn (s.2 is)))) s) s hs
        (by
          intro is s hs
          obtain ⟨s3, g1, g2⟩ := loopM_induct (n := NF) (fun q s => DInv idx step fib a0 m is.val q s)
            (fun (f : Fin NF) (s : Arr K (List T) × Arr NIS α) => do
              let (inn, fibers) ← readFiber s.1 (idx is f)
              .ok (fibers, s.2.set is (step is inn (s.2 is)))) s hs
            (fun f s hs => DInv.read idx step fib a0 hinj hs (lt_of_lt_of_le m.isLt (hlen is f)))
          exact ⟨s3, g1, g2.next_sector⟩)
      exact ⟨s2, f1, f2.next_round⟩)
  refine ⟨s, e1, fun is f => by rw [e2.1 is f, if_neg (by omega)], fun is => ?_⟩
  rw [e2.2 is]
  have : (if is.val < 0 then NF else if is.val = 0 then 0 else 0) = 0 := by
    rw [if_neg (by omega)]; split <;> rfl
  rw [this, List.take_zero, List.flatMap_nil, List.append_nil]

theorem readStep_err {is : Fin NIS} {f : Fin NF} {s : Arr K (List T) × Arr NIS α} {e : Fault}
    (h : (do
        let (inn, fibers) ← readFiber s.1 (idx is f)
        .ok (fibers, s.2.set is (step is inn (s.2 is))) : Run (Arr K (List T) × Arr NIS α)) = .error e) :
    e = .emptyStream := by
  unfold readFiber at h
  cases hk : s.1 (idx is f) with
  | nil => rw [hk] at h; cases h; rfl
  | cons x r => rw [hk] at h; cases h

/-- How many objects were read. -/
def LInv (m j q : Nat) (s : Arr K (List T) × Arr NIS α) : Prop :=
  ∀ (is : Fin NIS) (f : Fin NF), (s.1 (idx is f)).length +
    (if is.val < j ∨ is.val = j ∧ f.val < q then m + 1 else m) = (fib (idx is f)).length

theorem deserG_len (hinj : ∀ a b c d, idx a b = idx c d → a = c ∧ b = d) (n : Nat) {s}
    (h : deserG n idx step fib a0 = .ok s) : ∀ is f, n ≤ (fib (idx is f)).length := by
  have key : LInv idx fib n 0 0 s := by
    refine loopM_induct_ok (fun m s => LInv idx fib m 0 0 s) _ (fib, a0) s ?_ ?_ h
    · intro is f
      rw [if_neg (by omega)]; rfl
    · intro m s s1 hs h1
      have : LInv idx fib m NIS 0 s1 := by
        refine loopM_induct_ok (fun j s => LInv idx fib m j 0 s) _ s s1 hs ?_ h1
        intro is s s1 hs h1
        have : LInv idx fib m is.val NF s1 := by
          refine loopM_induct_ok (fun q s => LInv idx fib m is.val q s) _ s s1 hs ?_ h1
          intro f s s1 hs h1 is' f'
          have e := hs is f
          rw [if_neg (by omega)] at e
          unfold readFiber at h1
          cases hk : s.1 (idx is f) with
          | nil => rw [hk] at h1; cases h1
          | cons x r =>
            rw [hk] at h1 e; cases h1
            simp only []
            by_cases hh : is' = is ∧ f' = f
            · obtain ⟨rfl, rfl⟩ := hh
              rw [Arr.set_same, if_pos (Or.inr ⟨rfl, by omega⟩), ← e, List.length_cons]
              omega
            · have hne : idx is' f' ≠ idx is f := fun x => hh (hinj _ _ _ _ x)
              rw [Arr.set_ne _ _ hne, ← hs is' f']
              congr 1
              by_cases h1 : is'.val < is.val
              · rw [if_pos (Or.inl h1), if_pos (Or.inl h1)]
              · by_cases h2 : is'.val = is.val
                · have h3 : f'.val ≠ f.val := fun x => hh ⟨Fin.ext h2, Fin.ext x⟩
                  by_cases h4 : f'.val < f.val
                  · rw [if_pos (Or.inr ⟨h2, by omega⟩), if_pos (Or.inr ⟨h2, h4⟩)]
                  · rw [if_neg (by omega), if_neg (by omega)]
                · rw [if_neg (by omega), if_neg (by omega)]
        intro is' f'
        rw [← this is' f']
        have := f'.isLt
        congr 1
        by_cases h1 : is'.val < is.val
        · rw [if_pos (Or.inl (by omega)), if_pos (Or.inl h1)]
        · by_cases h2 : is'.val = is.val
          · rw [if_pos (Or.inl (by omega)), if_pos (Or.inr ⟨h2, this⟩)]
          · rw [if_neg (by omega), if_neg (by omega)]
      intro is f
      rw [← this is f, if_pos (Or.inl is.isLt), if_neg (by omega)]
  intro is f
  have := key is f
  rw [if_neg (by omega)] at this
  omega

/-- Too little data. -/
theorem deserG_short (hinj : ∀ a b c d, idx a b = idx c d → a = c ∧ b = d) (n : Nat)
    (hlen : ¬ ∀ is f, n ≤ (fib (idx is f)).length) : deserG n idx step fib a0 = .error .emptyStream := by
  cases h : deserG n idx step fib a0 with
  | ok s => exact absurd (deserG_len idx step fib a0 hinj n h) hlen
  | error e =>
    congr 1
    exact loopM_err _ (fun _ s e he => loopM_err _ (fun is s e he => loopM_err _ (fun f s e he =>
      readStep_err idx step he) s e he) s e he) _ _ h

end

/-- One fiber per sector. -/
theorem deserG_one (n : Nat) (step : Fin NIS → T → α → α) (fib : Arr NIS (List T)) (a0 : Arr NIS α) :
    loopM (fun (_ : Fin n) s =>
      loopM (fun (is : Fin NIS) (s : Arr NIS (List T) × Arr NIS α) => do
        let (inn, fibers) ← readFiber s.1 is
        .ok (fibers, s.2.set is (step is inn (s.2 is)))) s) (fib, a0) =
    deserG n (fun (is : Fin NIS) (_ : Fin 1) => is) step fib a0 := by
  unfold deserG
  congr 1
  funext _ s
  congr 1
  funext is s
  rw [loopM_succ, loopM_zero]
  rfl

theorem interleave_one (n : Nat) (l : List T) (h : n ≤ l.length) : interleave 1 n (fun _ => l) = l.take n := by
  induction n with
  | zero => rfl
  | succ n ih =>
    rw [interleave_succ, ih (by omega), List.take_succ_eq_append_getElem (show n < l.length by omega)]
    congr 1
    show List.flatMap _ [0] = _
    rw [List.flatMap_singleton, List.drop_eq_getElem_cons (show n < l.length by omega)]
    rfl

theorem fiberIdx_inj {NFPS : Nat} (a : Fin N_IN_SECTORS) (b : Fin NFPS) (c : Fin N_IN_SECTORS) (d : Fin NFPS)
    (h : fiberIdx a b = fiberIdx c d) : a = c ∧ b = d := by
  have h1 : NFPS * a.val + b.val = NFPS * c.val + d.val := congrArg Fin.val h
  have hb := b.isLt
  have hd := d.isLt
  have e : b.val = d.val := by
    have := congrArg (· % NFPS) h1
    simp only [Nat.mul_add_mod, Nat.mod_eq_of_lt hb, Nat.mod_eq_of_lt hd] at this
    exact this
  have e2 : a.val = c.val := by
    have : NFPS * a.val = NFPS * c.val := by omega
    exact Nat.eq_of_mul_eq_mul_left (by omega) this
  exact ⟨Fin.ext e2, Fin.ext e⟩

theorem fiberIdx_surj {NFPS : Nat} (k : Fin (NFPS * N_IN_SECTORS)) : ∃ is f, k = fiberIdx (NFPS := NFPS) is f := by
  have hk := k.isLt
  have hpos : 0 < NFPS := by
    rcases Nat.eq_zero_or_pos NFPS with h | h
    · subst h; omega
    · exact h
  refine ⟨⟨k.val / NFPS, (Nat.div_lt_iff_lt_mul hpos).mpr (lt_of_lt_of_eq hk (Nat.mul_comm _ _))⟩, ⟨k.val % NFPS, Nat.mod_lt _ hpos⟩,
    Fin.ext ?_⟩
  exact (Nat.div_add_mod k.val NFPS).symm

/-! ### Slices -/

variable [RegObj T] [LawfulReg T] {NSE NREG : Nat}

omit [LawfulReg T] in
theorem addEta_eq (ie : Fin 3) (o : T) : addEta o (reg 10 (ETA_SHIFT ie)) = etaRel ie o := by
  have : (reg 10 (ETA_SHIFT ie)).toInt = - etaC ie := by revert ie; decide
  unfold addEta etaRel
  rw [this]; rfl

omit [LawfulReg T] in
theorem window_eq (ie : Fin 3) (o : T) :
    ((reg 10 (ETA_MIN ie)).toInt ≤ (RegObj.eta o).toInt ∧ (RegObj.eta o).toInt ≤ (reg 10 (ETA_MAX ie)).toInt) ↔
      inSlice ie o = true := by
  have h1 : (reg 10 (ETA_MIN ie)).toInt = etaLo ie := by revert ie; decide
  have h2 : (reg 10 (ETA_MAX ie)).toInt = etaHi ie := by revert ie; decide
  rw [h1, h2]
  unfold inSlice
  rw [decide_eq_true_iff]

theorem slice_holds (ie : Fin 3) (l : List T) :
    Holds (l.foldl (fun (a : Arr NSE T) x => push_in_sector_eta x a (reg 10 (ETA_MIN ie)) (reg 10 (ETA_MAX ie))
      (reg 10 (ETA_SHIFT ie))) (fun _ => RegObj.clear)) (slice NSE ie l) := by
  have h := push_all (N := NSE) ((l.filter (inSlice ie)).map fun x => (x, etaRel ie x)) (by
    intro x hx
    obtain ⟨o, _, rfl⟩ := List.mem_map.mp hx
    exact ptOf_etaRel ie o)
  unfold Holds slice
  rw [List.map_map] at h
  rw [show (List.map (etaRel ie) (List.filter (inSlice ie) l)) =
    List.map ((fun x => x.2) ∘ fun x => (x, etaRel ie x)) (List.filter (inSlice ie) l) from rfl, ← h]
  congr 1
  rw [List.foldl_map, List.foldl_filter]
  congr 1
  funext a x
  unfold push_in_sector_eta
  by_cases hw : inSlice ie x = true
  · rw [if_pos ((window_eq ie x).mpr hw), if_pos hw, addEta_eq]
  · rw [if_neg (fun hh => hw ((window_eq ie x).mp hh)), if_neg hw]

theorem workHolds {NIS : Nat} (l : Fin NIS → List T) (work : Work T NIS NSE)
    (h : ∀ is, work is = (l is).foldl (fun (a : Arr 3 (Arr NSE T)) x ie => push_in_sector_eta x (a ie)
      (reg 10 (ETA_MIN ie)) (reg 10 (ETA_MAX ie)) (reg 10 (ETA_SHIFT ie))) (fun _ _ => RegObj.clear)) (is : Fin NIS)
    (ie : Fin 3) : Holds (work is ie) (slice NSE ie (l is)) := by
  have key : ∀ (l : List T) (a : Arr 3 (Arr NSE T)), (l.foldl (fun (a : Arr 3 (Arr NSE T)) x ie => push_in_sector_eta x (a ie)
      (reg 10 (ETA_MIN ie)) (reg 10 (ETA_MAX ie)) (reg 10 (ETA_SHIFT ie))) a) ie =
      l.foldl (fun (a : Arr NSE T) x => push_in_sector_eta x a (reg 10 (ETA_MIN ie)) (reg 10 (ETA_MAX ie))
      (reg 10 (ETA_SHIFT ie))) (a ie) := by
    intro l
    induction l with
    | nil => intro a; rfl
    | cons x l ih => intro a; rw [List.foldl_cons, List.foldl_cons, ih]
  rw [h is, key]
  exact slice_holds ie _

omit [LawfulReg T] in
theorem sectors_eq (ip : Fin 6) : IN_SECTOR_OF_REGION ip =
    (⟨2 * ip.val, by omega⟩, ⟨2 * ip.val + 1, by omega⟩, ⟨(2 * ip.val + 2) % 12, by omega⟩) := by
  revert ip; decide

theorem merged_region (ie : Fin 3) (ip : Fin 6) (arr : Fin 12 → List T) {r : Arr NREG T}
    (h : Holds r (merged (slice NSE ie (arr (IN_SECTOR_OF_REGION ip).1)) (slice NSE ie (arr (IN_SECTOR_OF_REGION ip).2.1))
      (slice NSE ie (arr (IN_SECTOR_OF_REGION ip).2.2)) (reg 10 (PHI_SHIFT 0)).toInt (reg 10 (PHI_SHIFT 1)).toInt
      (reg 10 (PHI_SHIFT 2)).toInt)) :
    Holds r (region NREG NSE ie ip arr) := by
  rw [sectors_eq] at h
  rw [show (reg 10 (PHI_SHIFT 0)).toInt = -120 by decide, show (reg 10 (PHI_SHIFT 1)).toInt = 0 by decide,
    show (reg 10 (PHI_SHIFT 2)).toInt = 120 by decide] at h
  unfold region candidates best
  rw [holds_take, List.filter_eq_self.mpr]
  · exact h
  · intro x hx
    apply decide_eq_true
    rcases List.mem_append.mp hx with hx | hx
    · rcases List.mem_append.mp hx with hx | hx
      · exact ((good_best NSE _).map (fun x => ptOf_phiMove (-120) x)).pos x hx
      · exact ((good_best NSE _).map (fun x => ptOf_phiMove 0 x)).pos x hx
    · exact ((good_best NSE _).map (fun x => ptOf_phiMove 120 x)).pos x hx

/-- The firmware regionizer. -/
theorem regionize_ok (NSEC NSE : Nat) (hN : NSE ≤ NREG) (mem : Arr N_OUT_REGIONS (Arr NREG T))
    (fib : Arr N_IN_SECTORS (List T)) (hlen : ∀ is, NSEC ≤ (fib is).length) :
    ∃ r, regionize NSEC NSE mem fib = .ok (fun is => (fib is).drop NSEC, r) ∧
      ∀ ir, Holds (r ir) (region NREG NSE (regionEta ir) (regionPhi ir) (fun is => (fib is).take NSEC)) := by
  obtain ⟨s, e1, e2, e3⟩ := deserG_ok (fun (is : Fin N_IN_SECTORS) (_ : Fin 1) => is)
    (fun (_ : Fin N_IN_SECTORS) x (a : Arr 3 (Arr NSE T)) ie => push_in_sector_eta x (a ie)
      (reg 10 (ETA_MIN ie)) (reg 10 (ETA_MAX ie)) (reg 10 (ETA_SHIFT ie))) fib (fun _ _ _ => RegObj.clear)
    (fun a b c d h => ⟨h, Subsingleton.elim _ _⟩) NSEC (fun is _ => hlen is)
  have hw := workHolds (fun is => (fib is).take NSEC) s.2 (fun is => by rw [e3 is, interleave_one _ _ (hlen is)])
  have hb : ∀ ir : Fin N_OUT_REGIONS, ∃ r, merge_smart (mem ir) (s.2 (IN_SECTOR_OF_REGION (regionPhi ir)).1 (regionEta ir))
      (reg 10 (PHI_SHIFT 0)) (s.2 (IN_SECTOR_OF_REGION (regionPhi ir)).2.1 (regionEta ir)) (reg 10 (PHI_SHIFT 1))
      (s.2 (IN_SECTOR_OF_REGION (regionPhi ir)).2.2 (regionEta ir)) (reg 10 (PHI_SHIFT 2)) = .ok r ∧
      Holds r (region NREG NSE (regionEta ir) (regionPhi ir) (fun is => (fib is).take NSEC)) := by
    intro ir
    obtain ⟨r, h1, h2⟩ := merge_smart_ok hN (mem ir) (hw (IN_SECTOR_OF_REGION (regionPhi ir)).1 (regionEta ir))
      (hw (IN_SECTOR_OF_REGION (regionPhi ir)).2.1 (regionEta ir)) (hw (IN_SECTOR_OF_REGION (regionPhi ir)).2.2 (regionEta ir))
      (good_best NSE _) (good_best NSE _) (good_best NSE _) (best_length NSE _) (best_length NSE _) (best_length NSE _)
      (reg 10 (PHI_SHIFT 0)) (reg 10 (PHI_SHIFT 1)) (reg 10 (PHI_SHIFT 2))
    exact ⟨r, h1, merged_region _ _ (fun is => (fib is).take NSEC) h2⟩
  choose r hr1 hr2 using hb
  refine ⟨r, ?_, hr2⟩
  unfold regionize deserialize_ptsort_eta
  have e0 := deserG_one NSEC (fun (_ : Fin N_IN_SECTORS) x (a : Arr 3 (Arr NSE T)) ie => push_in_sector_eta x (a ie)
      (reg 10 (ETA_MIN ie)) (reg 10 (ETA_MAX ie)) (reg 10 (ETA_SHIFT ie))) fib (fun _ _ _ => RegObj.clear)
  rw [e0, e1, Run.ok_bind]
  simp only []
  rw [buildM_eq_ok.mpr hr1, Run.ok_bind]
  congr 2
  funext is
  exact e2 is 0

omit [LawfulReg T] in
theorem regionize_short (NSEC NSE : Nat) (mem : Arr N_OUT_REGIONS (Arr NREG T))
    (fib : Arr N_IN_SECTORS (List T)) (hlen : ¬ ∀ is, NSEC ≤ (fib is).length) :
    regionize NSEC NSE mem fib = .error .emptyStream := by
  unfold regionize deserialize_ptsort_eta
  have e0 := deserG_one NSEC (fun (_ : Fin N_IN_SECTORS) x (a : Arr 3 (Arr NSE T)) ie => push_in_sector_eta x (a ie)
      (reg 10 (ETA_MIN ie)) (reg 10 (ETA_MAX ie)) (reg 10 (ETA_SHIFT ie))) fib (fun _ _ _ => RegObj.clear)
  rw [e0, deserG_short (fun (is : Fin N_IN_SECTORS) (_ : Fin 1) => is) _ _ _
    (fun a b c d h => ⟨h, Subsingleton.elim _ _⟩) NSEC (fun h => hlen (fun is => h is 0))]
  rfl

/-- The reference regionizer. -/
theorem regionize_ref_ok {NFPS : Nat} (NSEC NSE NREG : Nat) (fib : Arr (NFPS * N_IN_SECTORS) (List T))
    (hlen : ∀ k, NSEC / NFPS ≤ (fib k).length) :
    ∃ r, regionize_ref NSEC NSE NREG fib = .ok (fun k => (fib k).drop (NSEC / NFPS), r) ∧
      ∀ ir, Holds (r ir) (region NREG NSE (regionEta ir) (regionPhi ir)
        (fun is => interleave NFPS (NSEC / NFPS) (fun f => fib (fiberIdx is f)))) := by
  obtain ⟨s, e1, e2, e3⟩ := deserG_ok (fiberIdx (NFPS := NFPS))
    (fun (_ : Fin N_IN_SECTORS) x (a : Arr 3 (Arr NSE T)) ie => push_in_sector_eta x (a ie)
      (reg 10 (ETA_MIN ie)) (reg 10 (ETA_MAX ie)) (reg 10 (ETA_SHIFT ie))) fib (fun _ _ _ => RegObj.clear)
    fiberIdx_inj (NSEC / NFPS) (fun is f => hlen _)
  have hw := workHolds (fun is => interleave NFPS (NSEC / NFPS) (fun f => fib (fiberIdx is f))) s.2 e3
  have hb : ∀ ir : Fin N_OUT_REGIONS, ∃ r, merge_sectors_ref NREG (s.2 (IN_SECTOR_OF_REGION (regionPhi ir)).1 (regionEta ir))
      (reg 10 (PHI_SHIFT 0)) (s.2 (IN_SECTOR_OF_REGION (regionPhi ir)).2.1 (regionEta ir)) (reg 10 (PHI_SHIFT 1))
      (s.2 (IN_SECTOR_OF_REGION (regionPhi ir)).2.2 (regionEta ir)) (reg 10 (PHI_SHIFT 2)) = .ok r ∧
      Holds r (region NREG NSE (regionEta ir) (regionPhi ir)
        (fun is => interleave NFPS (NSEC / NFPS) (fun f => fib (fiberIdx is f)))) := by
    intro ir
    obtain ⟨r, h1, h2⟩ := merge_ref_ok (NREG := NREG) (hw (IN_SECTOR_OF_REGION (regionPhi ir)).1 (regionEta ir))
      (hw (IN_SECTOR_OF_REGION (regionPhi ir)).2.1 (regionEta ir)) (hw (IN_SECTOR_OF_REGION (regionPhi ir)).2.2 (regionEta ir))
      (good_best NSE _) (good_best NSE _) (good_best NSE _) (best_length NSE _) (best_length NSE _) (best_length NSE _)
      (reg 10 (PHI_SHIFT 0)) (reg 10 (PHI_SHIFT 1)) (reg 10 (PHI_SHIFT 2))
    exact ⟨r, h1, merged_region _ _ (fun is => interleave NFPS (NSEC / NFPS) (fun f => fib (fiberIdx is f))) h2⟩
  choose r hr1 hr2 using hb
  refine ⟨r, ?_, hr2⟩
  unfold regionize_ref
  rw [show deserialize_ref NSEC NSE fib = .ok s from e1, Run.ok_bind]
  simp only []
  rw [buildM_eq_ok.mpr hr1, Run.ok_bind]
  congr 2
  funext k
  obtain ⟨is, f, rfl⟩ := fiberIdx_surj k
  exact e2 is f

omit [LawfulReg T] in
theorem regionize_ref_short {NFPS : Nat} (NSEC NSE NREG : Nat) (fib : Arr (NFPS * N_IN_SECTORS) (List T))
    (hlen : ¬ ∀ k, NSEC / NFPS ≤ (fib k).length) :
    regionize_ref NSEC NSE NREG fib = .error .emptyStream := by
  unfold regionize_ref
  rw [show deserialize_ref NSEC NSE fib = .error .emptyStream from deserG_short (fiberIdx (NFPS := NFPS))
    (fun (_ : Fin N_IN_SECTORS) x (a : Arr 3 (Arr NSE T)) ie => push_in_sector_eta x (a ie)
      (reg 10 (ETA_MIN ie)) (reg 10 (ETA_MAX ie)) (reg 10 (ETA_SHIFT ie))) fib (fun _ _ _ => RegObj.clear) fiberIdx_inj
    (NSEC / NFPS) (fun h => hlen (fun k => by obtain ⟨is, f, rfl⟩ := fiberIdx_surj k; exact h is f))]
  rfl

omit [LawfulReg T] in
/-- The firmware regionizer with regions smaller than slices. -/
theorem regionize_oob (NSEC NSE : Nat) (hN : NREG < NSE) (mem : Arr N_OUT_REGIONS (Arr NREG T))
    (fib : Arr N_IN_SECTORS (List T)) (hlen : ∀ is, NSEC ≤ (fib is).length) :
    regionize NSEC NSE mem fib = .error .oob := by
  obtain ⟨s, e1, e2, e3⟩ := deserG_ok (fun (is : Fin N_IN_SECTORS) (_ : Fin 1) => is)
    (fun (_ : Fin N_IN_SECTORS) x (a : Arr 3 (Arr NSE T)) ie => push_in_sector_eta x (a ie)
      (reg 10 (ETA_MIN ie)) (reg 10 (ETA_MAX ie)) (reg 10 (ETA_SHIFT ie))) fib (fun _ _ _ => RegObj.clear)
    (fun a b c d h => ⟨h, Subsingleton.elim _ _⟩) NSEC (fun is _ => hlen is)
  unfold regionize deserialize_ptsort_eta
  have e0 := deserG_one NSEC (fun (_ : Fin N_IN_SECTORS) x (a : Arr 3 (Arr NSE T)) ie => push_in_sector_eta x (a ie)
      (reg 10 (ETA_MIN ie)) (reg 10 (ETA_MAX ie)) (reg 10 (ETA_SHIFT ie))) fib (fun _ _ _ => RegObj.clear)
  rw [e0, e1, Run.ok_bind]
  simp only [merge_smart_oob hN]
  rfl

end Verif
