import Verif.Proofs.OneMoreLink
/-! # One more object on a link: property C95 -/
namespace Verif
open Spec
variable {T : Type} [RegObj T] [LawfulReg T] {NREG NFPS : Nat}

/-- What one more object of sector `s` does to the regions: those it does not belong to stay as they are; in each of the others
it is put in its place and the last of its slice, or of the region, is dropped, or nothing changes. -/
def Joins (s : Fin 12) (o : T) (old new : Arr N_OUT_REGIONS (Arr NREG T)) : Prop :=
  ∀ ir : Fin 18, (¬ (inSlice (regionEta ir) o = true ∧ SectorOf (regionPhi ir) s) → new ir = old ir) ∧
    (new ir = old ir ∨ ∃ i j, PutAt (place (regionEta ir) (regionPhi ir) s o) (old ir) (new ir) i j)

theorem joins_of {NSE : Nat} {arr arr' : Fin 12 → List T} {s : Fin 12} {o : T} (H : OneMoreWord arr arr' s o)
    {old new : Arr N_OUT_REGIONS (Arr NREG T)} (h1 : ∀ ir, List.ofFn (old ir) = pad NREG (region NREG NSE (regionEta ir) (regionPhi ir) arr))
    (h2 : ∀ ir, List.ofFn (new ir) = pad NREG (region NREG NSE (regionEta ir) (regionPhi ir) arr')) : Joins s o old new := by
  intro ir
  have hno : ¬ (inSlice (regionEta ir) o = true ∧ SectorOf (regionPhi ir) s) → new ir = old ir := fun h => by
    refine List.ofFn_injective ?_
    rw [h1, h2, region_same H h]
  refine ⟨hno, ?_⟩
  by_cases h : inSlice (regionEta ir) o = true ∧ SectorOf (regionPhi ir) s
  · exact pad_enters (region_enters H h.1 h.2 NREG NSE) (best_length _ _) (best_length _ _) (by rw [ptOf_place]; exact H.pos) (h1 ir) (h2 ir)
  · exact Or.inl (hno h)

omit [LawfulReg T] in
theorem joins_no_less {s : Fin 12} {o : T} {old new : Arr N_OUT_REGIONS (Arr NREG T)} (H : Joins s o old new) (ir : Fin 18)
    (hsort : ∀ i j : Fin NREG, i < j → ptOf (old ir j) ≤ ptOf (old ir i)) (hsort' : ∀ i j : Fin NREG, i < j → ptOf (new ir j) ≤ ptOf (new ir i))
    (k : Fin NREG) : ptOf (old ir k) ≤ ptOf (new ir k) := by
  rcases (H ir).2 with e | ⟨i, j, P⟩
  · rw [e]
  · rcases Nat.lt_or_ge k.val i.val with h | h
    · rw [P.before k h]
    · rcases Nat.lt_or_ge j.val k.val with h2 | h2
      · rw [P.after k h2]
      · rcases Nat.lt_or_ge k.val j.val with h3 | h3
        · have hk : k.val + 1 < NREG := by have := j.isLt; omega
          rw [← P.moved k ⟨k.val + 1, hk⟩ h h3 rfl]
          exact hsort' k ⟨k.val + 1, hk⟩ (by show k.val < k.val + 1; omega)
        · have e : k = j := Fin.ext (by omega)
          subst e
          rcases Nat.lt_or_ge i.val k.val with h4 | h4
          · obtain ⟨k', hk'⟩ : ∃ k', k.val = k' + 1 := ⟨k.val - 1, by omega⟩
            have hb : k' < NREG := by have := k.isLt; omega
            rw [P.moved ⟨k', hb⟩ k (by show i.val ≤ k'; omega) (by show k' < k.val; omega) hk']
            exact hsort ⟨k', hb⟩ k (by show k' < k.val; omega)
          · have e : k = i := Fin.ext (by omega)
            have := P.dropped
            rw [← P.at_, ← e] at this
            exact this

/-- The region lists are in order of pt. -/
theorem content_sorted {NSE : Nat} {arr : Fin 12 → List T} {ie : Fin 3} {ip : Fin 6} {a : Arr NREG T}
    (h : List.ofFn a = pad NREG (region NREG NSE ie ip arr)) (i j : Fin NREG) (hij : i < j) : ptOf (a j) ≤ ptOf (a i) := by
  have hs := pad_sorted (N := NREG) (good_best NREG (candidates NSE ie ip arr))
  unfold region at h
  rw [← h, List.pairwise_ofFn] at hs
  exact hs hij

/-- **C95.** Reference: a word of a fibre that was null carries an object; any fibres, any sizes. -/
theorem C95_one_more_word (NSEC NSE : Nat) {m : Nat} {fib fib' rest : Arr (NFPS * N_IN_SECTORS) (List T)} {s : Fin 12} {f : Fin NFPS} {o : T}
    (H : OneMoreOnFibre fib fib' (fiberIdx s f) m o) (hm : m < NSEC / NFPS) (regions : Arr N_OUT_REGIONS (Arr NREG T))
    (hrun : regionize_ref NSEC NSE NREG fib = .ok (rest, regions)) :
    ∃ regions', regionize_ref NSEC NSE NREG fib' = .ok (rest, regions') ∧ Joins s o regions regions' ∧
      ∀ ir k, ptOf (regions ir k) ≤ ptOf (regions' ir k) := by
  have hl : ∀ k, (fib' k).length = (fib k).length := fun k => by
    by_cases hk : k = fiberIdx s f
    · rw [hk, H.word, List.length_set]
    · rw [H.others k hk]
  have hlen : ∀ k, NSEC / NFPS ≤ (fib k).length := by
    by_contra hc
    push Not at hc
    rw [(C37_ref_consumes NSEC NSE NREG fib).2 hc] at hrun
    cases hrun
  obtain ⟨r, h⟩ := (C37_ref_consumes NSEC NSE NREG fib').1 fun k => by rw [hl]; exact hlen k
  obtain ⟨r0, h0⟩ := (C37_ref_consumes NSEC NSE NREG fib).1 hlen
  have hrest : rest = fun k => (fib k).drop (NSEC / NFPS) := by
    rw [h0] at hrun
    cases hrun
    rfl
  have hr : (fun k => (fib' k).drop (NSEC / NFPS)) = rest := by
    rw [hrest]
    funext k
    by_cases hk : k = fiberIdx s f
    · rw [hk, H.word, List.drop_set_of_lt (by omega)]
    · rw [H.others k hk]
  rw [hr] at h
  have c := fun ir => C33_ref_content NSEC NSE NREG fib rest regions hrun ir
  have c' := fun ir => C33_ref_content NSEC NSE NREG fib' _ r h ir
  have J := joins_of (arrivals_one H hm) c c'
  exact ⟨r, h, J, fun ir => joins_no_less J ir (content_sorted (c ir)) (content_sorted (c' ir))⟩

/-- **C95.** Firmware, one fibre per sector, any old memory. -/
theorem C95_one_more_word_fw (NSEC NSE : Nat) (hN : NSE ≤ NREG) (mem mem' : Arr N_OUT_REGIONS (Arr NREG T)) {m : Nat}
    {fib fib' rest : Arr N_IN_SECTORS (List T)} {s : Fin 12} {o : T}
    (H : OneMoreOnFibre fib fib' s m o) (hm : m < NSEC) (regions : Arr N_OUT_REGIONS (Arr NREG T))
    (hrun : regionize NSEC NSE mem fib = .ok (rest, regions)) :
    ∃ regions', regionize NSEC NSE mem' fib' = .ok (rest, regions') ∧ Joins s o regions regions' ∧
      ∀ ir k, ptOf (regions ir k) ≤ ptOf (regions' ir k) := by
  have hl : ∀ k, (fib' k).length = (fib k).length := fun k => by
    by_cases hk : k = s
    · rw [hk, H.word, List.length_set]
    · rw [H.others k hk]
  have hlen : ∀ k, NSEC ≤ (fib k).length := by
    by_contra hc
    push Not at hc
    rw [(C37_fw_consumes NSEC NSE hN mem fib).2 hc] at hrun
    cases hrun
  obtain ⟨r, h⟩ := (C37_fw_consumes NSEC NSE hN mem' fib').1 fun k => by rw [hl]; exact hlen k
  obtain ⟨r0, h0⟩ := (C37_fw_consumes NSEC NSE hN mem fib).1 hlen
  have hrest : rest = fun k => (fib k).drop NSEC := by
    rw [h0] at hrun
    cases hrun
    rfl
  have hr : (fun k => (fib' k).drop NSEC) = rest := by
    rw [hrest]
    funext k
    by_cases hk : k = s
    · rw [hk, H.word, List.drop_set_of_lt (by omega)]
    · rw [H.others k hk]
  rw [hr] at h
  have c := fun ir => C33_fw_content NSEC NSE hN mem fib rest regions hrun ir
  have c' := fun ir => C33_fw_content NSEC NSE hN mem' fib' _ r h ir
  have J := joins_of (take_one H hm) c c'
  exact ⟨r, h, J, fun ir => joins_no_less J ir (content_sorted (c ir)) (content_sorted (c' ir))⟩

omit [LawfulReg T] in
theorem reached_le_four (o : T) (s : Fin 12) :
    ((List.finRange 18).filter fun ir => inSlice (regionEta ir) o && decide (SectorOf (regionPhi ir) s)).length ≤ 4 := by
  have key : ∀ b0 b1 b2 : Bool, ¬ (b0 = true ∧ b2 = true) → ∀ s : Fin 12,
      ((List.finRange 18).filter fun ir => (if regionEta ir = 0 then b0 else if regionEta ir = 1 then b1 else b2) &&
        decide (SectorOf (regionPhi ir) s)).length ≤ 4 := by decide +kernel
  have h02 : ¬ (inSlice 0 o = true ∧ inSlice 2 o = true) := by
    rintro ⟨h0, h2⟩
    have a := (of_decide_eq_true h0).2
    have b := (of_decide_eq_true h2).1
    have : etaHi 0 < etaLo 2 := by decide
    omega
  have e : (fun ir : Fin 18 => inSlice (regionEta ir) o && decide (SectorOf (regionPhi ir) s)) =
      fun ir => (if regionEta ir = 0 then inSlice 0 o else if regionEta ir = 1 then inSlice 1 o else inSlice 2 o) &&
        decide (SectorOf (regionPhi ir) s) := by
    funext ir
    congr 1
    generalize regionEta ir = ie
    revert ie
    intro ie
    match ie with
    | 0 => rfl
    | 1 => rfl
    | 2 => rfl
  rw [e]
  exact key _ _ _ h02 s

omit [LawfulReg T] in
/-- **C95.** At most four of the eighteen regions change. -/
theorem C95_at_most_four {s : Fin 12} {o : T} {old new : Arr N_OUT_REGIONS (Arr NREG T)} (H : Joins s o old new) :
    ∃ l : List (Fin 18), l.length ≤ 4 ∧ ∀ ir, new ir ≠ old ir → ir ∈ l := by
  refine ⟨_, reached_le_four o s, fun ir h => List.mem_filter.mpr ⟨List.mem_finRange _, ?_⟩⟩
  by_contra hc
  refine h ((H ir).1 fun hh => hc ?_)
  rw [hh.1, decide_eq_true hh.2]
  rfl

/-- **C95**, non-vacuity: sector 1 sends two objects and a null, with room for two in a slice; an object instead of the null, of middle pt,
takes its place in region 6 and the last is dropped. -/
def linkWords (x : HadCaloObj) : Arr N_IN_SECTORS (List HadCaloObj) := fun s =>
  if s = 1 then [⟨9, 0, 0, 0, false⟩, ⟨20, 10, 0, 0, false⟩, x] else List.replicate 3 ⟨0, 0, 0, 0, false⟩

example : OneMoreOnFibre (linkWords ⟨0, 0, 0, 0, false⟩) (linkWords ⟨15, 5, 7, 0, false⟩) 1 2 ⟨15, 5, 7, 0, false⟩ ∧
    (regionize 3 2 (fun (_ : Fin 18) (_ : Fin 3) => HadCaloObj.clear) (linkWords ⟨0, 0, 0, 0, false⟩)).map
      (fun o => List.ofFn fun i => (o.2 6 i).hwPt.toInt) = .ok [20, 9, 0] ∧
    (regionize 3 2 (fun (_ : Fin 18) (_ : Fin 3) => HadCaloObj.clear) (linkWords ⟨15, 5, 7, 0, false⟩)).map
      (fun o => List.ofFn fun i => (o.2 6 i).hwPt.toInt) = .ok [20, 15, 0] := by
  refine ⟨⟨fun k hk => ?_, ⟨⟨0, 0, 0, 0, false⟩, rfl, by decide⟩, rfl, by decide⟩, by decide +kernel, by decide +kernel⟩
  unfold linkWords
  rw [if_neg hk, if_neg hk]

end Verif
