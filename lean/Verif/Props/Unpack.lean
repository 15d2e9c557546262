import Verif.Props.Encoding
import Verif.Spec.Receive
/-!
# Unpacking words that nobody packed: properties C17, C18, C20
-/
namespace Verif
open Spec

variable {NT NC NE NM NS N : Nat}

/-! ### The fields of one word -/

theorem ext_toNat (w : Word) (hi lo : Nat) : (w.extractLsb hi lo).toNat = w.toNat / 2 ^ lo % 2 ^ (hi - lo + 1) := by
  rw [BitVec.extractLsb_toNat, Nat.shiftRight_eq_div_pow]

theorem bit_toNat (w : Word) (k : Nat) : (w.getLsbD k).toNat = w.toNat / 2 ^ k % 2 := by
  rw [BitVec.getLsbD, Nat.testBit_eq_decide_div_mod_eq]
  rcases Nat.mod_two_eq_zero_or_one (w.toNat / 2 ^ k) with h | h <;> rw [h] <;> rfl

theorem read_ptErr (w : Word) : ptErrWord (w.extractLsb 15 0) (w.extractLsb 31 16) = w.toNat % 2 ^ 32 := by
  have := w.isLt
  unfold ptErrWord
  rw [ext_toNat, ext_toNat]
  omega

theorem read_ptId (w : Word) : ptIdWord (w.extractLsb 15 0) (w.extractLsb 18 16) = w.toNat % 2 ^ 19 := by
  unfold ptIdWord
  rw [ext_toNat, ext_toNat]
  omega

theorem read_etaPhi (w : Word) : etaPhiWord (w.extractLsb 9 0) (w.extractLsb 19 10) = w.toNat % 2 ^ 20 := by
  unfold etaPhiWord
  rw [ext_toNat, ext_toNat]
  omega

theorem read_isEM (w : Word) :
    etaPhiWord (w.extractLsb 9 0) (w.extractLsb 19 10) + 2 ^ 20 * (w.getLsbD 20).toNat = w.toNat % 2 ^ 21 := by
  rw [read_etaPhi, bit_toNat]
  omega

theorem read_z0 (w : Word) :
    etaPhiWord (w.extractLsb 9 0) (w.extractLsb 19 10) + 2 ^ 20 * (w.extractLsb 29 20).toNat = w.toNat % 2 ^ 30 := by
  rw [read_etaPhi, ext_toNat]
  omega

theorem read_quality (w : Word) :
    etaPhiWord (w.extractLsb 9 0) (w.extractLsb 19 10) + 2 ^ 20 * (w.extractLsb 29 20).toNat + 2 ^ 30 * (w.getLsbD 30).toNat =
      w.toNat % 2 ^ 31 := by
  rw [read_z0, bit_toNat]
  omega

/-! ### One kind of objects -/

/-- A loop that reads two words per object. -/
def read2 {α : Type} (n OFFS : Nat) (f : Fin n → Word → Word → α) (data : Arr N Word) : Run (Arr n α) :=
  buildM fun i => do
    let w0 ← data.read (2 * i.val + 0 + OFFS)
    let w1 ← data.read (2 * i.val + 1 + OFFS)
    .ok (f i w0 w1)

theorem buildM_faults {α : Type} {X : Fault} {n : Nat} {f : Fin n → Run α} (h : ∀ i e, f i = .error e → e = X) {e : Fault}
    (he : buildM f = .error e) : e = X := by
  induction n generalizing e with
  | zero => cases he
  | succ n ih =>
    rw [buildM] at he
    exact Run.bind_fault (X := X) (fun e => h 0 e) (fun a e => Run.bind_fault (X := X) (fun e' he' => by
      clear he; exact ih (fun i e => h i.succ e) he') (fun _ _ h => by cases h)) he

theorem read2_fault {α : Type} {n OFFS : Nat} {f : Fin n → Word → Word → α} {data : Arr N Word} {e : Fault}
    (h : read2 n OFFS f data = .error e) : e = .oob :=
  buildM_faults (fun _ _ => Run.bind_fault (fun _ => Arr.read_fault) fun _ _ => Run.bind_fault (fun _ => Arr.read_fault) fun _ _ h => by cases h) h

theorem Arr.read_lt {n : Nat} {α : Type} {a : Arr n α} {k : Nat} {x : α} (h : a.read k = .ok x) : ∃ hk : k < n, a ⟨k, hk⟩ = x := by
  unfold Arr.read at h
  by_cases hk : k < n
  · rw [dif_pos hk] at h; cases h; exact ⟨hk, rfl⟩
  · rw [dif_neg hk] at h; cases h

theorem read2_at {α : Type} {n OFFS : Nat} {f : Fin n → Word → Word → α} {data : Arr N Word} {a : Arr n α}
    (h : read2 n OFFS f data = .ok a) (i : Fin n) :
    ∃ (h0 : OFFS + 2 * i.val < N) (h1 : OFFS + 2 * i.val + 1 < N), a i = f i (data ⟨OFFS + 2 * i.val, h0⟩) (data ⟨OFFS + 2 * i.val + 1, h1⟩) := by
  have hi := buildM_exists_imp h i
  obtain ⟨w0, h0, hi⟩ := Run.bind_ok hi
  obtain ⟨w1, h1, hi⟩ := Run.bind_ok hi
  obtain ⟨k0, e0⟩ := Arr.read_lt h0
  obtain ⟨k1, e1⟩ := Arr.read_lt h1
  injection hi with hi
  subst e0
  subst e1
  refine ⟨by omega, by omega, ?_⟩
  rw [← hi]
  congr 2 <;> exact Fin.ext (by dsimp only; omega)

theorem read2_fits {α : Type} {n OFFS : Nat} {f : Fin n → Word → Word → α} {data : Arr N Word} {a : Arr n α}
    (h : read2 n OFFS f data = .ok a) : n = 0 ∨ 2 * n + OFFS ≤ N := by
  cases n with
  | zero => exact Or.inl rfl
  | succ m =>
    obtain ⟨_, h1, _⟩ := read2_at h (Fin.last m)
    rw [Fin.val_last] at h1
    omega

theorem read2_exists {α : Type} {n OFFS : Nat} {f : Fin n → Word → Word → α} {data : Arr N Word} (h : 2 * n + OFFS ≤ N) :
    ∃ a, read2 n OFFS f data = .ok a := by
  apply buildM_exists
  intro i
  rw [Arr.read_ok _ (by omega), Run.ok_bind, Arr.read_ok _ (by omega), Run.ok_bind]
  exact ⟨_, rfl⟩

/-! ### The inputs -/

/-- **C20** (input side). What becomes of unpacking: as for packing, and it depends on the numbers of objects only. -/
theorem C20_unpack_in_outcome (NT NC NE NM : Nat) (data : Arr N Word) :
    ((∃ inp : PFInputs NT NC NE NM, mp7wrapped_unpack_in data = .ok inp) ↔ 2 * NE + 2 * NT + 2 * NC + 2 * NM ≤ min N 144) ∧
    ((mp7wrapped_unpack_in data : Run (PFInputs NT NC NE NM)) = .error .assertFail ↔ 144 < 2 * NE + 2 * NT + 2 * NC + 2 * NM) ∧
    ((mp7wrapped_unpack_in data : Run (PFInputs NT NC NE NM)) = .error .oob ↔
      2 * NE + 2 * NT + 2 * NC + 2 * NM ≤ 144 ∧ N < 2 * NE + 2 * NT + 2 * NC + 2 * NM) := by
  have e : MP7_NCHANN = 144 := rfl
  by_cases h : 2 * NE + 2 * NT + 2 * NC + 2 * NM ≤ MP7_NCHANN
  · have hu : (mp7wrapped_unpack_in data : Run (PFInputs NT NC NE NM)) = (do
        let emcalo ← mp7_unpack_em 0 data
        let hadcalo ← mp7_unpack_had (2 * NE) data
        let track ← mp7_unpack_tk (2 * NC + 2 * NE) data
        let mu ← mp7_unpack_mu (2 * NT + 2 * NC + 2 * NE) data
        .ok { emcalo := emcalo, hadcalo := hadcalo, track := track, mu := mu }) := by
      unfold mp7wrapped_unpack_in
      rw [cassert_true (decide_eq_true h), Run.ok_bind]
    by_cases hn : 2 * NE + 2 * NT + 2 * NC + 2 * NM ≤ N
    · obtain ⟨em, h1⟩ : ∃ a, mp7_unpack_em (NE := NE) 0 data = .ok a := read2_exists (by omega)
      obtain ⟨had, h2⟩ : ∃ a, mp7_unpack_had (NC := NC) (2 * NE) data = .ok a := read2_exists (by omega)
      obtain ⟨tk, h3⟩ : ∃ a, mp7_unpack_tk (NT := NT) (2 * NC + 2 * NE) data = .ok a := read2_exists (by omega)
      obtain ⟨mu, h4⟩ : ∃ a, mp7_unpack_mu (NM := NM) (2 * NT + 2 * NC + 2 * NE) data = .ok a := read2_exists (by omega)
      rw [hu, h1, Run.ok_bind, h2, Run.ok_bind, h3, Run.ok_bind, h4, Run.ok_bind]
      refine ⟨⟨fun _ => by omega, fun _ => ⟨_, rfl⟩⟩, ⟨fun h => (by cases h), fun h => by omega⟩, ⟨fun h => (by cases h), fun h => by omega⟩⟩
    · have ho : (mp7wrapped_unpack_in data : Run (PFInputs NT NC NE NM)) = .error .oob := by
        cases hr : (mp7wrapped_unpack_in data : Run (PFInputs NT NC NE NM)) with
        | error e =>
          rw [hu] at hr
          rw [Run.bind_fault (fun _ => read2_fault) (fun _ _ => Run.bind_fault (fun _ => read2_fault) fun _ _ =>
            Run.bind_fault (fun _ => read2_fault) fun _ _ => Run.bind_fault (fun _ => read2_fault) fun _ _ h => by cases h) hr]
        | ok d =>
          exfalso
          rw [hu] at hr
          obtain ⟨d1, h1, hr⟩ := Run.bind_ok hr
          obtain ⟨d2, h2, hr⟩ := Run.bind_ok hr
          obtain ⟨d3, h3, hr⟩ := Run.bind_ok hr
          obtain ⟨d4, h4, hr⟩ := Run.bind_ok hr
          have f1 := read2_fits h1
          have f2 := read2_fits h2
          have f3 := read2_fits h3
          have f4 := read2_fits h4
          omega
      rw [ho]
      refine ⟨⟨fun ⟨d, h⟩ => (by cases h), fun _ => by omega⟩, ⟨fun h => (by cases h), fun h => by omega⟩, ⟨fun _ => by omega, fun _ => rfl⟩⟩
  · have ha : (mp7wrapped_unpack_in data : Run (PFInputs NT NC NE NM)) = .error .assertFail := by
      unfold mp7wrapped_unpack_in
      rw [cassert_false (decide_eq_false h)]
      rfl
    rw [ha]
    refine ⟨⟨fun ⟨d, h⟩ => (by cases h), fun _ => by omega⟩, ⟨fun _ => by omega, fun _ => rfl⟩, ⟨fun h => (by cases h), fun h => by omega⟩⟩

/-- **C17.** Whatever the words on the links are, the objects made of them are those of the layout: the bits that the layout
does not use are ignored, all others count. -/
theorem C17_unpack_in_any (data : Arr N Word) (inp : PFInputs NT NC NE NM) (h : mp7wrapped_unpack_in data = .ok inp) :
    (∀ i : Fin NE, ReadAt data (2 * i) 32 20 (emWords (inp.emcalo i))) ∧
    (∀ i : Fin NC, ReadAt data (2 * NE + 2 * i) 32 21 (hadWords (inp.hadcalo i))) ∧
    (∀ i : Fin NT, ReadAt data (2 * NE + 2 * NC + 2 * i) 32 31 (tkWords (inp.track i))) ∧
    (∀ i : Fin NM, ReadAt data (2 * NE + 2 * NC + 2 * NT + 2 * i) 32 20 (muWords (inp.mu i))) := by
  obtain ⟨_, _, h⟩ := Run.bind_ok h
  obtain ⟨em, h1, h⟩ := Run.bind_ok h
  obtain ⟨had, h2, h⟩ := Run.bind_ok h
  obtain ⟨tk, h3, h⟩ := Run.bind_ok h
  obtain ⟨mu, h4, h⟩ := Run.bind_ok h
  cases h
  refine ⟨fun i => ?_, fun i => ?_, fun i => ?_, fun i => ?_⟩
  · obtain ⟨k0, k1, e⟩ := read2_at h1 i
    refine ReadAt.of_eq (k := 0 + 2 * i.val) (by omega) k0 k1 ?_
    dsimp only
    rw [e]
    exact Prod.ext (read_ptErr _) (read_etaPhi _)
  · obtain ⟨k0, k1, e⟩ := read2_at h2 i
    refine ReadAt.of_eq (k := 2 * NE + 2 * i.val) (by omega) k0 k1 ?_
    dsimp only
    rw [e]
    exact Prod.ext (read_ptErr _) (read_isEM _)
  · obtain ⟨k0, k1, e⟩ := read2_at h3 i
    refine ReadAt.of_eq (k := 2 * NC + 2 * NE + 2 * i.val) (by omega) k0 k1 ?_
    dsimp only
    rw [e]
    exact Prod.ext (read_ptErr _) (read_quality _)
  · obtain ⟨k0, k1, e⟩ := read2_at h4 i
    refine ReadAt.of_eq (k := 2 * NT + 2 * NC + 2 * NE + 2 * i.val) (by omega) k0 k1 ?_
    dsimp only
    rw [e]
    exact Prod.ext (read_ptErr _) (read_etaPhi _)

/-! ### The outputs -/

/-- **C20** (output side). As `C20_unpack_in_outcome`. -/
theorem C20_unpack_out_outcome (old : PFOutputs NT NE NS NM) (data : Arr N Word) :
    ((∃ out, mp7wrapped_unpack_out old data = .ok out) ↔ 2 * NT + 2 * NE + 2 * NS + 2 * NM ≤ min N 144) ∧
    (mp7wrapped_unpack_out old data = .error .assertFail ↔ 144 < 2 * NT + 2 * NE + 2 * NS + 2 * NM) ∧
    (mp7wrapped_unpack_out old data = .error .oob ↔
      2 * NT + 2 * NE + 2 * NS + 2 * NM ≤ 144 ∧ N < 2 * NT + 2 * NE + 2 * NS + 2 * NM) := by
  have e : MP7_NCHANN = 144 := rfl
  by_cases h : 2 * NT + 2 * NE + 2 * NS + 2 * NM ≤ MP7_NCHANN
  · have hu : mp7wrapped_unpack_out old data = (do
        let outch ← unpack_charged 0 data
        let outpho ← unpack_neutral (2 * NT) old.outpho data
        let outne ← unpack_neutral (2 * NE + 2 * NT) old.outne data
        let outmu ← unpack_charged (2 * NS + 2 * NE + 2 * NT) data
        .ok { outch := outch, outpho := outpho, outne := outne, outmu := outmu }) := by
      unfold mp7wrapped_unpack_out
      rw [cassert_true (decide_eq_true h), Run.ok_bind]
    by_cases hn : 2 * NT + 2 * NE + 2 * NS + 2 * NM ≤ N
    · obtain ⟨ch, h1⟩ : ∃ a, unpack_charged (n := NT) 0 data = .ok a := read2_exists (by omega)
      obtain ⟨pho, h2⟩ : ∃ a, unpack_neutral (2 * NT) old.outpho data = .ok a := read2_exists (by omega)
      obtain ⟨ne, h3⟩ : ∃ a, unpack_neutral (2 * NE + 2 * NT) old.outne data = .ok a := read2_exists (by omega)
      obtain ⟨mu, h4⟩ : ∃ a, unpack_charged (n := NM) (2 * NS + 2 * NE + 2 * NT) data = .ok a := read2_exists (by omega)
      rw [hu, h1, Run.ok_bind, h2, Run.ok_bind, h3, Run.ok_bind, h4, Run.ok_bind]
      refine ⟨⟨fun _ => by omega, fun _ => ⟨_, rfl⟩⟩, ⟨fun h => (by cases h), fun h => by omega⟩, ⟨fun h => (by cases h), fun h => by omega⟩⟩
    · have ho : mp7wrapped_unpack_out old data = .error .oob := by
        cases hr : mp7wrapped_unpack_out old data with
        | error e =>
          rw [hu] at hr
          rw [Run.bind_fault (fun _ => read2_fault) (fun _ _ => Run.bind_fault (fun _ => read2_fault) fun _ _ =>
            Run.bind_fault (fun _ => read2_fault) fun _ _ => Run.bind_fault (fun _ => read2_fault) fun _ _ h => by cases h) hr]
        | ok d =>
          exfalso
          rw [hu] at hr
          obtain ⟨d1, h1, hr⟩ := Run.bind_ok hr
          obtain ⟨d2, h2, hr⟩ := Run.bind_ok hr
          obtain ⟨d3, h3, hr⟩ := Run.bind_ok hr
          obtain ⟨d4, h4, hr⟩ := Run.bind_ok hr
          have f1 := read2_fits h1
          have f2 := read2_fits h2
          have f3 := read2_fits h3
          have f4 := read2_fits h4
          omega
      rw [ho]
      refine ⟨⟨fun ⟨d, h⟩ => (by cases h), fun _ => by omega⟩, ⟨fun h => (by cases h), fun h => by omega⟩, ⟨fun _ => by omega, fun _ => rfl⟩⟩
  · have ha : mp7wrapped_unpack_out old data = .error .assertFail := by
      unfold mp7wrapped_unpack_out
      rw [cassert_false (decide_eq_false h)]
      rfl
    rw [ha]
    refine ⟨⟨fun ⟨d, h⟩ => (by cases h), fun _ => by omega⟩, ⟨fun _ => by omega, fun _ => rfl⟩, ⟨fun h => (by cases h), fun h => by omega⟩⟩

/-- **C18.** The same for the candidates read from arbitrary words; the PUPPI pt is not in the words and stays what it was. -/
theorem C18_unpack_out_any (old out : PFOutputs NT NE NS NM) (data : Arr N Word) (h : mp7wrapped_unpack_out old data = .ok out) :
    (∀ i : Fin NT, ReadAt data (2 * i) 19 30 (chargedWords (out.outch i))) ∧
    (∀ i : Fin NE, ReadAt data (2 * NT + 2 * i) 19 20 (neutralWords (out.outpho i)) ∧ (out.outpho i).hwPtPuppi = (old.outpho i).hwPtPuppi) ∧
    (∀ i : Fin NS, ReadAt data (2 * NT + 2 * NE + 2 * i) 19 20 (neutralWords (out.outne i)) ∧
      (out.outne i).hwPtPuppi = (old.outne i).hwPtPuppi) ∧
    (∀ i : Fin NM, ReadAt data (2 * NT + 2 * NE + 2 * NS + 2 * i) 19 30 (chargedWords (out.outmu i))) := by
  obtain ⟨_, _, h⟩ := Run.bind_ok h
  obtain ⟨ch, h1, h⟩ := Run.bind_ok h
  obtain ⟨pho, h2, h⟩ := Run.bind_ok h
  obtain ⟨ne, h3, h⟩ := Run.bind_ok h
  obtain ⟨mu, h4, h⟩ := Run.bind_ok h
  cases h
  refine ⟨fun i => ?_, fun i => ?_, fun i => ?_, fun i => ?_⟩
  · obtain ⟨k0, k1, e⟩ := read2_at h1 i
    refine ReadAt.of_eq (k := 0 + 2 * i.val) (by omega) k0 k1 ?_
    dsimp only
    rw [e]
    exact Prod.ext (read_ptId _) (read_z0 _)
  · obtain ⟨k0, k1, e⟩ := read2_at h2 i
    dsimp only
    rw [e]
    exact ⟨ReadAt.of_eq (k := 2 * NT + 2 * i.val) (by omega) k0 k1 (Prod.ext (read_ptId _) (read_etaPhi _)), rfl⟩
  · obtain ⟨k0, k1, e⟩ := read2_at h3 i
    dsimp only
    rw [e]
    exact ⟨ReadAt.of_eq (k := 2 * NE + 2 * NT + 2 * i.val) (by omega) k0 k1 (Prod.ext (read_ptId _) (read_etaPhi _)), rfl⟩
  · obtain ⟨k0, k1, e⟩ := read2_at h4 i
    refine ReadAt.of_eq (k := 2 * NS + 2 * NE + 2 * NT + 2 * i.val) (by omega) k0 k1 ?_
    dsimp only
    rw [e]
    exact Prod.ext (read_ptId _) (read_z0 _)

/-! ### Non-vacuity -/

/-- Words with every bit set, which no packing writes: the objects have all fields set, and the unused bits make no difference. -/
theorem C17_unpack_example :
    (mp7wrapped_unpack_in (fun _ : Fin 8 => 0xffffffff) : Run (PFInputs 1 1 1 1)) =
      mp7wrapped_unpack_in (fun k : Fin 8 => if k.val % 2 = 0 then 0xffffffff else if k.val = 3 then 0x1fffff else if k.val = 5 then 0x7fffffff
        else 0xfffff) ∧
    ∃ inp : PFInputs 1 1 1 1, mp7wrapped_unpack_in (fun _ : Fin 8 => 0xffffffff) = .ok inp ∧ (inp.track 0).hwZ0.toInt = -1 ∧
      (inp.hadcalo 0).hwIsEM = true := by
  refine ⟨?_, _, rfl, ?_, ?_⟩
  · unfold mp7wrapped_unpack_in mp7_unpack_em mp7_unpack_had mp7_unpack_tk mp7_unpack_mu
    rfl
  · decide +kernel
  · decide +kernel

end Verif
