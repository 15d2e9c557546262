import Verif.Model.RegionizerFiles
import Verif.Spec.RegionizerFiles
import Verif.Proofs.RegionizerTest
import Verif.Props.Encoding
import Verif.Props.Serializer
/-! # The files of the regionizer test bench -/
namespace Verif
open Spec
variable {sz : RegSizes} {NC NE NT NM : Nat}

/-- The two words of channel pair `c`. -/
def chan (w : MP7Event) (c : Nat) (h : c < 72) : Nat × Nat :=
  ((w ⟨2 * c, by omega⟩).toNat, (w ⟨2 * c + 1, by omega⟩).toNat)

theorem chan_zero (c : Nat) (h : c < 72) : chan zeroWords c h = (0, 0) := rfl

theorem chan_packed (o n : Nat) (w0 w1 : Fin n → Word) (data : MP7Event) (hfit : o + n ≤ 72) (c : Nat) (hc : c < 72) :
    chan (packed (2 * o) n w0 w1 data) c hc =
      if h : o ≤ c ∧ c < o + n then ((w0 ⟨c - o, by omega⟩).toNat, (w1 ⟨c - o, by omega⟩).toNat) else chan data c hc := by
  unfold chan
  by_cases h : o ≤ c ∧ c < o + n
  · rw [dif_pos h]
    have e0 := packed_word0 (2 * o) w0 w1 data ⟨c - o, by omega⟩ (by simp only []; omega)
    have e1 := packed_word1 (2 * o) w0 w1 data ⟨c - o, by omega⟩ (by simp only []; omega)
    have i0 : (⟨2 * c, by omega⟩ : Fin 144) = ⟨2 * (c - o) + 0 + 2 * o, by omega⟩ := Fin.ext (by simp only []; omega)
    have i1 : (⟨2 * c + 1, by omega⟩ : Fin 144) = ⟨2 * (c - o) + 1 + 2 * o, by omega⟩ := Fin.ext (by simp only []; omega)
    rw [i0, i1, e0, e1]
  · rw [dif_neg h, packed_other _ _ _ _ _ (by simp only []; omega), packed_other _ _ _ _ _ (by simp only []; omega)]

/-- A packer that writes objects from channel pair `o` on. -/
def PacksAt {n : Nat} {T : Type} (o : Nat) (words : T → Nat × Nat) (pack : Arr n T → MP7Event → Run MP7Event) : Prop :=
  ∀ a w, ∃ w', pack a w = .ok w' ∧ ∀ c hc, chan w' c hc =
    if h : o ≤ c ∧ c < o + n then words (a ⟨c - o, by omega⟩) else chan w c hc

theorem packs_had {n : Nat} (o : Nat) (h : o + n ≤ 72) : PacksAt (n := n) o hadWords (mp7_pack_had (2 * o)) := by
  intro a w
  refine ⟨_, mp7_pack_had_ok _ _ _ (by omega), fun c hc => ?_⟩
  rw [chan_packed _ _ _ _ _ h]
  simp only [word_ptErr, word_had]
  rfl

theorem packs_em {n : Nat} (o : Nat) (h : o + n ≤ 72) : PacksAt (n := n) o emWords (mp7_pack_em (2 * o)) := by
  intro a w
  refine ⟨_, mp7_pack_em_ok _ _ _ (by omega), fun c hc => ?_⟩
  rw [chan_packed _ _ _ _ _ h]
  simp only [word_ptErr, word_etaPhi]
  rfl

theorem packs_tk {n : Nat} (o : Nat) (h : o + n ≤ 72) : PacksAt (n := n) o tkWords (mp7_pack_tk (2 * o)) := by
  intro a w
  refine ⟨_, mp7_pack_tk_ok _ _ _ (by omega), fun c hc => ?_⟩
  rw [chan_packed _ _ _ _ _ h]
  simp only [word_ptErr, word_tk]
  rfl

theorem packs_mu {n : Nat} (o : Nat) (h : o + n ≤ 72) : PacksAt (n := n) o muWords (mp7_pack_mu (2 * o)) := by
  intro a w
  refine ⟨_, mp7_pack_mu_ok _ _ _ (by omega), fun c hc => ?_⟩
  rw [chan_packed _ _ _ _ _ h]
  simp only [word_ptErr, word_etaPhi]
  rfl

theorem packIf_ok {K n : Nat} {T : Type} {o : Nat} {words : T → Nat × Nat} {pack : Arr n T → MP7Event → Run MP7Event}
    (hp : PacksAt o words pack) (a : Arr K (Arr n T)) (ic : Nat) (w : MP7Event) :
    ∃ w', packIf pack a ic K w = .ok w' ∧ ∀ c hc, chan w' c hc =
      if h : (o ≤ c ∧ c < o + n) ∧ ic < K then words (a ⟨ic, h.2⟩ ⟨c - o, by omega⟩) else chan w c hc := by
  unfold packIf
  by_cases h : ic < K
  · rw [if_pos h, Arr.read_ok _ h, Run.ok_bind]
    obtain ⟨w', h1, h2⟩ := hp (a ⟨ic, h⟩) w
    refine ⟨w', h1, fun c hc => ?_⟩
    rw [h2]
    by_cases h' : o ≤ c ∧ c < o + n
    · rw [dif_pos h', dif_pos ⟨h', h⟩]
    · rw [dif_neg h', dif_neg (fun x => h' x.1)]
  · rw [if_neg h]
    exact ⟨w, rfl, fun c hc => by rw [dif_neg (fun x => h x.2)]⟩

/-! ## Transposing -/

theorem transposeIn_eq {K N : Nat} {T : Type} (src : Arr K (Arr N T)) (old : Arr N (Arr K T)) :
    transposeIn src old = fun io is => src is io := by
  unfold transposeIn
  have key := loop_induct (fun m (a : Arr N (Arr K T)) => ∀ io (is : Fin K), is.val < m → a io is = src is io)
    (fun (is : Fin K) (a : Arr N (Arr K T)) =>
      loop (fun (io : Fin N) (a : Arr N (Arr K T)) => a.set io ((a io).set is (src is io))) a) old
    (fun _ _ h => absurd h (by omega)) (fun is a ih => by
      have inner := loop_induct (fun m (b : Arr N (Arr K T)) => ∀ io (js : Fin K), (js.val < is.val ∨ (js = is ∧ io.val < m)) → b io js = src js io)
        (fun (io : Fin N) (a : Arr N (Arr K T)) => a.set io ((a io).set is (src is io))) a
        (fun io js h => by
          rcases h with h | h
          · exact ih io js h
          · omega)
        (fun io b hb jo js h => by
          by_cases hio : jo = io
          · subst hio
            rw [Arr.set_same]
            by_cases hjs : js = is
            · subst hjs
              rw [Arr.set_same]
            · rw [Arr.set_ne _ _ hjs]
              apply hb
              rcases h with h | h
              · exact Or.inl h
              · exact absurd h.1 hjs
          · rw [Arr.set_ne _ _ hio]
            apply hb
            rcases h with h | ⟨h, h'⟩
            · exact Or.inl h
            · refine Or.inr ⟨h, ?_⟩
              have : jo.val ≠ io.val := fun e => hio (Fin.ext e)
              omega)
      intro io js hjs
      apply inner
      by_cases h : js = is
      · exact Or.inr ⟨h, io.isLt⟩
      · refine Or.inl ?_
        have : js.val ≠ is.val := fun e => h (Fin.ext e)
        omega)
  funext io is
  exact key io is is.isLt

theorem transposeTracks_eq {N : Nat} (heven : N % 2 = 0) (src : Arr N_IN_SECTORS (Arr N TkObj))
    (old : Arr (N / 2) (Arr (2 * N_IN_SECTORS) TkObj)) :
    transposeTracks src old = .ok (fun r k => src ⟨k.val / 2, by have := k.isLt; unfold N_IN_SECTORS at *; omega⟩
      ⟨2 * r.val + k.val % 2, by have := r.isLt; omega⟩) := by
  unfold transposeTracks
  obtain ⟨a, h1, h2⟩ := loopM_induct (fun m (a : Arr (N / 2) (Arr (2 * N_IN_SECTORS) TkObj)) =>
      ∀ (is : Fin N_IN_SECTORS) (io : Fin N) (hr : io.val / 2 < N / 2) (hk : 2 * is.val + io.val % 2 < 2 * N_IN_SECTORS), is.val < m → a ⟨io.val / 2, hr⟩ ⟨2 * is.val + io.val % 2, hk⟩ = src is io)
    (fun (is : Fin N_IN_SECTORS) (a : Arr (N / 2) (Arr (2 * N_IN_SECTORS) TkObj)) =>
      loopM (fun (io : Fin N) (a : Arr (N / 2) (Arr (2 * N_IN_SECTORS) TkObj)) => do
        let row ← a.read (io.val / 2)
        let row ← row.write (2 * is.val + io.val % 2) (src is io)
        a.write (io.val / 2) row) a) old
    (fun _ _ _ _ h => absurd h (by omega)) (fun is a ih => by
      obtain ⟨b, h1, h2⟩ := loopM_induct (fun m (b : Arr (N / 2) (Arr (2 * N_IN_SECTORS) TkObj)) =>
          ∀ (js : Fin N_IN_SECTORS) (io : Fin N) (hr : io.val / 2 < N / 2) (hk : 2 * js.val + io.val % 2 < 2 * N_IN_SECTORS),
            (js.val < is.val ∨ (js = is ∧ io.val < m)) → b ⟨io.val / 2, hr⟩ ⟨2 * js.val + io.val % 2, hk⟩ = src js io)
        (fun (io : Fin N) (a : Arr (N / 2) (Arr (2 * N_IN_SECTORS) TkObj)) => do
          let row ← a.read (io.val / 2)
          let row ← row.write (2 * is.val + io.val % 2) (src is io)
          a.write (io.val / 2) row) a
        (fun js io hr hk h => by
          rcases h with h | h
          · exact ih js io hr hk h
          · omega)
        (fun io b hb => by
          have hio := io.isLt
          have his := is.isLt
          have hr0 : io.val / 2 < N / 2 := by omega
          have hk0 : 2 * is.val + io.val % 2 < 2 * N_IN_SECTORS := by omega
          refine ⟨_, by rw [Arr.read_ok _ hr0, Run.ok_bind, Arr.write_ok _ _ hk0, Run.ok_bind, Arr.write_ok _ _ hr0], ?_⟩
          intro js jo hr hk h
          by_cases hrow : (⟨jo.val / 2, hr⟩ : Fin (N / 2)) = ⟨io.val / 2, hr0⟩
          · have hrow' : jo.val / 2 = io.val / 2 := congrArg Fin.val hrow
            rw [hrow, Arr.set_same]
            by_cases hcol : (⟨2 * js.val + jo.val % 2, hk⟩ : Fin (2 * N_IN_SECTORS)) = ⟨2 * is.val + io.val % 2, hk0⟩
            · have hcol' : 2 * js.val + jo.val % 2 = 2 * is.val + io.val % 2 := congrArg Fin.val hcol
              have e1 : js = is := Fin.ext (by omega)
              have e2 : jo = io := Fin.ext (by omega)
              rw [hcol, Arr.set_same, e1, e2]
            · rw [Arr.set_ne _ _ hcol, ← hrow]
              apply hb
              rcases h with h | ⟨h, h'⟩
              · exact Or.inl h
              · refine Or.inr ⟨h, ?_⟩
                have : jo.val ≠ io.val := fun e => hcol (Fin.ext (by simp only [h, e]))
                omega
          · rw [Arr.set_ne _ _ hrow]
            apply hb
            rcases h with h | ⟨h, h'⟩
            · exact Or.inl h
            · refine Or.inr ⟨h, ?_⟩
              have : jo.val ≠ io.val := fun e => hrow (Fin.ext (by simp only [e]))
              omega)
      refine ⟨b, h1, fun js io hr hk hjs => h2 js io hr hk ?_⟩
      by_cases h : js = is
      · exact Or.inr ⟨h, io.isLt⟩
      · refine Or.inl ?_
        have : js.val ≠ is.val := fun e => h (Fin.ext e)
        omega)
  rw [h1]
  congr 1
  funext r k
  have hr := r.isLt
  have hk := k.isLt
  have key := h2 ⟨k.val / 2, by omega⟩ ⟨2 * r.val + k.val % 2, by omega⟩ (by simp only []; omega) (by simp only []; omega) (by simp only []; omega)
  rw [← key]
  congr 1
  · congr 1
    apply Fin.ext
    simp only []
    omega
  · apply Fin.ext
    simp only []
    omega

/-- With an odd number of tracks the transposed array is too small. -/
theorem transposeTracks_oob {N : Nat} (hodd : N % 2 = 1) (src : Arr N_IN_SECTORS (Arr N TkObj))
    (old : Arr (N / 2) (Arr (2 * N_IN_SECTORS) TkObj)) : transposeTracks src old = .error .oob := by
  have inner : ∀ (is : Fin N_IN_SECTORS) (a : Arr (N / 2) (Arr (2 * N_IN_SECTORS) TkObj)),
      loopM (fun (io : Fin N) (a : Arr (N / 2) (Arr (2 * N_IN_SECTORS) TkObj)) => do
        let row ← a.read (io.val / 2)
        let row ← row.write (2 * is.val + io.val % 2) (src is io)
        a.write (io.val / 2) row) a = .error .oob := by
    intro is a
    obtain ⟨M, rfl⟩ : ∃ M, N = M + 1 := ⟨N - 1, by omega⟩
    have his := is.isLt
    rw [loopM_succ]
    obtain ⟨b, h1, _⟩ := loopM_induct (fun _ _ => True)
      (fun (io : Fin M) (a : Arr ((M + 1) / 2) (Arr (2 * N_IN_SECTORS) TkObj)) => do
        let row ← a.read (io.castSucc.val / 2)
        let row ← row.write (2 * is.val + io.castSucc.val % 2) (src is io.castSucc)
        a.write (io.castSucc.val / 2) row) a trivial (fun io b _ => by
          have hio := io.isLt
          have hr0 : io.castSucc.val / 2 < (M + 1) / 2 := by rw [Fin.val_castSucc]; omega
          have hk0 : 2 * is.val + io.castSucc.val % 2 < 2 * N_IN_SECTORS := by omega
          exact ⟨_, by rw [Arr.read_ok _ hr0, Run.ok_bind, Arr.write_ok _ _ hk0, Run.ok_bind, Arr.write_ok _ _ hr0], trivial⟩)
    rw [h1, Run.ok_bind]
    have : b.read ((Fin.last M).val / 2) = .error .oob := by
      unfold Arr.read
      rw [dif_neg (by rw [Fin.val_last]; omega)]
    rw [this]
    rfl
  unfold transposeTracks
  have key := loopM_run (fun m (res : Run (Arr (N / 2) (Arr (2 * N_IN_SECTORS) TkObj))) =>
      (m = 0 → res = .ok old) ∧ (m ≠ 0 → res = .error .oob))
    (fun (is : Fin N_IN_SECTORS) (a : Arr (N / 2) (Arr (2 * N_IN_SECTORS) TkObj)) =>
      loopM (fun (io : Fin N) (a : Arr (N / 2) (Arr (2 * N_IN_SECTORS) TkObj)) => do
        let row ← a.read (io.val / 2)
        let row ← row.write (2 * is.val + io.val % 2) (src is io)
        a.write (io.val / 2) row) a) old ⟨fun _ => rfl, fun h => absurd rfl h⟩
    (fun is res h => by
      refine ⟨fun h => absurd h (Nat.succ_ne_zero _), fun _ => ?_⟩
      by_cases hz : is.val = 0
      · rw [h.1 hz, Run.ok_bind]
        exact inner is old
      · rw [h.2 hz, Run.error_bind])
  exact key.2 (by decide)

/-! ## Frames -/

/-- The inputs in transposed order. -/
def transposed (d : RegRecord sz NC NE NT NM) : TransMem sz NM :=
  ⟨fun io is => d.inp.calo is io, fun io is => d.inp.em is io,
    fun r k => d.inp.track ⟨k.val / 2, by have := k.isLt; unfold N_IN_SECTORS at *; omega⟩ ⟨2 * r.val + k.val % 2, by have := r.isLt; omega⟩,
    fun io is => d.mu_in is io⟩

theorem mp7InFrames_ok (d : RegRecord sz NC NE NT NM) (ic : Fin (N_CLOCKS / 2)) :
    ∃ all calo track mu, mp7InFrames (transposed d) ic = .ok (all, calo, track, mu) ∧
      (∀ c hc, chan all c hc = inLink d ic c) ∧
      (∀ c hc, chan calo c hc = if c < 12 then inLink d ic c else (0, 0)) ∧
      (∀ c hc, chan track c hc = if c < 24 then inLink d ic (24 + c) else (0, 0)) ∧
      (∀ c hc, chan mu c hc = if c < 4 then inLink d ic (48 + c) else (0, 0)) := by
  unfold mp7InFrames
  obtain ⟨w1, a1, b1⟩ := packIf_ok (packs_had 0 (by decide)) (transposed d).calo ic zeroWords
  obtain ⟨w2, a2, b2⟩ := packIf_ok (packs_em (n := N_IN_SECTORS) 12 (by decide)) (transposed d).em ic w1
  obtain ⟨w3, a3, b3⟩ := packIf_ok (packs_tk (n := 2 * N_IN_SECTORS) 24 (by decide)) (transposed d).track ic w2
  obtain ⟨w4, a4, b4⟩ := packIf_ok (packs_mu (n := N_MUON_SECTORS) 48 (by decide)) (transposed d).mu ic w3
  obtain ⟨t1, c1, d1⟩ := packIf_ok (packs_tk (n := 2 * N_IN_SECTORS) 0 (by decide)) (transposed d).track ic zeroWords
  obtain ⟨m1, e1, f1⟩ := packIf_ok (packs_mu (n := N_MUON_SECTORS) 0 (by decide)) (transposed d).mu ic zeroWords
  have n12 : N_IN_SECTORS = 12 := rfl
  have n4 : N_MUON_SECTORS = 4 := rfl
  refine ⟨w4, w1, t1, m1, ?_, ?_, ?_, ?_, ?_⟩
  · rw [a1, Run.ok_bind]
    have a2' : packIf (mp7_pack_em (2 * N_IN_SECTORS)) (transposed d).em ic sz.em w1 = .ok w2 := a2
    have a3' : packIf (mp7_pack_tk (4 * N_IN_SECTORS)) (transposed d).track ic (sz.track / 2) w2 = .ok w3 := a3
    have a4' : packIf (mp7_pack_mu (8 * N_IN_SECTORS)) (transposed d).mu ic NM w3 = .ok w4 := a4
    rw [a2', Run.ok_bind, a3', Run.ok_bind, a4', Run.ok_bind, Run.ok_bind]
    have c1' : packIf (mp7_pack_tk 0) (transposed d).track ic (sz.track / 2) zeroWords = .ok t1 := c1
    have e1' : packIf (mp7_pack_mu 0) (transposed d).mu ic NM zeroWords = .ok m1 := e1
    rw [c1', Run.ok_bind, e1']
    rfl
  · intro c hc
    rw [b4, b3, b2, b1, chan_zero]
    unfold inLink
    by_cases h1 : c < 12
    · rw [dif_neg (by omega), dif_neg (by omega), dif_neg (by omega), dif_pos h1]
      by_cases h : ic.val < sz.calo
      · rw [dif_pos (by omega), dif_pos h]
        rfl
      · rw [dif_neg (by omega), dif_neg h]
    rw [dif_neg h1]
    by_cases h2 : c < 24
    · rw [dif_neg (by omega), dif_neg (by omega), dif_pos h2]
      by_cases h : ic.val < sz.em
      · rw [dif_pos (by omega), dif_pos h]
        rfl
      · rw [dif_neg (by omega), dif_neg (by omega), dif_neg h]
    rw [dif_neg h2]
    by_cases h3 : c < 48
    · rw [dif_neg (by omega), dif_pos h3]
      by_cases h : ic.val < sz.track / 2
      · rw [dif_pos (by omega), dif_pos h]
        rfl
      · rw [dif_neg (by omega), dif_neg (by omega), dif_neg (by omega), dif_neg h]
    rw [dif_neg h3]
    by_cases h4 : c < 52
    · rw [dif_pos h4]
      by_cases h : ic.val < NM
      · rw [dif_pos (by omega), dif_pos h]
        rfl
      · rw [dif_neg (by omega), dif_neg (by omega), dif_neg (by omega), dif_neg (by omega), dif_neg h]
    · rw [dif_neg (by omega), dif_neg (by omega), dif_neg (by omega), dif_neg (by omega), dif_neg h4]
  · intro c hc
    rw [b1, chan_zero]
    unfold inLink
    by_cases h1 : c < 12
    · rw [if_pos h1, dif_pos h1]
      by_cases h : ic.val < sz.calo
      · rw [dif_pos (by omega), dif_pos h]
        rfl
      · rw [dif_neg (by omega), dif_neg h]
    · rw [dif_neg (by omega), if_neg h1]
  · intro c hc
    rw [d1, chan_zero]
    unfold inLink
    by_cases h1 : c < 24
    · rw [if_pos h1, dif_neg (show ¬ 24 + c < 12 by omega), dif_neg (show ¬ 24 + c < 24 by omega), dif_pos (show 24 + c < 48 by omega)]
      by_cases h : ic.val < sz.track / 2
      · rw [dif_pos (by omega), dif_pos h]
        show tkWords (d.inp.track _ _) = tkWords (d.inp.track _ _)
        simp only [Nat.add_sub_cancel_left, Nat.sub_zero]
      · rw [dif_neg (by omega), dif_neg h]
    · rw [dif_neg (by omega), if_neg h1]
  · intro c hc
    rw [f1, chan_zero]
    unfold inLink
    by_cases h1 : c < 4
    · rw [if_pos h1, dif_neg (show ¬ 48 + c < 12 by omega), dif_neg (show ¬ 48 + c < 24 by omega), dif_neg (show ¬ 48 + c < 48 by omega), dif_pos (show 48 + c < 52 by omega)]
      by_cases h : ic.val < NM
      · rw [dif_pos (by omega), dif_pos h]
        show muWords (d.mu_in _ _) = muWords (d.mu_in _ _)
        simp only [Nat.add_sub_cancel_left, Nat.sub_zero]
      · rw [dif_neg (by omega), dif_neg h]
    · rw [dif_neg (by omega), if_neg h1]

theorem mp7OutFrames_ok (hfit : NC + NE + NT + NM ≤ 72) (d : RegRecord sz NC NE NT NM) (ic : Fin (N_CLOCKS / 2)) :
    ∃ all calo track mu, mp7OutFrames d ic = .ok (all, calo, track, mu) ∧
      (∀ c hc, chan all c hc = outLink d ic c) ∧
      (∀ c hc, chan calo c hc = if c < NC then outLink d ic c else (0, 0)) ∧
      (∀ c hc, chan track c hc = if c < NT then outLink d ic (NC + NE + c) else (0, 0)) ∧
      (∀ c hc, chan mu c hc = if c < NM then outLink d ic (NC + NE + NT + c) else (0, 0)) := by
  unfold mp7OutFrames
  have hic : ic.val < N_OUT_REGIONS := ic.isLt
  obtain ⟨w1, a1, b1⟩ := packIf_ok (packs_had 0 (by omega)) d.calo ic zeroWords
  obtain ⟨w2, a2, b2⟩ := packIf_ok (packs_em NC (by omega)) d.em ic w1
  obtain ⟨w3, a3, b3⟩ := packIf_ok (packs_tk (NC + NE) (by omega)) d.track ic w2
  obtain ⟨w4, a4, b4⟩ := packIf_ok (packs_mu (NC + NE + NT) (by omega)) d.mu ic w3
  obtain ⟨t1, c1, d1⟩ := packIf_ok (packs_tk 0 (by omega)) d.track ic zeroWords
  obtain ⟨m1, e1, f1⟩ := packIf_ok (packs_mu 0 (by omega)) d.mu ic zeroWords
  refine ⟨w4, w1, t1, m1, ?_, ?_, ?_, ?_, ?_⟩
  · have a1' : packIf (mp7_pack_had 0) d.calo ic N_OUT_REGIONS zeroWords = .ok w1 := a1
    have c1' : packIf (mp7_pack_tk 0) d.track ic N_OUT_REGIONS zeroWords = .ok t1 := c1
    have e1' : packIf (mp7_pack_mu 0) d.mu ic N_OUT_REGIONS zeroWords = .ok m1 := e1
    rw [a1', Run.ok_bind, a2, Run.ok_bind, a3, Run.ok_bind, a4, Run.ok_bind, Run.ok_bind, c1', Run.ok_bind, e1']
    rfl
  · intro c hc
    rw [b4, b3, b2, b1, chan_zero]
    unfold outLink
    by_cases h1 : c < NC
    · rw [dif_neg (by omega), dif_neg (by omega), dif_neg (by omega), dif_pos h1, dif_pos (by omega)]
      rfl
    rw [dif_neg h1]
    by_cases h2 : c < NC + NE
    · rw [dif_neg (by omega), dif_neg (by omega), dif_pos h2, dif_pos (by omega)]
      rfl
    rw [dif_neg h2]
    by_cases h3 : c < NC + NE + NT
    · rw [dif_neg (by omega), dif_pos h3, dif_pos (by omega)]
      rfl
    rw [dif_neg h3]
    by_cases h4 : c < NC + NE + NT + NM
    · rw [dif_pos h4, dif_pos (by omega)]
      rfl
    · rw [dif_neg (by omega), dif_neg (by omega), dif_neg (by omega), dif_neg (by omega), dif_neg h4]
  · intro c hc
    rw [b1, chan_zero]
    unfold outLink
    by_cases h1 : c < NC
    · rw [if_pos h1, dif_pos h1, dif_pos (by omega)]
      rfl
    · rw [dif_neg (by omega), if_neg h1]
  · intro c hc
    rw [d1, chan_zero]
    unfold outLink
    by_cases h1 : c < NT
    · rw [if_pos h1, dif_neg (show ¬ NC + NE + c < NC by omega), dif_neg (show ¬ NC + NE + c < NC + NE by omega), dif_pos (show NC + NE + c < NC + NE + NT by omega), dif_pos (by omega)]
      simp only [Nat.add_sub_cancel_left, Nat.sub_zero]
      rfl
    · rw [dif_neg (by omega), if_neg h1]
  · intro c hc
    rw [f1, chan_zero]
    unfold outLink
    by_cases h1 : c < NM
    · rw [if_pos h1, dif_neg (show ¬ NC + NE + NT + c < NC by omega), dif_neg (show ¬ NC + NE + NT + c < NC + NE by omega), dif_neg (show ¬ NC + NE + NT + c < NC + NE + NT by omega), dif_pos (show NC + NE + NT + c < NC + NE + NT + NM by omega), dif_pos (by omega)]
      simp only [Nat.add_sub_cancel_left, Nat.sub_zero]
      rfl
    · rw [dif_neg (by omega), if_neg h1]

/-- The words of 18 frames. -/
def FramesAre (l : List MP7Event) (link : Fin 18 → Nat → Nat × Nat) : Prop :=
  l.length = 18 ∧ ∀ ic : Fin 18, ∃ w, l[ic.val]? = some w ∧ ∀ c hc, chan w c hc = link ic c

/-- The frames of a test. -/
structure FramesOf (d : RegRecord sz NC NE NT NM) (f : RegFrames) : Prop where
  inAll : FramesAre f.inAll (fun ic c => inLink d ic c)
  inCalo : FramesAre f.inCalo (fun ic c => if c < 12 then inLink d ic c else (0, 0))
  inTrack : FramesAre f.inTrack (fun ic c => if c < 24 then inLink d ic (24 + c) else (0, 0))
  inMu : FramesAre f.inMu (fun ic c => if c < 4 then inLink d ic (48 + c) else (0, 0))
  outAll : FramesAre f.outAll (fun ic c => outLink d ic c)
  outCalo : FramesAre f.outCalo (fun ic c => if c < NC then outLink d ic c else (0, 0))
  outTrack : FramesAre f.outTrack (fun ic c => if c < NT then outLink d ic (NC + NE + c) else (0, 0))
  outMu : FramesAre f.outMu (fun ic c => if c < NM then outLink d ic (NC + NE + NT + c) else (0, 0))

theorem framesAre_ofFn {link : Fin 18 → Nat → Nat × Nat} (g : Fin 18 → MP7Event) (h : ∀ ic c hc, chan (g ic) c hc = link ic c) :
    FramesAre (List.ofFn g) link := by
  refine ⟨List.length_ofFn, fun ic => ⟨g ic, ?_, fun c hc => h ic c hc⟩⟩
  rw [List.getElem?_eq_getElem (by rw [List.length_ofFn]; exact ic.isLt), List.getElem_ofFn]

theorem regFrames_ok (heven : sz.track % 2 = 0) (hfit : NC + NE + NT + NM ≤ 72) (old : TransMem sz NM)
    (d : RegRecord sz NC NE NT NM) : ∃ f, regFrames old d = .ok f ∧ FramesOf d f := by
  unfold regFrames
  rw [transposeTracks_eq heven, Run.ok_bind, transposeIn_eq, transposeIn_eq, transposeIn_eq]
  choose ia ic' it im hi hi1 hi2 hi3 hi4 using mp7InFrames_ok d
  choose oa oc ot om ho ho1 ho2 ho3 ho4 using mp7OutFrames_ok hfit d
  have e1 : buildM (fun ic => mp7InFrames (transposed d) ic) = .ok (fun ic => (ia ic, ic' ic, it ic, im ic)) :=
    buildM_ok _ hi
  have e2 : buildM (fun ic => mp7OutFrames d ic) = .ok (fun ic => (oa ic, oc ic, ot ic, om ic)) := buildM_ok _ ho
  refine ⟨⟨List.ofFn ia, List.ofFn ic', List.ofFn it, List.ofFn im, List.ofFn oa, List.ofFn oc, List.ofFn ot, List.ofFn om⟩, ?_, ?_⟩
  · refine Eq.trans (congrArg (fun x : Run (Arr (N_CLOCKS / 2) (MP7Event × MP7Event × MP7Event × MP7Event)) => x >>= _) e1) ?_
    rw [Run.ok_bind, e2]
    rfl
  · exact ⟨framesAre_ofFn _ hi1, framesAre_ofFn _ hi2, framesAre_ofFn _ hi3, framesAre_ofFn _ hi4,
      framesAre_ofFn _ ho1, framesAre_ofFn _ ho2, framesAre_ofFn _ ho3, framesAre_ofFn _ ho4⟩

theorem allFrames_ok (heven : sz.track % 2 = 0) (hfit : NC + NE + NT + NM ≤ 72) (old : Nat → TransMem sz NM) :
    ∀ ds : List (RegRecord sz NC NE NT NM), ∃ fs, allFrames old ds = .ok fs ∧ List.Forall₂ FramesOf ds fs
  | [] => ⟨[], rfl, .nil⟩
  | d :: ds => by
    obtain ⟨f, h1, h2⟩ := regFrames_ok heven hfit (old ds.length) d
    obtain ⟨fs, h3, h4⟩ := allFrames_ok heven hfit old ds
    refine ⟨f :: fs, ?_, .cons h2 h4⟩
    unfold allFrames
    rw [h1, Run.ok_bind, h3]
    rfl

/-- Frames of the tests, one after the other. -/
theorem flatMap_frames {g : RegFrames → List MP7Event} {link : RegRecord sz NC NE NT NM → Fin 18 → Nat → Nat × Nat} :
    ∀ {ds : List (RegRecord sz NC NE NT NM)} {fs : List RegFrames}, List.Forall₂ (fun d f => FramesAre (g f) (link d)) ds fs →
    (fs.flatMap g).length = 18 * ds.length ∧ ∀ (t : Nat) d, ds[t]? = some d → ∀ ic : Fin 18,
      ∃ w, (fs.flatMap g)[18 * t + ic.val]? = some w ∧ ∀ c hc, chan w c hc = link d ic c := by
  intro ds fs h
  induction h with
  | nil => exact ⟨rfl, fun t d hd => by simp at hd⟩
  | @cons d f ds fs h1 _ ih =>
    obtain ⟨ih1, ih2⟩ := ih
    rw [List.flatMap_cons]
    refine ⟨by rw [List.length_append, h1.1, ih1, List.length_cons]; omega, fun t d' hd ic => ?_⟩
    cases t with
    | zero =>
      rw [List.getElem?_cons_zero] at hd
      cases hd
      obtain ⟨w, h2, h3⟩ := h1.2 ic
      refine ⟨w, ?_, h3⟩
      rw [Nat.mul_zero, Nat.zero_add, List.getElem?_append_left (by rw [h1.1]; exact ic.isLt), h2]
    | succ t =>
      rw [List.getElem?_cons_succ] at hd
      obtain ⟨w, h2, h3⟩ := ih2 t d' hd ic
      refine ⟨w, ?_, h3⟩
      rw [List.getElem?_append_right (by rw [h1.1]; omega), h1.1, ← h2]
      congr 1
      omega

/-- A multiplexed file with one filler per event carries everything. -/
theorem muxFile_rows (evs : List MP7Event) (hL : evs.length * 2 < 2 ^ 32) :
    ∃ rows, muxFile evs = .ok rows ∧ rows.length = 2 * evs.length ∧
      (∀ r (h : r < rows.length), rows[r].1 = BitVec.ofNat 32 r) ∧
      ∀ e w, evs[e]? = some w → ∀ c hc, ObjAt rows (2 * e) c (chan w c hc) := by
  obtain ⟨rows, h1, h2, h3⟩ := mp7_file_rows (n := 2) 1 0 (by decide) (by decide) (by decide) evs hL
  rw [show (1 : Int).natAbs + 1 = 2 from rfl] at h2 h3
  have h2' : rows.length = 2 * evs.length := by rw [h2]; omega
  refine ⟨rows, h1, h2', fun r h => ?_, fun e w he c hc => ?_⟩
  · rw [h3 r h, if_pos (by omega)]
  · have hlt : e < evs.length := (List.getElem?_eq_some_iff.mp he).1
    have hword : ∀ k (hk : k < 2) (h : 2 * e + k < rows.length), (rows[2 * e + k]).2[c]? = some (w ⟨2 * c + k, by omega⟩) := by
      intro k hk h
      rw [h3 _ h]
      dsimp only
      unfold rowWords
      rw [if_neg (by decide), List.getElem?_map, List.getElem?_range (by omega)]
      simp only [Option.map_some]
      congr 1
      have i1 : (2 * e + k) / 2 * 2 + c / (144 / 2) = 2 * e := by omega
      have i2 : c % (144 / 2) * 2 + (2 * e + k) % 2 = 2 * c + k := by omega
      rw [i1, i2]
      unfold evWord
      have hs : (stream (1 : Int).natAbs (decide ((1 : Int) < 0)) evs)[2 * e]? = some w := by
        unfold stream
        rw [List.getElem?_map, List.getElem?_range (by show _ < evs.length * 2; omega)]
        simp only [Option.map_some]
        rw [if_pos (by show 2 * e % 2 = 0; omega)]
        have : 2 * e / ((1 : Int).natAbs + 1) = e := by show 2 * e / 2 = e; omega
        rw [this, List.getD_eq_getElem?_getD, he]
        rfl
      rw [hs]
      dsimp only
      rw [dif_pos (by omega)]
    have l0 : 2 * e + 0 < rows.length := by omega
    have l1 : 2 * e + 1 < rows.length := by omega
    exact ⟨_, _, _, _, List.getElem?_eq_getElem l0, List.getElem?_eq_getElem l1, hword 0 (by decide) l0, hword 1 (by decide) l1, rfl⟩

end Verif
