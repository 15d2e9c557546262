import Verif.Proofs.Serializer
/-! # C38–C41 — the pattern files -/
namespace Verif
open Spec

/-- A file: rows of complete groups numbered from 0, then a possible incomplete group. -/
theorem mp7_file_rows {n : Nat} (nempty : Int) (nlinks : Nat) (hn0 : 0 < n) (hn : 144 % n = 0)
    (hl : nlinks ≤ 144) (evs : List MP7Event) (hP : evs.length * (nempty.natAbs + 1) < 2 ^ 32) :
    ∃ rows, mp7_file n nempty nlinks evs = .ok rows ∧
      rows.length = (evs.length * (nempty.natAbs + 1) + (n - 1)) / n * n ∧
      ∀ r (h : r < rows.length), rows[r] =
        (if r < evs.length * (nempty.natAbs + 1) / n * n then BitVec.ofNat 32 r
          else BitVec.ofNat 32 (evs.length * (nempty.natAbs + 1)) - BitVec.ofNat 32 n + 1 + BitVec.ofNat 32 (r % n),
        rowWords n (if nlinks ≠ 0 then nlinks else 144 / n) (stream nempty.natAbs (decide (nempty < 0)) evs) r) := by
  have := mp7_file_eq nempty nlinks hn0 hn hl evs hP
  simp only [stream_length] at this
  generalize hL : evs.length * (nempty.natAbs + 1) = L at *
  refine ⟨_, this, ?_, ?_⟩
  · rw [List.length_append, List.length_map, List.length_range]
    have hd := Nat.div_add_mod L n
    have hm := Nat.mod_lt L hn0
    by_cases hr : L % n ≠ 0
    · rw [if_pos hr, List.length_map, List.length_range]
      have : (L + (n - 1)) / n = L / n + 1 := by
        have e : L + (n - 1) = n * (L / n + 1) + (L % n - 1) := by rw [Nat.mul_add, Nat.mul_one]; omega
        rw [e, Nat.mul_add_div hn0, Nat.div_eq_of_lt (show L % n - 1 < n by omega), Nat.add_zero]
      rw [this]; ring
    · rw [if_neg hr, List.length_nil, Nat.add_zero]
      have : (L + (n - 1)) / n = L / n := by
        have e : L + (n - 1) = n * (L / n) + (n - 1) := by omega
        rw [e, Nat.mul_add_div hn0, Nat.div_eq_of_lt (show n - 1 < n by omega), Nat.add_zero]
      rw [this]
  · intro r h
    by_cases hr : r < L / n * n
    · rw [List.getElem_append_left (by simpa using hr), if_pos hr]
      simp
    · rw [List.getElem_append_right (by simpa using hr), if_neg hr]
      have hr2 : L % n ≠ 0 := by
        intro h0
        rw [List.length_append, List.length_map, List.length_range, if_neg (by omega), List.length_nil] at h
        omega
      have hlt : r - L / n * n < n := by
        rw [List.length_append, List.length_map, List.length_range, if_pos hr2, List.length_map, List.length_range] at h
        omega
      have hm : r % n = r - L / n * n := by
        have e : r = n * (L / n) + (r - L / n * n) := by rw [Nat.mul_comm]; omega
        conv_lhs => rw [e]
        rw [Nat.mul_add_mod, Nat.mod_eq_of_lt hlt]
      simp only [if_pos hr2, List.getElem_map, List.getElem_range, List.length_map, List.length_range]
      rw [hm, show L / n * n + (r - L / n * n) = r by omega]

/-- **C38.** For every sequence of events (with any number of fillers after each) and every `nmux` dividing 144:
the frame `(e / nmux) * nmux + w % nmux` of the file carries, on link `(e % nmux) * nchann + w / nmux`, the word
`w` of the `e`-th event written (fillers included), if that link is printed at all.  In particular the last,
incomplete group is written by the destructor. -/
theorem C38_place {n : Nat} (nempty : Int) (nlinks : Nat) (hn0 : 0 < n) (hn : 144 % n = 0)
    (hl : nlinks ≤ 144) (evs : List MP7Event) (hP : evs.length * (nempty.natAbs + 1) < 2 ^ 32) :
    ∃ rows, mp7_file n nempty nlinks evs = .ok rows ∧
      ∀ e ev, (stream nempty.natAbs (decide (nempty < 0)) evs)[e]? = some ev → ∀ w : Fin 144,
        (e % n) * (144 / n) + w.val / n < (if nlinks ≠ 0 then nlinks else 144 / n) →
        ∃ row, rows[(e / n) * n + w.val % n]? = some row ∧ row.2[(e % n) * (144 / n) + w.val / n]? = some (ev w) := by
  obtain ⟨rows, h1, h2, h3⟩ := mp7_file_rows nempty nlinks hn0 hn hl evs hP
  refine ⟨rows, h1, fun e ev he w hw => ?_⟩
  generalize hQ : stream nempty.natAbs (decide (nempty < 0)) evs = Q at *
  have hQl : Q.length = evs.length * (nempty.natAbs + 1) := by rw [← hQ, stream_length]
  generalize hL : evs.length * (nempty.natAbs + 1) = L at *
  have heL : e < L := by
    rw [← hQl]; exact (List.getElem?_eq_some_iff.mp he).1
  have hn' : n * (144 / n) = 144 := by have := Nat.div_add_mod 144 n; omega
  have hwn := Nat.mod_lt w.val hn0
  have hen := Nat.mod_lt e hn0
  have hr : (e / n) * n + w.val % n < rows.length := by
    rw [h2]
    have : e / n + 1 ≤ (L + (n - 1)) / n := by
      rw [Nat.le_div_iff_mul_le hn0]
      have := Nat.div_mul_le_self e n
      rw [Nat.add_mul, Nat.one_mul]; omega
    calc (e / n) * n + w.val % n < (e / n) * n + n := by omega
      _ = (e / n + 1) * n := by ring
      _ ≤ _ := Nat.mul_le_mul_right _ this
  refine ⟨_, List.getElem?_eq_getElem hr, ?_⟩
  rw [h3 _ hr]
  simp only []
  unfold rowWords
  rw [List.getElem?_map, List.getElem?_range hw]
  simp only [Option.map_some]
  have hwd : w.val / n < 144 / n := Nat.div_lt_of_lt_mul (by rw [hn']; exact w.isLt)
  have e1 : ((e / n) * n + w.val % n) / n = e / n := by
    rw [Nat.mul_comm, Nat.mul_add_div hn0, Nat.div_eq_of_lt hwn, Nat.add_zero]
  have e2 : ((e / n) * n + w.val % n) % n = w.val % n := by
    rw [Nat.mul_comm, Nat.mul_add_mod, Nat.mod_mod]
  have e3 : ((e % n) * (144 / n) + w.val / n) / (144 / n) = e % n := by
    rw [Nat.mul_comm, Nat.mul_add_div (lt_of_le_of_lt (Nat.zero_le _) hwd), Nat.div_eq_of_lt hwd, Nat.add_zero]
  have e4 : ((e % n) * (144 / n) + w.val / n) % (144 / n) = w.val / n := by
    rw [Nat.mul_comm, Nat.mul_add_mod, Nat.mod_eq_of_lt hwd]
  have e5 : e / n * n + e % n = e := by rw [Nat.mul_comm]; exact Nat.div_add_mod e n
  have e6 : w.val / n * n + w.val % n = w.val := by rw [Nat.mul_comm]; exact Nat.div_add_mod _ n
  rw [e1, e2, e3, e4, e5, e6]
  unfold evWord
  rw [he]
  simp only []
  rw [dif_pos w.isLt]

/-- **C38.** The event written by the `k`-th call is number `k * (nempty + 1)` of the stream, and the `j`-th
filler after it is number `k * (nempty + 1) + 1 + j`. -/
theorem C38_stream (m : Nat) (magic : Bool) (evs : List MP7Event) (k : Nat) (hk : k < evs.length) :
    (stream m magic evs)[k * (m + 1)]? = some evs[k] ∧ ∀ j, j < m →
      (stream m magic evs)[k * (m + 1) + 1 + j]? = some (filler magic (k * (m + 1) + 1 + j) j) := by
  have hle : k * (m + 1) + (m + 1) ≤ evs.length * (m + 1) := by
    calc k * (m + 1) + (m + 1) = (k + 1) * (m + 1) := by ring
      _ ≤ _ := Nat.mul_le_mul_right _ hk
  constructor
  · unfold stream
    rw [List.getElem?_map, List.getElem?_range (by omega)]
    simp only [Option.map_some, Nat.mul_mod_left, if_true]
    rw [Nat.mul_div_cancel _ (by omega), List.getD_eq_getElem?_getD, List.getElem?_eq_getElem hk]
    rfl
  · intro j hj
    unfold stream
    rw [List.getElem?_map, List.getElem?_range (by omega)]
    have e : (k * (m + 1) + 1 + j) % (m + 1) = j + 1 := by
      rw [Nat.add_assoc, Nat.mul_comm, Nat.mul_add_mod, Nat.mod_eq_of_lt (by omega)]; omega
    simp only [Option.map_some, e]
    rw [if_neg (by omega), Nat.add_sub_cancel]

/-- **C38**, a case: two events of 144 distinct words, `nmux = 2`, all links printed. -/
example : ∃ rows, mp7_file 2 0 144 [fun j => BitVec.ofNat 32 j.val, fun j => BitVec.ofNat 32 (200 + j.val)] = .ok rows ∧
    ∃ row, rows[1]? = some row ∧ row.2[72 + 3]? = some 207#32 := by
  obtain ⟨rows, h1, h2⟩ := C38_place (n := 2) 0 144 (by decide) (by decide) (by decide)
    [fun j => BitVec.ofNat 32 j.val, fun j => BitVec.ofNat 32 (200 + j.val)] (by decide)
  have := h2 1 (fun j => BitVec.ofNat 32 (200 + j.val)) rfl ⟨7, by decide⟩ (by decide)
  exact ⟨rows, h1, by simpa using this⟩

/-- **C39, partial.** The frames of complete groups are numbered 0, 1, 2, ...; those of an incomplete last group
are numbered from `n - nmux + 1` where `n` is the number of events written, which continues the numbering if and
only if exactly one event is missing.  Missing: consecutive numbering in the other cases, which is false. -/
theorem C39_numbering_partial {n : Nat} (nempty : Int) (nlinks : Nat) (hn0 : 0 < n) (hn : 144 % n = 0)
    (hl : nlinks ≤ 144) (evs : List MP7Event) (hP : evs.length * (nempty.natAbs + 1) < 2 ^ 32) :
    ∃ rows, mp7_file n nempty nlinks evs = .ok rows ∧
      rows.length = (evs.length * (nempty.natAbs + 1) + (n - 1)) / n * n ∧
      (∀ r (h : r < rows.length), r < evs.length * (nempty.natAbs + 1) / n * n → rows[r].1 = BitVec.ofNat 32 r) ∧
      (∀ r (h : r < rows.length), evs.length * (nempty.natAbs + 1) / n * n ≤ r →
        (rows[r].1 = BitVec.ofNat 32 r ↔ evs.length * (nempty.natAbs + 1) % n = n - 1)) := by
  obtain ⟨rows, h1, h2, h3⟩ := mp7_file_rows nempty nlinks hn0 hn hl evs hP
  refine ⟨rows, h1, h2, fun r h hr => by rw [h3 r h]; simp only []; rw [if_pos hr], fun r h hr => ?_⟩
  rw [h3 r h]
  simp only []
  rw [if_neg (by omega)]
  generalize hL : evs.length * (nempty.natAbs + 1) = L at *
  have hd := Nat.div_add_mod L n
  have hm := Nat.mod_lt L hn0
  have hn144 : n ≤ 144 := Nat.le_of_dvd (by decide) (Nat.dvd_of_mod_eq_zero hn)
  have hlt : r < L / n * n + n := by
    have : (L + (n - 1)) / n ≤ L / n + 1 := by
      rw [← Nat.lt_succ_iff, Nat.div_lt_iff_lt_mul hn0]
      have : (L / n + 1).succ * n = n * (L / n) + n + n := by rw [Nat.succ_mul, Nat.add_mul, Nat.mul_comm]; omega
      omega
    have := Nat.mul_le_mul_right n this
    rw [Nat.add_mul, Nat.one_mul] at this
    omega
  have hrm : r % n = r - L / n * n := by
    have e : r = n * (L / n) + (r - L / n * n) := by rw [Nat.mul_comm]; omega
    conv_lhs => rw [e]
    rw [Nat.mul_add_mod, Nat.mod_eq_of_lt (by omega)]
  have hr2 : r = n * (L / n) + r % n := by rw [hrm, Nat.mul_comm]; omega
  generalize r % n = t at *
  have hb : BitVec.ofNat 32 L = BitVec.ofNat 32 (n * (L / n)) + BitVec.ofNat 32 (L % n) := by
    rw [← BitVec.ofNat_add, hd]
  have hb2 : BitVec.ofNat 32 r = BitVec.ofNat 32 (n * (L / n)) + BitVec.ofNat 32 t := by
    rw [← BitVec.ofNat_add, ← hr2]
  rw [hb, hb2]
  have key : (BitVec.ofNat 32 (n * (L / n)) + BitVec.ofNat 32 (L % n) - BitVec.ofNat 32 n + 1 + BitVec.ofNat 32 t =
      BitVec.ofNat 32 (n * (L / n)) + BitVec.ofNat 32 t) ↔ BitVec.ofNat 32 (L % n) + 1 = BitVec.ofNat 32 n := by
    constructor
    · intro h
      have : BitVec.ofNat 32 (L % n) + 1 = (BitVec.ofNat 32 (n * (L / n)) + BitVec.ofNat 32 (L % n) - BitVec.ofNat 32 n + 1 + BitVec.ofNat 32 t) - BitVec.ofNat 32 (n * (L / n)) - BitVec.ofNat 32 t + BitVec.ofNat 32 n := by ring
      rw [this, h]; ring
    · intro h
      have : BitVec.ofNat 32 (n * (L / n)) + BitVec.ofNat 32 (L % n) - BitVec.ofNat 32 n + 1 + BitVec.ofNat 32 t = BitVec.ofNat 32 (n * (L / n)) + (BitVec.ofNat 32 (L % n) + 1) - BitVec.ofNat 32 n + BitVec.ofNat 32 t := by ring
      rw [this, h]; ring
  rw [key, bv_succ]
  constructor
  · intro h
    have := congrArg BitVec.toNat h
    rw [BitVec.toNat_ofNat, BitVec.toNat_ofNat, Nat.mod_eq_of_lt (show L % n + 1 < 2 ^ 32 by omega),
      Nat.mod_eq_of_lt (show n < 2 ^ 32 by omega)] at this
    omega
  · intro h
    rw [h]
    congr 1; omega

/-- **C39**, witness: one event with `nmux = 3` — the three frames are numbered 4294967295, 0, 1. -/
theorem C39_counterexample :
    (mp7_file 3 0 1 [fun _ => 7]).map (fun rows => rows.map (fun r => (r.1.toNat, r.2))) =
      .ok [(4294967295, [7]), (0, [7]), (1, [7])] := by
  decide +kernel

/-- **C40, partial.** When all 144 links are printed, no word of any event is dropped, whatever the number of
events.  Missing: the default number of links, for which it is false. -/
theorem C40_all_printed_partial {n : Nat} (nempty : Int) (hn0 : 0 < n) (hn : 144 % n = 0)
    (evs : List MP7Event) (hP : evs.length * (nempty.natAbs + 1) < 2 ^ 32) :
    ∃ rows, mp7_file n nempty 144 evs = .ok rows ∧
      ∀ e ev, (stream nempty.natAbs (decide (nempty < 0)) evs)[e]? = some ev → ∀ w : Fin 144,
        ∃ row, rows[(e / n) * n + w.val % n]? = some row ∧ row.2[(e % n) * (144 / n) + w.val / n]? = some (ev w) := by
  obtain ⟨rows, h1, h2⟩ := C38_place nempty 144 hn0 hn (le_refl _) evs hP
  refine ⟨rows, h1, fun e ev he w => h2 e ev he w ?_⟩
  rw [if_pos (by decide)]
  have hn' : n * (144 / n) = 144 := by have := Nat.div_add_mod 144 n; omega
  have hwd : w.val / n < 144 / n := Nat.div_lt_of_lt_mul (by rw [hn']; exact w.isLt)
  have hen := Nat.mod_lt e hn0
  calc (e % n) * (144 / n) + w.val / n < (e % n) * (144 / n) + 144 / n := by omega
    _ = (e % n + 1) * (144 / n) := by ring
    _ ≤ n * (144 / n) := Nat.mul_le_mul_right _ hen
    _ = 144 := hn'

/-- **C40**, the default number of links: the file does not depend on the events whose position in the stream is
not a multiple of `nmux` — their words are dropped. -/
theorem C40_default_drops {n : Nat} (hn0 : 0 < n) (hn : 144 % n = 0) (evs evs' : List MP7Event)
    (hlen : evs.length = evs'.length) (hP : evs.length < 2 ^ 32) (he : ∀ k, k % n = 0 → evs[k]? = evs'[k]?) :
    mp7_file n 0 0 evs = mp7_file n 0 0 evs' := by
  have hs : ∀ l : List MP7Event, stream 0 false l = l := by
    intro l
    apply List.ext_getElem?
    intro k
    by_cases hk : k < l.length
    · have := (C38_stream 0 false l k hk).1
      rw [Nat.zero_add, Nat.mul_one] at this
      rw [this, List.getElem?_eq_getElem hk]
    · rw [List.getElem?_eq_none (by rw [stream_length]; omega), List.getElem?_eq_none (by omega)]
  have h1 := mp7_file_eq 0 0 hn0 hn (by decide) evs (by simpa using hP)
  have h2 := mp7_file_eq 0 0 hn0 hn (by decide) evs' (by rw [← hlen]; simpa using hP)
  simp only [Int.natAbs_zero, show decide ((0 : Int) < 0) = false from rfl, hs] at h1 h2
  rw [h1, h2, hlen]
  have hrow : ∀ r, rowWords n (if (0 : Nat) ≠ 0 then 0 else 144 / n) evs r =
      rowWords n (if (0 : Nat) ≠ 0 then 0 else 144 / n) evs' r := by
    intro r
    unfold rowWords
    apply List.map_congr_left
    intro i hi
    have hi' := List.mem_range.mp hi
    rw [if_neg (by decide)] at hi'
    unfold evWord
    rw [Nat.div_eq_of_lt hi', Nat.add_zero, he _ (Nat.mul_mod_left _ _)]
  simp only [hrow]

/-- **C40**, witness: with the default links and `nmux = 2`, changing the second event does not change the file. -/
theorem C40_counterexample : mp7_file 2 0 0 [fun _ => 1, fun _ => 2] = mp7_file 2 0 0 [fun _ => 1, fun _ => 3] := by
  refine C40_default_drops (n := 2) (by decide) (by decide) [fun _ => 1, fun _ => 2] [fun _ => 1, fun _ => 3]
    rfl (by decide) ?_
  intro k hk
  match k with
  | 0 => rfl
  | 1 => simp at hk
  | k + 2 => simp

/-- **C41.** For every sequence of events of at most 144 channels, a CTP7 file has `min (6 * events) 1024` rows
numbered from 0; row `6k` holds the words of event `k`, the five rows after it as many zeros. -/
theorem C41_ctp7 (E : List (MP7Event × Nat)) (hE : ∀ e ∈ E, e.2 ≤ 144) :
    ∃ rows, ctp7_file 1 E = .ok rows ∧ rows.length = min (6 * E.length) 1024 ∧ rows.length ≤ 1024 ∧
      (∀ i (h : i < rows.length), rows[i].1 = BitVec.ofNat 32 i) ∧
      ∀ k ev n, E[k]? = some (ev, n) → ∀ j, j < 6 → 6 * k + j < 1024 →
        ∃ row, rows[6 * k + j]? = some row ∧ row.2.length = n ∧
          ∀ w (hw : w < 144), w < n → row.2[w]? = some (if j = 0 then ev ⟨w, hw⟩ else 0) := by
  refine ⟨_, ctp7_file_eq E hE, by simp, by simp, fun i h => by simp, fun k ev n hk j hj hlt => ?_⟩
  have hkl := (List.getElem?_eq_some_iff.mp hk).1
  refine ⟨_, by rw [List.getElem?_map, List.getElem?_range (by omega)]; rfl, ?_, fun w hw hwn => ?_⟩
  · simp only []
    unfold ctpRow
    rw [show (6 * k + j) / 6 = k by omega, hk]
    simp only []
    split <;> simp
  · simp only []
    unfold ctpRow
    rw [show (6 * k + j) / 6 = k by omega, hk, show (6 * k + j) % 6 = j by omega]
    simp only []
    by_cases h0 : j = 0
    · rw [if_pos h0, if_pos h0, List.getElem?_map, List.getElem?_range hwn]
      simp only [Option.map_some]
      rw [dif_pos hw]
    · rw [if_neg h0, if_neg h0, List.getElem?_replicate, if_pos hwn]

/-- **C41.** With a multiplexing factor other than 1 nothing is ever written. -/
theorem C41_muxed (nmux : Nat) (h : nmux ≠ 1) (E : List (MP7Event × Nat)) : ctp7_file nmux E = .ok [] :=
  ctp7_file_other nmux h E

/-- **C41**, a case: 171 events (1026 rows of room needed) of one word. -/
example : ∃ rows, ctp7_file 1 (List.replicate 171 (fun _ => 5#32, 1)) = .ok rows ∧ rows.length = 1024 ∧
    ∃ row, rows[1020]? = some row ∧ row.2[0]? = some 5#32 := by
  obtain ⟨rows, h1, h2, _, _, h5⟩ := C41_ctp7 (List.replicate 171 (fun _ => 5#32, 1))
    (fun e he => by rw [List.eq_of_mem_replicate he]; decide)
  refine ⟨rows, h1, by rw [h2, List.length_replicate]; rfl, ?_⟩
  obtain ⟨row, a1, _, a3⟩ := h5 170 (fun _ => 5#32) 1 (by rw [List.getElem?_replicate, if_pos (by omega)]) 0 (by omega) (by omega)
  exact ⟨row, a1, a3 0 (by omega) (by omega)⟩

/-- **C38/C41**, the misuses: a multiplexing factor of 0 divides by zero and one that does not divide 144 fails
the assertion. -/
theorem C38_bad_nmux (nempty : Int) (nlinks : Nat) (evs : List MP7Event) :
    mp7_file 0 nempty nlinks evs = .error .divByZero ∧
      ∀ n, 1 < n → 144 % n ≠ 0 → mp7_file n nempty nlinks evs = .error .assertFail := by
  refine ⟨rfl, fun n h1 h2 => ?_⟩
  unfold mp7_file mp7_new
  rw [if_neg (by omega)]
  simp only []
  rw [if_pos h1]
  unfold cassert
  rw [if_neg (by simpa using h2)]
  rfl

end Verif
