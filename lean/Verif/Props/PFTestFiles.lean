import Verif.Model.PFTestFiles
import Verif.Props.PFTest
import Verif.Props.Text
import Verif.Props.Serializer
/-! # The files written by the PF test bench: property C67 -/
namespace Verif
open Spec
variable {NT NC NE NM NS nin nout : Nat}

/-- Words of an array, as numbers. -/
def wordsOf {n : Nat} (d : Arr n Word) : List Nat := (List.ofFn d).map (·.toNat)

theorem mapM_range_some {C : Type} (f : Nat → Option C) {n : Nat} (g : Fin n → C) (h : ∀ i : Fin n, f i.val = some (g i)) :
    (List.range n).mapM f = some (List.ofFn g) := by
  have e : List.range n = (List.finRange n).map (·.val) := by
    rw [← List.ofFn_id, List.map_ofFn]
    apply List.ext_getElem
    · simp
    · intro i h1 h2; simp
  have key : ∀ l : List (Fin n), (l.map (·.val)).mapM f = some (l.map g) := by
    intro l
    induction l with
    | nil => rfl
    | cons a l ih =>
      rw [List.map_cons, List.mapM_cons, h a, ih]
      rfl
  rw [e, key, List.ofFn_eq_map]

/-- **C67.** With an event of `II` rows followed by `II - 1` fillers (zero or magic), or with one row per event, the pattern
file is complete: it has `II` rows per event, numbered consecutively from 0, and every word of every event can be read
back from its text, although only `144 / II` links are printed. -/
theorem C67_pattern (board : List Char) (hb : '\n' ∉ board) (II : Nat) (h0 : 0 < II) (h1 : 144 % II = 0) (nempty : Int)
    (hne : nempty.natAbs + 1 = II) (evs : List MP7Event) (hP : evs.length * II < 2 ^ 32) :
    ∃ t rows, mp7_text board II nempty 0 evs = .ok t ∧ mp7Board t = some board ∧ mp7Read t = some rows ∧
      rows.length = evs.length * II ∧ (∀ r (h : r < rows.length), rows[r].1 = r ∧ rows[r].2.length = 144 / II) ∧
      ∀ k (h : k < evs.length), fileEvent II k rows = some (wordsOf evs[k]) := by
  rw [← hne] at hP
  obtain ⟨rows, r1, r2, r3⟩ := mp7_file_rows nempty 0 h0 h1 (by omega) evs hP
  obtain ⟨rows', r1', p3⟩ := C38_place nempty 0 h0 h1 (by omega) evs hP
  rw [r1] at r1'
  cases r1'
  rw [hne] at r2 r3 hP
  have hlen : rows.length = evs.length * II := by
    rw [r2, Nat.mul_comm evs.length II, Nat.mul_add_div h0, Nat.div_eq_of_lt (show II - 1 < II by omega), Nat.add_zero, Nat.mul_comm]
  obtain ⟨t, ht, hread⟩ := C64_mp7 board hb II nempty 0 evs rows r1
  refine ⟨t, _, ht, C64_headers.1 board II nempty 0 evs t hb ht, hread, by rw [List.length_map, hlen], fun r h => ?_, fun k h => ?_⟩
  · rw [List.length_map] at h
    rw [List.getElem_map, r3 r h]
    have hr : r < evs.length * II / II * II := by rw [Nat.mul_div_cancel _ h0, ← hlen]; exact h
    simp only [if_pos hr]
    refine ⟨?_, ?_⟩
    · rw [BitVec.toNat_ofNat, Nat.mod_eq_of_lt (by rw [hlen] at h; omega)]
    · unfold rowWords
      simp
  · unfold fileEvent
    have hst := (C38_stream nempty.natAbs (decide (nempty < 0)) evs k h).1
    rw [hne] at hst
    rw [show wordsOf evs[k] = List.ofFn fun w => (evs[k] w).toNat by unfold wordsOf; rw [List.map_ofFn]; rfl]
    refine mapM_range_some _ _ fun w => ?_
    have hn' : II * (144 / II) = 144 := by have := Nat.div_add_mod 144 II; omega
    obtain ⟨row, hr, hw⟩ := p3 _ _ hst w (by
      rw [Nat.mul_mod_left, Nat.zero_mul, Nat.zero_add, if_neg (by simp)]
      exact Nat.div_lt_of_lt_mul (by rw [hn']; exact w.isLt))
    rw [Nat.mul_div_cancel _ h0] at hr
    rw [Nat.mul_mod_left, Nat.zero_mul, Nat.zero_add] at hw
    rw [List.getElem?_map, hr]
    simp only [Option.map_some, Option.bind_some]
    rw [List.getElem?_map, hw]
    rfl

/-- **C67.** The six MP7 files of the bench: the events come back from each of the three input files and each of the three
output files, and the first line of each reads `Board Board MP7_L1PF`. -/
theorem C67_mp7_files (II : Nat) (h0 : 0 < II) (h1 : 144 % II = 0) (evs : List (TestEvent NT NC NE NM NS 144 144)) (hP : evs.length * II < 2 ^ 32) :
    ∃ i1 o1 i2 o2 i3 o3, mp7Files II evs = [.ok i1, .ok o1, .ok i2, .ok o2, .ok i3, .ok o3] ∧
      (∀ t ∈ [i1, o1, i2, o2, i3, o3], (lines t).head? = some "Board Board MP7_L1PF".toList) ∧
      ∃ ri1 ro1 ri2 ro2 ri3 ro3, [i1, o1, i2, o2, i3, o3].map mp7Read = [ri1, ro1, ri2, ro2, ri3, ro3].map some ∧
        ∀ k (h : k < evs.length),
          [fileEvent II k ri1, fileEvent II k ri2, fileEvent 1 k ri3] = List.replicate 3 (some (wordsOf evs[k].data_in)) ∧
          [fileEvent II k ro1, fileEvent II k ro2, fileEvent 1 k ro3] = List.replicate 3 (some (wordsOf evs[k].data_out)) := by
  have hb : '\n' ∉ defaultBoard := by decide
  have hP1 : evs.length * 1 < 2 ^ 32 := lt_of_le_of_lt (Nat.mul_le_mul_left _ h0) hP
  have go : ∀ (n : Nat) (_ : 0 < n) (_ : 144 % n = 0) (nempty : Int) (_ : nempty.natAbs + 1 = n) (_ : evs.length * n < 2 ^ 32)
      (f : TestEvent NT NC NE NM NS 144 144 → Arr 144 Word),
      ∃ t rows, mp7_text defaultBoard n nempty 0 (evs.map f) = .ok t ∧ (lines t).head? = some "Board Board MP7_L1PF".toList ∧ mp7Read t = some rows ∧
        ∀ k (h : k < evs.length), fileEvent n k rows = some (wordsOf (f evs[k])) := by
    intro n a b nempty c d f
    obtain ⟨t, rows, h1, h2, h3, _, _, h4⟩ := C67_pattern defaultBoard hb n a b nempty c (evs.map f) (by simpa using d)
    refine ⟨t, rows, h1, ?_, h3, fun k h => by rw [h4 k (by simpa using h), List.getElem_map]⟩
    unfold mp7Board at h2
    split at h2
    · rename_i l ls hl
      split at h2
      · rename_i hpre
        rw [hl, List.head?_cons]
        rw [List.isPrefixOf_iff_prefix] at hpre
        obtain ⟨u, rfl⟩ := hpre
        rw [show 6 = "Board ".toList.length by decide, List.drop_left, Option.some.injEq] at h2
        rw [h2]
        decide
      · cases h2
    · cases h2
  obtain ⟨i1, ri1, a1, b1, c1, d1⟩ := go II h0 h1 ((II : Int) - 1) (by omega) hP (·.data_in)
  obtain ⟨o1, ro1, a2, b2, c2, d2⟩ := go II h0 h1 ((II : Int) - 1) (by omega) hP (·.data_out)
  obtain ⟨i2, ri2, a3, b3, c3, d3⟩ := go II h0 h1 (-(II : Int) + 1) (by omega) hP (·.data_in)
  obtain ⟨o2, ro2, a4, b4, c4, d4⟩ := go II h0 h1 (-(II : Int) + 1) (by omega) hP (·.data_out)
  obtain ⟨i3, ri3, a5, b5, c5, d5⟩ := go 1 (by omega) (by omega) 0 (by omega) hP1 (·.data_in)
  obtain ⟨o3, ro3, a6, b6, c6, d6⟩ := go 1 (by omega) (by omega) 0 (by omega) hP1 (·.data_out)
  refine ⟨i1, o1, i2, o2, i3, o3, ?_, ?_, ri1, ro1, ri2, ro2, ri3, ro3, ?_, fun k h => ?_⟩
  · unfold mp7Files
    rw [a1, a2, a3, a4, a5, a6]
  · intro t ht
    simp only [List.mem_cons, List.not_mem_nil, or_false] at ht
    rcases ht with rfl | rfl | rfl | rfl | rfl | rfl <;> assumption
  · simp only [List.map_cons, List.map_nil, c1, c2, c3, c4, c5, c6]
  · rw [d1 k h, d2 k h, d3 k h, d4 k h, d5 k h, d6 k h]
    exact ⟨rfl, rfl⟩

/-- **C67.** The CTP7 files have room for 171 events: the words of these come back, from every sixth row; the further
events are not in the file. -/
theorem C67_ctp7_files (hi : nin ≤ 144) (ho : nout ≤ 144) (evs : List (TestEvent NT NC NE NM NS nin nout)) :
    ∃ i o ri ro, ctp7Files evs = [.ok i, .ok o] ∧ ctp7Header i = some (true, List.range nin) ∧ ctp7Header o = some (false, List.range nout) ∧
      ctp7Read i = some ri ∧ ctp7Read o = some ro ∧ ri.length = min (6 * evs.length) 1024 ∧ ro.length = min (6 * evs.length) 1024 ∧
      (∀ k (h : k < evs.length), k < 171 → ri[6 * k]? = some (6 * k, wordsOf evs[k].data_in) ∧ ro[6 * k]? = some (6 * k, wordsOf evs[k].data_out)) ∧
      ctp7Files evs = ctp7Files (evs.take 171) := by
  have go : ∀ (n : Nat) (_ : n ≤ 144) (isIn : Bool) (f : TestEvent NT NC NE NM NS nin nout → Arr n Word),
      ∃ t rows, ctp7_text n isIn 1 (evs.map fun e => asEvent (f e)) = .ok t ∧ ctp7Header t = some (isIn, List.range n) ∧ ctp7Read t = some rows ∧
        rows.length = min (6 * evs.length) 1024 ∧ (∀ k (h : k < evs.length), k < 171 → rows[6 * k]? = some (6 * k, wordsOf (f evs[k]))) ∧
        ctp7_text n isIn 1 ((evs.take 171).map fun e => asEvent (f e)) = .ok t := by
    intro n hn isIn f
    have hE : ∀ l : List (TestEvent NT NC NE NM NS nin nout), ∀ e ∈ l.map (fun e => asEvent (f e)), e.2 ≤ 144 := by
      intro l e he
      obtain ⟨x, _, rfl⟩ := List.mem_map.mp he
      exact hn
    obtain ⟨rows, h1, h2, _, h4, h5⟩ := C41_ctp7 (evs.map fun e => asEvent (f e)) (hE _)
    obtain ⟨t, t1, t2⟩ := C64_ctp7 n isIn 1 _ rows h1
    refine ⟨t, _, t1, C64_headers.2 n isIn 1 _ t t1, t2, by rw [List.length_map, h2, List.length_map], fun k h hk => ?_, ?_⟩
    · obtain ⟨row, r1, r2, r3⟩ := h5 k (asEvent (f evs[k])).1 n (by rw [List.getElem?_map, List.getElem?_eq_getElem h]; rfl) 0 (by omega) (by omega)
      rw [Nat.add_zero] at r1
      obtain ⟨hlt, he⟩ := List.getElem?_eq_some_iff.mp r1
      have hnum := h4 _ hlt
      rw [he] at hnum
      rw [List.getElem?_map, r1, Option.map_some, Option.some.injEq, Prod.mk.injEq]
      refine ⟨by rw [hnum, BitVec.toNat_ofNat, Nat.mod_eq_of_lt (by omega)], ?_⟩
      unfold wordsOf
      congr 1
      apply List.ext_getElem
      · rw [r2, List.length_ofFn]
      · intro i i1 i2
        rw [List.length_ofFn] at i2
        have := r3 i (by omega) i2
        rw [List.getElem?_eq_getElem i1, Option.some.injEq, if_pos rfl] at this
        rw [this, List.getElem_ofFn]
        unfold asEvent
        simp only [dif_pos i2]
    · obtain ⟨rows', h1', _⟩ := C41_ctp7 ((evs.take 171).map fun e => asEvent (f e)) (hE _)
      have he : ctp7_file 1 ((evs.take 171).map fun e => asEvent (f e)) = ctp7_file 1 (evs.map fun e => asEvent (f e)) := by
        rw [ctp7_file_eq _ (hE _), ctp7_file_eq _ (hE _)]
        have hl : min (6 * ((evs.take 171).map fun e => asEvent (f e)).length) 1024 = min (6 * (evs.map fun e => asEvent (f e)).length) 1024 := by
          rw [List.length_map, List.length_map, List.length_take]
          omega
        rw [hl]
        congr 1
        apply List.map_congr_left
        intro r hr
        rw [List.mem_range] at hr
        unfold ctpRow
        rw [List.map_take, List.getElem?_take_of_lt (by omega)]
      unfold ctp7_text at t1 ⊢
      rw [he]
      exact t1
  obtain ⟨i, ri, a1, b1, c1, d1, e1, f1⟩ := go nin hi true (·.data_in)
  obtain ⟨o, ro, a2, b2, c2, d2, e2, f2⟩ := go nout ho false (·.data_out)
  refine ⟨i, o, ri, ro, ?_, b1, b2, c1, c2, d1, d2, fun k h hk => ⟨e1 k h hk, e2 k h hk⟩, ?_⟩
  · unfold ctp7Files
    rw [a1, a2]
  · unfold ctp7Files
    rw [a1, a2, f1, f2]

/-- **C67.** The run that writes the files is the run whose exit status C54 describes. -/
theorem C67_status (validate : Bool) (fall : Option Bool) (zpv : BitVec 32 → Z0) (junk : Nat → TestJunk NT NC NE NM NS) :
    ∀ (n : Nat) (s : DumpReader) (inp : PFInputs NT NC NE NM) (z : Z0) (out ref : PFOutputs NT NE NS NM),
      (pfTestTrace nin nout validate fall zpv junk n s inp z out ref).map Prod.fst =
        pfTestLoop (.wrapped nin nout validate) fall zpv junk n s inp z out ref := by
  intro n
  induction n with
  | zero => intros; rfl
  | succ n ih =>
    intro s inp z out ref
    unfold pfTestTrace pfTestLoop
    cases s.nextRegion fall zpv (initInputs inp) z with
    | error e => rfl
    | ok x =>
      obtain ⟨b, s', inp', z'⟩ := x
      rw [Run.ok_bind, Run.ok_bind]
      cases b with
      | false => rfl
      | true =>
        simp only [Bool.not_true, Bool.false_eq_true, if_false]
        cases pfalgo3_full_ref inp' ref (junk n).memref with
        | error e => rfl
        | ok ref' =>
          rw [Run.ok_bind, Run.ok_bind]
          unfold wrappedTest underTest
          simp only []
          cases mp7wrapped_pack_in inp' (fun _ : Fin nin => (0 : Word)) with
          | error e => rfl
          | ok d =>
            rw [Run.ok_bind, Run.ok_bind]
            cases mp7wrapped_pfalgo3_full NT NC NE NM NS d (fun _ : Fin nout => (0 : Word)) (junk n).pf0 (junk n).mem with
            | error e => rfl
            | ok w =>
              rw [Run.ok_bind, Run.ok_bind]
              cases mp7wrapped_unpack_out out w with
              | error e => rfl
              | ok o =>
                rw [Run.ok_bind, Run.ok_bind, Run.ok_bind]
                by_cases hv : (validate && decide (countErrors ref' o ≠ 0)) = true
                · rw [if_pos hv]
                  exact (if_pos hv).symm
                · rw [if_neg hv]
                  refine Eq.trans ?_ (if_neg hv).symm
                  rw [← ih]
                  cases pfTestTrace nin nout validate fall zpv junk n s' inp' z' o ref' with
                  | error e => rfl
                  | ok x => rfl

/-- A correct test vector: the input words are the packed inputs, the output words the packed outputs, and the outputs are
what the algorithm gives on the inputs (the PUPPI pt is not part of it). -/
def IsVector (e : TestEvent NT NC NE NM NS nin nout) : Prop :=
  mp7wrapped_unpack_in e.data_in = .ok e.inp ∧
  (∀ old, mp7wrapped_unpack_out old e.data_out = .ok
    { outch := e.out.outch, outpho := fun i => { e.out.outpho i with hwPtPuppi := (old.outpho i).hwPtPuppi },
      outne := fun i => { e.out.outne i with hwPtPuppi := (old.outne i).hwPtPuppi }, outmu := e.out.outmu }) ∧
  ∃ (old : PFOutputs NT NE NS NM) (mem : PFScratch NC NS) (o : PFOutputs NT NE NS NM), pfalgo3_full e.inp old mem = .ok o ∧
    e.out.outch = o.outch ∧ (∀ i, SameButPuppi (e.out.outpho i) (o.outpho i)) ∧ (∀ i, SameButPuppi (e.out.outne i) (o.outne i)) ∧
    e.out.outmu = o.outmu

theorem wrappedTest_vector (hi : 2 * NE + 2 * NT + 2 * NC + 2 * NM ≤ min nin MP7_NCHANN) (ho : 2 * NT + 2 * NE + 2 * NS + 2 * NM ≤ min nout MP7_NCHANN)
    (inp : PFInputs NT NC NE NM) (out : PFOutputs NT NE NS NM) (junk : TestJunk NT NC NE NM NS) (e : TestEvent NT NC NE NM NS nin nout)
    (h : wrappedTest nin nout inp out junk = .ok e) : e.inp = inp ∧ IsVector e := by
  unfold wrappedTest at h
  simp only [] at h
  rw [pack_in_eq _ _ hi, Run.ok_bind] at h
  unfold mp7wrapped_pfalgo3_full at h
  rw [unpack_in_packedIn _ _ hi, Run.ok_bind] at h
  cases hf : pfalgo3_full inp junk.pf0 junk.mem with
  | error e => rw [hf] at h; cases h
  | ok o =>
    rw [hf, Run.ok_bind, pack_out_eq _ _ ho, Run.ok_bind, unpack_out_packedOut _ _ _ ho, Run.ok_bind] at h
    cases h
    refine ⟨rfl, unpack_in_packedIn _ _ hi, fun old => ?_, junk.pf0, junk.mem, o, hf, rfl, fun i => ⟨rfl, rfl, rfl, rfl⟩, fun i => ⟨rfl, rfl, rfl, rfl⟩, rfl⟩
    exact unpack_out_packedOut _ _ _ ho

theorem trace_spec (hi : 2 * NE + 2 * NT + 2 * NC + 2 * NM ≤ min nin MP7_NCHANN) (ho : 2 * NT + 2 * NE + 2 * NS + 2 * NM ≤ min nout MP7_NCHANN)
    (validate : Bool) (zpv : BitVec 32 → Z0) (junk : Nat → TestJunk NT NC NE NM NS) :
    ∀ (n : Nat) (L : List (InputRegion × BitVec 32)) (s : DumpReader), Pend s L → ∀ (inp : PFInputs NT NC NE NM) (z : Z0) (out ref : PFOutputs NT NE NS NM)
      (st : Int) (evs : List (TestEvent NT NC NE NM NS nin nout)), pfTestTrace nin nout validate (some true) zpv junk n s inp z out ref = .ok (st, evs) →
      evs.map (·.inp) = ((L.take n).take evs.length).map (fun x => regionInputs NT NC NE NM x.1) ∧ (∀ e ∈ evs, IsVector e) ∧
      (st = 0 ∧ evs.length = (L.take n).length ∨ st = 1 ∧ validate = true ∧ evs ≠ []) := by
  intro n
  induction n with
  | zero =>
    intro L s hs inp z out ref st evs h
    unfold pfTestTrace at h
    cases h
    exact ⟨by simp, fun e he => (by cases he), Or.inl ⟨rfl, by simp⟩⟩
  | succ n ih =>
    intro L s hs inp z out ref st evs h
    unfold pfTestTrace at h
    cases L with
    | nil =>
      obtain ⟨s', hn⟩ := nextRegion_nil zpv hs (initInputs inp) z
      rw [hn] at h
      cases h
      exact ⟨by simp, fun e he => (by cases he), Or.inl ⟨rfl, by simp⟩⟩
    | cons x xs =>
      obtain ⟨s', h1, h2⟩ := nextRegion_cons zpv hs (initInputs inp) z
      rw [h1, Run.ok_bind] at h
      simp only [Bool.not_true, Bool.false_eq_true, if_false] at h
      obtain ⟨ref', _, h⟩ := Run.bind_eq_ok.mp h
      obtain ⟨e, he, h⟩ := Run.bind_eq_ok.mp h
      obtain ⟨e1, e2⟩ := wrappedTest_vector hi ho _ _ _ e he
      split at h
      · rename_i hv
        cases h
        rw [Bool.and_eq_true] at hv
        refine ⟨by simp [e1], fun y hy => ?_, Or.inr ⟨rfl, hv.1, by simp⟩⟩
        rw [List.mem_singleton] at hy
        exact hy ▸ e2
      · obtain ⟨⟨r, l⟩, hr, h⟩ := Run.bind_eq_ok.mp h
        cases h
        obtain ⟨a, b, c⟩ := ih xs s' h2 _ _ _ _ _ l hr
        refine ⟨?_, List.forall_mem_cons.mpr ⟨e2, b⟩, ?_⟩
        · rw [List.map_cons, a, e1, List.take_succ_cons, List.length_cons, List.take_succ_cons, List.map_cons]
        · rcases c with ⟨c1, c2⟩ | ⟨c1, c2, c3⟩
          · exact Or.inl ⟨c1, by rw [List.length_cons, c2, List.take_succ_cons, List.length_cons]⟩
          · exact Or.inr ⟨c1, c2, by simp⟩

/-- **C67.** In the wrapped builds, on every well-formed dump: whatever the exit status, all events written are correct test
vectors, for the first barrel regions of the dump in order; with exit status 0 for all of them (at most 500).  The
other exit status is 1, only with validation on. -/
theorem C67_vectors (hi : 2 * NE + 2 * NT + 2 * NC + 2 * NM ≤ min nin MP7_NCHANN) (ho : 2 * NT + 2 * NE + 2 * NS + 2 * NM ≤ min nout MP7_NCHANN)
    (validate : Bool) (zpv : BitVec 32 → Z0) (dump : List DumpEvent) (hev : ∀ e ∈ dump, eventFits e ∧ e.event ≠ 0 ∧ e.regions ≠ [])
    (fjunk : Nat → BitVec 32) (genZ0 : BitVec 32) (junk : Nat → TestJunk NT NC NE NM NS) (inp : PFInputs NT NC NE NM) (z : Z0)
    (out ref : PFOutputs NT NE NS NM) (st : Int) (evs : List (TestEvent NT NC NE NM NS nin nout))
    (h : pfTestTrace nin nout validate (some true) zpv junk NTEST (DumpReader.new genZ0 ⟨dump.flatMap eventBytes, false, fjunk⟩) inp z out ref = .ok (st, evs)) :
    (∀ e ∈ evs, IsVector e) ∧ evs.length ≤ 500 ∧
      evs.map (·.inp) = ((barrel dump).take evs.length).map (fun x => regionInputs NT NC NE NM x.1) ∧
      (st = 0 ∧ evs.length = min 500 (barrel dump).length ∨ st = 1 ∧ validate = true ∧ evs ≠ []) := by
  have hp : Pend (DumpReader.new genZ0 ⟨dump.flatMap eventBytes, false, fjunk⟩) (barrel dump) :=
    Or.inl ⟨dump, hev, rfl, rfl, Or.inl ⟨rfl, rfl⟩⟩
  obtain ⟨a, b, c⟩ := trace_spec hi ho validate zpv junk 500 _ _ hp inp z out ref st evs h
  have hlen : evs.length ≤ 500 := by
    have := congrArg List.length a
    rw [List.length_map, List.length_map, List.length_take, List.length_take] at this
    omega
  rw [List.length_take] at c
  refine ⟨b, hlen, ?_, c⟩
  rw [a, List.take_take, min_eq_left hlen]

theorem IsVector.agree {e : TestEvent NT NC NE NM NS nin nout} (h : IsVector e) :
    ∃ (old : PFOutputs NT NE NS NM) (mem : PFScratch NC NS) (o : PFOutputs NT NE NS NM), pfalgo3_full e.inp old mem = .ok o ∧ Agree o e.out := by
  obtain ⟨_, _, old, mem, o, h1, h2, h3, h4, h5⟩ := h
  refine ⟨old, mem, o, h1, fun i => ?_, fun i => ?_, fun i => ?_, fun i => ?_⟩
  · rw [h2]; exact sameObj_ch.refl _
  · exact sameObj_ne.symm (h3 i).obj
  · exact sameObj_ne.symm (h4 i).obj
  · rw [h5]; exact sameObj_ch.refl _

/-- **C67.** With validation on, whatever the dump file: with exit status 0 firmware and reference agree on every event
written; with exit status 1 the last event written is one on which they differ, and they agree on all events before it. -/
theorem C67_verdict (hi : 2 * NE + 2 * NT + 2 * NC + 2 * NM ≤ min nin MP7_NCHANN) (ho : 2 * NT + 2 * NE + 2 * NS + 2 * NM ≤ min nout MP7_NCHANN)
    (fall : Option Bool) (zpv : BitVec 32 → Z0) (junk : Nat → TestJunk NT NC NE NM NS) :
    ∀ (n : Nat) (s : DumpReader) (inp : PFInputs NT NC NE NM) (z : Z0) (out ref : PFOutputs NT NE NS NM)
      (st : Int) (evs : List (TestEvent NT NC NE NM NS nin nout)), pfTestTrace nin nout true fall zpv junk n s inp z out ref = .ok (st, evs) →
      (st = 0 ∧ ∀ e ∈ evs, Passes NS e.inp) ∨
      (st = 1 ∧ ∃ pre e, evs = pre ++ [e] ∧ (∀ e' ∈ pre, Passes NS e'.inp) ∧ Differs NS e.inp) := by
  intro n
  induction n with
  | zero =>
    intro s inp z out ref st evs h
    unfold pfTestTrace at h
    cases h
    exact Or.inl ⟨rfl, fun e he => (by cases he)⟩
  | succ n ih =>
    intro s inp z out ref st evs h
    unfold pfTestTrace at h
    obtain ⟨⟨b, s', inp', z'⟩, _, h⟩ := Run.bind_eq_ok.mp h
    cases b with
    | false =>
      cases h
      exact Or.inl ⟨rfl, fun e he => (by cases he)⟩
    | true =>
      simp only [Bool.not_true, Bool.false_eq_true, if_false] at h
      obtain ⟨ref', hr, h⟩ := Run.bind_eq_ok.mp h
      obtain ⟨e, he, h⟩ := Run.bind_eq_ok.mp h
      obtain ⟨e1, e2⟩ := wrappedTest_vector hi ho _ _ _ e he
      obtain ⟨old, mem, o, ho', hag⟩ := e2.agree
      rw [← e1] at hr
      obtain ⟨d1, d2, _⟩ := decides e.inp old ref mem (junk n).memref
      split at h
      · rename_i hv
        cases h
        rw [Bool.true_and, decide_eq_true_iff, ne_eq, countErrors_eq_zero] at hv
        exact Or.inr ⟨rfl, [], e, rfl, fun _ h => (by cases h),
          d2 ⟨o, ref', ho', hr, fun h => hv (agree_equivalence.trans h hag)⟩⟩
      · rename_i hv
        rw [Bool.true_and, decide_eq_true_iff, not_not, countErrors_eq_zero] at hv
        have hp : Passes NS e.inp := d1 ⟨o, ref', ho', hr, agree_equivalence.trans hv (agree_equivalence.symm hag)⟩
        obtain ⟨⟨r, l⟩, hl, h⟩ := Run.bind_eq_ok.mp h
        cases h
        rcases ih _ _ _ _ _ _ _ hl with ⟨a, b⟩ | ⟨a, pre, x, b, c, d⟩
        · exact Or.inl ⟨a, List.forall_mem_cons.mpr ⟨hp, b⟩⟩
        · exact Or.inr ⟨a, e :: pre, x, by rw [b, List.cons_append], List.forall_mem_cons.mpr ⟨hp, c⟩, d⟩

/-- **C67.** The human-readable file of the bench: for every event its number, its inputs and its outputs. -/
theorem C67_human_readable (evs : List (TestEvent NT NC NE NM NS nin nout)) (hn : evs.length ≤ 500) :
    ints (hrTestFile evs) = evs.zipIdx.flatMap fun e => (e.2 : Int) :: (inputNumbers e.1.inp ++ outputNumbers e.1.out) := by
  unfold hrTestFile
  rw [C65_human_readable _ (by rw [List.length_map]; omega), List.zipIdx_map, List.flatMap_map]
  rfl

/-- **C67**, non-vacuity: the MP7 bench on a dump with the ordinary region writes one event, and it is a correct vector. -/
example (zpv : BitVec 32 → Z0) (fjunk : Nat → BitVec 32) (genZ0 : BitVec 32) (junk : Nat → TestJunk 3 2 2 1 2)
    (inp : PFInputs 3 2 2 1) (z : Z0) (out ref : PFOutputs 3 2 2 1) :
    ∃ e : TestEvent 3 2 2 1 2 144 144, pfTestTrace 144 144 true (some true) zpv junk NTEST
        (DumpReader.new genZ0 ⟨[eventOf [ordinaryRegion]].flatMap eventBytes, false, fjunk⟩) inp z out ref = .ok (0, [e]) ∧
      IsVector e ∧ e.inp = regionInputs 3 2 2 1 (keepRegion ordinaryRegion) := by
  have hev : ∀ e ∈ [eventOf [ordinaryRegion]], eventFits e ∧ e.event ≠ 0 ∧ e.regions ≠ [] := by
    intro e he
    rw [List.mem_singleton] at he
    subst he
    refine ⟨⟨by decide, fun r hr => ?_⟩, by decide, by decide⟩
    have hr : r ∈ [ordinaryRegion] := hr
    rw [List.mem_singleton] at hr
    subst hr
    exact ⟨by decide, by decide, by decide, by decide⟩
  have h0 := C54_physical_passes (NT := 3) (NC := 2) (NE := 2) (NM := 1) (NS := 2) (kind := .wrapped 144 144 true)
    ⟨by decide, by decide⟩ rfl zpv [eventOf [ordinaryRegion]] hev fjunk genZ0 junk inp z out ref (by
      intro x hx
      rw [show barrel [eventOf [ordinaryRegion]] = [(keepRegion ordinaryRegion, 0)] from rfl, List.mem_singleton] at hx
      subst hx
      exact ⟨⟨by decide, by decide, by decide, by decide, by decide, by decide, by decide, by decide, by decide, by decide⟩,
        by decide, by decide, by decide⟩)
  unfold pfTestMain at h0
  rw [← C67_status] at h0
  cases ht : pfTestTrace 144 144 true (some true) zpv junk NTEST
      (DumpReader.new genZ0 ⟨[eventOf [ordinaryRegion]].flatMap eventBytes, false, fjunk⟩) inp z out ref with
  | error e => rw [ht] at h0; cases h0
  | ok x =>
    obtain ⟨st, evs⟩ := x
    rw [ht] at h0
    have h0 : (.ok st : Run Int) = .ok 0 := h0
    injection h0 with h0
    subst h0
    obtain ⟨a, _, b, c⟩ := C67_vectors (by decide) (by decide) true zpv _ hev fjunk genZ0 junk inp z out ref _ evs ht
    rw [show barrel [eventOf [ordinaryRegion]] = [(keepRegion ordinaryRegion, 0)] from rfl] at b c
    rcases c with ⟨_, c⟩ | ⟨c, _⟩
    · match evs, a, b, c with
      | [e], a, b, _ =>
        refine ⟨e, rfl, a e List.mem_cons_self, ?_⟩
        simpa using b
    · cases c

end Verif
