import Verif.Proofs.Layout
/-!
# MP7 encoding: properties C17, C18, C19, C20
-/
namespace Verif
open Spec

variable {NT NC NE NM NS N : Nat}

/-- **C17.** Whatever the input objects and whatever the channels contained, packing succeeds when
the channels suffice, and unpacking gives back exactly the same objects. -/
theorem C17_pack_in_roundtrip (inp : PFInputs NT NC NE NM) (data : Arr N Word)
    (h : 2 * NE + 2 * NT + 2 * NC + 2 * NM ≤ min N MP7_NCHANN) :
    (do let d ← mp7wrapped_pack_in inp data; mp7wrapped_unpack_in d) = (.ok inp : Run _) := by
  rw [pack_in_eq _ _ h, Run.ok_bind, unpack_in_packedIn _ _ h]

/-- Packing is injective: two events with the same channel words are the same event. -/
theorem C17_pack_in_injective (a b : PFInputs NT NC NE NM) (da db : Arr N Word)
    (h : 2 * NE + 2 * NT + 2 * NC + 2 * NM ≤ min N MP7_NCHANN)
    (e : mp7wrapped_pack_in a da = mp7wrapped_pack_in b db) : a = b := by
  have ha := C17_pack_in_roundtrip a da h
  have hb := C17_pack_in_roundtrip b db h
  rw [e] at ha
  rw [ha] at hb
  injection hb

theorem packed_zeros {n : Nat} (OFFS m : Nat) : packed (n := n) (N := N) OFFS m (fun _ => 0) (fun _ => 0) (fun _ => 0) = fun _ => 0 := by
  funext k
  unfold packed
  split
  · split <;> rfl
  · rfl

/-- **C17.** Idle channels are empty objects: an event is sent as words that are all zero exactly if every field of
every object is zero, and that is what a receiver makes of such words. -/
theorem C17_empty (h : 2 * NE + 2 * NT + 2 * NC + 2 * NM ≤ min N MP7_NCHANN) (inp : PFInputs NT NC NE NM) :
    (mp7wrapped_pack_in inp (fun _ : Fin N => 0) = .ok (fun _ => 0) ↔
      inp = ⟨fun _ => EmCaloObj.clear, fun _ => HadCaloObj.clear, fun _ => TkObj.clear, fun _ => MuObj.clear⟩) ∧
    (mp7wrapped_unpack_in (fun _ : Fin N => 0) : Run (PFInputs NT NC NE NM)) =
      .ok ⟨fun _ => EmCaloObj.clear, fun _ => HadCaloObj.clear, fun _ => TkObj.clear, fun _ => MuObj.clear⟩ := by
  have hz : packedIn (N := N) (⟨fun _ => EmCaloObj.clear, fun _ => HadCaloObj.clear, fun _ => TkObj.clear, fun _ => MuObj.clear⟩ :
      PFInputs NT NC NE NM) (fun _ => 0) = fun _ => 0 := by
    have w1 : EmCaloObj.clear.hwPtErr ++ EmCaloObj.clear.hwPt = (0 : Word) := by decide
    have w2 : (EmCaloObj.clear.hwPhi ++ EmCaloObj.clear.hwEta).setWidth 32 = (0 : Word) := by decide
    have w3 : HadCaloObj.clear.hwEmPt ++ HadCaloObj.clear.hwPt = (0 : Word) := by decide
    have w4 : (BitVec.ofBool HadCaloObj.clear.hwIsEM ++ HadCaloObj.clear.hwPhi ++ HadCaloObj.clear.hwEta).setWidth 32 = (0 : Word) := by decide
    have w5 : TkObj.clear.hwPtErr ++ TkObj.clear.hwPt = (0 : Word) := by decide
    have w6 : setBit ((TkObj.clear.hwZ0 ++ TkObj.clear.hwPhi ++ TkObj.clear.hwEta).setWidth 32) 30 TkObj.clear.hwTightQuality = (0 : Word) := by
      decide
    have w7 : MuObj.clear.hwPtErr ++ MuObj.clear.hwPt = (0 : Word) := by decide
    have w8 : (MuObj.clear.hwPhi ++ MuObj.clear.hwEta).setWidth 32 = (0 : Word) := by decide
    unfold packedIn
    simp only [w1, w2, w3, w4, w5, w6, w7, w8, packed_zeros]
  have hu := unpack_in_packedIn (N := N) (⟨fun _ => EmCaloObj.clear, fun _ => HadCaloObj.clear, fun _ => TkObj.clear, fun _ => MuObj.clear⟩ :
      PFInputs NT NC NE NM) (fun _ => 0) h
  rw [hz] at hu
  refine ⟨⟨fun e => ?_, fun e => ?_⟩, hu⟩
  · have := C17_pack_in_roundtrip inp (fun _ : Fin N => 0) h
    rw [e, Run.ok_bind, hu] at this
    injection this with this
    exact this.symm
  · rw [e, pack_in_eq _ _ h, hz]

/-- **C18.** Output packing round-trips; `hwPtPuppi` is not transmitted and the destination keeps
its own. -/
theorem C18_pack_out_roundtrip (out old : PFOutputs NT NE NS NM) (data : Arr N Word)
    (h : 2 * NT + 2 * NE + 2 * NS + 2 * NM ≤ min N MP7_NCHANN) :
    (do let d ← mp7wrapped_pack_out out data; mp7wrapped_unpack_out old d) = (.ok
      { outch := out.outch,
        outpho := fun i => { out.outpho i with hwPtPuppi := (old.outpho i).hwPtPuppi },
        outne := fun i => { out.outne i with hwPtPuppi := (old.outne i).hwPtPuppi },
        outmu := out.outmu } : Run _) := by
  rw [pack_out_eq _ _ h, Run.ok_bind, unpack_out_packedOut _ _ _ h]

/-- **C19.** Pack the inputs, run the wrapped algorithm, unpack the outputs: the same as running the
plain algorithm (including faults), up to the untransmitted `hwPtPuppi`. -/
theorem C19_wrapped_eq_plain {N' : Nat} (inp : PFInputs NT NC NE NM) (data : Arr N Word) (out0 : Arr N' Word)
    (pf0 old : PFOutputs NT NE NS NM) (mem : PFScratch NC NS)
    (hi : 2 * NE + 2 * NT + 2 * NC + 2 * NM ≤ min N MP7_NCHANN) (ho : 2 * NT + 2 * NE + 2 * NS + 2 * NM ≤ min N' MP7_NCHANN) :
    (do let d ← mp7wrapped_pack_in inp data
        let w ← mp7wrapped_pfalgo3_full NT NC NE NM NS d out0 pf0 mem
        mp7wrapped_unpack_out old w : Run (PFOutputs NT NE NS NM)) =
    (do let out ← pfalgo3_full inp pf0 mem
        .ok { outch := out.outch,
              outpho := fun i => { out.outpho i with hwPtPuppi := (old.outpho i).hwPtPuppi },
              outne := fun i => { out.outne i with hwPtPuppi := (old.outne i).hwPtPuppi },
              outmu := out.outmu }) := by
  rw [pack_in_eq _ _ hi, Run.ok_bind]
  unfold mp7wrapped_pfalgo3_full
  rw [unpack_in_packedIn _ _ hi, Run.ok_bind]
  cases pfalgo3_full inp pf0 mem with
  | error e => rfl
  | ok out => rw [Run.ok_bind, pack_out_eq _ _ ho, Run.ok_bind, unpack_out_packedOut _ _ _ ho]; rfl

/-- **C20** (input side). What becomes of packing: it succeeds exactly when the objects fit the array and the 144 channels of the
assertion; the assertion stops it when they do not fit the latter, and otherwise it writes past the end of the array. -/
theorem C20_pack_in_outcome (inp : PFInputs NT NC NE NM) (data : Arr N Word) :
    ((∃ d, mp7wrapped_pack_in inp data = .ok d) ↔ 2 * NE + 2 * NT + 2 * NC + 2 * NM ≤ min N 144) ∧
    (mp7wrapped_pack_in inp data = .error .assertFail ↔ 144 < 2 * NE + 2 * NT + 2 * NC + 2 * NM) ∧
    (mp7wrapped_pack_in inp data = .error .oob ↔
      2 * NE + 2 * NT + 2 * NC + 2 * NM ≤ 144 ∧ N < 2 * NE + 2 * NT + 2 * NC + 2 * NM) := by
  have e : MP7_NCHANN = 144 := rfl
  by_cases h : 2 * NE + 2 * NT + 2 * NC + 2 * NM ≤ MP7_NCHANN
  · by_cases hn : 2 * NE + 2 * NT + 2 * NC + 2 * NM ≤ N
    · rw [pack_in_eq _ _ (by omega)]
      refine ⟨⟨fun _ => by omega, fun _ => ⟨_, rfl⟩⟩, ⟨fun h => (by cases h), fun h => by omega⟩, ⟨fun h => (by cases h), fun h => by omega⟩⟩
    · rw [pack_in_oob _ _ h (by omega)]
      refine ⟨⟨fun ⟨d, h⟩ => (by cases h), fun _ => by omega⟩, ⟨fun h => (by cases h), fun h => by omega⟩, ⟨fun _ => by omega, fun _ => rfl⟩⟩
  · have ha : mp7wrapped_pack_in inp data = .error .assertFail := by
      unfold mp7wrapped_pack_in
      rw [cassert_false (decide_eq_false h)]
      rfl
    rw [ha]
    refine ⟨⟨fun ⟨d, h⟩ => (by cases h), fun _ => by omega⟩, ⟨fun _ => by omega, fun _ => rfl⟩, ⟨fun h => (by cases h), fun h => by omega⟩⟩

/-- **C20** (input side). Channels beyond the objects are left unchanged, and every object occupies
exactly its documented two words: EM clusters, calo clusters, tracks, muons, in this order. -/
theorem C20_pack_in_layout (inp : PFInputs NT NC NE NM) (data d : Arr N Word)
    (hd : mp7wrapped_pack_in inp data = .ok d) :
    (∀ k : Fin N, 2 * NE + 2 * NC + 2 * NT + 2 * NM ≤ k.val → d k = data k) ∧
    (∀ i : Fin NE, WordsAt d (2 * i) (emWords (inp.emcalo i))) ∧
    (∀ i : Fin NC, WordsAt d (2 * NE + 2 * i) (hadWords (inp.hadcalo i))) ∧
    (∀ i : Fin NT, WordsAt d (2 * NE + 2 * NC + 2 * i) (tkWords (inp.track i))) ∧
    (∀ i : Fin NM, WordsAt d (2 * NE + 2 * NC + 2 * NT + 2 * i) (muWords (inp.mu i))) := by
  have hm := (C20_pack_in_outcome inp data).1.mp ⟨d, hd⟩
  have h : 2 * NE + 2 * NT + 2 * NC + 2 * NM ≤ N := by omega
  rw [pack_in_eq _ _ hm] at hd
  injection hd with hd
  subst hd
  have idx : ∀ {a b : Nat} (ha : a < N) (_ : b = a) (hb : b < N),
      packedIn inp data ⟨b, hb⟩ = packedIn inp data ⟨a, ha⟩ := by
    intro a b ha e hb; subst e; rfl
  refine ⟨fun k hk => packedIn_other inp data k (by omega), fun i => ?_, fun i => ?_, fun i => ?_,
    fun i => ?_⟩ <;> have := i.isLt
  · have e := packedIn_em inp data h i
    refine ⟨⟨by omega, ?_⟩, ⟨by omega, ?_⟩⟩
    · rw [idx (a := 2 * i.val + 0 + 0) (by omega) (by omega), e.1, word_ptErr]; rfl
    · rw [idx (a := 2 * i.val + 1 + 0) (by omega) (by omega), e.2, word_etaPhi]; rfl
  · have e := packedIn_had inp data h i
    refine ⟨⟨by omega, ?_⟩, ⟨by omega, ?_⟩⟩
    · rw [idx (a := 2 * i.val + 0 + 2 * NE) (by omega) (by omega), e.1, word_ptErr]; rfl
    · rw [idx (a := 2 * i.val + 1 + 2 * NE) (by omega) (by omega), e.2, word_had]; rfl
  · have e := packedIn_tk inp data h i
    refine ⟨⟨by omega, ?_⟩, ⟨by omega, ?_⟩⟩
    · rw [idx (a := 2 * i.val + 0 + (2 * NC + 2 * NE)) (by omega) (by omega), e.1, word_ptErr]; rfl
    · rw [idx (a := 2 * i.val + 1 + (2 * NC + 2 * NE)) (by omega) (by omega), e.2, word_tk]; rfl
  · have e := packedIn_mu inp data h i
    refine ⟨⟨by omega, ?_⟩, ⟨by omega, ?_⟩⟩
    · rw [idx (a := 2 * i.val + 0 + (2 * NT + 2 * NC + 2 * NE)) (by omega) (by omega), e.1,
        word_ptErr]; rfl
    · rw [idx (a := 2 * i.val + 1 + (2 * NT + 2 * NC + 2 * NE)) (by omega) (by omega), e.2,
        word_etaPhi]; rfl

/-- **C20** (output side). As `C20_pack_in_outcome`. -/
theorem C20_pack_out_outcome (out : PFOutputs NT NE NS NM) (data : Arr N Word) :
    ((∃ d, mp7wrapped_pack_out out data = .ok d) ↔ 2 * NT + 2 * NE + 2 * NS + 2 * NM ≤ min N 144) ∧
    (mp7wrapped_pack_out out data = .error .assertFail ↔ 144 < 2 * NT + 2 * NE + 2 * NS + 2 * NM) ∧
    (mp7wrapped_pack_out out data = .error .oob ↔
      2 * NT + 2 * NE + 2 * NS + 2 * NM ≤ 144 ∧ N < 2 * NT + 2 * NE + 2 * NS + 2 * NM) := by
  have e : MP7_NCHANN = 144 := rfl
  by_cases h : 2 * NT + 2 * NE + 2 * NS + 2 * NM ≤ MP7_NCHANN
  · by_cases hn : 2 * NT + 2 * NE + 2 * NS + 2 * NM ≤ N
    · rw [pack_out_eq _ _ (by omega)]
      refine ⟨⟨fun _ => by omega, fun _ => ⟨_, rfl⟩⟩, ⟨fun h => (by cases h), fun h => by omega⟩, ⟨fun h => (by cases h), fun h => by omega⟩⟩
    · rw [pack_out_oob _ _ h (by omega)]
      refine ⟨⟨fun ⟨d, h⟩ => (by cases h), fun _ => by omega⟩, ⟨fun h => (by cases h), fun h => by omega⟩, ⟨fun _ => by omega, fun _ => rfl⟩⟩
  · have ha : mp7wrapped_pack_out out data = .error .assertFail := by
      unfold mp7wrapped_pack_out
      rw [cassert_false (decide_eq_false h)]
      rfl
    rw [ha]
    refine ⟨⟨fun ⟨d, h⟩ => (by cases h), fun _ => by omega⟩, ⟨fun _ => by omega, fun _ => rfl⟩, ⟨fun h => (by cases h), fun h => by omega⟩⟩

/-- **C20** (output side). Charged, photons, neutrals, muons in this order; the rest unchanged. -/
theorem C20_pack_out_layout (out : PFOutputs NT NE NS NM) (data d : Arr N Word)
    (hd : mp7wrapped_pack_out out data = .ok d) :
    (∀ k : Fin N, 2 * NT + 2 * NE + 2 * NS + 2 * NM ≤ k.val → d k = data k) ∧
    (∀ i : Fin NT, WordsAt d (2 * i) (chargedWords (out.outch i))) ∧
    (∀ i : Fin NE, WordsAt d (2 * NT + 2 * i) (neutralWords (out.outpho i))) ∧
    (∀ i : Fin NS, WordsAt d (2 * NT + 2 * NE + 2 * i) (neutralWords (out.outne i))) ∧
    (∀ i : Fin NM, WordsAt d (2 * NT + 2 * NE + 2 * NS + 2 * i) (chargedWords (out.outmu i))) := by
  have hm := (C20_pack_out_outcome out data).1.mp ⟨d, hd⟩
  have h : 2 * NT + 2 * NE + 2 * NS + 2 * NM ≤ N := by omega
  rw [pack_out_eq _ _ hm] at hd
  injection hd with hd
  subst hd
  have idx : ∀ {a b : Nat} (ha : a < N) (_ : b = a) (hb : b < N),
      packedOut out data ⟨b, hb⟩ = packedOut out data ⟨a, ha⟩ := by
    intro a b ha e hb; subst e; rfl
  refine ⟨fun k hk => packedOut_other out data k (by omega), fun i => ?_, fun i => ?_, fun i => ?_,
    fun i => ?_⟩ <;> have := i.isLt
  · have e := packedOut_ch out data h i
    refine ⟨⟨by omega, ?_⟩, ⟨by omega, ?_⟩⟩
    · rw [idx (a := 2 * i.val + 0 + 0) (by omega) (by omega), e.1, word_ptId]; rfl
    · rw [idx (a := 2 * i.val + 1 + 0) (by omega) (by omega), e.2, word_z0]; rfl
  · have e := packedOut_pho out data h i
    refine ⟨⟨by omega, ?_⟩, ⟨by omega, ?_⟩⟩
    · rw [idx (a := 2 * i.val + 0 + 2 * NT) (by omega) (by omega), e.1, word_ptId]; rfl
    · rw [idx (a := 2 * i.val + 1 + 2 * NT) (by omega) (by omega), e.2, word_etaPhi]; rfl
  · have e := packedOut_ne out data h i
    refine ⟨⟨by omega, ?_⟩, ⟨by omega, ?_⟩⟩
    · rw [idx (a := 2 * i.val + 0 + (2 * NE + 2 * NT)) (by omega) (by omega), e.1, word_ptId]; rfl
    · rw [idx (a := 2 * i.val + 1 + (2 * NE + 2 * NT)) (by omega) (by omega), e.2, word_etaPhi]; rfl
  · have e := packedOut_mu out data h i
    refine ⟨⟨by omega, ?_⟩, ⟨by omega, ?_⟩⟩
    · rw [idx (a := 2 * i.val + 0 + (2 * NS + 2 * NE + 2 * NT)) (by omega) (by omega), e.1,
        word_ptId]; rfl
    · rw [idx (a := 2 * i.val + 1 + (2 * NS + 2 * NE + 2 * NT)) (by omega) (by omega), e.2,
        word_z0]; rfl

/-- Channels needed on the input side by a configuration. -/
def Config.inChannels (c : Config) : Nat := 2 * c.NEMCALO + 2 * c.NTRACK + 2 * c.NCALO + 2 * c.NMU
/-- Channels needed on the output side by a configuration. -/
def Config.outChannels (c : Config) : Nat := 2 * c.NTRACK + 2 * c.NEMCALO + 2 * c.NSELCALO + 2 * c.NMU

/-- **C20.** The three build configurations fit the 144 MP7 channels; the two small ones also fit
the CTP7 limits (67 in, 48 out), the MP7 one does not. -/
theorem C20_configs_fit :
    (∀ c ∈ [Config.mp7, Config.ctp7, Config.default],
      c.inChannels ≤ MP7_NCHANN ∧ c.outChannels ≤ MP7_NCHANN) ∧
    (∀ c ∈ [Config.ctp7, Config.default],
      c.inChannels ≤ CTP7_NCHANN_IN ∧ c.outChannels ≤ CTP7_NCHANN_OUT) ∧
    ¬ Config.mp7.inChannels ≤ CTP7_NCHANN_IN ∧ ¬ Config.mp7.outChannels ≤ CTP7_NCHANN_OUT := by
  decide

/-- **C20.** How many channels the three builds use, exactly. -/
theorem C20_configs_use :
    (Config.mp7.inChannels, Config.mp7.outChannels) = (94, 84) ∧
    (Config.ctp7.inChannels, Config.ctp7.outChannels) = (38, 36) ∧
    (Config.default.inChannels, Config.default.outChannels) = (38, 36) := by
  decide

/-- **C20.** The assertion does not guard the smaller arrays of the CTP7 bench: with the object counts of the MP7 build, which it
accepts, every event is written past the end of both of them. -/
theorem C20_ctp7_unguarded (inp : PFInputs Config.mp7.NTRACK Config.mp7.NCALO Config.mp7.NEMCALO Config.mp7.NMU)
    (out : PFOutputs Config.mp7.NTRACK Config.mp7.NEMCALO Config.mp7.NSELCALO Config.mp7.NMU) (d : Arr CTP7_NCHANN_IN Word)
    (d' : Arr CTP7_NCHANN_OUT Word) : mp7wrapped_pack_in inp d = .error .oob ∧ mp7wrapped_pack_out out d' = .error .oob :=
  ⟨(C20_pack_in_outcome inp d).2.2.mpr (by decide), (C20_pack_out_outcome out d').2.2.mpr (by decide)⟩

/-! ### Non-vacuity -/

/-- A small event with every field non-trivial. -/
def exampleIn : PFInputs 1 1 1 1 where
  emcalo := fun _ => ⟨100, 7, 5, 0x3ff⟩
  hadcalo := fun _ => ⟨200, 3, 4, 50, true⟩
  track := fun _ => ⟨90, 11, 6, 1, 0x3fe, true⟩
  mu := fun _ => ⟨60, 1, 2, 3⟩

/-- The hypothesis of C17/C20 is met and the words are what the layout says. -/
example : ∃ d : Arr 8 Word, mp7wrapped_pack_in exampleIn (fun _ => 0xffffffff) = .ok d ∧
    d 5 = 0x7fe00406 ∧ d 3 = 0x00101003 := by
  refine ⟨_, pack_in_eq _ _ (by decide), ?_, ?_⟩ <;> decide

end Verif
