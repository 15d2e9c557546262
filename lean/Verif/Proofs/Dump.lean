import Verif.Spec.Dump
import Verif.Proofs.Basic
import Mathlib.Tactic.Ring
/-! # Dump files -/
namespace Verif
open Spec

theorem leBytes_length (k : Nat) (v : BitVec (8 * k)) : (leBytes k v).length = k := by simp [leBytes]

theorem leBytes_val_aux {w : Nat} (v : BitVec w) (k : Nat) : ∀ j, ((List.range' j k).map fun i => (v.extractLsb' (8 * i) 8 : Byte)).foldr
    (fun b acc => b.toNat + 256 * acc) 0 = v.toNat / 2 ^ (8 * j) % 2 ^ (8 * k) := by
  induction k with
  | zero => intro j; simp [Nat.mod_one]
  | succ k ih =>
    intro j
    rw [List.range'_succ, List.map_cons, List.foldr_cons, ih (j + 1), BitVec.extractLsb'_toNat,
      Nat.shiftRight_eq_div_pow, show 8 * (k + 1) = 8 + 8 * k by omega, Nat.pow_add, Nat.mod_mul, Nat.div_div_eq_div_mul,
      ← Nat.pow_add, show 8 * j + 8 = 8 * (j + 1) by omega]

theorem ofLeBytes_leBytes (k : Nat) (v : BitVec (8 * k)) : ofLeBytes k (leBytes k v) = v := by
  unfold ofLeBytes leBytes
  rw [List.range_eq_range', leBytes_val_aux v k 0]
  simp

/-- `m` reads exactly the bytes `bs` and gives `a`. -/
def Parses {α : Type} (m : Rd α) (bs : List Byte) (a : α) : Prop :=
  ∀ rest eof junk, ∃ junk', m ⟨bs ++ rest, eof, junk⟩ = (a, ⟨rest, eof, junk'⟩)

theorem Parses.bind {α β : Type} {m : Rd α} {k : α → Rd β} {b1 b2 : List Byte} {a : α} {b : β} (h : Parses m b1 a)
    (hk : Parses (k a) b2 b) : Parses (m >>= k) (b1 ++ b2) b := by
  intro rest eof junk
  obtain ⟨j1, h1⟩ := h (b2 ++ rest) eof junk
  obtain ⟨j2, h2⟩ := hk rest eof j1
  refine ⟨j2, ?_⟩
  show (fun s => (k (m s).1) (m s).2) _ = _
  simp only [List.append_assoc]
  rw [h1]
  exact h2

theorem Parses.pure {α : Type} (a : α) : Parses (Pure.pure a : Rd α) [] a := fun _ _ junk => ⟨junk, rfl⟩

/-- The last step of a sequence. -/
theorem Parses.map {α β : Type} {m : Rd α} {k : α → β} {b1 : List Byte} {a : α} (h : Parses m b1 a) :
    Parses (m >>= fun x => Pure.pure (k x)) b1 (k a) := by
  have := h.bind (k := fun x => Pure.pure (k x)) (Parses.pure (k a))
  rwa [List.append_nil] at this

theorem parses_rd (k : Nat) (x v : BitVec (8 * k)) : Parses (rd k x) (leBytes k v) v := by
  intro rest eof junk
  refine ⟨junk, ?_⟩
  unfold rd fread1
  have hl := leBytes_length k v
  rw [if_pos (by simp [hl])]
  simp only []
  rw [List.take_left' hl, List.drop_left' hl, ofLeBytes_leBytes]

theorem parses_rdBool (x v : Bool) : Parses (rdBool x) (boolBytes v) v := by
  unfold rdBool boolBytes
  have := (parses_rd 1 (if x then 1 else 0) (if v then 1 else 0)).map (k := fun y => y != 0)
  cases v <;> exact this

theorem parses_uninit : ∃ g : (Nat → BitVec 32) → BitVec 32, ∀ b eof junk, ∃ junk', uninit ⟨b, eof, junk⟩ = (g junk, ⟨b, eof, junk'⟩) :=
  ⟨fun j => j 0, fun _ _ _ => ⟨_, rfl⟩⟩

theorem parses_calo (x c : CaloCluster) : Parses (Dump.read x) (Dump.write c) (keepCluster c) := by
  show Parses _ (leBytes 2 c.hwPt ++ leBytes 2 c.hwEmPt ++ leBytes 2 c.hwPtErr ++ leBytes 2 c.hwEta ++
    leBytes 2 c.hwPhi ++ leBytes 2 c.hwFlags ++ boolBytes c.isEM) _
  simp only [List.append_assoc]
  iterate 6 refine (parses_rd _ _ _).bind ?_
  exact (parses_rdBool _ _).map

theorem parses_itrack (x t : InputTrack) : Parses (Dump.read x) (Dump.write t) t := by
  show Parses _ (leBytes 2 t.hwInvpt ++ leBytes 4 t.hwVtxEta ++ leBytes 4 t.hwVtxPhi ++ boolBytes t.hwCharge ++
    leBytes 2 t.hwZ0 ++ leBytes 2 t.hwChi2 ++ leBytes 2 t.hwStubs ++ leBytes 2 t.hwFlags) _
  simp only [List.append_assoc]
  iterate 3 refine (parses_rd _ _ _).bind ?_
  refine (parses_rdBool _ _).bind ?_
  iterate 3 refine (parses_rd _ _ _).bind ?_
  exact (parses_rd _ _ _).map

theorem parses_track (x t : PropagatedTrack) : Parses (Dump.read x) (Dump.write t) (keepTrack t) := by
  show Parses _ (Dump.write t.toInputTrack ++ leBytes 2 t.hwPt ++ leBytes 2 t.hwPtErr ++ leBytes 2 t.hwCaloPtErr ++
    leBytes 2 t.hwEta ++ leBytes 2 t.hwPhi) _
  simp only [List.append_assoc]
  refine (parses_itrack _ _).bind ?_
  iterate 4 refine (parses_rd _ _ _).bind ?_
  exact (parses_rd _ _ _).map

theorem parses_muon (x m : Muon) : Parses (Dump.read x) (Dump.write m) m := by
  show Parses _ (leBytes 2 m.hwPt ++ leBytes 2 m.hwEta ++ leBytes 2 m.hwPhi ++ leBytes 2 m.hwFlags ++ boolBytes m.hwCharge) _
  simp only [List.append_assoc]
  iterate 4 refine (parses_rd _ _ _).bind ?_
  exact (parses_rdBool _ _).map

theorem parses_readEach {T : Type} [Dump T] {keep : T → T} (ys : List T)
    (h : ∀ x : T, ∀ y ∈ ys, Parses (Dump.read x) (Dump.write y) (keep y)) :
    ∀ (xs : List T), xs.length = ys.length → Parses (readEach xs) (ys.map Dump.write).flatten (ys.map keep) := by
  induction ys with
  | nil =>
    intro xs hx
    have : xs = [] := List.length_eq_zero_iff.mp hx
    subst this
    exact Parses.pure _
  | cons y ys ih =>
    intro xs hx
    cases xs with
    | nil => simp at hx
    | cons x xs =>
      rw [List.map_cons, List.flatten_cons, List.map_cons]
      unfold readEach
      exact (h x y List.mem_cons_self).bind ((ih (fun x y hy => h x y (List.mem_cons_of_mem _ hy)) xs
        (by simpa using hx)).map)

theorem parses_readMany {T : Type} [Dump T] {keep : T → T} (xs ys : List T) (hy : ys.length < 2 ^ 32)
    (h : ∀ x : T, ∀ y ∈ ys, Parses (Dump.read x) (Dump.write y) (keep y)) :
    Parses (readMany xs) (writeMany ys) (ys.map keep) := by
  intro rest eof junk
  have hn : (BitVec.ofNat 32 ys.length).toNat = ys.length := by
    rw [BitVec.toNat_ofNat, Nat.mod_eq_of_lt hy]
  have key : ∀ u : BitVec 32, Parses (rd 4 u >>= fun number =>
      readEach (xs.take number.toNat ++ List.replicate (number.toNat - xs.length) Dump.zero)) (writeMany ys) (ys.map keep) := by
    intro u
    unfold writeMany
    refine (parses_rd 4 u (BitVec.ofNat 32 ys.length)).bind ?_
    rw [Nat.mod_eq_of_lt hy, List.take_length]
    apply parses_readEach ys h
    rw [show (BitVec.ofNat (8 * 4) ys.length).toNat = ys.length from hn]
    rw [List.length_append, List.length_take, List.length_replicate]
    omega
  exact key (junk 0) rest eof (fun i => junk (i + 1))

theorem parses_region (x r : InputRegion) (hr : regionFits r) : Parses (Dump.read x) (Dump.write r) (keepRegion r) := by
  show Parses _ (leBytes 4 r.etaCenter ++ leBytes 4 r.etaMin ++ leBytes 4 r.etaMax ++ leBytes 4 r.phiCenter ++
    leBytes 4 r.phiHalfWidth ++ leBytes 4 r.etaExtra ++ leBytes 4 r.phiExtra ++ writeMany r.calo ++
    writeMany r.emcalo ++ writeMany r.track ++ writeMany r.muon) _
  simp only [List.append_assoc]
  iterate 7 refine (parses_rd _ _ _).bind ?_
  refine (parses_readMany _ _ hr.1 (fun x y _ => parses_calo x y)).bind ?_
  refine (parses_readMany _ _ hr.2.1 (fun x y _ => parses_calo x y)).bind ?_
  refine (parses_readMany _ _ hr.2.2.1 (fun x y _ => parses_track x y)).bind ?_
  have := (parses_readMany (keep := id) x.muon _ hr.2.2.2 (fun x y _ => parses_muon x y))
  rw [List.map_id] at this
  exact this.map

theorem parses_rest (x e : DumpEvent) (he : eventFits e) : Parses ({ x with run := e.run } : DumpEvent).readRest
    (leBytes 4 e.lumi ++ leBytes 8 e.event ++ writeMany e.regions ++ leBytes 4 e.z0 ++
    leBytes 4 e.genZ0 ++ leBytes 4 e.alphaCMed ++ leBytes 4 e.alphaCRms ++ leBytes 4 e.alphaFMed ++ leBytes 4 e.alphaFRms)
    (storedEvent e) := by
  simp only [List.append_assoc]
  iterate 2 refine (parses_rd _ _ _).bind ?_
  refine (parses_readMany _ _ he.1 (fun x y hy => parses_region x y (he.2 y hy))).bind ?_
  iterate 5 refine (parses_rd _ _ _).bind ?_
  exact (parses_rd _ _ _).map

theorem readFromFile_event (x e : DumpEvent) (he : eventFits e) (rest : List Byte) (eof : Bool) (junk : Nat → BitVec 32) :
    ∃ junk', x.readFromFile ⟨eventBytes e ++ rest, eof, junk⟩ = (none, storedEvent e, ⟨rest, eof, junk'⟩) := by
  unfold eventBytes
  rw [DumpEvent.readFromFile]
  have h1 : ∀ tail, fread1 4 x.run ⟨leBytes 4 e.run ++ tail, eof, junk⟩ = (true, e.run, ⟨tail, eof, junk⟩) := by
    intro tail
    unfold fread1
    have hl := leBytes_length 4 e.run
    rw [if_pos (by simp [hl])]
    simp only []
    rw [List.take_left' hl, List.drop_left' hl, ofLeBytes_leBytes]
  obtain ⟨j, h2⟩ := parses_rest x e he rest eof junk
  simp only [List.append_assoc] at *
  rw [h1]
  simp only [if_true]
  exact ⟨j, by rw [h2]⟩

theorem readFromFile_outcome (x : DumpEvent) (f : CFile) :
    (x.readFromFile f).1 = if 4 ≤ f.bytes.length then none else some false := by
  rw [DumpEvent.readFromFile]
  unfold fread1
  by_cases h : 4 ≤ f.bytes.length
  · rw [if_pos h, if_pos h]; rfl
  · rw [if_neg h, if_neg h]; rfl

theorem readFromFile_end (x : DumpEvent) (f : CFile) (h : f.bytes.length < 4) :
    (x.readFromFile f).2.1.event = x.event ∧ (x.readFromFile f).2.1.regions = x.regions ∧
      (x.readFromFile f).2.2.eof = true := by
  rw [DumpEvent.readFromFile]
  have e : fread1 4 x.run f = (false, ofLeBytes 4 (f.bytes ++ (leBytes 4 x.run).drop f.bytes.length), { f with bytes := [], eof := true }) := by
    unfold fread1
    rw [if_neg (Nat.not_le_of_lt h)]
  rw [e]
  exact ⟨rfl, rfl, rfl⟩

/-! ### Conversion -/

theorem fw_many_eq {NMAX : Nat} {A B : Type} (conv : A → B) (clear : B) (inn : List A) (out : Arr NMAX B) :
    fw_many conv clear inn out = padded NMAX conv clear inn := by
  have h1 := loop_induct (n := min NMAX inn.length)
    (fun m (o : Arr NMAX B) => ∀ i : Fin NMAX, i.val < m → o i = padded NMAX conv clear inn i)
    (fun i (out : Arr NMAX B) => out.set ⟨i.val, Nat.lt_of_lt_of_le i.isLt (Nat.min_le_left _ _)⟩
      (conv (inn[i.val]'(Nat.lt_of_lt_of_le i.isLt (Nat.min_le_right _ _))))) out
    (fun i hi => by omega)
    (fun i o ho j hj => by
      by_cases hij : j.val = i.val
      · have : j = ⟨i.val, Nat.lt_of_lt_of_le i.isLt (Nat.min_le_left _ _)⟩ := Fin.ext hij
        rw [this, Arr.set_same]
        unfold padded
        simp only []
        rw [List.getElem?_eq_getElem (Nat.lt_of_lt_of_le i.isLt (Nat.min_le_right _ _))]
      · rw [Arr.set_ne _ _ (fun e => hij (congrArg Fin.val e))]
        exact ho j (by omega))
  have h2 := loop_induct (n := NMAX)
    (fun m (o : Arr NMAX B) => ∀ i : Fin NMAX, (i.val < m ∨ i.val < inn.length) → o i = padded NMAX conv clear inn i)
    (fun i (out : Arr NMAX B) => if inn.length ≤ i.val then out.set i clear else out) _
    (fun i hi => h1 i (by have := i.isLt; omega))
    (fun i o ho j hj => by
      split
      · by_cases hij : j = i
        · rw [hij, Arr.set_same]
          unfold padded
          rw [List.getElem?_eq_none (by omega)]
        · rw [Arr.set_ne _ _ hij]
          have : j.val ≠ i.val := fun e => hij (Fin.ext e)
          exact ho j (by omega)
      · by_cases hij : j.val = i.val
        · exact ho j (by omega)
        · exact ho j (by omega))
  funext i
  exact h2 i (Or.inl i.isLt)

/-! ### Iteration -/

/-- The state of a reader that has still to deliver `L`. -/
def Pend (s : DumpReader) (L : List (InputRegion × BitVec 32)) : Prop :=
  (∃ evs : List DumpEvent, (∀ e ∈ evs, eventFits e ∧ e.event ≠ 0 ∧ e.regions ≠ []) ∧
    s.file.bytes = evs.flatMap eventBytes ∧ s.file.eof = false ∧
    ((s.event.event = 0 ∧ L = barrel evs) ∨
     (s.event.event ≠ 0 ∧ s.iregion ≤ s.event.regions.length ∧
      L = ((s.event.regions.drop s.iregion).filter fun r => !farEta r.etaCenter).map (fun r => (r, s.event.z0)) ++ barrel evs))) ∨
  (s.file.eof = true ∧ (s.event.event = 0 ∨ s.iregion = s.event.regions.length) ∧ L = [])

/-- What `seek` does in such a state. -/
def SeekOK (s : DumpReader) (L : List (InputRegion × BitVec 32)) : Prop :=
  match L with
  | [] => ∃ s', s.seek (some true) = .ok (false, s') ∧ Pend s' []
  | x :: xs => ∃ s', s.seek (some true) = .ok (true, s') ∧ s'.event.regions[s'.iregion]? = some x.1 ∧ s'.event.z0 = x.2 ∧
      Pend { s' with iregion := s'.iregion + 1 } xs

theorem seek_refill_true {fall : Option Bool} {s s' : DumpReader} (h : s.refill fall = .ok (true, s')) :
    s.seek fall = match s'.event.regions[s'.iregion]? with
      | none => .error .oob
      | some r => if farEta r.etaCenter then DumpReader.seek fall { s' with iregion := s'.iregion + 1 } else .ok (true, s') := by
  rw [DumpReader.seek]
  split
  · rename_i h2; rw [h] at h2; cases h2
  · rename_i h2; rw [h] at h2; cases h2
  · rename_i h2
    rw [h] at h2
    cases h2
    split
    · rename_i h3; rw [h3]
    · rename_i h3; rw [h3]

theorem seek_refill_false {fall : Option Bool} {s s' : DumpReader} (h : s.refill fall = .ok (false, s')) :
    s.seek fall = .ok (false, s') := by
  rw [DumpReader.seek]
  split
  · rename_i h2; rw [h] at h2; cases h2
  · rename_i h2; rw [h] at h2; cases h2; rfl
  · rename_i h2; rw [h] at h2; cases h2

theorem seek_refill_error {fall : Option Bool} {s : DumpReader} {e : Fault} (h : s.refill fall = .error e) :
    s.seek fall = .error e := by
  rw [DumpReader.seek]
  split
  · rename_i h2; rw [h] at h2; cases h2; rfl
  · rename_i h2; rw [h] at h2; cases h2
  · rename_i h2; rw [h] at h2; cases h2

theorem refill_same {fall : Option Bool} {s : DumpReader} (h1 : s.event.event ≠ 0) (h2 : s.iregion ≠ s.event.regions.length) :
    s.refill fall = .ok (true, s) := by
  unfold DumpReader.refill
  rw [if_neg (by rintro (h | h); exacts [h1 h, h2 h])]

/-- Exhausted event. -/
theorem seek_exhausted (evs : List DumpEvent) (ih : ∀ (s : DumpReader) L, (∃ e es, evs = e :: es ∧
      (∀ e ∈ es, eventFits e ∧ e.event ≠ 0 ∧ e.regions ≠ []) ∧ s.file.bytes = es.flatMap eventBytes ∧ s.file.eof = false ∧
      s.event.event ≠ 0 ∧ s.iregion ≤ s.event.regions.length ∧
      L = ((s.event.regions.drop s.iregion).filter fun r => !farEta r.etaCenter).map (fun r => (r, s.event.z0)) ++ barrel es) →
      SeekOK s L)
    (hev : ∀ e ∈ evs, eventFits e ∧ e.event ≠ 0 ∧ e.regions ≠ []) (s : DumpReader) (hb : s.file.bytes = evs.flatMap eventBytes)
    (he : s.file.eof = false) (hx : s.event.event = 0 ∨ s.iregion = s.event.regions.length) : SeekOK s (barrel evs) := by
  cases evs with
  | nil =>
    have hb' : s.file.bytes = [] := by rw [hb]; rfl
    have ho := readFromFile_outcome s.event s.file
    rw [hb', if_neg (by simp)] at ho
    obtain ⟨h1, h2, h3⟩ := readFromFile_end s.event s.file (by rw [hb']; simp)
    have hr : s.refill (some true) = .ok (false, ⟨(s.event.readFromFile s.file).2.2, (s.event.readFromFile s.file).2.1, s.iregion⟩) := by
      unfold DumpReader.refill
      rw [if_pos hx, if_neg (by rw [he]; simp)]
      simp only [ho]
      rfl
    refine ⟨_, seek_refill_false hr, Or.inr ⟨h3, ?_, rfl⟩⟩
    show (s.event.readFromFile s.file).2.1.event = 0 ∨ s.iregion = (s.event.readFromFile s.file).2.1.regions.length
    rw [h1, h2]
    exact hx
  | cons e es =>
    obtain ⟨hf, hz, hne⟩ := hev e List.mem_cons_self
    have hfile : s.file = ⟨eventBytes e ++ es.flatMap eventBytes, false, s.file.junk⟩ := by
      cases hs : s.file with
      | mk b eo j =>
        rw [hs] at hb he
        simp only [] at hb he
        rw [hb, he, List.flatMap_cons]
    obtain ⟨j, hread⟩ := readFromFile_event s.event e hf (es.flatMap eventBytes) false s.file.junk
    rw [← hfile] at hread
    let s' : DumpReader := ⟨⟨es.flatMap eventBytes, false, j⟩, storedEvent e, 0⟩
    have hr : s.refill (some true) = .ok (true, s') := by
      unfold DumpReader.refill
      rw [if_pos hx, if_neg (by rw [he]; simp)]
      simp only [hread]
      rfl
    have hreg : (storedEvent e).regions = e.regions.map keepRegion := rfl
    have hr2 : s'.refill (some true) = .ok (true, s') := by
      apply refill_same
      · exact hz
      · show 0 ≠ (storedEvent e).regions.length
        rw [hreg, List.length_map]
        intro h0
        exact hne (List.length_eq_zero_iff.mp h0.symm)
    have hseek : s.seek (some true) = s'.seek (some true) := by rw [seek_refill_true hr, seek_refill_true hr2]
    have hL : barrel (e :: es) = (((storedEvent e).regions.drop 0).filter fun r => !farEta r.etaCenter).map
        (fun r => (r, (storedEvent e).z0)) ++ barrel es := by
      unfold barrel
      rw [List.flatMap_cons, List.drop_zero, hreg, List.filter_map, List.map_map]
      rfl
    have := ih s' (barrel (e :: es)) ⟨e, es, rfl, fun x hx => hev x (List.mem_cons_of_mem _ hx), rfl, rfl, hz, Nat.zero_le _, hL⟩
    unfold SeekOK at *
    rw [hseek]
    exact this

theorem seek_inside (evs : List DumpEvent) (hev : ∀ e ∈ evs, eventFits e ∧ e.event ≠ 0 ∧ e.regions ≠ [])
    (hex : ∀ s : DumpReader, s.file.bytes = evs.flatMap eventBytes → s.file.eof = false →
      (s.event.event = 0 ∨ s.iregion = s.event.regions.length) → SeekOK s (barrel evs)) (k : Nat) :
    ∀ s : DumpReader, s.file.bytes = evs.flatMap eventBytes → s.file.eof = false → s.event.event ≠ 0 →
      s.iregion + k = s.event.regions.length →
      SeekOK s (((s.event.regions.drop s.iregion).filter fun r => !farEta r.etaCenter).map (fun r => (r, s.event.z0)) ++ barrel evs) := by
  induction k with
  | zero =>
    intro s h1 h2 h3 h4
    have : s.event.regions.drop s.iregion = [] := List.drop_eq_nil_of_le (by omega)
    rw [this]
    exact hex s h1 h2 (Or.inr (by omega))
  | succ k ih =>
    intro s h1 h2 h3 h4
    have hlt : s.iregion < s.event.regions.length := by omega
    have hr := refill_same (fall := some true) h3 (by omega)
    have hseek := seek_refill_true hr
    rw [List.getElem?_eq_getElem hlt] at hseek
    simp only [] at hseek
    rw [List.drop_eq_getElem_cons hlt, List.filter_cons]
    by_cases hfar : farEta (s.event.regions[s.iregion]).etaCenter = true
    · rw [if_pos hfar] at hseek
      rw [hfar]
      simp only [Bool.not_true, Bool.false_eq_true, if_false]
      have := ih { s with iregion := s.iregion + 1 } h1 h2 h3 (by show s.iregion + 1 + k = s.event.regions.length; omega)
      unfold SeekOK at *
      rw [hseek]
      exact this
    · rw [if_neg hfar] at hseek
      rw [Bool.not_eq_true] at hfar
      rw [hfar]
      simp only [Bool.not_false, if_true, List.map_cons, List.cons_append]
      refine ⟨s, hseek, List.getElem?_eq_getElem hlt, rfl, Or.inl ⟨evs, hev, h1, h2, Or.inr ⟨h3, hlt, rfl⟩⟩⟩

theorem seek_ok {s : DumpReader} {L : List (InputRegion × BitVec 32)} (h : Pend s L) : SeekOK s L := by
  have all : ∀ evs : List DumpEvent, (∀ e ∈ evs, eventFits e ∧ e.event ≠ 0 ∧ e.regions ≠ []) →
      ∀ s : DumpReader, s.file.bytes = evs.flatMap eventBytes → s.file.eof = false →
      (s.event.event = 0 ∨ s.iregion = s.event.regions.length) → SeekOK s (barrel evs) := by
    intro evs
    induction evs with
    | nil => intro hev s h1 h2 h3; exact seek_exhausted [] (by rintro s L ⟨e, es, h, _⟩; cases h) hev s h1 h2 h3
    | cons e es ih =>
      intro hev s h1 h2 h3
      refine seek_exhausted (e :: es) ?_ hev s h1 h2 h3
      rintro t L ⟨e', es', heq, g1, g2, g3, g4, g5, g6⟩
      cases heq
      rw [g6]
      exact seek_inside es g1 (ih g1) (t.event.regions.length - t.iregion) t g2 g3 g4 (by omega)
  rcases h with ⟨evs, hev, h1, h2, (⟨h3, h4⟩ | ⟨h3, h4, h5⟩)⟩ | ⟨h1, h2, h3⟩
  · rw [h4]; exact all evs hev s h1 h2 (Or.inl h3)
  · rw [h5]; exact seek_inside evs hev (all evs hev) (s.event.regions.length - s.iregion) s h1 h2 h3 (by omega)
  · subst h3
    refine ⟨s, seek_refill_false ?_, Or.inr ⟨h1, h2, rfl⟩⟩
    unfold DumpReader.refill
    rw [if_pos h2, if_pos h1]

theorem calls_ok {NT NC NE NM : Nat} (zpv : BitVec 32 → Z0) (n : Nat) : ∀ (s : DumpReader) (inp : PFInputs NT NC NE NM) (z : Z0)
    (L : List (InputRegion × BitVec 32)), Pend s L →
    calls (some true) zpv n s inp z = .ok ((List.range n).map fun k =>
      (L[k]?).map fun x => (regionInputs NT NC NE NM x.1, zpv x.2)) := by
  induction n with
  | zero => intro s inp z L _; rfl
  | succ n ih =>
    intro s inp z L hp
    have hs := seek_ok hp
    rw [List.range_succ_eq_map, List.map_cons, List.map_map]
    unfold calls DumpReader.nextRegion
    cases L with
    | nil =>
      obtain ⟨s', h1, h2⟩ := hs
      rw [h1]
      simp only [Run.ok_bind, Bool.not_false, if_true, ih s' inp z [] h2, Bool.false_eq_true, if_false]
      rfl
    | cons x xs =>
      obtain ⟨s', h1, h2, h3, h4⟩ := hs
      rw [h1]
      simp only [Run.ok_bind, Bool.not_true, Bool.false_eq_true, if_false, h2, fw_many_eq]
      rw [ih _ _ _ xs h4, Run.ok_bind, h3]
      rfl

end Verif
