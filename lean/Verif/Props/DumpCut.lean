import Verif.Spec.DumpCut
import Verif.Props.PFTest
/-! # C117 — dumps that end too early -/
namespace Verif
open Spec

/-- What `m` gives when the file has ended, and what it leaves of the memory contents. -/
def EndsAs {α : Type} (m : Rd α) (g : (Nat → BitVec 32) → α) (s : (Nat → BitVec 32) → (Nat → BitVec 32)) : Prop :=
  ∀ mem, m ⟨[], true, mem⟩ = (g mem, ⟨[], true, s mem⟩)

theorem EndsAs.bind {α β : Type} {m : Rd α} {k : α → Rd β} {g : (Nat → BitVec 32) → α} {s : (Nat → BitVec 32) → (Nat → BitVec 32)}
    {g' : α → (Nat → BitVec 32) → β} {s' : α → (Nat → BitVec 32) → (Nat → BitVec 32)} (h : EndsAs m g s) (hk : ∀ a, EndsAs (k a) (g' a) (s' a)) :
    EndsAs (m >>= k) (fun mem => g' (g mem) (s mem)) (fun mem => s' (g mem) (s mem)) := by
  intro mem
  show (fun s => (k (m s).1) (m s).2) _ = _
  simp only []
  rw [h mem]
  exact hk _ _

theorem EndsAs.step {α β : Type} {m : Rd α} {k : α → Rd β} {a : α} {g' s'} (h : EndsAs m (fun _ => a) id) (hk : EndsAs (k a) g' s') :
    EndsAs (m >>= k) g' s' := by
  intro mem
  show (fun s => (k (m s).1) (m s).2) _ = _
  simp only []
  rw [h mem]
  exact hk _

theorem EndsAs.pure {α : Type} (a : α) : EndsAs (Pure.pure a : Rd α) (fun _ => a) id := fun _ => rfl

theorem ends_rd (k : Nat) (hk : 0 < k) (x : BitVec (8 * k)) : EndsAs (rd k x) (fun _ => x) id := by
  intro mem
  unfold rd fread1
  rw [if_neg (by simpa using Nat.pos_iff_ne_zero.mp hk)]
  simp only [List.nil_append, List.length_nil, List.drop_zero, ofLeBytes_leBytes, id]

theorem rd_end (k : Nat) (hk : 0 < k) (x : BitVec (8 * k)) (mem : Nat → BitVec 32) : rd k x ⟨[], false, mem⟩ = (x, ⟨[], true, mem⟩) := by
  unfold rd fread1
  rw [if_neg (by simpa using Nat.pos_iff_ne_zero.mp hk)]
  simp only [List.nil_append, List.length_nil, List.drop_zero, ofLeBytes_leBytes]

theorem ends_rdBool (b : Bool) : EndsAs (rdBool b) (fun _ => b) id := by
  unfold rdBool
  refine (ends_rd 1 (by decide) _).step ?_
  cases b <;> exact EndsAs.pure _

theorem ends_calo (x : CaloCluster) : EndsAs (Dump.read x) (fun _ => keepCluster x) id := by
  iterate 6 refine (ends_rd 2 (by decide) _).step ?_
  exact (ends_rdBool _).step (EndsAs.pure _)

theorem ends_itrack (x : InputTrack) : EndsAs (Dump.read x) (fun _ => x) id := by
  refine (ends_rd 2 (by decide) _).step ?_
  iterate 2 refine (ends_rd 4 (by decide) _).step ?_
  refine (ends_rdBool _).step ?_
  iterate 4 refine (ends_rd 2 (by decide) _).step ?_
  exact EndsAs.pure _

theorem ends_track (x : PropagatedTrack) : EndsAs (Dump.read x) (fun _ => keepTrack x) id := by
  refine (ends_itrack _).step ?_
  iterate 5 refine (ends_rd 2 (by decide) _).step ?_
  exact EndsAs.pure _

theorem ends_muon (x : Muon) : EndsAs (Dump.read x) (fun _ => x) id := by
  iterate 4 refine (ends_rd 2 (by decide) _).step ?_
  exact (ends_rdBool _).step (EndsAs.pure _)

theorem ends_readEach {T : Type} [Dump T] {keep : T → T} (h : ∀ x : T, EndsAs (Dump.read x) (fun _ => keep x) id) :
    ∀ l : List T, EndsAs (readEach l) (fun _ => l.map keep) id
  | [] => EndsAs.pure _
  | x :: xs => (h x).step ((ends_readEach h xs).step (EndsAs.pure _))

theorem ends_uninit : EndsAs uninit (fun mem => mem 0) (fun mem i => mem (i + 1)) := fun _ => rfl

theorem ends_readMany {T : Type} [Dump T] {keep : T → T} (h : ∀ x : T, EndsAs (Dump.read x) (fun _ => keep x) id) (l : List T) :
    EndsAs (readMany l) (fun mem => (resized l (mem 0)).map keep) (fun mem i => mem (i + 1)) :=
  ends_uninit.bind (g' := fun a _ => (resized l a).map keep) (s' := fun _ => id) fun a => (ends_rd 4 (by decide) a).step (ends_readEach h _)

theorem ends_region (r : InputRegion) : EndsAs (Dump.read r) (cutRegion r) (fun mem i => mem (i + 4)) := by
  have e : EndsAs (Dump.read r) (fun mem => ⟨r.etaCenter, r.etaMin, r.etaMax, r.phiCenter, r.phiHalfWidth, r.etaExtra, r.phiExtra,
      (resized r.calo (mem 0)).map keepCluster, (resized r.emcalo (mem 1)).map keepCluster, (resized r.track (mem 2)).map keepTrack,
      (resized r.muon (mem 3)).map id⟩) (fun mem i => mem (i + 4)) := by
    iterate 7 refine (ends_rd 4 (by decide) _).step ?_
    intro mem
    refine ((ends_readMany ends_calo r.calo).bind fun a => (ends_readMany ends_calo r.emcalo).bind fun b =>
      (ends_readMany ends_track r.track).bind fun c => (ends_readMany (keep := id) ends_muon r.muon).bind fun d => EndsAs.pure _) mem
  intro mem
  rw [e mem]
  simp only [List.map_id]
  rfl

theorem ends_regions : ∀ l : List InputRegion, EndsAs (readEach l) (cutRegions l) (fun mem i => mem (i + 4 * l.length))
  | [] => EndsAs.pure _
  | r :: rs => by
    have h := (ends_region r).bind (k := fun x => readEach rs >>= fun xs => Pure.pure (x :: xs)) fun a => (ends_regions rs).bind fun b => EndsAs.pure (a :: b)
    intro mem
    have := h mem
    refine this.trans ?_
    congr 2

theorem leading (k : Nat) (x v : BitVec (8 * k)) (rest : List Byte) (eof : Bool) (mem : Nat → BitVec 32) :
    fread1 k x ⟨leBytes k v ++ rest, eof, mem⟩ = (true, v, ⟨rest, eof, mem⟩) := by
  unfold fread1
  have hl := leBytes_length k v
  rw [if_pos (by simp [hl])]
  simp only []
  rw [List.take_left' hl, List.drop_left' hl, ofLeBytes_leBytes]

theorem readMany_end (l : List InputRegion) (mem : Nat → BitVec 32) :
    readMany l ⟨[], false, mem⟩ = (cutRegions (resized l (mem 0)) fun i => mem (i + 1), ⟨[], true, fun i => mem (i + 4 * (resized l (mem 0)).length + 1)⟩) := by
  have e : readMany l ⟨[], false, mem⟩ = readEach (resized l (rd 4 (mem 0) ⟨[], false, fun i => mem (i + 1)⟩).1) (rd 4 (mem 0) ⟨[], false, fun i => mem (i + 1)⟩).2 := rfl
  rw [e, rd_end 4 (by decide) (mem 0)]
  exact ends_regions _ _

/-- **C117.** An event cut off before the number of its regions counts as read: it has the run, lumi and event number of the
file, as many regions as an uninitialised variable says, and these are those of the event before, all their vectors resized to
what was in memory, followed by regions of zeros, with the vertex of the event before. -/
theorem C117_header (x : DumpEvent) (run lumi : BitVec 32) (event : BitVec 64) (mem : Nat → BitVec 32) :
    ∃ mem', x.readFromFile ⟨headerBytes run lumi event, false, mem⟩ =
      (none, { x with run := run, lumi := lumi, event := event, regions := cutRegions (resized x.regions (mem 0)) fun i => mem (i + 1) }, ⟨[], true, mem'⟩) := by
  refine ⟨fun i => mem (i + 4 * (resized x.regions (mem 0)).length + 1), ?_⟩
  unfold headerBytes DumpEvent.readFromFile
  simp only [List.append_assoc, leading 4, if_true]
  have e : ∀ y : DumpEvent, y.readRest ⟨leBytes 4 lumi ++ leBytes 8 event, false, mem⟩ =
      ({ y with lumi := lumi, event := event, regions := cutRegions (resized y.regions (mem 0)) fun i => mem (i + 1) },
        ⟨[], true, fun i => mem (i + 4 * (resized y.regions (mem 0)).length + 1)⟩) := by
    intro y
    have t : EndsAs (do
        let z0 ← rd 4 y.z0
        let genZ0 ← rd 4 y.genZ0
        let alphaCMed ← rd 4 y.alphaCMed
        let alphaCRms ← rd 4 y.alphaCRms
        let alphaFMed ← rd 4 y.alphaFMed
        let alphaFRms ← rd 4 y.alphaFRms
        pure (z0, genZ0, alphaCMed, alphaCRms, alphaFMed, alphaFRms)) (fun _ => (y.z0, y.genZ0, y.alphaCMed, y.alphaCRms, y.alphaFMed, y.alphaFRms)) id := by
      iterate 6 refine (ends_rd 4 (by decide) _).step ?_
      exact EndsAs.pure _
    have a : rd 4 y.lumi ⟨leBytes 4 lumi ++ leBytes 8 event, false, mem⟩ = (lumi, ⟨leBytes 8 event, false, mem⟩) := by
      unfold rd; rw [leading 4]
    have b : rd 8 y.event ⟨leBytes 8 event, false, mem⟩ = (event, ⟨[], false, mem⟩) := by
      have := leading 8 y.event event [] false mem
      rw [List.append_nil] at this
      unfold rd; rw [this]
    show (fun s : CFile => _) _ = _
    unfold DumpEvent.readRest
    simp only [bind, StateT.bind, a, b, readMany_end]
    simp only [ends_rd 4 (by decide) _ _]
    rfl
  rw [e]

theorem cutRegions_length : ∀ (l : List InputRegion) (mem : Nat → BitVec 32), (cutRegions l mem).length = l.length
  | [], _ => rfl
  | _ :: rs, mem => congrArg (· + 1) (cutRegions_length rs fun i => mem (i + 4))

theorem resized_length {T : Type} [Dump T] (l : List T) (n : BitVec 32) : (resized l n).length = n.toNat := by
  unfold resized
  rw [List.length_append, List.length_take, List.length_replicate]
  omega

/-- **C117.** Its number of regions can be anything: it is what was in memory. -/
theorem C117_any_number (x : DumpEvent) (run lumi : BitVec 32) (event : BitVec 64) (mem : Nat → BitVec 32) :
    (x.readFromFile ⟨headerBytes run lumi event, false, mem⟩).2.1.regions.length = (mem 0).toNat := by
  obtain ⟨m, h⟩ := C117_header x run lumi event mem
  rw [h]
  show (cutRegions _ _).length = _
  rw [cutRegions_length, resized_length]

theorem resized_same {T : Type} [Dump T] {l : List T} (h : l.length < 2 ^ 32) : resized l (BitVec.ofNat 32 l.length) = l := by
  unfold resized
  rw [BitVec.toNat_ofNat, Nat.mod_eq_of_lt h, List.take_length, Nat.sub_self]
  exact List.append_nil _

theorem keepRegion_twice (r : InputRegion) : keepRegion (keepRegion r) = keepRegion r := by
  unfold keepRegion
  simp only [List.map_map]
  congr 1

theorem cut_same : ∀ l : List InputRegion, (∀ r ∈ l, regionFits r) → ∃ mem, cutRegions (l.map keepRegion) mem = l.map keepRegion
  | [], _ => ⟨fun _ => 0, rfl⟩
  | r :: rs, h => by
    obtain ⟨mem, hm⟩ := cut_same rs fun x hx => h x (List.mem_cons_of_mem _ hx)
    obtain ⟨h1, h2, h3, h4⟩ := h r List.mem_cons_self
    refine ⟨fun i => match i with
      | 0 => BitVec.ofNat 32 r.calo.length
      | 1 => BitVec.ofNat 32 r.emcalo.length
      | 2 => BitVec.ofNat 32 r.track.length
      | 3 => BitVec.ofNat 32 r.muon.length
      | i + 4 => mem i, ?_⟩
    show cutRegion (keepRegion r) _ :: cutRegions (rs.map keepRegion) mem = _
    rw [hm, List.map_cons]
    congr 1
    unfold cutRegion
    have e1 := resized_same (l := (keepRegion r).calo) (by simpa [keepRegion] using h1)
    have e2 := resized_same (l := (keepRegion r).emcalo) (by simpa [keepRegion] using h2)
    have e3 := resized_same (l := (keepRegion r).track) (by simpa [keepRegion] using h3)
    have e4 := resized_same (l := (keepRegion r).muon) h4
    rw [show (keepRegion r).calo.length = r.calo.length from List.length_map _] at e1
    rw [show (keepRegion r).emcalo.length = r.emcalo.length from List.length_map _] at e2
    rw [show (keepRegion r).track.length = r.track.length from List.length_map _] at e3
    simp only []
    rw [e1, e2, e3, show resized (keepRegion r).muon (BitVec.ofNat 32 r.muon.length) = (keepRegion r).muon from e4]
    exact keepRegion_twice r

/-- **C117.** In particular all regions of the event before can come a second time, under the number of the event cut off. -/
theorem C117_repeat (e : DumpEvent) (he : eventFits e) (run lumi : BitVec 32) (event : BitVec 64) :
    ∃ mem, ((storedEvent e).readFromFile ⟨headerBytes run lumi event, false, mem⟩).2.1 = { storedEvent e with run := run, lumi := lumi, event := event } := by
  obtain ⟨mem, hm⟩ := cut_same e.regions he.2
  refine ⟨fun i => match i with
    | 0 => BitVec.ofNat 32 e.regions.length
    | i + 1 => mem i, ?_⟩
  obtain ⟨m, h⟩ := C117_header (storedEvent e) run lumi event fun i => match i with
    | 0 => BitVec.ofNat 32 e.regions.length
    | i + 1 => mem i
  rw [h]
  have hs := resized_same (l := e.regions.map keepRegion) (by rw [List.length_map]; exact he.1)
  rw [List.length_map] at hs
  have hr : cutRegions (resized (e.regions.map keepRegion) (BitVec.ofNat 32 e.regions.length)) mem = e.regions.map keepRegion := by rw [hs, hm]
  exact congrArg (fun l => ({ storedEvent e with run := run, lumi := lumi, event := event, regions := l } : DumpEvent)) hr

/-- **C117.** An event cut off after its regions has all of them, with the vertex and the PUPPI constants of the event before. -/
theorem C117_trailer (x e : DumpEvent) (he : eventFits e) (mem : Nat → BitVec 32) :
    ∃ mem', x.readFromFile ⟨headerBytes e.run e.lumi e.event ++ writeMany e.regions, false, mem⟩ =
      (none, { x with run := e.run, lumi := e.lumi, event := e.event, regions := e.regions.map keepRegion }, ⟨[], true, mem'⟩) := by
  obtain ⟨m, hm⟩ := parses_readMany x.regions e.regions he.1 (fun x y hy => parses_region x y (he.2 y hy)) [] false mem
  rw [List.append_nil] at hm
  refine ⟨m, ?_⟩
  unfold headerBytes DumpEvent.readFromFile
  simp only [List.append_assoc, leading 4, if_true]
  have a : rd 4 x.lumi ⟨leBytes 4 e.lumi ++ (leBytes 8 e.event ++ writeMany e.regions), false, mem⟩ = (e.lumi, ⟨leBytes 8 e.event ++ writeMany e.regions, false, mem⟩) := by
    unfold rd; rw [leading 4]
  have b : rd 8 x.event ⟨leBytes 8 e.event ++ writeMany e.regions, false, mem⟩ = (e.event, ⟨writeMany e.regions, false, mem⟩) := by
    unfold rd; rw [leading 8]
  unfold DumpEvent.readRest
  simp only [bind, StateT.bind, a, b, hm]
  simp only [rd_end 4 (by decide), ends_rd 4 (by decide) _ _]
  rfl

theorem readEach_append {T : Type} [Dump T] : ∀ (a b : List T) (f : CFile),
    readEach (a ++ b) f = ((readEach a f).1 ++ (readEach b (readEach a f).2).1, (readEach b (readEach a f).2).2)
  | [], _, _ => rfl
  | x :: xs, b, f => by
    have e : ∀ l : List T, readEach (x :: l) f = ((Dump.read x f).1 :: (readEach l (Dump.read x f).2).1, (readEach l (Dump.read x f).2).2) := fun _ => rfl
    rw [List.cons_append, e, e, readEach_append xs b]
    rfl

theorem rd_any (k : Nat) (hk : 0 < k) (x : BitVec (8 * k)) (eof : Bool) (mem : Nat → BitVec 32) : rd k x ⟨[], eof, mem⟩ = (x, ⟨[], true, mem⟩) := by
  cases eof
  · exact rd_end k hk x mem
  · exact ends_rd k hk x mem

theorem first_step {α β : Type} {m : Rd α} {k : α → Rd β} {f f' : CFile} (h : m f = m f') : (m >>= k) f = (m >>= k) f' := by
  show k (m f).1 (m f).2 = k (m f').1 (m f').2
  rw [h]

theorem regions_end (l : List InputRegion) (mem : Nat → BitVec 32) : ∃ eof mem', readEach l ⟨[], false, mem⟩ = (cutRegions l mem, ⟨[], eof, mem'⟩) := by
  cases l with
  | nil => exact ⟨false, mem, rfl⟩
  | cons r rs =>
    refine ⟨true, fun i => mem (i + 4 * (r :: rs).length), ?_⟩
    · rw [← ends_regions (r :: rs) mem]
      have e : Dump.read r ⟨[], false, mem⟩ = Dump.read r ⟨[], true, mem⟩ := by
        refine first_step (m := rd 4 r.etaCenter) ?_
        rw [rd_any 4 (by decide), rd_any 4 (by decide)]
      unfold readEach
      exact first_step e

/-- **C117.** An event cut off after `k` of its regions has the right number of regions, the first `k` are right, and the others are
those that stood in their places in the event before, or regions of zeros, with vectors resized to what was in memory. -/
theorem C117_middle (x e : DumpEvent) (he : eventFits e) (k : Nat) (mem : Nat → BitVec 32) :
    ∃ mem' mem'', x.readFromFile ⟨headerBytes e.run e.lumi e.event ++ leBytes 4 (BitVec.ofNat 32 e.regions.length) ++ ((e.regions.take k).map Dump.write).flatten, false, mem⟩ =
      (none, { x with run := e.run, lumi := e.lumi, event := e.event, regions := (e.regions.take k).map keepRegion ++ cutRegions ((resized x.regions (BitVec.ofNat 32 e.regions.length)).drop k) mem' },
        ⟨[], true, mem''⟩) := by
  let n : BitVec (8 * 4) := BitVec.ofNat 32 e.regions.length
  let L := resized x.regions n
  have hL : L.length = e.regions.length := by
    rw [resized_length]
    exact (BitVec.toNat_ofNat _ _).trans (Nat.mod_eq_of_lt he.1)
  obtain ⟨m1, h1⟩ := parses_readEach (keep := keepRegion) (e.regions.take k) (fun x y hy => parses_region x y (he.2 y (List.mem_of_mem_take hy))) (L.take k)
    (by rw [List.length_take, List.length_take, hL]) [] false (fun i => mem (i + 1))
  rw [List.append_nil] at h1
  obtain ⟨eo, m2, h2⟩ := regions_end (L.drop k) m1
  have hm : readMany x.regions ⟨leBytes 4 n ++ ((e.regions.take k).map Dump.write).flatten, false, mem⟩ =
      ((e.regions.take k).map keepRegion ++ cutRegions (L.drop k) m1, ⟨[], eo, m2⟩) := by
    have e0 : ∀ tail, readMany x.regions ⟨leBytes 4 n ++ tail, false, mem⟩ = readEach (resized x.regions (rd 4 (mem 0) ⟨leBytes 4 n ++ tail, false, fun i => mem (i + 1)⟩).1)
        (rd 4 (mem 0) ⟨leBytes 4 n ++ tail, false, fun i => mem (i + 1)⟩).2 := fun _ => rfl
    rw [e0]
    unfold rd
    rw [leading 4]
    show readEach L _ = _
    rw [← List.take_append_drop k L, readEach_append, List.take_append_drop k L, h1, h2]
  refine ⟨m1, m2, ?_⟩
  unfold headerBytes DumpEvent.readFromFile
  simp only [List.append_assoc, leading 4, if_true]
  have a : ∀ tail, rd 4 x.lumi ⟨leBytes 4 e.lumi ++ tail, false, mem⟩ = (e.lumi, ⟨tail, false, mem⟩) := fun tail => by
    unfold rd; rw [leading 4]
  have b : ∀ tail, rd 8 x.event ⟨leBytes 8 e.event ++ tail, false, mem⟩ = (e.event, ⟨tail, false, mem⟩) := fun tail => by
    unfold rd; rw [leading 8]
  unfold DumpEvent.readRest
  simp only [bind, StateT.bind, a, b]
  rw [show readMany x.regions ⟨leBytes 4 (BitVec.ofNat 32 e.regions.length) ++ ((e.regions.take k).map Dump.write).flatten, false, mem⟩ = _ from hm]
  simp only [rd_any 4 (by decide)]
  rfl

/-! ### The test bench on such a dump -/

theorem zero_slots {A B : Type} [Dump A] {keep : A → A} {conv : A → B} {clear : B} (h : conv (keep Dump.zero) = clear) (N n : Nat) :
    padded N conv clear ((List.replicate n (Dump.zero : A)).map keep) = fun _ => clear := by
  funext i
  unfold padded
  rw [List.map_replicate, List.getElem?_replicate]
  split
  · rename_i x hx
    split at hx
    · injection hx with hx; rw [← hx]; exact h
    · cases hx
  · rfl

theorem resized_nil {T : Type} [Dump T] (n : BitVec 32) : resized ([] : List T) n = List.replicate n.toNat Dump.zero := by
  unfold resized
  simp

/-- The inputs of an empty region. -/
def noInputs (NT NC NE NM : Nat) : PFInputs NT NC NE NM := ⟨fun _ => EmCaloObj.clear, fun _ => HadCaloObj.clear, fun _ => TkObj.clear, fun _ => MuObj.clear⟩

theorem cut_inputs (mem : Nat → BitVec 32) : regionInputs NT NC NE NM (cutRegion Dump.zero mem) = noInputs NT NC NE NM := by
  have e : cutRegion Dump.zero mem = ⟨0, 0, 0, 0, 0, 0, 0, (List.replicate (mem 0).toNat Dump.zero).map keepCluster,
      (List.replicate (mem 1).toNat Dump.zero).map keepCluster, (List.replicate (mem 2).toNat Dump.zero).map keepTrack, (List.replicate (mem 3).toNat Dump.zero)⟩ := by
    unfold cutRegion keepRegion
    simp only [Dump.zero, resized_nil]
  rw [e]
  unfold regionInputs noInputs
  simp only []
  rw [zero_slots (conv := fw_track) (by decide), zero_slots (conv := fw_had) (by decide), zero_slots (conv := fw_em) (by decide)]
  have := zero_slots (A := Muon) (keep := id) (conv := fw_mu) (clear := MuObj.clear) (by decide) NM (mem 3).toNat
  rw [List.map_id] at this
  rw [this]

theorem none_passes : Passes NS (noInputs NT NC NE NM) := by
  intro old old' mem mem'
  have t : 0 ≤ TkObj.clear.hwPt.toInt ∧ 0 ≤ TkObj.clear.hwPtErr.toInt ∧ TkObj.clear.hwPtErr.toInt ≤ 16384 ∧ TkObj.clear.hwPtErr.toInt = 0 ∧ TkObj.clear.hwPtErr.toInt ≠ 1 := by decide
  have c : 0 ≤ EmCaloObj.clear.hwPt.toInt ∧ EmCaloObj.clear.hwPtErr.toInt ^ 2 ≤ 536870911 ∧ 0 ≤ HadCaloObj.clear.hwPt.toInt ∧ 0 ≤ HadCaloObj.clear.hwEmPt.toInt := by decide
  obtain ⟨o, r, h1, h2, h3, h4, h5, h6⟩ := C02_fw_ref_agree_simple_partial (noInputs NT NC NE NM) old old' mem mem'
    ⟨fun _ => t.1, fun _ => t.2.1, fun _ => t.2.2.1, fun _ => c.1, fun _ => c.2.1, fun _ => c.2.2.1, fun _ => c.2.2.2,
      by simp [noInputs, TkObj.clear], by simp [noInputs, EmCaloObj.clear], by simp [noInputs, TkObj.clear]⟩ (fun _ _ => t.2.2.2.1) (fun _ => t.2.2.2.2) (fun _ => rfl)
  obtain ⟨_, _, _, _, hch, hne⟩ := C47_equals_iff
  exact ⟨o, r, h1, h2, fun i => (hch _ _).mp (h3 i), fun i => (hne _ _).mp (h4 i), fun i => (hne _ _).mp (h5 i),
    fun i => (hch _ _).mp (h6 i)⟩

theorem cut_zero : ∀ (n : Nat) (mem : Nat → BitVec 32), ∀ r ∈ cutRegions (List.replicate n Dump.zero) mem, ∃ m, r = cutRegion Dump.zero m
  | 0, _, _, h => absurd h (by simp [cutRegions])
  | n + 1, mem, r, h => by
    rw [List.replicate_succ] at h
    rcases List.mem_cons.mp h with h | h
    · exact ⟨mem, h⟩
    · exact cut_zero n _ r h

/-- The rest of an event after the end of the file. -/
theorem loop_cut {kind : TestKind} (hk : kind.Fits NT NC NE NM NS) (hv : kind.validates = true) (zpv : BitVec 32 → Z0) (junk : Nat → TestJunk NT NC NE NM NS) :
    ∀ (n : Nat) (s : DumpReader), s.file.eof = true → s.event.event ≠ 0 → s.iregion ≤ s.event.regions.length →
    (∀ r ∈ s.event.regions, farEta r.etaCenter = false ∧ Passes NS (regionInputs NT NC NE NM r)) → ∀ inp z out ref,
    pfTestLoop kind (some true) zpv junk n s inp z out ref = .ok 0 := by
  intro n
  induction n with
  | zero => intros; rfl
  | succ n ih =>
    intro s he h0 hi hr inp z out ref
    by_cases hl : s.iregion = s.event.regions.length
    · have hf : s.refill (some true) = .ok (false, s) := by
        unfold DumpReader.refill
        rw [if_pos (Or.inr hl), if_pos he]
      rw [pfTestLoop]
      unfold DumpReader.nextRegion
      rw [seek_refill_false hf]
      rfl
    · have hlt : s.iregion < s.event.regions.length := by omega
      have hseek := seek_refill_true (refill_same (fall := some true) h0 hl)
      obtain ⟨hfar, hp⟩ := hr _ (List.getElem_mem hlt)
      rw [List.getElem?_eq_getElem hlt] at hseek
      simp only [hfar, Bool.false_eq_true, if_false] at hseek
      have h1 : s.nextRegion (some true) zpv (initInputs inp) z = .ok (true, { s with iregion := s.iregion + 1 }, regionInputs NT NC NE NM (s.event.regions[s.iregion]), zpv s.event.z0) := by
        unfold DumpReader.nextRegion
        rw [hseek]
        simp only [Run.ok_bind, Bool.not_true, Bool.false_eq_true, if_false, List.getElem?_eq_getElem hlt, fw_many_eq]
        rfl
      obtain ⟨o, r, ho, hr', ha⟩ := hp out ref (junk n).mem (junk n).memref
      obtain ⟨o', ho', hoo⟩ := (underTest_agree hk _ out out (junk n).mem (junk n)).ok ho
      rw [pfTestLoop, h1, Run.ok_bind]
      simp only [Bool.not_true, Bool.false_eq_true, if_false, hr', Run.ok_bind, ho', hv, Bool.true_and]
      rw [if_neg]
      · exact ih { s with iregion := s.iregion + 1 } he h0 hlt hr _ _ _ _
      · rw [decide_eq_true_iff, not_not, countErrors_eq_zero]
        exact agree_equivalence.trans ha hoo

/-- **C117.** The test bench on a dump with nothing but the beginning of an event: if there happens to be 0 in memory it reads out
of bounds, else it exits with 0, having tested empty regions. -/
theorem C117_bench {kind : TestKind} (hk : kind.Fits NT NC NE NM NS) (hv : kind.validates = true) (zpv : BitVec 32 → Z0) (genZ0 run lumi : BitVec 32) (event : BitVec 64) (h0 : event ≠ 0)
    (mem : Nat → BitVec 32) (junk : Nat → TestJunk NT NC NE NM NS) (inp : PFInputs NT NC NE NM) (z : Z0) (out ref : PFOutputs NT NE NS NM) :
    pfTestMain kind (some true) zpv genZ0 ⟨headerBytes run lumi event, false, mem⟩ junk inp z out ref = if mem 0 = 0 then .error .oob else .ok 0 := by
  obtain ⟨m, h⟩ := C117_header (DumpEvent.new genZ0) run lumi event mem
  have hrep : resized (DumpEvent.new genZ0).regions (mem 0) = List.replicate (mem 0).toNat Dump.zero := resized_nil _
  rw [hrep] at h
  generalize hE : ({ DumpEvent.new genZ0 with run := run, lumi := lumi, event := event, regions := cutRegions (List.replicate (mem 0).toNat Dump.zero) fun i => mem (i + 1) } : DumpEvent) = E at h
  have hev : E.event = event := by rw [← hE]
  have hreg : E.regions = cutRegions (List.replicate (mem 0).toNat Dump.zero) fun i => mem (i + 1) := by rw [← hE]
  let s : DumpReader := ⟨⟨[], true, m⟩, E, 0⟩
  have hf : (DumpReader.new genZ0 ⟨headerBytes run lumi event, false, mem⟩).refill (some true) = .ok (true, s) := by
    unfold DumpReader.refill DumpReader.new
    rw [if_pos (by left; rfl)]
    simp only [Bool.false_eq_true, if_false, h]
    rfl
  have hlen : E.regions.length = (mem 0).toNat := by rw [hreg, cutRegions_length, List.length_replicate]
  unfold pfTestMain NTEST
  by_cases hm : mem 0 = 0
  · rw [if_pos hm]
    have hnil : E.regions = [] := List.length_eq_zero_iff.mp (by rw [hlen, hm]; rfl)
    have hs := seek_refill_true hf
    rw [show s.event.regions[s.iregion]? = none by show E.regions[0]? = none; rw [hnil]; rfl] at hs
    rw [pfTestLoop]
    unfold DumpReader.nextRegion
    rw [hs]
    rfl
  · rw [if_neg hm]
    have hpos : (mem 0).toNat ≠ 0 := fun h => hm (BitVec.eq_of_toNat_eq h)
    have hsame : s.refill (some true) = .ok (true, s) := refill_same (by rw [hev]; exact h0) (by show 0 ≠ E.regions.length; omega)
    have hseek : (DumpReader.new genZ0 ⟨headerBytes run lumi event, false, mem⟩).seek (some true) = s.seek (some true) := by
      rw [seek_refill_true hf, seek_refill_true hsame]
    have hnext : ∀ (n : Nat), pfTestLoop kind (some true) zpv junk (n + 1) (DumpReader.new genZ0 ⟨headerBytes run lumi event, false, mem⟩) inp z out ref =
        pfTestLoop kind (some true) zpv junk (n + 1) s inp z out ref := by
      intro n
      rw [pfTestLoop, pfTestLoop]
      unfold DumpReader.nextRegion
      rw [hseek]
    rw [hnext 499]
    refine loop_cut hk hv zpv junk 500 s rfl (by rw [hev]; exact h0) (Nat.zero_le _) (fun r hr => ?_) inp z out ref
    have hr : r ∈ E.regions := hr
    rw [hreg] at hr
    obtain ⟨m', rfl⟩ := cut_zero _ _ r hr
    exact ⟨by show farEta 0 = false; decide, by rw [cut_inputs]; exact none_passes⟩

/-- **C117**, a case: the 16 bytes of run 1, lumi 2, event 3. -/
example : headerBytes 1 2 3 = [1, 0, 0, 0, 2, 0, 0, 0, 3, 0, 0, 0, 0, 0, 0, 0] := by decide

/-- **C117**, a case: with other memory, the event before has one track less when it comes again. -/
example : ((storedEvent (eventOf [ordinaryRegion])).readFromFile ⟨headerBytes 1 2 3, false, fun i => if i = 0 then 1 else 2⟩).2.1.regions.map (fun r => r.track.map (·.hwPt)) = [[95, 120]] := by
  obtain ⟨m, h⟩ := C117_header (storedEvent (eventOf [ordinaryRegion])) 1 2 3 fun i => if i = 0 then 1 else 2
  rw [h]
  show List.map (fun r => List.map (fun x => x.hwPt) r.track) (cutRegions (resized (storedEvent (eventOf [ordinaryRegion])).regions 1) fun i => if i + 1 = 0 then 1 else 2) = _
  decide

end Verif
