import Verif.Proofs.PFTestOutput
/-! # Lemmas: what the reader of the PF test bench prints -/
namespace Verif
open Spec
variable {NT NC NE NM NS : Nat}

/-- The state of a reader that still has to find `L`. -/
def Finds (s : DumpReader) (L : List Item) : Prop :=
  (∃ evs : List DumpEvent, (∀ e ∈ evs, eventFits e ∧ e.event ≠ 0 ∧ e.regions ≠ []) ∧
    s.file.bytes = evs.flatMap eventBytes ∧ s.file.eof = false ∧
    ((s.event.event = 0 ∧ L = items evs) ∨
     (s.event.event ≠ 0 ∧ s.iregion ≤ s.event.regions.length ∧
      L = regionItems (s.event.regions.drop s.iregion) s.iregion ++ items evs))) ∨
  (s.file.eof = true ∧ (s.event.event = 0 ∨ s.iregion = s.event.regions.length) ∧ L = [])

/-- The events at the beginning, and what comes then. -/
inductive Skips : List Item → List DumpEvent → List Item → Prop
  | nil : Skips [] [] []
  | region (i r is) : Skips (.region i r :: is) [] (.region i r :: is)
  | event {is es rest} (e) : Skips is es rest → Skips (.event e :: is) (e :: es) rest

/-- What `seek` does and says in such a state. -/
def SeekSays (s : DumpReader) (L : List Item) : Prop :=
  ∃ es rest, Skips L es rest ∧ s.seekSays (some true) = es.flatMap (fun e => beginMessage e.run e.lumi e.event) ∧
    match rest with
    | .region i r :: xs => ∃ s', s.seek (some true) = .ok (true, s') ∧ s'.event.regions[s'.iregion]? = some r ∧ s'.iregion = i ∧
        Finds { s' with iregion := s'.iregion + 1 } xs
    | _ => ∃ s', s.seek (some true) = .ok (false, s') ∧ Finds s' []

theorem seekSays_refill_true {fall : Option Bool} {s s' : DumpReader} (h : s.refill fall = .ok (true, s')) :
    s.seekSays fall = match s'.event.regions[s'.iregion]? with
      | none => s.refillSays s'
      | some r => if farEta r.etaCenter then s.refillSays s' ++ DumpReader.seekSays fall { s' with iregion := s'.iregion + 1 } else s.refillSays s' := by
  rw [DumpReader.seekSays]
  split
  · rename_i h2; rw [h] at h2; cases h2
  · rename_i h2; rw [h] at h2; cases h2
  · rename_i h2
    rw [h] at h2
    cases h2
    split
    · rename_i h3; rw [h3]
    · rename_i h3; rw [h3]

theorem seekSays_refill_false {fall : Option Bool} {s s' : DumpReader} (h : s.refill fall = .ok (false, s')) : s.seekSays fall = [] := by
  rw [DumpReader.seekSays]
  split
  · rfl
  · rfl
  · rename_i h2; rw [h] at h2; cases h2

theorem seekSays_exhausted (evs : List DumpEvent) (ih : ∀ (s : DumpReader) L, (∃ e es, evs = e :: es ∧
      (∀ e ∈ es, eventFits e ∧ e.event ≠ 0 ∧ e.regions ≠ []) ∧ s.file.bytes = es.flatMap eventBytes ∧ s.file.eof = false ∧
      s.event.event ≠ 0 ∧ s.iregion ≤ s.event.regions.length ∧
      L = regionItems (s.event.regions.drop s.iregion) s.iregion ++ items es) → SeekSays s L)
    (hev : ∀ e ∈ evs, eventFits e ∧ e.event ≠ 0 ∧ e.regions ≠ []) (s : DumpReader) (hb : s.file.bytes = evs.flatMap eventBytes)
    (he : s.file.eof = false) (hx : s.event.event = 0 ∨ s.iregion = s.event.regions.length) : SeekSays s (items evs) := by
  cases evs with
  | nil =>
    have hb' : s.file.bytes = [] := by rw [hb]; rfl
    have ho := readFromFile_outcome s.event s.file
    rw [hb', if_neg (by simp)] at ho
    obtain ⟨h1, h2, h3⟩ := readFromFile_end s.event s.file (by rw [hb']; simp)
    have hr : s.refill (some true) = .ok (false, ⟨(s.event.readFromFile s.file).2.2, (s.event.readFromFile s.file).2.1, s.iregion⟩) := by
      unfold DumpReader.refill
      rw [if_pos hx, if_neg (by rw [he]; simp)]
      simp only [ho]
      rfl
    refine ⟨[], [], Skips.nil, seekSays_refill_false hr, _, seek_refill_false hr, Or.inr ⟨h3, ?_, rfl⟩⟩
    show (s.event.readFromFile s.file).2.1.event = 0 ∨ s.iregion = (s.event.readFromFile s.file).2.1.regions.length
    rw [h1, h2]
    exact hx
  | cons e es =>
    obtain ⟨hf, hz, hne⟩ := hev e List.mem_cons_self
    have hfile : s.file = ⟨eventBytes e ++ es.flatMap eventBytes, false, s.file.junk⟩ := by
      cases hs : s.file with
      | mk b eo j =>
        rw [hs] at hb he
        simp only [] at hb he
        rw [hb, he, List.flatMap_cons]
    obtain ⟨j, hread⟩ := readFromFile_event s.event e hf (es.flatMap eventBytes) false s.file.junk
    rw [← hfile] at hread
    let s' : DumpReader := ⟨⟨es.flatMap eventBytes, false, j⟩, storedEvent e, 0⟩
    have hr : s.refill (some true) = .ok (true, s') := by
      unfold DumpReader.refill
      rw [if_pos hx, if_neg (by rw [he]; simp)]
      simp only [hread]
      rfl
    have hreg : (storedEvent e).regions = e.regions.map keepRegion := rfl
    have hi : 0 ≠ (storedEvent e).regions.length := by
      rw [hreg, List.length_map]
      intro h0
      exact hne (List.length_eq_zero_iff.mp h0.symm)
    have hr2 : s'.refill (some true) = .ok (true, s') := refill_same hz hi
    have hseek : s.seek (some true) = s'.seek (some true) := by rw [seek_refill_true hr, seek_refill_true hr2]
    have hs1 : s.refillSays s' = beginMessage e.run e.lumi e.event := by
      unfold DumpReader.refillSays
      rw [if_pos hx]
      rfl
    have hs2 : s'.refillSays s' = [] := by
      unfold DumpReader.refillSays
      rw [if_neg (by rintro (h | h); exacts [hz h, hi h])]
    have hsays : s.seekSays (some true) = beginMessage e.run e.lumi e.event ++ s'.seekSays (some true) := by
      rw [seekSays_refill_true hr, seekSays_refill_true hr2, hs1, hs2]
      split
      · rw [List.append_nil]
      · split
        · rw [List.nil_append]
        · rw [List.append_nil]
    have hL : items (e :: es) = .event e :: (regionItems ((storedEvent e).regions.drop 0) 0 ++ items es) := by
      unfold items
      rw [List.flatMap_cons, List.drop_zero, hreg, List.cons_append]
    obtain ⟨xs, rest, k1, k2, k3⟩ := ih s' _ ⟨e, es, rfl, fun x hx => hev x (List.mem_cons_of_mem _ hx), rfl, rfl, hz, Nat.zero_le _, rfl⟩
    refine ⟨e :: xs, rest, ?_, by rw [hsays, k2, List.flatMap_cons], ?_⟩
    · rw [hL]; exact Skips.event e k1
    · rw [hseek]; exact k3

theorem seekSays_inside (evs : List DumpEvent) (hev : ∀ e ∈ evs, eventFits e ∧ e.event ≠ 0 ∧ e.regions ≠ [])
    (hex : ∀ s : DumpReader, s.file.bytes = evs.flatMap eventBytes → s.file.eof = false →
      (s.event.event = 0 ∨ s.iregion = s.event.regions.length) → SeekSays s (items evs)) (k : Nat) :
    ∀ s : DumpReader, s.file.bytes = evs.flatMap eventBytes → s.file.eof = false → s.event.event ≠ 0 →
      s.iregion + k = s.event.regions.length →
      SeekSays s (regionItems (s.event.regions.drop s.iregion) s.iregion ++ items evs) := by
  induction k with
  | zero =>
    intro s h1 h2 h3 h4
    have : s.event.regions.drop s.iregion = [] := List.drop_eq_nil_of_le (by omega)
    rw [this]
    exact hex s h1 h2 (Or.inr (by omega))
  | succ k ih =>
    intro s h1 h2 h3 h4
    have hlt : s.iregion < s.event.regions.length := by omega
    have hr := refill_same (fall := some true) h3 (by omega)
    have hseek := seek_refill_true hr
    have hsays := seekSays_refill_true hr
    have hs2 : s.refillSays s = [] := by
      unfold DumpReader.refillSays
      rw [if_neg (by rintro (h | h); exacts [h3 h, absurd h (by omega)])]
    rw [List.getElem?_eq_getElem hlt] at hseek hsays
    simp only [hs2, List.nil_append] at hseek hsays
    have hR : ∀ (r : InputRegion) rs i, regionItems (r :: rs) i = (if farEta r.etaCenter then [] else [.region i r]) ++ regionItems rs (i + 1) := by
      intro r rs i
      unfold regionItems
      rw [List.zipIdx_cons, List.filter_cons]
      cases farEta r.etaCenter <;> rfl
    rw [List.drop_eq_getElem_cons hlt, hR]
    by_cases hfar : farEta (s.event.regions[s.iregion]).etaCenter = true
    · rw [if_pos hfar] at hseek hsays
      rw [if_pos hfar, List.nil_append]
      have := ih { s with iregion := s.iregion + 1 } h1 h2 h3 (by show s.iregion + 1 + k = s.event.regions.length; omega)
      obtain ⟨xs, rest, k1, k2, k3⟩ := this
      exact ⟨xs, rest, k1, by rw [hsays, k2], by rw [hseek]; exact k3⟩
    · rw [if_neg hfar] at hseek hsays
      rw [if_neg hfar]
      refine ⟨[], _, Skips.region _ _ _, hsays, ?_⟩
      exact ⟨s, hseek, List.getElem?_eq_getElem hlt, rfl, Or.inl ⟨evs, hev, h1, h2, Or.inr ⟨h3, hlt, rfl⟩⟩⟩

theorem seek_says {s : DumpReader} {L : List Item} (h : Finds s L) : SeekSays s L := by
  have all : ∀ evs : List DumpEvent, (∀ e ∈ evs, eventFits e ∧ e.event ≠ 0 ∧ e.regions ≠ []) →
      ∀ s : DumpReader, s.file.bytes = evs.flatMap eventBytes → s.file.eof = false →
      (s.event.event = 0 ∨ s.iregion = s.event.regions.length) → SeekSays s (items evs) := by
    intro evs
    induction evs with
    | nil => intro hev s h1 h2 h3; exact seekSays_exhausted [] (by rintro s L ⟨e, es, h, _⟩; cases h) hev s h1 h2 h3
    | cons e es ih =>
      intro hev s h1 h2 h3
      refine seekSays_exhausted (e :: es) ?_ hev s h1 h2 h3
      rintro t L ⟨e', es', heq, g1, g2, g3, g4, g5, g6⟩
      cases heq
      rw [g6]
      exact seekSays_inside es g1 (ih g1) (t.event.regions.length - t.iregion) t g2 g3 g4 (by omega)
  rcases h with ⟨evs, hev, h1, h2, (⟨h3, h4⟩ | ⟨h3, h4, h5⟩)⟩ | ⟨h1, h2, h3⟩
  · rw [h4]; exact all evs hev s h1 h2 (Or.inl h3)
  · rw [h5]; exact seekSays_inside evs hev (all evs hev) (s.event.regions.length - s.iregion) s h1 h2 h3 (by omega)
  · subst h3
    have hr : s.refill (some true) = .ok (false, s) := by
      unfold DumpReader.refill
      rw [if_pos h2, if_pos h1]
    exact ⟨[], [], Skips.nil, seekSays_refill_false hr, s, seek_refill_false hr, Or.inr ⟨h1, h2, rfl⟩⟩

/-- A call of the public `nextRegion`. -/
theorem nextRegion_says (zpv : BitVec 32 → Z0) {s : DumpReader} {L : List Item} (h : Finds s L) (inp : PFInputs NT NC NE NM) (z : Z0) :
    ∃ es rest, Skips L es rest ∧
      match rest with
      | .region i r :: xs => Says (s.nextRegionSays (some true)) (es.map beginLine ++ [regionLine i r]) ∧
          ∃ s' z', s.nextRegion (some true) zpv inp z = .ok (true, s', regionInputs NT NC NE NM r, z') ∧ Finds s' xs
      | _ => Says (s.nextRegionSays (some true)) (es.map beginLine) ∧ ∃ s', s.nextRegion (some true) zpv inp z = .ok (false, s', inp, z) := by
  obtain ⟨es, rest, k1, k2, k3⟩ := seek_says h
  have hb : Says (s.seekSays (some true)) (es.map beginLine) := by
    rw [k2, List.map_eq_flatMap]
    exact Says.flatMap (fun e => says_begin e) es
  refine ⟨es, rest, k1, ?_⟩
  have last : (∃ s', s.seek (some true) = .ok (false, s') ∧ Finds s' []) →
      Says (s.nextRegionSays (some true)) (es.map beginLine) ∧ ∃ s', s.nextRegion (some true) zpv inp z = .ok (false, s', inp, z) := by
    rintro ⟨s', h1, h2⟩
    constructor
    · unfold DumpReader.nextRegionSays
      rw [h1]
      simp only [List.append_nil]
      exact hb
    · refine ⟨s', ?_⟩
      unfold DumpReader.nextRegion
      rw [h1]
      rfl
  match rest, k3 with
  | [], k3 => exact last k3
  | .event _ :: _, k3 => exact last k3
  | .region i r :: xs, ⟨s', h1, h2, h3, h4⟩ =>
    constructor
    · unfold DumpReader.nextRegionSays
      rw [h1]
      simp only [h2]
      rw [h3]
      exact hb.append (says_region i r)
    · refine ⟨_, zpv s'.event.z0, ?_, h4⟩
      unfold DumpReader.nextRegion
      rw [h1]
      simp only [Run.ok_bind, Bool.not_true, Bool.false_eq_true, if_false, h2, fw_many_eq]
      rfl

end Verif
