import Verif.Proofs.Symmetry
import Verif.Props.PFAgree
import Mathlib.Data.BitVec
/-! # Only relative positions matter: property C51 -/
namespace Verif
open Spec
variable {NT NC NE NM NS NN : Nat}

/-- **C51.** Moving every object of an event by a motion of the eta-phi torus moves the particles the
firmware finds and changes nothing else: same fault, or the same candidates in the same slots at the
moved positions.  No hypothesis on the event or on the memory. -/
theorem C51_firmware (g : Motion) (inp : PFInputs NT NC NE NM) (old : PFOutputs NT NE NS NM) (mem : PFScratch NC NS) :
    SameRun g.Outputs (pfalgo3_full inp old mem) (pfalgo3_full (g.inputs inp) old mem) :=
  Motion.full g inp old mem

/-- **C51.** Same for the reference. -/
theorem C51_reference (g : Motion) (inp : PFInputs NT NC NE NM) (old : PFOutputs NT NE NS NM) (mem : Arr NC PFNeutralObj) :
    SameRun g.Outputs (pfalgo3_full_ref inp old mem) (pfalgo3_full_ref (g.inputs inp) old mem) :=
  Motion.full_ref g inp old mem

/-- **C51.** PUPPI reference: moved candidates get the same weighted pt (or the same fault). -/
theorem C51_puppi_reference (g : Motion) (table : PuppiTable) {pfch pfch' : Arr NT PFChargedObj} {ne ne' : Arr NN PFNeutralObj}
    (hch : ∀ i, g.Charged (pfch i) (pfch' i)) (hne : ∀ i, g.Neutral (ne i) (ne' i)) (z : Z0) :
    SameRun (fun a b => ∀ i, g.Neutral (a i) (b i)) (simple_puppi_ref table pfch ne z)
      (simple_puppi_ref table pfch' ne' z) :=
  Motion.puppi_ref g table hch hne z

/-- **C51.** PUPPI firmware: moved candidates get the same weighted pt when neither sum overflows.  (The
firmware also sums for empty slots, which have no position to move, so the faults need not coincide …) -/
theorem C51_puppi_firmware (g : Motion) (table : PuppiTable) {pfch pfch' : Arr NT PFChargedObj} {ne ne' : Arr NN PFNeutralObj}
    (hch : ∀ i, g.Charged (pfch i) (pfch' i)) (hne : ∀ i, g.Neutral (ne i) (ne' i)) (z : Z0)
    {out out' : Arr NN PFNeutralObj} (h : simple_puppi_hw table pfch ne z = .ok out)
    (h' : simple_puppi_hw table pfch' ne' z = .ok out') (i : Fin NN) : g.Neutral (out i) (out' i) :=
  Motion.puppi_hw g table hch hne z h h' i

/-- **C51.** (… they do when the empty neutral slots are moved as well.) -/
theorem C51_puppi_firmware_all (g : Motion) (table : PuppiTable) {pfch pfch' : Arr NT PFChargedObj} {ne ne' : Arr NN PFNeutralObj}
    (hch : ∀ i, g.Charged (pfch i) (pfch' i)) (hne : ∀ i, g.Neutral (ne i) (ne' i))
    (he : ∀ i, (ne' i).hwEta = g.eta (ne i).hwEta (ne i).hwPhi) (hp : ∀ i, (ne' i).hwPhi = g.phi (ne i).hwEta (ne i).hwPhi)
    (z : Z0) :
    SameRun (fun a b => ∀ i, g.Neutral (a i) (b i)) (simple_puppi_hw table pfch ne z) (simple_puppi_hw table pfch' ne' z) :=
  Motion.puppi_hw_all g table hch hne he hp z

/-! ### The motions: shifts, mirror images, exchange of the axes -/

theorem circ_eq_sub (x y : EtaPhi) : circ x y = (x - y).toInt := by
  unfold circ
  rw [BitVec.toInt_sub]

/-- Shift by `(a, b)` modulo 1024. -/
def shift (a b : EtaPhi) : Motion where
  eta e _ := e + a
  phi _ p := p + b
  isometry e1 p1 e2 p2 := by
    unfold dist2
    simp only [circ_eq_sub, add_sub_add_right_eq_sub]

theorem sq_neg_toInt : ∀ x : EtaPhi, (-x).toInt ^ 2 = x.toInt ^ 2 := by
  have h : ∀ n : Fin 1024, (-(BitVec.ofFin n : BitVec 10)).toInt ^ 2 = (BitVec.ofFin n : BitVec 10).toInt ^ 2 := by
    decide +kernel
  exact fun x => h x.toFin

/-- Mirror image in eta and/or phi. -/
def mirror (inEta inPhi : Bool) : Motion where
  eta e _ := if inEta then -e else e
  phi _ p := if inPhi then -p else p
  isometry e1 p1 e2 p2 := by
    have h : ∀ x y : EtaPhi, circ (-x) (-y) ^ 2 = circ x y ^ 2 := by
      intro x y
      rw [circ_eq_sub, circ_eq_sub, ← sq_neg_toInt (x - y)]
      congr 2
      ring
    unfold dist2
    cases inEta <;> cases inPhi <;> simp [h]

/-- Exchange of eta and phi. -/
def exchange : Motion where
  eta _ p := p
  phi e _ := e
  isometry e1 p1 e2 p2 := by
    unfold dist2
    ring

/-- **C51.** In particular shifting an event, modulo 1024 in each coordinate, shifts the result: the
regions wrap around consistently. -/
theorem C51_shift (a b : EtaPhi) (inp : PFInputs NT NC NE NM) (old : PFOutputs NT NE NS NM) (mem : PFScratch NC NS)
    {out : PFOutputs NT NE NS NM} (h : pfalgo3_full inp old mem = .ok out) :
    ∃ out', pfalgo3_full ((shift a b).inputs inp) old mem = .ok out' ∧
      (∀ i, (out'.outch i).hwPt = (out.outch i).hwPt ∧ (out'.outch i).hwId = (out.outch i).hwId ∧
        ((out.outch i).hwPt ≠ 0 → (out'.outch i).hwEta = (out.outch i).hwEta + a ∧
          (out'.outch i).hwPhi = (out.outch i).hwPhi + b)) ∧
      (∀ i, (out'.outne i).hwPt = (out.outne i).hwPt ∧
        ((out.outne i).hwPt ≠ 0 → (out'.outne i).hwEta = (out.outne i).hwEta + a ∧
          (out'.outne i).hwPhi = (out.outne i).hwPhi + b)) := by
  have k := C51_firmware (shift a b) inp old mem
  rw [h] at k
  cases h' : pfalgo3_full ((shift a b).inputs inp) old mem with
  | error e => rw [h'] at k; exact k.elim
  | ok out' =>
    rw [h'] at k
    exact ⟨out', rfl, fun i => ⟨(k.charged i).pt, (k.charged i).id, fun hz => ⟨(k.charged i).eta hz, (k.charged i).phi hz⟩⟩,
      fun i => ⟨(k.neutral i).pt, fun hz => ⟨(k.neutral i).eta hz, (k.neutral i).phi hz⟩⟩⟩

/-- Non-vacuity: the ordinary event shifted by (500, -300), across the edge of the region, gives the same
electron, hadron, muon, photon and neutral hadron, the neutral at (200+500-1024, -60-300). -/
example : (pfalgo3_full ((shift 500 (-300)).inputs ordinary) (old0 3 2 2 1) (mem0 2 2)).map (fun o =>
      ((o.outch 0).hwId, (o.outpho 1).hwPt, (o.outne 0).hwPt, (o.outmu 0).hwPt, (o.outne 0).hwEta,
       (o.outne 0).hwPhi)) = .ok (3, 80, 180, 60, -324, -360) := by
  decide +kernel

/-- Why the position of an empty particle is excepted: it is 0, whatever the motion. -/
example : (pfalgo3_full ((shift 500 (-300)).inputs ordinary) (old0 3 2 2 1) (mem0 2 2)).map (fun o =>
      ((o.outpho 0).hwPt, (o.outpho 0).hwEta)) = .ok (0, 0) := by
  decide +kernel

/-! ### The alternative linking: property C52 -/

theorem tk2calo_dronly_iff (calo : Arr NC HadCaloObj) (track : Arr NT TkObj) (t : Fin NT) (c : Fin NC) :
    tk2calo_link_dronly calo track t c = true ↔
      FirstMin (fun c => (caloPtMin (track t)).toInt < (calo c).hwPt.toInt ∧
          dist2 (track t).hwEta (track t).hwPhi (calo c).hwEta (calo c).hwPhi < 756)
        (fun c => dist2 (track t).hwEta (track t).hwPhi (calo c).hwEta (calo c).hwPhi) c := by
  unfold tk2calo_link_dronly
  have hmax : ((reg 10 (PFALGO3_DR2MAX_TK_CALO : Int) : BitVec 10).toNat : Int) = 756 := by decide
  apply pick_closest_iff
  · intro j hj
    rw [hmax]
    refine ⟨?_, hj.2⟩
    simp only [tk2calo_drvals]
    rw [if_pos (by exact hj.1), dr2_int_cap_toNat, dr2_int_eq_dist2, hmax]
    exact min_eq_left (le_of_lt hj.2)
  · intro j hj
    simp only [tk2calo_drvals]
    split
    · rename_i hpt
      apply BitVec.eq_of_toNat_eq
      have := dr2_int_cap_toNat (track t).hwEta (track t).hwPhi (calo j).hwEta (calo j).hwPhi
        (reg 10 (PFALGO3_DR2MAX_TK_CALO : Int) : BitVec 10)
      rw [dr2_int_eq_dist2, hmax, min_eq_right (not_lt.mp fun h => hj ⟨hpt, h⟩)] at this
      rw [← hmax] at this
      exact_mod_cast this
    · rfl

/-- **C52.** The distance-only linking of the firmware links a track to the first nearest cluster within
`dr² < 756` among those with pt above `max(0, pt − 2·ptErr)`. -/
theorem C52_dronly_link (calo : Arr NC HadCaloObj) (track : Arr NT TkObj) (t : Fin NT) (c : Fin NC)
    (h0 : 0 ≤ (track t).hwPt.toInt) (he : 0 ≤ (track t).hwPtErr.toInt) (he' : (track t).hwPtErr.toInt ≤ 16384) :
    tk2calo_link_dronly calo track t c = true ↔
      FirstMin (fun c => max 0 ((track t).hwPt.toInt - 2 * (track t).hwPtErr.toInt) < (calo c).hwPt.toInt ∧
          dist2 (track t).hwEta (track t).hwPhi (calo c).hwEta (calo c).hwPhi < 756)
        (fun c => dist2 (track t).hwEta (track t).hwPhi (calo c).hwEta (calo c).hwPhi) c := by
  rw [tk2calo_dronly_iff, caloPtMin_eq (track t) h0 he (by omega)]

/-- **C52.** It agrees with the distance-only matching of the reference, with no condition on the inputs. -/
theorem C52_dronly_agrees (calo : Arr NC HadCaloObj) (track : Arr NT TkObj) (t : Fin NT) (c : Fin NC) :
    tk2calo_link_dronly calo track t c = true ↔
      best_match_ref_calo PFALGO3_DR2MAX_TK_CALO calo (track t) = some c := by
  rw [tk2calo_dronly_iff]
  unfold best_match_ref_calo
  rw [best_match_loop_iff]
  apply firstMin_congr
  · intro j
    rw [dr2_int_eq_dist2]
    simp only [decide_eq_false_iff_not, not_le]
    rfl
  · intro j _
    rw [dr2_int_eq_dist2]

/-- **C52.** The two linkings of the firmware are different algorithms: a cluster that is nearer but
softer loses to one that matches the pt of the track only in the default linking. -/
theorem C52_alternatives_differ :
    let calo : Arr 2 HadCaloObj := fun i => if i = 0 then ⟨90, 3, 0, 0, false⟩ else ⟨100, 4, 0, 0, false⟩
    let track : Arr 1 TkObj := fun _ => ⟨100, 10, 0, 0, 0, false⟩
    tk2calo_link_dronly calo track 0 0 = true ∧
    (tk2calo_link_drdpt calo track).map (fun l => (l 0 0, l 0 1)) = .ok (false, true) := by
  decide +kernel

end Verif
