import Verif.Proofs.PFTrace5
import Verif.Props.PFAgree
/-!
# C77: what the reference says when debugging

`pfalgo3_full_ref_set_debug(true)` (simple_fullpfalgo_ref.cpp:8-10) turns on messages about every decision.  They change nothing, and they
are the decisions of the specification.
-/
namespace Verif
open Spec

variable {NT NC NE NM NS : Nat}

/-- **C77.** Debugging changes neither the particles nor the faults, for all inputs. -/
theorem C77_same (F : DebugText) (more : Bool) (junk : DebugJunk NT NC NE NM) (inp : PFInputs NT NC NE NM) (old : PFOutputs NT NE NS NM)
    (mem : Arr NC PFNeutralObj) : (F.pfalgo3_full_ref more junk inp old mem).map Prod.fst = pfalgo3_full_ref inp old mem :=
  full_debug_same F more junk inp old mem

/-- **C77.** On valid inputs the lines of the text are, in order: the objects, the muons and their tracks, the tracks and their EM clusters, the sums and the
nature of the EM clusters, the electrons, the EM clusters and their calorimeter clusters, what is left of these, their tracks, and the neutral pt. -/
theorem C77_trace {F : DebugText} (A : PrintsCents F) (more : Bool) (junk : DebugJunk NT NC NE NM) {inp : PFInputs NT NC NE NM} (hv : Valid inp refVariant)
    (old : PFOutputs NT NE NS NM) (mem : Arr NC PFNeutralObj) :
    ∃ out text, F.pfalgo3_full_ref more junk inp old mem = .ok (out, text) ∧ TextReads (pfTrace inp more) text :=
  full_debug_trace A more junk hv old mem

/-- **C77.** The text does not depend on what is in memory: neither on the objects before they are filled, nor on the outputs. -/
theorem C77_memory (F : DebugText) (more : Bool) (junk junk' : DebugJunk NT NC NE NM) (inp : PFInputs NT NC NE NM) (old old' : PFOutputs NT NE NS NM)
    (mem mem' : Arr NC PFNeutralObj) :
    (F.pfalgo3_full_ref more junk inp old mem).map Prod.snd = (F.pfalgo3_full_ref more junk' inp old' mem').map Prod.snd := by
  rw [full_debug_text, full_debug_text, em_debug_old F _ _ _ _ old.outpho old'.outpho]
  rfl

/-! ## Examples -/

/-- Non-vacuity: there are such types. -/
example : ∃ F : DebugText, PrintsCents F := by
  obtain ⟨R, hR⟩ := C61_rounding_exists
  refine ⟨⟨R, fun x => (round (100 * x)).toNat⟩, hR, fun x hx => ?_⟩
  have h1 := abs_sub_round (100 * x)
  have h2 : 0 ≤ round (100 * x) := by
    rw [round_eq]
    exact Int.floor_nonneg.mpr (by positivity)
  have h3 : (((round (100 * x)).toNat : Nat) : ℝ) = (round (100 * x) : ℝ) := by exact_mod_cast Int.toNat_of_nonneg h2
  rw [h3, abs_sub_comm]
  exact h1

/-- The ordinary event is valid, and its trace tells the track of the muon. -/
example : Valid ordinary refVariant ∧
    [.say "FW \t muon", .int 0, .say "linked to track", .int 2] ∈ pfTrace ordinary false := by
  refine ⟨physical_valid ordinary ordinary_physical refVariant, ?_⟩
  have hm : MuMatch ordinary 0 2 := ⟨by decide, ⟨by decide, by decide⟩⟩
  unfold pfTrace
  rw [List.mem_append]
  right
  rw [List.mem_append]
  left
  unfold forAll
  rw [List.mem_flatMap]
  refine ⟨0, List.mem_finRange _, ?_⟩
  unfold muTrace forAll
  rw [List.mem_append]
  left
  rw [List.mem_flatMap]
  exact ⟨2, List.mem_finRange _, by rw [lineIf_pos hm]; exact List.mem_singleton.mpr rfl⟩

/-- How the numbers look. -/
example : fmtF2 1234 = "12.34".toList ∧ padText 7 (fmtF2 305) = "   3.05".toList ∧ signedDecimal "-0.50".toList = some (-1 / 2) ∧
    signedDecimal "+2.25".toList = some (9 / 4) := by decide +kernel

/-- How a line looks. -/
example : debug_mu ordinary.track 0 (ordinary.mu 0) = "FW  \t muon   0 linked to track   2 \n".toList := by decide +kernel

end Verif
