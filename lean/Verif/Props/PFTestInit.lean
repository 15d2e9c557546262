import Verif.Props.PFTest
import Verif.Props.PFTestFiles
/-! # The initialisation of the inputs in the test of particle flow: C54, continued -/
namespace Verif
open Spec
variable {NT NC NE NM NS : Nat}

/-- What the loop of the test sees of a call of `nextRegion`: the arrays only if there was a region. -/
def regionSeen (x : Bool × DumpReader × PFInputs NT NC NE NM × Z0) : Bool × DumpReader × Option (PFInputs NT NC NE NM × Z0) :=
  (x.1, x.2.1, if x.1 then some x.2.2 else none)

/-- **C54.** `nextRegion` overwrites all inputs: what was in the arrays, initialised by the test or not, has no effect on what the test sees. -/
theorem C54_init (fall : Option Bool) (zpv : BitVec 32 → Z0) (s : DumpReader) (inp inp' : PFInputs NT NC NE NM) (z z' : Z0) :
    (s.nextRegion fall zpv inp z).map regionSeen = (s.nextRegion fall zpv inp' z').map regionSeen := by
  unfold DumpReader.nextRegion
  cases s.seek fall with
  | error e => rfl
  | ok x =>
    obtain ⟨b, s⟩ := x
    rw [Run.ok_bind, Run.ok_bind]
    cases b with
    | false => rfl
    | true =>
      simp only [Bool.not_true, Bool.false_eq_true, if_false]
      cases s.event.regions[s.iregion]? with
      | none => rfl
      | some r => simp only [fw_many_eq]

/-- **C54.** So the exit status does not depend on the contents of the arrays of inputs or of the vertex before the test. -/
theorem C54_any_memory (kind : TestKind) (fall : Option Bool) (zpv : BitVec 32 → Z0) (junk : Nat → TestJunk NT NC NE NM NS) (n : Nat) (s : DumpReader)
    (inp inp' : PFInputs NT NC NE NM) (z z' : Z0) (out ref : PFOutputs NT NE NS NM) :
    pfTestLoop kind fall zpv junk n s inp z out ref = pfTestLoop kind fall zpv junk n s inp' z' out ref := by
  cases n with
  | zero => rfl
  | succ n =>
    have h := C54_init fall zpv s (initInputs inp) (initInputs inp') z z'
    unfold pfTestLoop
    cases e1 : s.nextRegion fall zpv (initInputs inp) z with
    | error a =>
      cases e2 : s.nextRegion fall zpv (initInputs inp') z' with
      | error b => rw [e1, e2] at h; rw [Except.error.inj h]
      | ok y => rw [e1, e2] at h; exact absurd h (by simp [Except.map])
    | ok x =>
      cases e2 : s.nextRegion fall zpv (initInputs inp') z' with
      | error b => rw [e1, e2] at h; exact absurd h (by simp [Except.map])
      | ok y =>
        rw [e1, e2] at h
        have k := Except.ok.inj h
        obtain ⟨b, s1, i1, z1⟩ := x
        obtain ⟨b', s2, i2, z2⟩ := y
        unfold regionSeen at k
        simp only [Prod.mk.injEq] at k
        obtain ⟨rfl, rfl, k⟩ := k
        cases b with
        | false => rfl
        | true =>
          obtain ⟨rfl, rfl⟩ := Prod.mk.inj (Option.some.inj k)
          rfl

end Verif
