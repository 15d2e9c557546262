import Verif.Model.RegionizerTest
import Verif.Spec.Region
import Verif.Spec.Dump
import Verif.Spec.Compare
/-! # What the regionizer test bench should do with an event -/
namespace Verif.Spec
variable {sz : RegSizes} {NC NE NT NM : Nat}

/-- An event the bench can use: twelve sectors, no negative pt among the calorimeter clusters it takes. -/
def GoodEvent (sz : RegSizes) (e : DumpEvent) : Prop :=
  e.regions.length = 12 ∧ ∀ r ∈ e.regions, ∀ c ∈ r.calo.take sz.calo, 0 ≤ c.hwPt.toInt

/-- The inputs are the first objects of each sector, in the order of the dump. -/
def InputsOf (e : DumpEvent) (inp : RegIn sz NM) : Prop :=
  ∀ (is : Fin 12) (r : InputRegion), e.regions[is.val]? = some r →
    inp.calo is = padded sz.calo fw_had HadCaloObj.clear r.calo ∧
    inp.em is = padded sz.em fw_em EmCaloObj.clear r.emcalo ∧
    inp.track is = padded sz.track fw_track TkObj.clear r.track ∧
    inp.mu is = padded NM fw_mu MuObj.clear r.muon

/-- Regions hold the best objects of the inputs. -/
def RegionsOf {T : Type} [RegObj T] {N NREG : Nat} (nse : Nat) (inp : Fin 12 → Arr N T) (regions : Fin 18 → Arr NREG T) : Prop :=
  ∀ ir : Fin 18, List.ofFn (regions ir) =
    pad NREG (region NREG nse ⟨ir.val / 6, by omega⟩ ⟨ir.val % 6, by omega⟩ (fun is => List.ofFn (inp is)))

/-- What is written for an event. -/
def RecordOf (e : DumpEvent) (d : RegRecord sz NC NE NT NM) : Prop :=
  InputsOf e d.inp ∧ d.mu_in = merge_muon_in d.inp.mu ∧
  RegionsOf sz.caloEta d.inp.calo d.calo ∧ RegionsOf sz.emEta d.inp.em d.em ∧ RegionsOf sz.trackEta d.inp.track d.track ∧
  regionize_muon_ref NM (fun s => List.ofFn (d.mu_in s)) = .ok (fun _ => [], d.mu)

open Classical in
/-- One if there is a slot in which the objects are not the same. -/
noncomputable def wrong {N : Nat} {T K : Type} (pt : T → Pt) (fields : T → K) (a b : Arr N T) : Nat :=
  if ∃ i, ¬ SameObj pt fields (a i) (b i) then 1 else 0

end Verif.Spec
