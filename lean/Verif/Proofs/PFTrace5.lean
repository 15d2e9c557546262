import Verif.Proofs.PFTrace4
/-! The debugging text of the reference does not depend on what is in memory. -/
namespace Verif
open Spec

variable {NT NC NE NM NS : Nat}

theorem em_debug_old (F : DebugText) (emcalo : Arr NE EmCaloObj) (hadcalo : Arr NC HadCaloObj) (track : Arr NT TkObj) (isMu : Arr NT Bool)
    (old old' : Arr NE PFNeutralObj) :
    (F.pfalgo3_em_ref emcalo hadcalo track isMu old).map (fun r => (r.1.isEle, r.1.hadcalo_out, r.2)) =
      (F.pfalgo3_em_ref emcalo hadcalo track isMu old').map (fun r => (r.1.isEle, r.1.hadcalo_out, r.2)) := by
  unfold DebugText.pfalgo3_em_ref
  simp only []
  rw [Run.map_bind, Run.map_bind]
  exact Run.bind_congr fun em => rfl

/-- The part of the text that comes after the EM clusters, from what is left of the calorimeter clusters. -/
noncomputable def DebugText.tail (F : DebugText) (more : Bool) (junk : DebugJunk NT NC NE NM) (inp : PFInputs NT NC NE NM) (isEle : Arr NT Bool)
    (hadcalo_out : Arr NC HadCaloObj) : Run (List Char) := do
  let (s, t3) ← tkhad_debug hadcalo_out inp.track isEle (mu_ref inp.mu inp.track).2 fun it =>
    decide ((inp.track it).hwPt.toInt <
      (if (inp.track it).hwTightQuality then (reg 16 PFALGO3_TK_MAXINVPT_TIGHT : Pt)
        else reg 16 PFALGO3_TK_MAXINVPT_LOOSE).toInt) || isEle it || (mu_ref inp.mu inp.track).2 it
  let calo_subpt ← buildM fun ic => calo_subpt_ref (hadcalo_out ic) (s.calo_sumtk ic) (s.calo_sumtkErr2 ic)
  .ok (t3 ++ (List.finRange NC).flatMap fun ic =>
    F.neutral more ic.val (hadcalo_out ic) (junk.sub ic) (s.calo_sumtk ic) (s.calo_sumtkErr2 ic) (calo_subpt ic))

theorem full_debug_text (F : DebugText) (more : Bool) (junk : DebugJunk NT NC NE NM) (inp : PFInputs NT NC NE NM) (old : PFOutputs NT NE NS NM)
    (mem : Arr NC PFNeutralObj) :
    (F.pfalgo3_full_ref more junk inp old mem).map Prod.snd = (do
      let r ← (F.pfalgo3_em_ref inp.emcalo inp.hadcalo inp.track (mu_ref inp.mu inp.track).2 old.outpho).map (fun r => (r.1.isEle, r.1.hadcalo_out, r.2))
      let t ← F.tail more junk inp r.1 r.2.1
      .ok ((if more then F.inputs junk inp else []) ++
        (((List.finRange NM).flatMap fun im => debug_mu inp.track im.val (inp.mu im)) ++ (r.2.2 ++ t)))) := by
  unfold DebugText.pfalgo3_full_ref DebugText.tail
  simp only []
  rw [Run.map_bind]
  cases F.pfalgo3_em_ref inp.emcalo inp.hadcalo inp.track (mu_ref inp.mu inp.track).2 old.outpho with
  | error e => rfl
  | ok em =>
    have e1 : (Except.ok em : Run _).map (fun r => (r.1.isEle, r.1.hadcalo_out, r.2)) = .ok (em.1.isEle, em.1.hadcalo_out, em.2) := rfl
    rw [e1, Run.ok_bind, Run.ok_bind, Run.map_bind]
    cases tkhad_debug _ _ _ _ _ with
    | error e => rfl
    | ok s =>
      simp only [Run.ok_bind]
      rw [Run.map_bind]
      cases buildM _ with
      | error e => rfl
      | ok sp => rfl

end Verif
