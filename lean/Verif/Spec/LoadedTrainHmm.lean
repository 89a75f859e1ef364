import Verif.Model.LoadedModel
import Verif.Spec.HmmRetrain
/- What training a hierarchical hidden Markov model that has been loaded must give. -/
namespace Xmm
open TS

/-- the numbers of iterations of the training of the model `B`: its shared parameters -/
def HierBody.em (B : HierBody ℝ) : EmParams := ⟨B.body.shared.emMin.value, B.body.shared.emMax.value⟩

/-- the model `B`, with its other members; a recording session, then `train(set, label)` with the parameters of `B` -/
noncomputable def HierBody.recordAndTrainClass (z : ℝ) (D : Dens ℝ) (log : ℝ → ℝ) (lowest : ℝ) (cancel : Nat → Bool) (f : Format) (i : Nat) (ops : List (RecOp ℝ String))
    (w0 : World ℝ String) (label : String) (B : HierBody ℝ) (r : MultiRes ℝ) (front1 front2 : List ℝ) (started : Bool) : Res (HierHmm ℝ) Unit :=
  Xmm.recordAndTrainHmmClass z D log (Compare.exact lowest B.body.shared.percentChg.value) B.em cancel f i ops w0 label (HierBody.model B r front1 front2 started)

/-- the model `B`, with its other members; a recording session, then `train(set)` with the parameters of `B` -/
noncomputable def HierBody.recordAndTrain (z : ℝ) (D : Dens ℝ) (log : ℝ → ℝ) (lowest : ℝ) (cancel : String → Nat → Bool) (f : Format) (i : Nat) (ops : List (RecOp ℝ String))
    (w0 : World ℝ String) (B : HierBody ℝ) (r : MultiRes ℝ) (front1 front2 : List ℝ) (started : Bool) : Res (HierHmm ℝ) Unit :=
  Xmm.recordAndTrainHmm z D log (Compare.exact lowest B.body.shared.percentChg.value) B.em cancel f i ops w0 (HierBody.model B r front1 front2 started)

end Xmm
