import Verif.Spec.LoadedTrain
import Verif.Spec.LoadedTrainHmm
import Verif.Spec.SequentialTrain
import Verif.Spec.SequentialClass
/- Recording and training in the mode Sequential with the parameters that a model has. -/
namespace Xmm
open TS

/-- the mixture model `B`, with the results `r`; a recording session, then `train(set, label)` in the mode Sequential with the parameters of `B` -/
noncomputable def GmmBody.recordAndTrainClassSequential (D : Dens ℝ) (log : ℝ → ℝ) (lowest : ℝ) (cancel : Nat → Bool) (f : Format) (i : Nat) (ops : List (RecOp ℝ String))
    (w0 : World ℝ String) (label : String) (B : GmmBody ℝ) (r : MultiRes ℝ) : Res (GmmModel ℝ) Unit :=
  Xmm.recordAndTrainClassSequential B.settings D log (Compare.exact lowest B.shared.percentChg.value) cancel f i ops w0 label (GmmBody.model B r)

/-- the mixture model `B`, with the results `r`; a recording session, then `train(set)` in the mode Sequential with the parameters of `B` -/
noncomputable def GmmBody.recordAndTrainSequential (D : Dens ℝ) (log : ℝ → ℝ) (lowest : ℝ) (cancel : String → Nat → Bool) (f : Format) (i : Nat) (ops : List (RecOp ℝ String))
    (w0 : World ℝ String) (B : GmmBody ℝ) (r : MultiRes ℝ) : Res (GmmModel ℝ) Unit :=
  Xmm.recordAndTrainSequential B.settings D log (Compare.exact lowest B.shared.percentChg.value) cancel f i ops w0 (GmmBody.model B r)

/-- the hierarchical model `B`, with its other members; a recording session, then `train(set, label)` in the mode Sequential with the parameters of `B` -/
noncomputable def HierBody.recordAndTrainClassSequential (z : ℝ) (D : Dens ℝ) (log : ℝ → ℝ) (lowest : ℝ) (cancel : Nat → Bool) (f : Format) (i : Nat) (ops : List (RecOp ℝ String))
    (w0 : World ℝ String) (label : String) (B : HierBody ℝ) (r : MultiRes ℝ) (front1 front2 : List ℝ) (started : Bool) : Res (HierHmm ℝ) Unit :=
  Xmm.recordAndTrainHmmClassSequential z D log (Compare.exact lowest B.body.shared.percentChg.value) B.em cancel f i ops w0 label (HierBody.model B r front1 front2 started)

/-- the hierarchical model `B`, with its other members; a recording session, then `train(set)` in the mode Sequential with the parameters of `B` -/
noncomputable def HierBody.recordAndTrainSequential (z : ℝ) (D : Dens ℝ) (log : ℝ → ℝ) (lowest : ℝ) (cancel : String → Nat → Bool) (f : Format) (i : Nat) (ops : List (RecOp ℝ String))
    (w0 : World ℝ String) (B : HierBody ℝ) (r : MultiRes ℝ) (front1 front2 : List ℝ) (started : Bool) : Res (HierHmm ℝ) Unit :=
  Xmm.recordAndTrainHmmSequential z D log (Compare.exact lowest B.body.shared.percentChg.value) B.em cancel f i ops w0 (HierBody.model B r front1 front2 started)

end Xmm
