import Verif.Model.SequentialClass
import Verif.Spec.Retrain
import Verif.Spec.HmmRetrain
/- Training one class in the multithreading mode Sequential, from the recordings on. -/
namespace Xmm
open TS

/-- a recording session, then `train(set, label)` in the mode Sequential -/
noncomputable def recordAndTrainClassSequential (S : GmmSettings ℝ) (D : Dens ℝ) (log : ℝ → ℝ) (C : Compare ℝ) (cancel : Nat → Bool) (f : Format) (i : Nat)
    (ops : List (RecOp ℝ String)) (w0 : World ℝ String) (label : String) : Prog (GmmModel ℝ) Unit :=
  recordThen f i ops w0 fun w t => GmmModel.trainLabelSequential S D log Real.sqrt C cancel w t label

/-- a recording session, then `train(set, label)` in the mode Sequential for the labels `ls`, one after the other, without a call of `reset()`; nobody cancels -/
noncomputable def recordAndTrainClassesSequential (S : GmmSettings ℝ) (D : Dens ℝ) (log : ℝ → ℝ) (C : Compare ℝ) (f : Format) (i : Nat)
    (ops : List (RecOp ℝ String)) (w0 : World ℝ String) (ls : List String) : Prog (GmmModel ℝ) Unit :=
  recordThen f i ops w0 fun w t => ls.foldlM (fun _ l => GmmModel.trainLabelSequential S D log Real.sqrt C (fun _ => false) w t l) ()

/-- a recording session, then `train(set, label)` of a hierarchical hidden Markov model in the mode Sequential -/
noncomputable def recordAndTrainHmmClassSequential (z : ℝ) (D : Dens ℝ) (log : ℝ → ℝ) (C : Compare ℝ) (P : EmParams) (cancel : Nat → Bool) (f : Format) (i : Nat)
    (ops : List (RecOp ℝ String)) (w0 : World ℝ String) (label : String) : Prog (HierHmm ℝ) Unit :=
  recordThen f i ops w0 fun w t => HierHmm.trainLabelSequential z D log Real.sqrt C P KData.deviation cancel w t label

/-- a recording session, then `train(set, label)` of a hierarchical hidden Markov model in the mode Sequential for the labels `ls`, one after the other, without a call of `reset()`; nobody cancels -/
noncomputable def recordAndTrainHmmClassesSequential (z : ℝ) (D : Dens ℝ) (log : ℝ → ℝ) (C : Compare ℝ) (P : EmParams) (f : Format) (i : Nat)
    (ops : List (RecOp ℝ String)) (w0 : World ℝ String) (ls : List String) : Prog (HierHmm ℝ) Unit :=
  recordThen f i ops w0 fun w t => ls.foldlM (fun _ l => HierHmm.trainLabelSequential z D log Real.sqrt C P KData.deviation (fun _ => false) w t l) ()

end Xmm
