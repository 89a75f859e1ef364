import Verif.Model.Retrain
import Verif.Model.HmmRetrain
import Verif.Model.SequentialTrain
/-
`train(trainingSet, label)` in the multithreading mode Sequential: src/core/model/xmmModel.hpp:312-361 with everything it calls.  The class is trained in the thread of
the caller (line 349), and `joinTraining()` (lines 487-523) is not called: the model is not reset, and a class whose training failed is not erased.
-/
namespace Xmm
open TS

namespace GmmModel
variable {K : Type} [Field K] [LinearOrder K]

/-- The training of the class, xmmModel.hpp:345-349: an exception goes to the caller.  `classFor` has set `is_training_` already (Model/Retrain.lean). -/
def trainLabelHere (S : GmmSettings K) (D : Dens K) (log sqrt : K → K) (C : Compare K) (cancel : Nat → Bool) (w : World K String) (t : TSet String) (label : String) :
    Prog (GmmModel K) Unit := fun M =>
  match SMap.find? label M.models with
  | none => .ub
  | some c =>
    match trainOne S D log sqrt C cancel w t label c with
    | .ret _ c' => .ret () { M with models := SMap.assign label c' M.models }
    | .throw e c' => .throw e { M with models := SMap.assign label c' M.models }
    | .ub => .ub

/-- `train(trainingSet, label)`, xmmModel.hpp:312-361, in the mode Sequential (lines 348-349 and 358-360), for a model that is not training (so that `cancelTraining(label)` does nothing).
    `cancel` is what the training reads of `cancel_training_`.  Simplifications: those of `GmmModel.train`. -/
def trainLabelSequential (S : GmmSettings K) (D : Dens K) (log sqrt : K → K) (C : Compare K) (cancel : Nat → Bool) (w : World K String) (t : TSet String) (label : String) :
    Prog (GmmModel K) Unit := do
  if label ∉ SMap.keys t.labels then Prog.throw .outOfRange
  else do
    let M ← Prog.get
    if M.otherDimensions t.dims.dim t.dims.di then Prog.throw .runtimeError
    else do
      Prog.modify fun M => { M with training := true, dout := t.dims.dim - (if M.bimodal then t.dims.di else 0) }
      Prog.modify fun M => { M with models := SMap.assign label (classFor S M.bimodal t.dims.dim t.dims.di label M.models) M.models }
      trainLabelHere S D log sqrt C cancel w t label
      Prog.modify fun M => { M with training := false }

end GmmModel

namespace HierHmm
variable {K : Type} [Field K] [LinearOrder K]

/-- The training of the class, xmmModel.hpp:344-349: an exception goes to the caller. -/
def trainLabelHere (D : Dens K) (log sqrt : K → K) (C : Compare K) (P : EmParams) (sdOf : KData K → List K) (cancel : Nat → Bool) (w : World K String) (t : TSet String)
    (label : String) : Prog (HierHmm K) Unit := fun M =>
  match SMap.find? label M.models with
  | none => .ub
  | some c =>
    match trainOne D log sqrt C P sdOf cancel w t label c with
    | .ret _ c' => .ret () { M with models := SMap.assign label c' M.models }
    | .throw e c' => .throw e { M with models := SMap.assign label c' M.models }
    | .ub => .ub

/-- `train(trainingSet, label)`, xmmModel.hpp:312-361, in the mode Sequential (lines 348-349 and 358-360), for a model that is not training (so that `cancelTraining(label)` does nothing).
    `cancel` is what the training reads of `cancel_training_`; `z` are the uninitialised members of a class.  Simplifications: those of `HierHmm.trainSet`. -/
def trainLabelSequential (z : K) (D : Dens K) (log sqrt : K → K) (C : Compare K) (P : EmParams) (sdOf : KData K → List K) (cancel : Nat → Bool) (w : World K String) (t : TSet String)
    (label : String) : Prog (HierHmm K) Unit := do
  if label ∉ SMap.keys t.labels then Prog.throw .outOfRange
  else do
    let M ← Prog.get
    if M.otherDimensions t.dims.dim t.dims.di then Prog.throw .runtimeError
    else do
      Prog.modify fun M => { M with training := true, dim := t.dims.dim, di := if M.bimodal then t.dims.di else M.di }
      addModelForClass z label
      trainLabelHere D log sqrt C P sdOf cancel w t label
      Prog.modify fun M => { M with training := false }

end HierHmm
end Xmm
