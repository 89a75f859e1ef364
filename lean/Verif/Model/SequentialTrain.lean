import Verif.Model.GmmTrain
import Verif.Model.HmmTrain
/-
`train(trainingSet)` in the multithreading mode Sequential: src/core/model/xmmModel.hpp:246-301 with everything it calls.  The classes are trained one after the other in the
thread of the caller (line 292), and `joinTraining()` (lines 487-523) is not called: the model is not reset, and a class whose training failed is not erased.
-/
namespace Xmm
open TS
open Phrase (loop)

namespace GmmModel
variable {K : Type} [Field K] [LinearOrder K]

/-- The training of class number `i`, xmmModel.hpp:280-283 and 292: an exception goes to the caller.  `newClass` has set `is_training_` already (Model/GmmTrain.lean). -/
def trainHere (S : GmmSettings K) (D : Dens K) (log sqrt : K → K) (C : Compare K) (cancel : String → Nat → Bool) (w : World K String) (t : TSet String) (i : Nat) :
    Prog (GmmModel K) Unit := fun M =>
  match M.models[i]? with
  | none => .ub
  | some lc => onClass i (do let _ ← trainOne S D log sqrt C (cancel lc.1) w t lc.1; pure ()) M

/-- `train(trainingSet)`, xmmModel.hpp:246-301, in the mode Sequential (lines 292 and 298-300), for a model that is not training.  `cancel l` is what the training of class `l` reads of
    `cancel_training_`.  Simplifications: those of `GmmModel.train`. -/
def trainSequential (S : GmmSettings K) (D : Dens K) (log sqrt : K → K) (C : Compare K) (cancel : String → Nat → Bool) (w : World K String) (t : TSet String) :
    Prog (GmmModel K) Unit := do
  if t.phrases.isEmpty then pure ()
  else do
    Prog.modify fun M => { M with models := [], nulls := [] }
    reset
    Prog.modify fun M => { M with training := true, dout := t.dims.dim - (if M.bimodal then t.dims.di else 0) }
    Prog.modify fun M => { M with models := addClasses (newClass S M.bimodal t.dims.dim t.dims.di) (SMap.keys t.labels) }
    let M ← Prog.get
    loop M.models.length () fun _ i => trainHere S D log sqrt C cancel w t i
    Prog.modify fun M => { M with training := false }

end GmmModel

namespace HierHmm
variable {K : Type} [Field K] [LinearOrder K]

/-- The training of class number `i`, xmmModel.hpp:280-283 and 292: an exception goes to the caller. -/
def trainHere (D : Dens K) (log sqrt : K → K) (C : Compare K) (P : EmParams) (sdOf : KData K → List K) (cancel : String → Nat → Bool) (w : World K String) (t : TSet String)
    (i : Nat) : Prog (HierHmm K) Unit := fun M =>
  match M.models[i]? with
  | none => .ub
  | some lc => onClass i (do let _ ← trainOne D log sqrt C P sdOf (cancel lc.1) w t lc.1; pure ()) M

/-- `train(trainingSet)`, xmmModel.hpp:246-301, in the mode Sequential (lines 292 and 298-300), for a model that is not training.  `cancel l` is what the training of class `l` reads of
    `cancel_training_`; `z` are the uninitialised members of a class.  Simplifications: those of `HierHmm.trainSet`. -/
def trainSequential (z : K) (D : Dens K) (log sqrt : K → K) (C : Compare K) (P : EmParams) (sdOf : KData K → List K) (cancel : String → Nat → Bool) (w : World K String)
    (t : TSet String) : Prog (HierHmm K) Unit := do
  if t.phrases.isEmpty then pure ()
  else do
    clear
    Prog.modify fun M => { M with training := true, dim := t.dims.dim, di := if M.bimodal then t.dims.di else M.di }
    (SMap.keys t.labels).foldlM (fun _ l => addModelForClass z l) ()
    let M ← Prog.get
    loop M.models.length () fun _ i => trainHere D log sqrt C P sdOf cancel w t i
    Prog.modify fun M => { M with training := false }

end HierHmm
end Xmm
