import Verif.Model.GmmTrain
/-
`train(trainingSet, label)`: src/core/model/xmmModel.hpp:312-361 and 487-523 with everything it calls, on a training set of the program, for a mixture model.  Mode Parallel.
-/
namespace Xmm
open TS

namespace GmmModel
variable {K : Type} [Field K] [LinearOrder K]

/-- The class after `addModelForClass(label)`, xmmModel.hpp:579-596, when its training starts (`is_training_ = true`, line 345): a new one, or the existing one with the parameters of
    the configuration. -/
def classFor (S : GmmSettings K) (bimodal : Bool) (dim di : Nat) (label : String) (models : SMap String (Gmm K)) : Gmm K :=
  match SMap.find? label models with
  | none => newClass S bimodal dim di label
  | some c => { c with gaussians := S.gaussians label, mode := S.mode label, absReg := S.absReg label, relReg := S.relReg label, training := true }

/-- The test of xmmModel.hpp:321-330.  All classes hold a pointer to `shared_parameters`, so that its dimensions are those of the first class. -/
def otherDimensions (M : GmmModel K) (dim di : Nat) : Bool :=
  match M.models with
  | [] => false
  | lc :: _ => decide (lc.2.dim ≠ dim) || (M.bimodal && decide (lc.2.di ≠ di))

/-- The call of `train` of the class in its thread, xmmModel.hpp:345-354, and the join of line 492. -/
def trainThread (S : GmmSettings K) (D : Dens K) (log sqrt : K → K) (C : Compare K) (cancel : Nat → Bool) (w : World K String) (t : TSet String) (label : String) :
    Prog (GmmModel K) (Gmm K × Status) := fun M =>
  match SMap.find? label M.models with
  | none => .ub
  | some c => inThread (trainOne S D log sqrt C cancel w t label) c M

/-- `train(trainingSet, label)`, xmmModel.hpp:312-361 (Parallel), then `joinTraining()`, lines 487-523, for a model that is not training (so that `cancelTraining(label)` does nothing,
    lines 250-261).  `cancel` is what the thread reads of `cancel_training_`.  Simplifications: those of `GmmModel.train`; the other classes are not in the states `Cancel` and `Error`
    (line 503-506 would erase them): after a training in this mode, or after loading, no class is. -/
def trainLabel (S : GmmSettings K) (D : Dens K) (log sqrt : K → K) (C : Compare K) (cancel : Nat → Bool) (w : World K String) (t : TSet String) (label : String) :
    Prog (GmmModel K) Unit := do
  if label ∉ SMap.keys t.labels then Prog.throw .outOfRange
  else do
    let M ← Prog.get
    if M.otherDimensions t.dims.dim t.dims.di then Prog.throw .runtimeError
    else do
      Prog.modify fun M => { M with training := true, dout := t.dims.dim - (if M.bimodal then t.dims.di else 0) }
      Prog.modify fun M => { M with models := SMap.assign label (classFor S M.bimodal t.dims.dim t.dims.di label M.models) M.models }
      let c ← trainThread S D log sqrt C cancel w t label
      Prog.modify fun M => { M with
        models := if c.2 = .cancel ∨ c.2 = .error then SMap.erase label M.models else SMap.assign label c.1 M.models
        training := false }
      reset

end GmmModel
end Xmm
